import Verif.Props.Certain
import Verif.Props.DecompShift
import Verif.Props.DeBias

/-!
# C163: predictions without mistakes

The predictions on the training set are its labels and those on the bag are the true labels of its examples. Then every method answers the prevalences of the bag, whatever they are, with no condition on the number of classes, on their prevalences or on the bag.
-/

namespace Verif.Props

open Verif.Model Verif.Spec Verif.Proof Matrix

/-- The answer that gives, for each class of `y`, the fraction of the true labels `truth` of the bag that are that class. -/
noncomputable def truePrevalences {α : Type*} [LinearOrder α] (y truth : List α) : Except Err (Option (List Fl)) := .ok (some ((labelsOf y).map fun c => Fl.fin (freq truth c)))

theorem truePrevalences_eq {α : Type*} [LinearOrder α] (y truth : List α) : truePrevalences y truth = .ok (some (realList (freqs (labelsOf y) truth))) := by
  unfold truePrevalences realList freqs
  rw [← List.ofFn_getElem_eq_map]
  rfl

theorem condFreq_self {α : Type*} [DecidableEq α] (l : List α) (c d : α) (hc : c ∈ l) : condFreq l l c d = if c = d then 1 else 0 := by
  have hpos : (l.count c : ℝ) ≠ 0 := by exact_mod_cast (List.count_pos_iff.2 hc).ne'
  have hz : ∀ l : List α, l.zip l = l.map fun a => (a, a) := fun l => by
    induction l with
    | nil => rfl
    | cons a l ih => rw [List.zip_cons_cons, ih]; rfl
  unfold condFreq
  rw [hz, List.countP_map]
  split_ifs with h
  · subst h
    have e : List.countP ((fun t : α × α => decide (t.1 = c ∧ t.2 = c)) ∘ fun a => (a, a)) l = l.count c := List.countP_congr fun a _ => by simp
    rw [e, div_self hpos]
  · have e : List.countP ((fun t : α × α => decide (t.1 = c ∧ t.2 = d)) ∘ fun a => (a, a)) l = 0 := List.countP_eq_zero.2 fun a _ => by
      simp only [Function.comp, decide_eq_true_eq]
      rintro ⟨h1, h2⟩
      exact h (h1.symm.trans h2)
    rw [e]
    simp

/-- Solvers that are never called here. -/
def noSolvers : Solvers := ⟨fun _ _ _ => .nan, fun _ _ _ => .nan, fun _ _ _ => .nan⟩

section
variable {σ D α : Type} [LinearOrder α] (enc : Bool → α) (w : World σ D α) (et et' : Option ℕ) (X Xt : List D) (y : List α) (hy : y ≠ []) (r : ℕ) (hr : 0 < r)

theorem perfect_matrix (hr : 0 < r) : cmReal y r (stacked y r) = (1 : Matrix (Fin (labelsOf y).length) (Fin (labelsOf y).length) ℝ) := by
  funext i j
  have e : cmReal y r (stacked y r) i j = condFreq (stacked y r) (stacked y r) (labelsOf y)[i] (labelsOf y)[j] := rfl
  rw [e]
  refine (condFreq_self _ _ _ ((stacked_mem_iff y r hr _).2 ((mem_labelsOf y _).1 (List.getElem_mem _)))).trans ?_
  rw [Matrix.one_apply]
  by_cases h : i = j
  · rw [if_pos h]
    exact if_pos (by subst h; rfl)
  · rw [if_neg h]
    exact if_neg fun h' => h (getElem_inj_of_nodup (labelsOf_nodup y) h')

theorem perfect_nonDegenerate (hr : 0 < r) : NonDegenerate (cmReal y r (stacked y r)) := by
  rw [perfect_matrix y r hr]
  by_cases h : (labelsOf y).length = 2
  · refine .inr ⟨h, ?_⟩
    rw [Matrix.one_apply, Matrix.one_apply, if_pos rfl, if_neg (by simp)]
    norm_num
  · exact .inl ⟨h, by simp⟩

theorem perfect_expected (hr : 0 < r) (x : Fin (labelsOf y).length → ℝ) : expectedPreds (cmReal y r (stacked y r)) x = x := by
  funext j
  rw [perfect_matrix y r hr]
  show ∑ i, x i * (1 : Matrix (Fin (labelsOf y).length) (Fin (labelsOf y).length) ℝ) i j = x j
  simp [Matrix.one_apply]

theorem perfect_exact (hr : 0 < r) (Q : List α) (hQ : Q ≠ []) (hQy : ∀ a ∈ Q, a ∈ y) : AcExact y r (stacked y r) Q :=
  ⟨perfect_nonDegenerate y r hr, .inr ⟨freqs (labelsOf y) Q, freqs_isPrev _ (labelsOf_nodup _) _ hQ fun a ha => (mem_labelsOf _ a).2 (hQy a ha), perfect_expected y r hr _⟩⟩

omit [LinearOrder α] in
theorem perfect_mem (hr : 0 < r) (a : α) (ha : a ∈ stacked y r) : a ∈ y := (stacked_mem_iff y r hr a).1 ha

/-- Examples seen in the same way whenever they are of the same class: any bag of them differs from the training set in the prevalences only. -/
theorem perfect_shift {α β : Type*} [DecidableEq α] (y Q : List α) (g : α → β) (hQ : Q ≠ []) (hQy : ∀ a ∈ Q, a ∈ y) : PriorShift (y.zip (y.map g)) (Q.map fun a => (a, g a)) := by
  have hz : ∀ l : List α, l.zip (l.map g) = l.map fun a => (a, g a) := fun l => by
    induction l with
    | nil => rfl
    | cons a l ih => rw [List.map_cons, List.zip_cons_cons, ih]; rfl
  have hof : ∀ (l : List α) (c : α), ofClass (l.map fun a => (a, g a)) c = List.replicate (l.count c) (g c) := fun l c => by
    unfold ofClass
    induction l with
    | nil => simp
    | cons a l ih =>
      by_cases h : a = c
      · subst h
        simp [ih, List.replicate_succ]
      · simp [ih, h]
  classical
  have hfreq : ∀ (n : ℕ) (b a : β), 0 < n → freq (List.replicate n b) a = freq (List.replicate 1 b) a := fun n b a hn => by
    have hn' : (n : ℝ) ≠ 0 := by exact_mod_cast hn.ne'
    unfold freq
    rw [List.count_replicate, List.count_replicate, List.length_replicate, List.length_replicate]
    split_ifs
    · simp [hn']
    · simp
  refine ⟨by simpa using hQ, fun c hc => ?_⟩
  have hcQ : c ∈ Q := by simpa using hc
  rw [hz, hof, hof]
  have h1 : 0 < Q.count c := List.count_pos_iff.2 hcQ
  have h2 : 0 < y.count c := List.count_pos_iff.2 (hQy c hcQ)
  refine ⟨by simp [h1.ne'], by simp [h2.ne'], fun a => ?_⟩
  rw [hfreq _ _ _ h1, hfreq _ _ _ h2]

theorem perfect_right {β : Type*} (y Q : List α) (g : α → β) : rightAnswer y (Q.map fun a => (a, g a)) = truePrevalences y Q := by
  unfold rightAnswer truePrevalences
  rw [List.map_map, show (Prod.fst ∘ fun a => (a, g a)) = (id : α → α) from rfl, List.map_id]

include hy
variable {k : ℕ} (ops : EstOps σ D α k) (Q : List α) (hQ : Q ≠ []) (hQy : ∀ a ∈ Q, a ∈ y)
include hQ

/-- **C163** for CC. -/
theorem C163_cc (P : List α) (hP : P.length = r * y.length) : ucRun ops enc w ⟨ccClass, et, et'⟩ X y (some (.crisp P)) Xt (some (.crisp Q)) = truePrevalences y Q := by
  rw [ucRun_given_crisp ops enc w X Xt y ccClass rfl rfl et et' hy r P _ hP, truePrevalences_eq]
  change Except.ok (some (vecList (classFreqs (labelsOf y) Q))) = _
  rw [classFreqs_fin _ _ hQ]
  rfl

include hr hQy

/-- **C163** for AC. -/
theorem C163_ac (sol : Solvers) (dist : Dist) : ucRun ops enc w ⟨acClass sol dist, et, et'⟩ X y (some (.crisp (stacked y r))) Xt (some (.crisp Q)) = truePrevalences y Q := by
  have h := C128_ac enc w et et' X Xt y hy r hr ops sol dist (stacked y r) (stacked_length y r) (perfect_mem y r hr) (perfect_nonDegenerate y r hr) (Q.map fun a => (a, a)) (by
    have := perfect_shift (stacked y r) Q id hQ fun a ha => (stacked_mem_iff y r hr a).2 (hQy a ha)
    rwa [List.map_id] at this)
  rw [List.map_map, show (Prod.snd ∘ fun a : α => (a, a)) = id from rfl, List.map_id] at h
  exact h.trans (perfect_right y Q id)

/-- **C163** for ACOrdinal. -/
theorem C163_aco (sv : CvxSolver) (hsv : ExactCvx sv) : ucRun ops enc w ⟨acoClass sv, et, et'⟩ X y (some (.crisp (stacked y r))) Xt (some (.crisp Q)) = truePrevalences y Q := by
  have h := C128_aco enc w et et' X Xt y hy r hr ops sv hsv (stacked y r) (stacked_length y r) (perfect_mem y r hr) ?_ (Q.map fun a => (a, a)) (by
    have := perfect_shift (stacked y r) Q id hQ fun a ha => (stacked_mem_iff y r hr a).2 (hQy a ha)
    rwa [List.map_id] at this)
  · rw [List.map_map, show (Prod.snd ∘ fun a : α => (a, a)) = id from rfl, List.map_id] at h
    exact h.trans (perfect_right y Q id)
  · have e : (fun i j : Fin (labelsOf y).length => ∑ l, if l ≤ i then condFreq (stacked y r) (stacked y r) (labelsOf y)[j] (labelsOf y)[l] else 0) = fun i j => if j ≤ i then 1 else 0 := by
      funext i j
      have e' : ∀ l : Fin (labelsOf y).length, condFreq (stacked y r) (stacked y r) (labelsOf y)[j] (labelsOf y)[l] = if j = l then 1 else 0 := fun l => by
        have := congrFun (congrFun (perfect_matrix y r hr) j) l
        rw [Matrix.one_apply] at this
        exact this
      simp only [e']
      rw [Finset.sum_eq_single j]
      · simp
      · intro l _ hl
        rw [if_neg (Ne.symm hl), ite_self]
      · simp
    rw [e]
    intro p p' hp hp' hpp
    have hc : ∀ i : Fin (labelsOf y).length, ∑ j with j ≤ i, p j = ∑ j with j ≤ i, p' j := fun i => by
      have := hpp i
      simpa [Finset.sum_filter] using this
    have hlt : ∀ i : Fin (labelsOf y).length, ∑ j with j < i, p j = ∑ j with j < i, p' j := fun i => by
      by_cases h0 : (i : ℕ) = 0
      · have : (Finset.univ.filter fun j : Fin (labelsOf y).length => j < i) = ∅ := by
          ext j
          simp [Fin.lt_def, h0]
        rw [this]; simp
      · have h1 : (i : ℕ) - 1 < (labelsOf y).length := by omega
        have : (Finset.univ.filter fun j : Fin (labelsOf y).length => j < i) = Finset.univ.filter fun j => j ≤ ⟨(i : ℕ) - 1, h1⟩ := by
          ext j
          simp only [Finset.mem_filter, Finset.mem_univ, true_and, Fin.lt_def, Fin.le_def]
          omega
        rw [this, hc]
    funext i
    have hs : (Finset.univ.filter fun j : Fin (labelsOf y).length => j ≤ i) = insert i (Finset.univ.filter fun j => j < i) := by
      ext j
      simp [le_iff_eq_or_lt]
    have h2 := hc i
    rw [hs, Finset.sum_insert (by simp), Finset.sum_insert (by simp), hlt i] at h2
    linarith

omit hr hQy in
/-- **C163** for PCC, with posteriors that are certain of the class. -/
theorem C163_pcc (ops : EstOps σ D α (labelsOf y).length) : ucRun ops enc w ⟨pccClass, et, et'⟩ X y (some (.probs ((stacked y r).map (oneHot (labelsOf y))))) Xt (some (.probs (Q.map (oneHot (labelsOf y))))) = truePrevalences y Q := by
  rw [C162_pcc enc w et et' X Xt y hy r ops _ _ (stacked_length y r), C163_cc enc w et et' X Xt y hy r ops Q hQ _ (stacked_length y r)]

/-- **C163** for PAC. -/
theorem C163_pac (ops : EstOps σ D α (labelsOf y).length) (sol : Solvers) (dist : Dist) :
    ucRun ops enc w ⟨pacClass sol dist, et, et'⟩ X y (some (.probs ((stacked y r).map (oneHot (labelsOf y))))) Xt (some (.probs (Q.map (oneHot (labelsOf y))))) = truePrevalences y Q := by
  rw [C162_pac enc w et et' X Xt y hy r hr ops sol dist _ _ (stacked_length y r) (perfect_mem y r hr) hQ, C163_ac enc w et et' X Xt y hy r hr ops Q hQ hQy sol dist]

omit hr in
/-- **C163** for EM. -/
theorem C163_em (ops : EstOps σ D α (labelsOf y).length) (eps : ℝ) (maxIter : ℕ) (hm : 0 < maxIter) :
    ucRun ops enc w ⟨emClass eps maxIter, et, et'⟩ X y (some (.probs ((stacked y r).map (oneHot (labelsOf y))))) Xt (some (.probs (Q.map (oneHot (labelsOf y))))) = truePrevalences y Q := by
  rw [C162_em enc w et et' X Xt y hy r ops eps maxIter hm _ _ (stacked_length y r) hQ hQy, C163_cc enc w et et' X Xt y hy r ops Q hQ _ (stacked_length y r)]

/-- **C163** for FriedmanME, any loss with a name. -/
theorem C163_friedman (ops : EstOps σ D α (labelsOf y).length) (sv : CvxSolver) (hsv : ExactCvx sv) (qp : QPSolver) (hqp : ExactQP qp) (la : LinAlg (labelsOf y).length) (hla : ExactLinAlg la) (fuel : ℕ) (tol : ℝ)
    (distance : DfDistance (labelsOf y).length) (hd : dfNamed distance ≠ .other) :
    ucRun ops enc w ⟨friedmanClass sv qp la (fuel + 1) tol distance, et, et'⟩ X y (some (.probs ((stacked y r).map (oneHot (labelsOf y))))) Xt (some (.probs (Q.map (oneHot (labelsOf y))))) = truePrevalences y Q := by
  rw [C162_friedman enc w et et' X Xt y hy r hr ops noSolvers .L2 sv hsv qp hqp la hla fuel tol distance hd _ _ (stacked_length y r) (perfect_mem y r hr) hQ hQy (perfect_exact y r hr Q hQ hQy),
    C163_ac enc w et et' X Xt y hy r hr ops Q hQ hQy noSolvers .L2]

/-- **C163** for DFy with histograms of equal width. -/
theorem C163_dfy (ops : EstOps σ D α (labelsOf y).length) (ppf : ℝ → EReal) (sv : CvxSolver) (hsv : ExactCvx sv) (qp : QPSolver) (hqp : ExactQP qp) (la : LinAlg (labelsOf y).length) (hla : ExactLinAlg la)
    (fuel : ℕ) (tol : ℝ) (cfg : DfCfg) (hf : cfg.f = .pdf) (hst : cfg.strategy = .equalWidth) (hnb : 2 ≤ cfg.nBins) (distance : DfDistance (nDescriptors (labelsOf y).length * cfg.nBins)) (hd : dfNamed distance ≠ .other) :
    ucRun ops enc w ⟨dfyClass ppf sv qp la (fuel + 1) tol cfg distance, et, et'⟩ X y (some (.probs ((stacked y r).map (oneHot (labelsOf y))))) Xt (some (.probs (Q.map (oneHot (labelsOf y))))) = truePrevalences y Q := by
  rw [C162_dfy enc w et et' X Xt y hy r hr ops noSolvers .L2 ppf sv hsv qp hqp la hla fuel tol cfg hf hst hnb distance hd _ _ (stacked_length y r) (perfect_mem y r hr) hQ hQy (perfect_exact y r hr Q hQ hQy),
    C163_ac enc w et et' X Xt y hy r hr ops Q hQ hQy noSolvers .L2]

/-- **C163** for EDy with its default distance. -/
theorem C163_edy {n : ℕ} (hk : (labelsOf y).length = n + 1) (hn : 0 < n) (ops : EstOps σ D α (n + 1)) (qp : QPSolver) (hqp : ExactQP qp) (la : LinAlg n) (fuel : ℕ) :
    ucRun ops enc w ⟨edyClass qp la fuel manhattan, et, et'⟩ X y (some (.probs ((stacked y r).map (certainRow y hk)))) Xt (some (.probs (Q.map (certainRow y hk)))) = truePrevalences y Q := by
  rw [C162_edy_default enc w et et' X Xt y hy r hr hk hn ops noSolvers .L2 qp hqp la fuel _ _ (stacked_length y r) (perfect_mem y r hr) hQ hQy (perfect_exact y r hr Q hQ hQy),
    C163_ac enc w et et' X Xt y hy r hr ops Q hQ hQy noSolvers .L2]

/-- **C163** for CvMy with its default distance. -/
theorem C163_cvmy {n : ℕ} (hk : (labelsOf y).length = n + 1) (hn : 0 < n) (ops : EstOps σ D α (n + 1)) (qp : QPSolver) (hqp : ExactQP qp) (la : LinAlg n) (fuel : ℕ) :
    ucRun ops enc w ⟨cvmyClass qp la fuel manhattan, et, et'⟩ X y (some (.probs ((stacked y r).map (certainRow y hk)))) Xt (some (.probs (Q.map (certainRow y hk)))) = truePrevalences y Q := by
  rw [C162_cvmy enc w et et' X Xt y hy r hr hk hn ops noSolvers .L2 qp hqp la fuel _ _ (stacked_length y r) (perfect_mem y r hr) hQ hQy (perfect_exact y r hr Q hQ hQy),
    C163_ac enc w et et' X Xt y hy r hr ops Q hQ hQy noSolvers .L2]

end

section
variable {σ D α : Type} [LinearOrder α]

theorem zip_map_self {α β : Type*} (g : α → β) (l : List α) : l.zip (l.map g) = l.map fun a => (a, g a) := by
  induction l with
  | nil => rfl
  | cons a l ih => rw [List.map_cons, List.zip_cons_cons, ih]; rfl

theorem ofClass_map_self {α β : Type*} [DecidableEq α] (g : α → β) (l : List α) (c : α) : ofClass (l.map fun a => (a, g a)) c = List.replicate (l.count c) (g c) := by
  unfold ofClass
  induction l with
  | nil => simp
  | cons a l ih =>
    by_cases h : a = c
    · subst h
      simp [ih, List.replicate_succ]
    · simp [ih, h]

theorem meanOf_replicate {β : Type*} (n : ℕ) (hn : 0 < n) (b : β) (f : β → ℝ) : meanOf (List.replicate n b) f = f b := by
  have : (n : ℝ) ≠ 0 := by exact_mod_cast hn.ne'
  unfold meanOf
  rw [List.map_replicate, List.sum_replicate, List.length_replicate, nsmul_eq_mul]
  field_simp

theorem meanOf_ofClass_self {α β : Type*} [DecidableEq α] (g : α → β) (l : List α) (c : α) (hc : c ∈ l) (f : β → ℝ) : meanOf (ofClass (l.zip (l.map g)) c) f = f (g c) := by
  rw [zip_map_self, ofClass_map_self, meanOf_replicate _ (List.count_pos_iff.2 hc)]

theorem perfect_bagPrevs {β : Type*} (y Q : List α) (g : α → β) : bagPrevs y (Q.map fun a => (a, g a)) = freqs (labelsOf y) Q := by
  unfold bagPrevs freqs
  rw [List.map_map, show (Prod.fst ∘ fun a => (a, g a)) = (id : α → α) from rfl, List.map_id]

/-- **C163** for one-vs-rest over PAC: each copy is certain of whether an example is of its class. -/
theorem C163_ovr {τ D : Type} (ops : EstOps τ D ℤ 2) (enc : Bool → ℤ) (w : World τ D ℤ) (sol : Solvers) (dist : Dist) (estTrain estTest : Option (List ℕ)) (X X' : List D) (y : List α) (h3 : 3 ≤ (labelsOf y).length)
    (he1 : Enough (labelsOf y).length estTrain) (he2 : Enough (labelsOf y).length estTest) (Q : List α) (hQ : Q ≠ []) (hQy : ∀ a ∈ Q, a ∈ y) :
    ∃ f, ovrFit (ucBase ops enc w (pacClass sol dist)) estTrain estTest X y (some (columnsOf (y.map (oneHot (labelsOf y))))) = .ok f
      ∧ ovrPredict (ucBase ops enc w (pacClass sol dist)) f X' (some (columnsOf (Q.map (oneHot (labelsOf y))))) = .ok ((labelsOf y).map fun c => Fl.fin (freq Q c)) := by
  have hin : ∀ i : Fin (labelsOf y).length, (labelsOf y)[i] ∈ y := fun i => (mem_labelsOf y _).1 (List.getElem_mem _)
  obtain ⟨f, h1, h2⟩ := C160_ovr_partial ops enc w sol dist estTrain estTest X X' y h3 he1 he2 (y.map (oneHot (labelsOf y))) (by simp) (Q.map fun a => (a, oneHot (labelsOf y) a)) (perfect_shift y Q _ hQ hQy) (fun _ => 1) (fun _ => 0)
    (fun i => by
      rw [meanOf_ofClass_self _ _ _ (hin i)]
      exact if_pos rfl)
    (fun i j hji => by
      rw [meanOf_ofClass_self _ _ _ (hin j)]
      exact if_neg fun h => hji (getElem_inj_of_nodup (labelsOf_nodup y) h.symm))
    (fun _ => by norm_num)
  refine ⟨f, h1, ?_⟩
  rw [List.map_map] at h2
  refine h2.trans ?_
  rw [perfect_bagPrevs, ← List.ofFn_getElem_eq_map]
  rfl

/-- **C163** for Frank and Hall over PAC: each copy is certain of whether the class of an example is up to its own. -/
theorem C163_fh {τ D : Type} (ops : EstOps τ D ℤ 2) (enc : Bool → ℤ) (w : World τ D ℤ) (sol : Solvers) (dist : Dist) (estTrain estTest : Option (List ℕ)) (X X' : List D) (y : List α) (h3 : 3 ≤ (labelsOf y).length)
    (he1 : Enough ((labelsOf y).length - 1) estTrain) (he2 : Enough ((labelsOf y).length - 1) estTest) (Q : List α) (hQ : Q ≠ []) (hQy : ∀ a ∈ Q, a ∈ y)
    (g : α → Fin ((labelsOf y).length - 1) → ℝ) (hg : ∀ a i, g a i = if a ∈ (labelsOf y).take (i + 1) then 1 else 0) :
    ∃ f, fhqFit (ucBase ops enc w (pacClass sol dist)) estTrain estTest X y (some (columnsOf (y.map g))) = .ok f
      ∧ fhqPredict (ucBase ops enc w (pacClass sol dist)) f X' (some (columnsOf (Q.map g))) = .ok ((labelsOf y).map fun c => Fl.fin (freq Q c)) := by
  have hin : ∀ i : Fin (labelsOf y).length, (labelsOf y)[i] ∈ y := fun i => (mem_labelsOf y _).1 (List.getElem_mem _)
  have hside : ∀ (i : ℕ) (j : Fin (labelsOf y).length), (labelsOf y)[j] ∈ (labelsOf y).take (i + 1) ↔ (j : ℕ) ≤ i := fun i j => by
    exact (mem_take_iff (labelsOf_nodup' y) (List.getElem?_eq_getElem j.2)).trans Nat.lt_succ_iff
  obtain ⟨f, h1, h2⟩ := C160_fh_partial ops enc w sol dist estTrain estTest X X' y h3 he1 he2 (y.map g) (by simp) (Q.map fun a => (a, g a)) (perfect_shift y Q _ hQ hQy) (fun _ => 1) (fun _ => 0)
    (fun i j hji => by
      rw [meanOf_ofClass_self _ _ _ (hin j), hg]
      exact if_pos ((hside i j).2 hji))
    (fun i j hij => by
      rw [meanOf_ofClass_self _ _ _ (hin j), hg]
      exact if_neg fun h => absurd ((hside i j).1 h) (by omega))
    (fun _ => by norm_num)
  refine ⟨f, h1, ?_⟩
  rw [List.map_map] at h2
  refine h2.trans ?_
  rw [perfect_bagPrevs, ← List.ofFn_getElem_eq_map]
  rfl

/-- **C163** for SORDy, up to its tolerance. -/
theorem C163_sordy {σ D : Type} (enc : Bool → ℤ) (w : World σ D ℤ) (et et' : Option ℕ) (X Xt : List D) (ops : EstOps σ D ℤ 2) (sort : List (ℝ × ℤ) → List (ℝ × ℤ)) (hsort : IsSort sort) (tol : ℝ) (htol : 0 < tol)
    (y : List ℤ) (c0 c1 : ℤ) (hc : labelsOf y = [c0, c1]) (Q : List ℤ) (hQ : Q ≠ []) (hQy : ∀ a ∈ Q, a ∈ y) (g : ℤ → Fin 2 → ℝ) (h0 : g c0 = ![1, 0]) (h1 : g c1 = ![0, 1]) :
    ∃ v : Fin 2 → ℝ, ucRun ops enc w ⟨sordyClass 0 sort tol, et, et'⟩ X y (some (.probs (y.map g))) Xt (some (.probs (Q.map g))) = .ok (some (realList v)) ∧ |v 1 - freq Q c1| ≤ tol / 2 := by
  have hm0 : c0 ∈ y := (mem_labelsOf y c0).1 (by rw [hc]; simp)
  have hm1 : c1 ∈ y := (mem_labelsOf y c1).1 (by rw [hc]; simp)
  obtain ⟨v, e1, e2⟩ := C128_sordy enc w et et' X Xt ops sort hsort tol htol y c0 c1 hc (y.map g) (by simp) ⟨0, by
    rw [zip_map_self, ofClass_map_self, ofClass_map_self, List.map_replicate, List.map_replicate, h0, h1]
    have p0 : (y.count c0 : ℝ) ≠ 0 := by exact_mod_cast (List.count_pos_iff.2 hm0).ne'
    unfold ecdf
    rw [List.countP_replicate, List.countP_replicate, List.length_replicate, List.length_replicate]
    norm_num [p0]⟩ (Q.map fun a => (a, g a)) (perfect_shift y Q g hQ hQy)
  refine ⟨v, ?_, ?_⟩
  · rw [List.map_map] at e1
    exact e1
  · rw [List.map_map, show (Prod.fst ∘ fun a => (a, g a)) = (id : ℤ → ℤ) from rfl, List.map_id] at e2
    exact e2

theorem meanOf_oneHot_cast (y : List α) (h2 : (labelsOf y).length = 2) (Q : List α) : meanOf (Q.map (certainRow y h2)) (fun row => row 1) = freq Q (posLabel y h2) := by
  have h := meanOf_oneHot (labelsOf y) Q ⟨1, by omega⟩
  unfold meanOf at h ⊢
  rw [List.map_map, List.length_map] at h ⊢
  exact h

/-- **C163** for DeBias. -/
theorem C163_debias (enc : Bool → α) (w : World σ D α) (et et' : Option ℕ) (X Xt : List D) (y : List α) (h2 : (labelsOf y).length = 2) (ops : EstOps σ D α 2) (Q : List α) (hQ : Q ≠ []) (hQy : ∀ a ∈ Q, a ∈ y) :
    ucRun ops enc w ⟨deBiasClass, et, et'⟩ X y (some (.probs (y.map (certainRow y h2)))) Xt (some (.probs (Q.map (certainRow y h2)))) = truePrevalences y Q := by
  have hy : y ≠ [] := by
    rintro rfl
    rw [show labelsOf ([] : List α) = [] from labelsOf_eq _ _ (by simp) (by simp)] at h2
    cases h2
  have hmp : posLabel y h2 ∈ y := (mem_labelsOf y _).1 (List.getElem_mem _)
  have hmn : negLabel y h2 ∈ y := (mem_labelsOf y _).1 (List.getElem_mem _)
  have hne : negLabel y h2 ≠ posLabel y h2 := fun h => by
    have := (labelsOf_nodup y).getElem_inj_iff.1 h
    omega
  have hcr : ∀ a, certainRow y h2 a 1 = if posLabel y h2 = a then 1 else 0 := fun a => rfl
  have hcov : ∀ a ∈ y, a = negLabel y h2 ∨ a = posLabel y h2 := fun a ha => by
    obtain ⟨i, hi, e⟩ := List.getElem_of_mem ((mem_labelsOf y a).2 ha)
    have : i = 0 ∨ i = 1 := by omega
    rcases this with rfl | rfl
    · exact .inl e.symm
    · exact .inr e.symm
  obtain ⟨hb, hb0, hb1⟩ := binary_freqs y h2
  have hQp : IsPrev (freqs (labelsOf y) Q) := freqs_isPrev _ (labelsOf_nodup _) _ hQ fun a ha => (mem_labelsOf _ a).2 (hQy a ha)
  have hsum : freq Q (negLabel y h2) = 1 - freq Q (posLabel y h2) := by
    have h := hQp.2
    rw [← (finCongr h2.symm).sum_comp, Fin.sum_univ_two] at h
    have h' : freq Q (negLabel y h2) + freq Q (posLabel y h2) = 1 := h
    linarith
  have hcal : Calibrated y (posLabel y h2) (y.map (certainRow y h2)) := by
    intro v
    rw [zip_map_self, List.countP_map, List.countP_map]
    by_cases h1 : v = 1
    · subst h1
      rw [one_mul]
      congr 1
      refine List.countP_congr fun a _ => ?_
      simp only [Function.comp, hcr, decide_eq_true_eq]
      constructor
      · exact fun h => h.1
      · intro h
        refine ⟨h, ?_⟩
        by_contra hne'
        rw [if_neg (Ne.symm hne')] at h
        norm_num at h
    · have e0 : List.countP ((fun t : α × (Fin 2 → ℝ) => decide (t.2 1 = v ∧ t.1 = posLabel y h2)) ∘ fun a => (a, certainRow y h2 a)) y = 0 := List.countP_eq_zero.2 fun a _ => by
        simp only [Function.comp, hcr, decide_eq_true_eq]
        rintro ⟨h, rfl⟩
        rw [if_pos rfl] at h
        exact h1 h.symm
      rw [e0]
      by_cases h0 : v = 0
      · rw [h0]; simp
      · have e1 : List.countP ((fun t : α × (Fin 2 → ℝ) => decide (t.2 1 = v)) ∘ fun a => (a, certainRow y h2 a)) y = 0 := List.countP_eq_zero.2 fun a _ => by
          simp only [Function.comp, hcr, decide_eq_true_eq]
          split_ifs
          · exact fun h => h1 h.symm
          · exact fun h => h0 h.symm
        rw [e1]; simp
  have hcm : ∀ c ∈ y, condMean y (y.map (certainRow y h2)) (fun row => row 1) c = if posLabel y h2 = c then 1 else 0 := fun c hc => by
    rw [← hcr, ← meanOf_ofClass_self (certainRow y h2) y c hc fun row => row 1]
    unfold condMean meanOf
    rw [zip_map_self, ofClass_map_self, List.length_replicate, ← ofClass_map_self (certainRow y h2)]
    unfold ofClass
    rw [List.map_map]
    rfl
  have hmean : meanOf (Q.map (certainRow y h2)) (fun row => row 1) = freq Q (posLabel y h2) := meanOf_oneHot_cast y h2 Q
  obtain ⟨f, e1, e2⟩ := C87_debias_exact y h2 (y.map (certainRow y h2)) (Q.map (certainRow y h2)) (by simp) ⟨_, List.mem_map_of_mem hmp, by rw [hcr, if_pos rfl]; exact hb1.ne'⟩ (by simpa using hQ) hcal (freq Q (posLabel y h2))
    (hQp.1 ⟨1, by omega⟩) (by have := hQp.1 ⟨0, by omega⟩; have h' : 0 ≤ freq Q (negLabel y h2) := this; linarith)
    (by rw [hmean, hcm _ hmp, hcm _ hmn, if_pos rfl, if_neg hne.symm]; ring)
  rw [ucRun_given_probs ops enc w X Xt y deBiasClass rfl (if_neg (by rw [npUnique_eq_labelsOf, h2]; simp)) et et' hy 1 _ _ (by simp)]
  have e : answerOn deBiasClass y 1 (.probs (y.map (certainRow y h2))) (.probs (Q.map (certainRow y h2))) = .ok (some (vecList (deBiasPredict f (Q.map (certainRow y h2))))) := by
    simp only [answerOn, learnAnswer, fittedState, deBiasClass, trainData, probRows, if_true, bind, Except.bind, e1, keep, Except.map]
  rw [e, e2, truePrevalences_eq]
  congr 2
  have hv : ∀ (m : ℕ) (h : m = 2) (v : Fin m → ℝ), v (Fin.cast h.symm 0) = 1 - freq Q (posLabel y h2) → v (Fin.cast h.symm 1) = freq Q (posLabel y h2) → vecList ![Fl.fin (1 - freq Q (posLabel y h2)), Fl.fin (freq Q (posLabel y h2))] = realList v := by
    rintro m rfl v h0 h1
    have h0' : v 0 = _ := h0
    have h1' : v 1 = _ := h1
    simp [vecList, realList, h0', h1']
  exact hv _ h2 _ hsum rfl

theorem expectedPosition_oneHot (cs : List α) (hnd : cs.Nodup) (c : Fin cs.length) : expectedPosition (oneHot cs cs[c]) = (c : ℕ) + 1 := by
  have e : oneHot cs cs[c] = fun j => if j = c then 1 else 0 := oneHot_getElem cs hnd c
  unfold expectedPosition
  rw [e]
  simp

/-- Where a certain example falls: bin `b` of the histogram of positions. -/
theorem certain_bin (nBins n : ℕ) (hb : 0 < nBins) (hn : 1 < n) (k : ℕ) (hk : 0 < k) (c : ℕ) (hc : c < n) (b : Fin (nBins * (n - 1))) :
    evenBinShare 1 n (nBins * (n - 1)) (List.replicate k ((c : ℝ) + 1)) b = if (b : ℕ) ≤ nBins * c ∧ (nBins * c < b + 1 ∨ (b : ℕ) + 1 = nBins * (n - 1)) then 1 else 0 := by
  have hk' : (k : ℝ) ≠ 0 := by exact_mod_cast hk.ne'
  have hnb : (0 : ℝ) < nBins := by exact_mod_cast hb
  have hw : ((n : ℝ) - 1) / ((nBins * (n - 1) : ℕ) : ℝ) = 1 / nBins := by
    have h1 : ((n - 1 : ℕ) : ℝ) = n - 1 := by rw [Nat.cast_sub hn.le]; simp
    have h2 : (0 : ℝ) < n - 1 := by
      have : (1 : ℝ) < n := by exact_mod_cast hn
      linarith
    rw [Nat.cast_mul, h1]
    field_simp
  have hcn : (c : ℝ) + 1 ≤ n := by exact_mod_cast hc
  have h1 : (1 + ((b : ℕ) : ℝ) * (1 / nBins) ≤ (c : ℝ) + 1) ↔ (b : ℕ) ≤ nBins * c := by
    rw [add_comm (c : ℝ), add_le_add_iff_left, mul_one_div, div_le_iff₀ hnb, mul_comm (c : ℝ)]
    exact_mod_cast Iff.rfl
  have h2 : ((c : ℝ) + 1 < 1 + (((b : ℕ) : ℝ) + 1) * (1 / nBins)) ↔ nBins * c < b + 1 := by
    rw [add_comm (c : ℝ), add_lt_add_iff_left, mul_one_div, lt_div_iff₀ hnb, mul_comm (c : ℝ)]
    exact_mod_cast Iff.rfl
  unfold evenBinShare
  rw [hw, List.countP_replicate, List.length_replicate]
  simp only [h1, h2, hcn, and_true, decide_eq_true_eq]
  split_ifs
  · exact div_self hk'
  · simp

/-- **C163** for PDFOrdinaly with 'full_probabilistic', three classes or more, any of its losses, and at least two bins for each class. -/
theorem C163_pdfo (enc : Bool → α) (w : World σ D α) (et et' : Option ℕ) (X Xt : List D) (y : List α) (hy : y ≠ []) (r : ℕ) (hr : 0 < r) (ops : EstOps σ D α (labelsOf y).length) (h3 : 2 < (labelsOf y).length)
    (sv : CvxSolver) (hsv : ExactCvx sv) (qp : QPSolver) (hqp : ExactQP qp) (la : LinAlg (labelsOf y).length) (hla : ExactLinAlg la) (fuel nBins : ℕ) (hb : 2 ≤ nBins) (dist : OrdDist) (hd : dist ≠ .other)
    (Q : List α) (hQ : Q ≠ []) (hQy : ∀ a ∈ Q, a ∈ y) :
    ucRun ops enc w ⟨pdfoClass sv qp la (fuel + 1) nBins .fullProbabilistic dist, et, et'⟩ X y (some (.probs ((stacked y r).map (oneHot (labelsOf y))))) Xt (some (.probs (Q.map (oneHot (labelsOf y))))) = truePrevalences y Q := by
  have hb0 : 0 < nBins := by omega
  have hrows : ∀ l : List α, (∀ a ∈ l, a ∈ y) → ∀ row ∈ l.map (oneHot (labelsOf y)), IsPrev row := fun l hl row hrow => by
    obtain ⟨a, ha, rfl⟩ := List.mem_map.1 hrow
    exact oneHot_isPrev _ (labelsOf_nodup y) a ((mem_labelsOf y a).2 (hl a ha))
  have hsnd : (Q.map fun a => (a, oneHot (labelsOf y) a)).map Prod.snd = Q.map (oneHot (labelsOf y)) := by rw [List.map_map]; rfl
  have hin : ∀ i : Fin (labelsOf y).length, (labelsOf y)[i] ∈ stacked y r := fun i => (stacked_mem_iff y r hr _).2 ((mem_labelsOf y _).1 (List.getElem_mem _))
  have hT : ∀ (b : Fin (nBins * ((labelsOf y).length - 1))) (c : Fin (labelsOf y).length), positionPdf (nBins * ((labelsOf y).length - 1)) (ofClass ((stacked y r).zip ((stacked y r).map (oneHot (labelsOf y)))) (labelsOf y)[c]) b
      = if (b : ℕ) ≤ nBins * c ∧ (nBins * c < b + 1 ∨ (b : ℕ) + 1 = nBins * ((labelsOf y).length - 1)) then 1 else 0 := fun b c => by
    unfold positionPdf
    rw [zip_map_self, ofClass_map_self, List.map_replicate]
    have e : expectedPosition (oneHot (labelsOf y) (labelsOf y)[c]) = ((c : ℕ) : ℝ) + 1 := expectedPosition_oneHot _ (labelsOf_nodup y) c
    erw [e]
    exact certain_bin nBins (labelsOf y).length hb0 (by omega) _ (List.count_pos_iff.2 (hin c)) c c.2 b
  have hle : ∀ c : ℕ, c < (labelsOf y).length - 1 → nBins * c + nBins ≤ nBins * ((labelsOf y).length - 1) := fun c hc => by
    calc nBins * c + nBins = nBins * (c + 1) := by ring
      _ ≤ nBins * ((labelsOf y).length - 1) := Nat.mul_le_mul_left _ hc
  have key : ∀ c' : Fin (labelsOf y).length, ∃ b : Fin (nBins * ((labelsOf y).length - 1)), ∀ c : Fin (labelsOf y).length, ((b : ℕ) ≤ nBins * c ∧ (nBins * c < b + 1 ∨ (b : ℕ) + 1 = nBins * ((labelsOf y).length - 1))) ↔ c = c' := fun c' => by
    have hpos : nBins ≤ nBins * ((labelsOf y).length - 1) := Nat.le_mul_of_pos_right _ (by omega)
    by_cases h : (c' : ℕ) < (labelsOf y).length - 1
    · have h1 := hle c' h
      refine ⟨⟨nBins * c', by omega⟩, fun c => ⟨fun ⟨h2, h4⟩ => ?_, fun e => by subst e; exact ⟨le_refl _, .inl (Nat.lt_succ_self _)⟩⟩⟩
      have h5 : nBins * (c : ℕ) ≤ nBins * (c' : ℕ) := by
        rcases h4 with h4 | h4
        · exact Nat.lt_succ_iff.1 h4
        · have : nBins * (c' : ℕ) + 1 = nBins * ((labelsOf y).length - 1) := h4
          omega
      exact Fin.ext (Nat.eq_of_mul_eq_mul_left hb0 (le_antisymm h5 h2))
    · have hc' : (c' : ℕ) = (labelsOf y).length - 1 := by have := c'.2; omega
      refine ⟨⟨nBins * ((labelsOf y).length - 1) - 1, by omega⟩, fun c => ⟨?_, ?_⟩⟩
      · rintro ⟨h2, -⟩
        by_contra hne
        have hlt : (c : ℕ) < (labelsOf y).length - 1 := by
          have := c.2
          have : (c : ℕ) ≠ c' := fun e => hne (Fin.ext e)
          omega
        have h6 := hle c hlt
        have h2' : nBins * ((labelsOf y).length - 1) - 1 ≤ nBins * (c : ℕ) := h2
        omega
      · rintro rfl
        rw [hc']
        exact ⟨Nat.sub_le _ _, .inr (by show nBins * ((labelsOf y).length - 1) - 1 + 1 = _; omega)⟩
  have hsum : ∀ c' : Fin (labelsOf y).length, ∃ b : Fin (nBins * ((labelsOf y).length - 1)), ∀ x : Fin (labelsOf y).length → ℝ,
      ∑ c, positionPdf (nBins * ((labelsOf y).length - 1)) (ofClass ((stacked y r).zip ((stacked y r).map (oneHot (labelsOf y)))) (labelsOf y)[c]) b * x c = x c' := fun c' => by
    obtain ⟨b, hb'⟩ := key c'
    refine ⟨b, fun x => ?_⟩
    rw [Finset.sum_eq_single c']
    · rw [hT, if_pos ((hb' c').2 rfl), one_mul]
    · intro c _ hc
      rw [hT, if_neg fun h => hc ((hb' c).1 h), zero_mul]
    · simp
  have h := C128_pdfo enc w et et' X Xt y hy r hr ops h3 sv hsv qp hqp la hla fuel nBins hb0 dist hd ((stacked y r).map (oneHot (labelsOf y))) (by rw [List.length_map, stacked_length]) (hrows _ fun a ha => (stacked_mem_iff y r hr a).1 ha)
    (Q.map fun a => (a, oneHot (labelsOf y) a)) (by rw [hsnd]; exact hrows Q hQy) (perfect_shift (stacked y r) Q _ hQ fun a ha => (stacked_mem_iff y r hr a).2 (hQy a ha)) _ rfl (by
      split_ifs
      · intro x hx
        funext c
        obtain ⟨b, hb'⟩ := hsum c
        rw [← hb' x]
        exact hx b
      · intro p p' _ _ hpp
        funext c
        obtain ⟨b, hb'⟩ := hsum c
        rw [← hb' p, ← hb' p']
        exact hpp b)
  rw [hsnd] at h
  exact h.trans (perfect_right y Q _)

/-- **C163**: why two bins. With one bin for each class the last two classes share their bin: a bag of the last class and a bag of the one before get the same answer, for all training sets and predictions on them, so that no more than one of the two is right. -/
theorem C163_pdfo_one_bin (enc : Bool → α) (w : World σ D α) (et et' : Option ℕ) (X Xt : List D) (y : List α) (hy : y ≠ []) (r : ℕ) (ops : EstOps σ D α (labelsOf y).length) (h3 : 2 < (labelsOf y).length)
    (sv : CvxSolver) (qp : QPSolver) (la : LinAlg (labelsOf y).length) (fuel : ℕ) (dist : OrdDist) (P : List (Fin (labelsOf y).length → ℝ)) (hP : P.length = r * y.length) (m : ℕ) (hm : 0 < m)
    (a b : α) (ha : a = (labelsOf y)[(labelsOf y).length - 2]) (hb : b = (labelsOf y)[(labelsOf y).length - 1]) :
    ucRun ops enc w ⟨pdfoClass sv qp la fuel 1 .fullProbabilistic dist, et, et'⟩ X y (some (.probs P)) Xt (some (.probs ((List.replicate m a).map (oneHot (labelsOf y)))))
        = ucRun ops enc w ⟨pdfoClass sv qp la fuel 1 .fullProbabilistic dist, et, et'⟩ X y (some (.probs P)) Xt (some (.probs ((List.replicate m b).map (oneHot (labelsOf y)))))
      ∧ truePrevalences y (List.replicate m a) ≠ truePrevalences y (List.replicate m b) := by
  have hm' : (m : ℝ) ≠ 0 := by exact_mod_cast hm.ne'
  constructor
  · rw [ucRun_given_probs ops enc w X Xt y _ rfl rfl et et' hy r P _ hP, ucRun_given_probs ops enc w X Xt y _ rfl rfl et et' hy r P _ hP]
    have hh : ∀ (c : Fin (labelsOf y).length), ∃ h, ordHistogram 1 (labelsOf y).length (((List.replicate m (labelsOf y)[c]).map (oneHot (labelsOf y))).map expectedPosition) = .ok h
        ∧ ∀ b, h b / (m : ℝ) = if (b : ℕ) ≤ c ∧ ((c : ℕ) < b + 1 ∨ (b : ℕ) + 1 = (labelsOf y).length - 1) then 1 else 0 := fun c => by
      obtain ⟨h, h1, h2⟩ := ordHistogram_eq 1 (labelsOf y).length one_pos h3.le (((List.replicate m (labelsOf y)[c]).map (oneHot (labelsOf y))).map expectedPosition)
      refine ⟨h, h1, fun b => ?_⟩
      have := h2 b
      rw [List.map_replicate, List.map_replicate, List.length_replicate] at this
      have e : expectedPosition (oneHot (labelsOf y) (labelsOf y)[c]) = ((c : ℕ) : ℝ) + 1 := expectedPosition_oneHot _ (labelsOf_nodup y) c
      erw [this, e, certain_bin 1 (labelsOf y).length one_pos (by omega) m hm c c.2 b]
      simp only [one_mul]
    obtain ⟨u, hu1, hu2⟩ := hh ⟨(labelsOf y).length - 2, by omega⟩
    obtain ⟨v, hv1, hv2⟩ := hh ⟨(labelsOf y).length - 1, by omega⟩
    have huv : (fun b => u b / (m : ℝ)) = fun b => v b / (m : ℝ) := by
      funext b
      rw [hu2, hv2]
      have hb' : (b : ℕ) < (labelsOf y).length - 1 := by
        have := b.2
        unfold effBins at this
        omega
      congr 1
      simp only [eq_iff_iff]
      omega
    have ha' : ordHistogram 1 (labelsOf y).length (((List.replicate m a).map (oneHot (labelsOf y))).map expectedPosition) = .ok u := by rw [ha]; exact hu1
    have hb' : ordHistogram 1 (labelsOf y).length (((List.replicate m b).map (oneHot (labelsOf y))).map expectedPosition) = .ok v := by rw [hb]; exact hv1
    have hia : a ∈ labelsOf y := by rw [ha]; exact List.getElem_mem _
    have hib : b ∈ labelsOf y := by rw [hb]; exact List.getElem_mem _
    have hadm : ∀ c ∈ labelsOf y, Admissible .fullProbabilistic ((List.replicate m c).map (oneHot (labelsOf y))) := fun c hc => ⟨fun row hrow => by
      rw [List.map_replicate] at hrow
      rw [(List.mem_replicate.1 hrow).2]
      exact oneHot_isPrev _ (labelsOf_nodup y) c hc, .inl rfl⟩
    have hsa := ordScores_admissible h3.le _ _ (hadm a hia)
    have hsb := ordScores_admissible h3.le _ _ (hadm b hib)
    have key : ∀ s : WarmState (PdfoFit 1 (labelsOf y).length), (pdfoPredict sv qp .fullProbabilistic dist s ((List.replicate m a).map (oneHot (labelsOf y)))).2
        = (pdfoPredict sv qp .fullProbabilistic dist s ((List.replicate m b).map (oneHot (labelsOf y)))).2 := fun s => by
      have hprep : (pdfoQ qp .fullProbabilistic dist).prep s.fitted ((List.replicate m a).map (oneHot (labelsOf y))) = (pdfoQ qp .fullProbabilistic dist).prep s.fitted ((List.replicate m b).map (oneHot (labelsOf y))) := by
        unfold pdfoQ
        simp only [hsa, hsb, ha', hb', List.length_map, List.length_replicate, huv]
      unfold pdfoPredict
      cases dist with
      | other => simp only [hsa, hsb, ha', hb', Except.map]
      | _ =>
        unfold warmPredict
        simp only [hprep]
    unfold answerOn learnAnswer
    cases (pdfoClass sv qp la fuel 1 .fullProbabilistic dist : UcClass α (labelsOf y).length).learn none y (fittedState (pdfoClass sv qp la fuel 1 .fullProbabilistic dist) y r (.probs P)) with
    | error e => rfl
    | ok s => exact congrArg (Except.map fun v => v.map fun x => realList x.2) (key s)
  · intro h
    have hab : a ≠ b := fun e => by
      rw [ha, hb] at e
      have := (labelsOf_nodup y).getElem_inj_iff.1 e
      omega
    unfold truePrevalences at h
    have h1 := List.map_inj_left.1 (Option.some.inj (Except.ok.inj h)) a (by rw [ha]; exact List.getElem_mem _)
    have h2 : freq (List.replicate m a) a = freq (List.replicate m b) a := Fl.fin.inj h1
    unfold freq at h2
    rw [List.count_replicate_self, List.count_replicate, List.length_replicate, List.length_replicate, div_self hm', if_neg (by simpa using hab.symm)] at h2
    simp at h2

end
/-- A training set of three classes and a bag that misses one of them: the right answer is (1/3, 0, 2/3). -/
example : (labelsOf ([0, 1, 2, 2] : List ℕ)).length = 3 ∧ (∀ a ∈ [2, 2, 0], a ∈ [0, 1, 2, 2]) ∧ truePrevalences ([0, 1, 2, 2] : List ℕ) [2, 2, 0] = .ok (some [Fl.fin (1 / 3), Fl.fin 0, Fl.fin (2 / 3)]) := by
  have hl : labelsOf ([0, 1, 2, 2] : List ℕ) = [0, 1, 2] := labelsOf_eq _ _ (by decide) (by decide)
  refine ⟨by rw [hl]; rfl, by decide, ?_⟩
  unfold truePrevalences
  rw [hl]
  norm_num [freq, List.count_cons]

end Verif.Props
