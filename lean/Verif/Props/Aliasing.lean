import Verif.Model.Aliasing
import Verif.Props.PriorShift
import Verif.Props.Bags

/-!
# C141: writing into an array after a call
-/

namespace Verif.Props

open Verif.Model Verif.Spec Verif.Proof

section
variable {α : Type} {k : ℕ} [LinearOrder α]

/-- The property for a class: after a `fit` that returns, the answers to all bags stay the same when the program writes other values into the arrays that it gave to `fit`. -/
def KeepsCopies (cls : UcClass α k) : Prop :=
  ∀ (σ D : Type) (ops : EstOps σ D α k) (enc : Bool → α) (e e' : Option ℕ) (w w' : World σ D α) (s0 s : UcState ⟨cls, e, e'⟩) (X : List D) (y : List α) (pt : Option (Preds α k)),
    ucFit ops enc w ⟨cls, e, e'⟩ s0 X y pt = (w', s, none) → ∀ (y' : List α) (P' : Preds α k), y'.length = y.length → (∀ P, pt = some P → P'.len = P.len) → ∀ (w'' : World σ D α) (Xt : List D) (ptt : Option (Preds α k)),
      (ucPredict ops enc w'' ⟨cls, e, e'⟩ (overwriteTrain ⟨cls, e, e'⟩ y pt y' P' s) Xt ptt).2 = (ucPredict ops enc w'' ⟨cls, e, e'⟩ s Xt ptt).2

theorem keepsCopies_of (cls : UcClass α k) (h : ∀ m c pt pt' ye ye' p, (cls.answer m ⟨c, pt, ye⟩ p).2 = (cls.answer m ⟨c, pt', ye'⟩ p).2) : KeepsCopies cls := by
  intro σ D ops enc e e' w w' s0 s X y pt _ y' P' _ _ w'' Xt ptt
  simp only [ucPredict, overwriteTrain]
  cases s.own with
  | none => rfl
  | some m =>
    simp only []
    cases usingPredict ops enc w'' (UcObj.cfg ⟨cls, e, e'⟩) (s.base.classes.getD []) Xt ptt with
    | error e => rfl
    | ok p => exact h m _ _ _ _ _ p

/-- **C141** for CC. -/
theorem C141_cc : KeepsCopies (ccClass : UcClass α k) := keepsCopies_of _ fun _ _ _ _ _ _ _ => rfl
/-- **C141** for PCC. -/
theorem C141_pcc : KeepsCopies (pccClass : UcClass α k) := keepsCopies_of _ fun _ _ _ _ _ _ _ => rfl
/-- **C141** for AC. -/
theorem C141_ac (sol : Solvers) (dist : Dist) : KeepsCopies (acClass sol dist : UcClass α k) := keepsCopies_of _ fun _ _ _ _ _ _ _ => rfl
/-- **C141** for PAC. -/
theorem C141_pac (sol : Solvers) (dist : Dist) : KeepsCopies (pacClass sol dist : UcClass α k) := keepsCopies_of _ fun _ _ _ _ _ _ _ => rfl
/-- **C141** for EM. -/
theorem C141_em (eps : ℝ) (maxIter : ℕ) : KeepsCopies (emClass eps maxIter : UcClass α k) := keepsCopies_of _ fun _ _ _ _ _ _ _ => rfl
/-- **C141** for DeBias. -/
theorem C141_debias : KeepsCopies (deBiasClass : UcClass α 2) := keepsCopies_of _ fun _ _ _ _ _ _ _ => rfl
/-- **C141** for SORDy. -/
theorem C141_sordy (sort : List (ℝ × ℤ) → List (ℝ × ℤ)) (tol : ℝ) : KeepsCopies (sordyClass k sort tol) := keepsCopies_of _ fun _ _ _ _ _ _ _ => rfl
/-- **C141** for QUANTy. -/
theorem C141_quanty (sort : List (ℝ × α) → List (ℝ × α)) (n : ℕ) (dist : (Fin n → Fl) → (Fin n → Fl) → Fl) (tol : ℝ) (d : α) : KeepsCopies (quantyClass k sort n dist tol d) := keepsCopies_of _ fun _ _ _ _ _ _ _ => rfl
/-- **C141** for DFy. -/
theorem C141_dfy (ppf : ℝ → EReal) (sv : CvxSolver) (qp : QPSolver) (la : LinAlg k) (fuel : ℕ) (tol : ℝ) (cfg : DfCfg) (distance : DfDistance (nDescriptors k * cfg.nBins)) :
    KeepsCopies (dfyClass ppf sv qp la fuel tol cfg distance : UcClass α k) := keepsCopies_of _ fun _ _ _ _ _ _ _ => rfl
/-- **C141** for FriedmanME. -/
theorem C141_friedman (sv : CvxSolver) (qp : QPSolver) (la : LinAlg k) (fuel : ℕ) (tol : ℝ) (distance : DfDistance k) : KeepsCopies (friedmanClass sv qp la fuel tol distance : UcClass α k) :=
  keepsCopies_of _ fun _ _ _ _ _ _ _ => rfl
/-- **C141** for EDy. -/
theorem C141_edy {n : ℕ} (qp : QPSolver) (la : LinAlg n) (fuel : ℕ) (d : (Fin (n + 1) → ℝ) → (Fin (n + 1) → ℝ) → ℝ) : KeepsCopies (edyClass qp la fuel d : UcClass α (n + 1)) :=
  keepsCopies_of _ fun _ _ _ _ _ _ _ => rfl
/-- **C141** for ACOrdinal. -/
theorem C141_acordinal (sv : CvxSolver) : KeepsCopies (acoClass sv : UcClass α k) := keepsCopies_of _ fun _ _ _ _ _ _ _ => rfl
/-- **C141** for PDFOrdinaly. -/
theorem C141_pdfordinaly (sv : CvxSolver) (qp : QPSolver) (la : LinAlg k) (fuel nBins : ℕ) (method : OrdMethod) (dist : OrdDist) : KeepsCopies (pdfoClass sv qp la fuel nBins method dist : UcClass α k) :=
  keepsCopies_of _ fun _ _ _ _ _ _ _ => rfl

end

/-! ## CvMy keeps the arrays of the caller -/

section
variable {σ D : Type}

theorem two_separated (r0 r1 : Fin 2 → ℝ) (h : r0 0 ≠ r1 0) (train : Fin (1 + 1) → List (Fin 2 → ℝ)) (t0 : train 0 = [r0]) (t1 : train 1 = [r1]) : Separated manhattan train := by
  have ha : 0 < manhattan r0 r1 := by
    simp only [manhattan, Fin.sum_univ_two]
    have := abs_pos.2 (sub_ne_zero.2 h)
    have := abs_nonneg (r0 1 - r1 1)
    linarith
  have h00 : avgDist manhattan (train 0) (train 0) = 0 := by simp [t0, avgDist, manhattan]
  have h11 : avgDist manhattan (train 1) (train 1) = 0 := by simp [t1, avgDist, manhattan]
  have h01 : avgDist manhattan (train 0) (train 1) = manhattan r0 r1 := by rw [t0, t1]; simp [avgDist]
  have h10 : avgDist manhattan (train 1) (train 0) = manhattan r0 r1 := by rw [t0, t1, manhattan_comm]; simp [avgDist]
  intro c hc h0
  have hc' : c 0 + c 1 = 0 := by simpa [Fin.sum_univ_two] using hc
  rw [Fin.sum_univ_two, Fin.sum_univ_two, Fin.sum_univ_two, h00, h11, h01, h10]
  have e1 : c 1 = -c 0 := by linarith
  have e0 : c 0 ≠ 0 := fun h => h0 (by funext i; fin_cases i <;> simp [h, e1])
  have := mul_pos (pow_pos (abs_pos.2 e0) 2) ha
  rw [sq_abs] at this
  rw [e1]
  nlinarith

theorem rankdata_lt {col : List ℝ} {u v : ℝ} (hu : u ∈ col) (h : u < v) : rankdata col u < rankdata col v := by
  classical
  have hsplit : (col.countP fun x => decide (x < u)) + (col.countP fun x => decide (x = u)) ≤ col.countP fun x => decide (x < v) := by
    clear hu
    induction col with
    | nil => simp
    | cons x l ih =>
      simp only [List.countP_cons, decide_eq_true_eq]
      have : (if x < u then 1 else 0) + (if x = u then 1 else 0) ≤ if x < v then 1 else 0 := by
        split_ifs <;> first | linarith | omega | (exfalso; linarith)
      omega
  have hpos : 1 ≤ col.countP fun x => decide (x = u) := List.countP_pos_iff.2 ⟨u, hu, by simp⟩
  have h1 : ((col.countP fun x => decide (x < u) : ℕ) : ℝ) + (col.countP fun x => decide (x = u) : ℕ) ≤ (col.countP fun x => decide (x < v) : ℕ) := by exact_mod_cast hsplit
  have h2 : (1 : ℝ) ≤ (col.countP fun x => decide (x = u) : ℕ) := by exact_mod_cast hpos
  have h3 : (0 : ℝ) ≤ (col.countP fun x => decide (x = v) : ℕ) := by positivity
  unfold rankdata
  linarith

/-- CvMy fitted with one certain example of each class, asked about a bag with one example. -/
theorem cvmy_certain (qp : QPSolver) (hqp : ExactQP qp) (la : LinAlg 1) (fuel : ℕ) (ops : EstOps σ D ℤ 2) (enc : Bool → ℤ) (w : World σ D ℤ) (e e' : Option ℕ) (X Xt : List D) :
    ucRun ops enc w ⟨cvmyClass qp la fuel manhattan, e, e'⟩ X [0, 1] (some (.probs [![1, 0], ![0, 1]])) Xt (some (.probs [![0, 1]])) = .ok (some [0, 1])
    ∧ ucRun ops enc w ⟨cvmyClass qp la fuel manhattan, e, e'⟩ X [0, 1] (some (.probs [![0, 1], ![1, 0]])) Xt (some (.probs [![0, 1]])) = .ok (some [1, 0]) := by
  have hlab : labelsOf [(0 : ℤ), 1] = [0, 1] := labelsOf_eq _ _ (by decide) (by decide)
  have hk : (labelsOf [(0 : ℤ), 1]).length = 1 + 1 := by rw [hlab]; rfl
  have hst : stacked [(0 : ℤ), 1] 1 = [0, 1] := by simp [stacked]
  have rank : ∀ a b c : ℝ, a ≠ b → rankdata [a, b, c] a ≠ rankdata [a, b, c] b := by
    intro a b c hab
    rcases lt_or_gt_of_ne hab with h | h
    · refine (rankdata_lt ?_ h).ne
      simp
    · refine (rankdata_lt ?_ h).ne'
      simp
  have run : ∀ (p q : Fin 2 → ℝ) (bag : ℤ × (Fin 2 → ℝ)), p 0 ≠ q 0 → bag ∈ [((0 : ℤ), p), (1, q)] →
      ucRun ops enc w ⟨cvmyClass qp la fuel manhattan, e, e'⟩ X [0, 1] (some (.probs [p, q])) Xt (some (.probs [bag.2])) = .ok (some ([0, 1].map fun c : ℤ => Fl.fin (freq [bag.1] c))) := by
    intro p q bag hpq hb
    have h := C128_cvmy enc w e e' X Xt [(0 : ℤ), 1] (by simp) 1 one_pos ops one_pos hk qp hqp la fuel manhattan manhattan_comm [p, q] (by simp) [bag] ?_ ?_
    · simpa [rightAnswer, hlab] using h
    · have hc : ∀ (i : Fin 2), (labelsOf [(0 : ℤ), 1])[Fin.cast hk.symm i] = ![(0 : ℤ), 1] i := by
        have : ∀ (l : List ℤ) (hl : l = [0, 1]) (hk : 1 + 1 = l.length) (i : Fin 2), l[Fin.cast hk i] = ![(0 : ℤ), 1] i := by
          rintro l rfl hk i
          fin_cases i <;> rfl
        exact this _ hlab hk.symm
      simp only [hc, hst]
      refine two_separated (rankRow ([p, q] ++ [bag].map Prod.snd) p) (rankRow ([p, q] ++ [bag].map Prod.snd) q) ?_ _ (by simp [ofClass]) (by simp [ofClass])
      simpa [rankRow] using rank _ _ _ hpq
    · refine ⟨by simp, fun c hcm => ?_⟩
      rw [hst]
      obtain rfl : c = bag.1 := by simpa using hcm
      rcases List.mem_cons.1 hb with rfl | hb
      · simp [ofClass, SameFrequencies]
      · obtain rfl := List.mem_singleton.1 hb
        simp [ofClass, SameFrequencies]
  constructor
  · have := run ![1, 0] ![0, 1] (1, ![0, 1]) (by simp) (by simp)
    rw [this]
    simp [freq]
  · have := run ![0, 1] ![1, 0] (0, ![0, 1]) (by simp) (by simp)
    rw [this]
    simp [freq]

/-- **C141, refuted** for CvMy: it keeps the array of training predictions itself and uses it in `predict`, so that writing into the array after `fit` changes the answers. -/
theorem C141_cvmy_refuted (qp : QPSolver) (hqp : ExactQP qp) (la : LinAlg 1) (fuel : ℕ) (ops : EstOps σ D ℤ 2) (enc : Bool → ℤ) (w : World σ D ℤ) (e e' : Option ℕ) (X Xt : List D) :
    ∃ w' s, ucFit ops enc w ⟨cvmyClass qp la fuel manhattan, e, e'⟩ (ucNew _) X [0, 1] (some (.probs [![1, 0], ![0, 1]])) = (w', s, none)
      ∧ (ucPredict ops enc w' ⟨cvmyClass qp la fuel manhattan, e, e'⟩ s Xt (some (.probs [![0, 1]]))).2 = .ok (some [0, 1])
      ∧ (ucPredict ops enc w' ⟨cvmyClass qp la fuel manhattan, e, e'⟩ (overwriteTrain _ [0, 1] (some (.probs [![1, 0], ![0, 1]])) [0, 1] (.probs [![0, 1], ![1, 0]]) s) Xt (some (.probs [![0, 1]]))).2 = .ok (some [1, 0]) := by
  obtain ⟨h1, h2⟩ := cvmy_certain qp hqp la fuel ops enc w e e' X Xt
  have hfit : ∀ p q : Fin 2 → ℝ, ucFit ops enc w ⟨cvmyClass qp la fuel manhattan, e, e'⟩ (ucNew _) X [0, 1] (some (.probs [p, q]))
      = (trainedWorld ops w e e' X [0, 1], ⟨⟨some (npUnique [0, 1]), some (.probs [p, q]), some [0, 1]⟩, some ()⟩, none) := by
    intro p q
    simp [ucFit, cvmyClass, usingFit, UcObj.cfg, trainPreds, extendLabels, Preds.len, trainedWorld]
  rw [ucRun, hfit] at h1 h2
  exact ⟨_, _, hfit _ _, h1, h2⟩

end

/-! ## Bag generators keep the arrays that they return -/

theorem bags_kept {G α : Type*} [LinearOrder α] (rng : Rng G) (fuel : ℕ) (s s' : PriorGen G) (glob glob' : G) (d : BagData α) (b : Bags) (h : priorGenerate rng fuel s glob d = some (s', glob', .ok b)) :
    s'.bags = some b := by
  have key : ∀ (e : Option Err) (o : Option Bags), (match e, o with
      | some e, _ => (Except.error e : Except Err Bags)
      | none, some b => .ok b
      | none, none => .error .typeError) = .ok b → o = some b := by
    rintro (_ | e) (_ | b') h <;> simp at h
    rw [h]
  unfold priorGenerate at h
  cases hs : s.bags with
  | some b0 =>
    rw [hs] at h
    simp at h
    rw [← h.1, hs, h.2.2]
  | none =>
    rw [hs] at h
    simp only at h
    split at h
    · simp at h
    · split at h
      · rw [Option.map_eq_some_iff] at h
        obtain ⟨r, -, hr2⟩ := h
        simp only [Prod.mk.injEq] at hr2
        rw [← hr2.1]
        exact key _ _ hr2.2.2
      · simp only [Option.some.injEq, Prod.mk.injEq] at h
        rw [← h.1]
        exact key _ _ h.2.2
      · simp at h

/-- **C141, refuted** for the bag generators: the arrays returned are attributes, and a later call returns whatever the program has written into them, also for other data. -/
theorem C141_bags_refuted {G α : Type*} [LinearOrder α] (rng : Rng G) (fuel : ℕ) (s s' : PriorGen G) (glob glob' : G) (d : BagData α) (b : Bags) (h : priorGenerate rng fuel s glob d = some (s', glob', .ok b))
    (b' : Bags) (fuel' : ℕ) (glob'' : G) (d' : BagData α) : priorGenerate rng fuel' (overwriteBags b' s') glob'' d' = some (overwriteBags b' s', glob'', .ok b') := by
  simp [priorGenerate, overwriteBags, bags_kept rng fuel s s' glob glob' d b h]

/-- **C141, refuted**: such calls exist, for every generator with the uniform method and no minimum prevalences. -/
theorem C141_uniform_bags_refuted {G α : Type*} [LinearOrder α] (rng : Rng G) (hr : RngOk rng) (ht : RngTotal rng) (fuel : ℕ) (s : PriorGen G) (hs : s.bags = none) (hm : s.method = .uniform) (hmin : s.minPrev = .none)
    (hrs : s.rs ≠ .invalid) (hfuel : s.nBags ≤ fuel) (glob : G) (d : BagData α) (hy : d.y ≠ []) (hx : d.lenX = none ∨ d.lenX = some d.y.length) (hbs : 0 < s.bagSize.getD d.y.length) :
    ∃ s' b, priorGenerate rng fuel s glob d = some (s', glob, .ok b) ∧ ∀ b' fuel' glob' (d' : BagData α), priorGenerate rng fuel' (overwriteBags b' s') glob' d' = some (overwriteBags b' s', glob', .ok b') := by
  obtain ⟨s', b, h⟩ := C82_uniform_returns_partial rng hr ht fuel s hs hm hmin hrs hfuel glob d hy hx hbs
  exact ⟨s', b, h, fun b' fuel' glob' d' => C141_bags_refuted rng fuel s s' glob glob d b h b' fuel' glob' d'⟩

/-- Non-vacuity: a `fit` of PCC with given predictions returns. -/
example {σ D : Type} (ops : EstOps σ D ℤ 2) (enc : Bool → ℤ) (w : World σ D ℤ) (X : List D) (P : List (Fin 2 → ℝ)) :
    ∃ w' s, ucFit ops enc w ⟨pccClass, none, none⟩ (ucNew _) X [0, 1] (some (.probs P)) = (w', s, none) := by
  refine ⟨w, ⟨⟨some (npUnique [0, 1]), none, none⟩, some ()⟩, ?_⟩
  simp [ucFit, pccClass, usingFit, UcObj.cfg, ucNew, fitIfNeeded]

end Verif.Props
