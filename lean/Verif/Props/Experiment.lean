import Verif.Spec.Experiment
import Verif.Props.Perfect
import Verif.Props.Bias
import Verif.Props.Bags
import Verif.Props.Bags2
import Verif.Props.Eoq2

/-!
# C164: the experiments of the examples
-/

namespace Verif.Props

open Verif.Model Verif.Spec Verif.Proof

variable {σ D α G : Type} [LinearOrder α] {k : ℕ}

omit [LinearOrder α] in
theorem ucPredict_steady (ops : EstOps σ D α k) (enc : Bool → α) (w : World σ D α) (o : UcObj α k) (ho : Steady o.cls) (s : UcState o) (X : List D) (pt : Option (Preds α k)) : (ucPredict ops enc w o s X pt).1 = s := by
  obtain ⟨b, own⟩ := s
  cases own with
  | none => rfl
  | some m =>
    unfold ucPredict
    simp only
    split
    · rfl
    · rw [ho]

omit [LinearOrder α] in
/-- The loop over the bags, when each call to `predict` starts from the same attributes. -/
theorem bagLoop_steady (ops : EstOps σ D α k) (enc : Bool → α) (w : World σ D α) (o : UcObj α k) (ho : Steady o.cls) (input : List ℕ → Except Err (List D × Option (Preds α k))) (s : UcState o) (bags : List (List Fl × List ℕ)) :
    bagLoop ops enc w o input s bags = bags.mapM (fun t => input t.2 >>= fun x => (ucPredict ops enc w o s x.1 x.2).2 >>= fun a => reportedError t.1 a) := by
  induction bags with
  | nil => rfl
  | cons t rest ih =>
    obtain ⟨p, idx⟩ := t
    rw [List.mapM_cons, ← ih]
    rw [bagLoop]
    cases input idx with
    | error e => rfl
    | ok x =>
      simp only [bind, Except.bind, ucPredict_steady ops enc w o ho s]
      cases (ucPredict ops enc w o s x.1 x.2).2 with
      | error e => rfl
      | ok a => rfl

theorem finiteEntries_fin (l : List ℝ) : finiteEntries (l.map Fl.fin) = .ok l := by
  unfold finiteEntries
  induction l with
  | nil => rfl
  | cons a l ih => rw [List.map_cons, List.mapM_cons, ih]; rfl

theorem reportedError_eq {n : ℕ} (hn : n ≠ 0) (p q : Fin n → ℝ) : reportedError (realList p) (some (realList q)) = .ok (Fl.fin (totalError p q / n)) := by
  have e : ∀ v : Fin n → ℝ, realList v = (List.ofFn v).map Fl.fin := fun v => by
    unfold realList
    rw [List.map_ofFn]
    rfl
  obtain ⟨m, rfl⟩ := Nat.exists_eq_succ_of_ne_zero hn
  unfold reportedError
  simp only [e, finiteEntries_fin, bind, Except.bind]
  rw [(C16_length_check _ (List.ofFn p) (List.ofFn q)).2 m p q, mae_eq (by simp)]
  unfold totalError
  have hl : (List.ofFn p).length = m + 1 := List.length_ofFn
  have hs : ∑ j : Fin (List.ofFn p).length, |p (Fin.cast hl j) - q (Fin.cast hl j)| = ∑ j, |p j - q j| := Equiv.sum_comp (finCongr hl) fun j => |p j - q j|
  rw [hs, hl]

/-- The answers of `predict` after a successful `fit`. -/
theorem ucRun_of_fit (ops : EstOps σ D α k) (enc : Bool → α) (w : World σ D α) (o : UcObj α k) (X Xt : List D) (y : List α) (pt ptt : Option (Preds α k)) (h : (ucFit ops enc w o (ucNew o) X y pt).2.2 = none) :
    ucRun ops enc w o X y pt Xt ptt = (ucPredict ops enc (ucFit ops enc w o (ucNew o) X y pt).1 o (ucFit ops enc w o (ucNew o) X y pt).2.1 Xt ptt).2 := by
  unfold ucRun
  simp only [h]

theorem fit_of_ucRun (ops : EstOps σ D α k) (enc : Bool → α) (w : World σ D α) (o : UcObj α k) (X Xt : List D) (y : List α) (pt ptt : Option (Preds α k)) (a : Option (List Fl)) (h : ucRun ops enc w o X y pt Xt ptt = .ok a) :
    (ucFit ops enc w o (ucNew o) X y pt).2.2 = none := by
  unfold ucRun at h
  cases hf : (ucFit ops enc w o (ucNew o) X y pt).2.2 with
  | none => rfl
  | some e => simp only [hf] at h; cases h

theorem mapM_ok_of_forall {β γ : Type} (l : List β) (f : β → Except Err γ) (R : β → γ → Prop) (h : ∀ t ∈ l, ∃ c, f t = .ok c ∧ R t c) : ∃ r, l.mapM f = .ok r ∧ List.Forall₂ R l r := by
  induction l with
  | nil => exact ⟨[], rfl, .nil⟩
  | cons t l ih =>
    obtain ⟨c, h1, h2⟩ := h t (List.mem_cons_self ..)
    obtain ⟨r, h3, h4⟩ := ih fun t ht => h t (List.mem_cons_of_mem _ ht)
    refine ⟨c :: r, ?_, .cons h2 h4⟩
    rw [List.mapM_cons, h1, h3]
    rfl

theorem bagOf_map {β γ : Type} {l : List β} {idx : List ℕ} {rows : List β} (h : BagOf l idx rows) (g : β → γ) : BagOf (l.map g) idx (rows.map g) := by
  unfold BagOf at *
  have := congrArg (List.map (Option.map g)) h
  rw [List.map_map, List.map_map] at this
  rw [List.map_map]
  simpa [Function.comp_def, List.getElem?_map] using this

variable (ops : EstOps σ D α k) (enc : Bool → α) (w : World σ D α) (o : UcObj α k) (X : List D) (y : List α) (pt : Option (Preds α k)) (rng : Rng G) (fuel : ℕ) (gen : PriorGen G) (glob : G) (test : BagData α)
  (input : List ℕ → Except Err (List D × Option (Preds α k))) (b : Bags)

/-- **C164**: the experiment ends with one error for each bag, and the error of a bag is the mean over the classes of the difference between the frequencies of the classes among the examples of the bag
and the answer that a quantifier trained on the same training set gives for that bag alone. -/
theorem C164_reports (hst : Steady o.cls) (hg : Generated rng fuel gen glob test b) (hl : labelsOf test.y = labelsOf y)
    (H : ∀ idx labels, BagOf test.y idx labels → labels ≠ [] → ∃ x v, input idx = .ok x ∧ ucRun ops enc w o X y pt x.1 x.2 = .ok (some (realList (n := (labelsOf y).length) v))) :
    ∃ es, experiment ops enc w o X y pt rng fuel gen glob test input = some (.ok es)
      ∧ ErrorsOf test.y b gen.nBags (gen.bagSize.getD test.y.length) (fun idx labels e => ∃ x v, input idx = .ok x ∧ ucRun ops enc w o X y pt x.1 x.2 = .ok (some (realList v))
          ∧ e = Fl.fin ((∑ j, |freqs (labelsOf y) labels j - v j|) / (labelsOf y).length)) es := by
  obtain ⟨hr, hs, hy, hbs, g', glob', hret⟩ := hg
  have hb := (C37_prior_shift_bags rng hr fuel gen hs glob test hy hbs g' glob' b hret).1
  obtain ⟨a, ys, hays⟩ := List.exists_cons_of_ne_nil hy
  have hfit : (ucFit ops enc w o (ucNew o) X y pt).2.2 = none := by
    obtain ⟨x, v, -, h⟩ := H [0] [a] (by unfold BagOf; simp [hays]) (by simp)
    exact fit_of_ucRun _ _ _ _ _ _ _ _ _ _ h
  have hn : (labelsOf y).length ≠ 0 := by
    rw [← hl]
    intro h0
    have := (mem_labelsOf test.y a).2 (by rw [hays]; simp)
    rw [List.length_eq_zero_iff.1 h0] at this
    cases this
  have hexp : experiment ops enc w o X y pt rng fuel gen glob test input
      = some ((b.prevs.zip b.idx).mapM (fun t => input t.2 >>= fun x => ucRun ops enc w o X y pt x.1 x.2 >>= fun a => reportedError t.1 a)) := by
    unfold experiment
    simp only [hfit, hret, Option.map_some, bagLoop_steady _ _ _ _ hst, ucRun_of_fit ops enc w o X _ y pt _ hfit]
  obtain ⟨e1, e2, e3⟩ := hb
  have key : ∀ t ∈ b.prevs.zip b.idx, ∃ e, (input t.2 >>= fun x => ucRun ops enc w o X y pt x.1 x.2 >>= fun a => reportedError t.1 a) = .ok e ∧ ∃ labels, BagOf test.y t.2 labels ∧ labels.length = gen.bagSize.getD test.y.length
      ∧ ∃ x v, input t.2 = .ok x ∧ ucRun ops enc w o X y pt x.1 x.2 = .ok (some (realList v)) ∧ e = Fl.fin ((∑ j, |freqs (labelsOf y) labels j - v j|) / (labelsOf y).length) := fun t ht => by
    obtain ⟨i, hi, rfl⟩ := List.getElem_of_mem ht
    rw [List.length_zip, e1, e2, min_self] at hi
    obtain ⟨h1, labels, h2, h3⟩ := e3 i hi
    rw [List.getElem_zip]
    rw [List.getD_eq_getElem _ _ (by omega)] at h1 h2 h3
    have hlen : labels.length = gen.bagSize.getD test.y.length := by
      have := congrArg List.length h2
      rw [List.length_map, List.length_map] at this
      omega
    obtain ⟨x, v, h4, h5⟩ := H _ labels h2 (by rintro rfl; rw [← hlen] at hbs; cases hbs)
    refine ⟨Fl.fin ((∑ j, |freqs (labelsOf y) labels j - v j|) / (labelsOf y).length), ?_, labels, h2, hlen, x, v, h4, h5, rfl⟩
    rw [bind_ok h4, bind_ok h5]
    have h3' : b.prevs[i] = realList (freqs (labelsOf y) labels) := by
      rw [h3, hl]
      unfold realList freqs
      rw [← List.ofFn_getElem_eq_map]
      rfl
    simp only
    rw [h3', reportedError_eq hn]
    rfl
  obtain ⟨es, h1, h2⟩ := mapM_ok_of_forall _ _ _ key
  refine ⟨es, by rw [hexp, h1], ?_⟩
  have hlen : es.length = gen.nBags := by rw [← h2.length_eq, List.length_zip, e1, e2, min_self]
  refine ⟨hlen, e2, fun i hi hi' => ?_⟩
  have := List.forall₂_iff_get.1 h2
  have h3 := this.2 i (by rw [List.length_zip, e1, e2, min_self, ← hlen]; exact hi) hi
  simpa using h3

theorem totalError_bounds {n : ℕ} {p q : Fin n → ℝ} (hp : IsPrev p) (hq : IsPrev q) : 0 ≤ totalError p q ∧ totalError p q ≤ 2 := by
  refine ⟨Finset.sum_nonneg fun _ _ => abs_nonneg _, ?_⟩
  have : totalError p q ≤ ∑ j, (p j + q j) := Finset.sum_le_sum fun j _ => abs_le.2 ⟨by linarith [hp.1 j, hq.1 j], by linarith [hp.1 j, hq.1 j]⟩
  rw [Finset.sum_add_distrib, hp.2, hq.2] at this
  linarith

theorem bagOf_mem {β : Type} {l : List β} {idx : List ℕ} {rows : List β} (h : BagOf l idx rows) {a : β} (ha : a ∈ rows) : a ∈ l := by
  have : some a ∈ rows.map some := List.mem_map_of_mem ha
  rw [← h] at this
  obtain ⟨i, -, hi⟩ := List.mem_map.1 this
  exact List.mem_of_getElem? hi

/-- **C164**, the range of the errors: for answers that are valid prevalences the errors are between 0 and 2 divided by the number of classes. -/
theorem C164_range (hst : Steady o.cls) (hg : Generated rng fuel gen glob test b) (hl : labelsOf test.y = labelsOf y)
    (H : ∀ idx labels, BagOf test.y idx labels → labels ≠ [] → ∃ x v, input idx = .ok x ∧ ucRun ops enc w o X y pt x.1 x.2 = .ok (some (realList (n := (labelsOf y).length) v)) ∧ IsPrev v) :
    ∃ es, experiment ops enc w o X y pt rng fuel gen glob test input = some (.ok es) ∧ es.length = gen.nBags ∧ ∀ e ∈ es, ∃ v, e = Fl.fin v ∧ 0 ≤ v ∧ v ≤ 2 / (labelsOf y).length := by
  obtain ⟨es, h1, h2, h3, h4⟩ := C164_reports ops enc w o X y pt rng fuel gen glob test input b hst hg hl fun idx labels hb hne => by
    obtain ⟨x, v, h1, h2, -⟩ := H idx labels hb hne
    exact ⟨x, v, h1, h2⟩
  refine ⟨es, h1, h2, fun e he => ?_⟩
  obtain ⟨i, hi, rfl⟩ := List.getElem_of_mem he
  obtain ⟨labels, hb, hlen, x, v, h5, h6, h7⟩ := h4 i hi (by rw [h3, ← h2]; exact hi)
  have hne : labels ≠ [] := by
    rintro rfl
    have := hg.size
    rw [← hlen] at this
    cases this
  obtain ⟨x', v', h5', h6', h8⟩ := H _ labels hb hne
  cases h5.symm.trans h5'
  have hv : v = v' := by
    have := List.ofFn_injective (Option.some.inj (Except.ok.inj (h6.symm.trans h6')))
    funext j
    exact Fl.fin.inj (congrFun this j)
  subst hv
  have hb2 := totalError_bounds (freqs_isPrev (labelsOf y) (labelsOf_nodup y) labels hne fun a ha => by
    rw [← hl]
    exact (mem_labelsOf test.y a).2 (bagOf_mem hb ha)) h8
  refine ⟨_, h7, div_nonneg hb2.1 (Nat.cast_nonneg _), div_le_div_of_nonneg_right hb2.2 (Nat.cast_nonneg _)⟩

/-- **C164**, answers that are right: if the method answers the prevalences of every bag, the experiment reports an error of exactly 0 for every bag. -/
theorem C164_right (hst : Steady o.cls) (hg : Generated rng fuel gen glob test b) (hl : labelsOf test.y = labelsOf y)
    (H : ∀ idx labels, BagOf test.y idx labels → labels ≠ [] → ∃ x, input idx = .ok x ∧ ucRun ops enc w o X y pt x.1 x.2 = truePrevalences y labels) :
    experiment ops enc w o X y pt rng fuel gen glob test input = some (.ok (List.replicate gen.nBags (Fl.fin 0))) := by
  obtain ⟨es, h1, h2, h3, h4⟩ := C164_reports ops enc w o X y pt rng fuel gen glob test input b hst hg hl fun idx labels hb hne => by
    obtain ⟨x, h1, h2⟩ := H idx labels hb hne
    exact ⟨x, _, h1, h2.trans (truePrevalences_eq y labels)⟩
  rw [h1]
  congr 2
  refine List.eq_replicate_iff.2 ⟨h2, fun e he => ?_⟩
  obtain ⟨i, hi, rfl⟩ := List.getElem_of_mem he
  obtain ⟨labels, hb, hlen, x, v, h5, h6, h7⟩ := h4 i hi (by rw [h3, ← h2]; exact hi)
  have hne : labels ≠ [] := by
    rintro rfl
    have := hg.size
    rw [← hlen] at this
    cases this
  obtain ⟨x', h5', h6'⟩ := H _ labels hb hne
  cases h5.symm.trans h5'
  have hv : v = freqs (labelsOf y) labels := by
    have := List.ofFn_injective (Option.some.inj (Except.ok.inj (h6.symm.trans (h6'.trans (truePrevalences_eq y labels)))))
    funext j
    exact Fl.fin.inj (congrFun this j)
  rw [h7, hv]
  simp

omit [LinearOrder α] in
theorem bagPreds_crisp (l : List α) {idx : List ℕ} {rows : List α} (h : BagOf l idx rows) : bagPreds (D := D) (k := k) (.crisp l) idx = .ok ([], some (.crisp rows)) := by
  unfold bagPreds rowsAt
  simp only [(mapM_item_iff l idx rows).2 h, Except.map]

omit [LinearOrder α] in
theorem bagPreds_probs (l : List (Fin k → ℝ)) {idx : List ℕ} {rows : List (Fin k → ℝ)} (h : BagOf l idx rows) : bagPreds (D := D) (α := α) (.probs l) idx = .ok ([], some (.probs rows)) := by
  unfold bagPreds rowsAt
  simp only [(mapM_item_iff l idx rows).2 h, Except.map]

section
variable (et et' : Option ℕ) (hy : y ≠ []) (hg : Generated rng fuel gen glob test b) (hl : labelsOf test.y = labelsOf y)

theorem stacked_one {β : Type*} (l : List β) : stacked l 1 = l := by simp [stacked]

include hl in
theorem bagOf_sub {idx : List ℕ} {labels : List α} (h : BagOf test.y idx labels) : ∀ a ∈ labels, a ∈ y := fun a ha => by
  have := (mem_labelsOf test.y a).2 (bagOf_mem h ha)
  rw [hl] at this
  exact (mem_labelsOf y a).1 this

include hy hg hl

/-- **C164** for AC with a classifier that is never wrong. -/
theorem C164_perfect_ac (sol : Solvers) (dist : Dist) :
    experiment ops enc w ⟨acClass sol dist, et, et'⟩ X y (some (.crisp y)) rng fuel gen glob test (bagPreds (.crisp test.y)) = some (.ok (List.replicate gen.nBags (Fl.fin 0))) := by
  refine C164_right ops enc w _ X y _ rng fuel gen glob test _ b (fun _ _ _ => rfl) hg hl fun idx labels hb hne => ⟨_, bagPreds_crisp _ hb, ?_⟩
  have := C163_ac enc w et et' X [] y hy 1 one_pos ops labels hne (bagOf_sub y test hl hb) sol dist
  rwa [stacked_one] at this

/-- **C164** for PAC. -/
theorem C164_perfect_pac (ops : EstOps σ D α (labelsOf y).length) (sol : Solvers) (dist : Dist) :
    experiment ops enc w ⟨pacClass sol dist, et, et'⟩ X y (some (.probs (y.map (oneHot (labelsOf y))))) rng fuel gen glob test (bagPreds (.probs (test.y.map (oneHot (labelsOf y))))) = some (.ok (List.replicate gen.nBags (Fl.fin 0))) := by
  refine C164_right ops enc w _ X y _ rng fuel gen glob test _ b (fun _ _ _ => rfl) hg hl fun idx labels hb hne => ⟨_, bagPreds_probs _ (bagOf_map hb _), ?_⟩
  have := C163_pac enc w et et' X [] y hy 1 one_pos labels hne (bagOf_sub y test hl hb) ops sol dist
  rwa [stacked_one] at this

/-- **C164** for PCC. -/
theorem C164_perfect_pcc (ops : EstOps σ D α (labelsOf y).length) :
    experiment ops enc w ⟨pccClass, et, et'⟩ X y (some (.probs (y.map (oneHot (labelsOf y))))) rng fuel gen glob test (bagPreds (.probs (test.y.map (oneHot (labelsOf y))))) = some (.ok (List.replicate gen.nBags (Fl.fin 0))) := by
  refine C164_right ops enc w _ X y _ rng fuel gen glob test _ b (fun _ _ _ => rfl) hg hl fun idx labels hb hne => ⟨_, bagPreds_probs _ (bagOf_map hb _), ?_⟩
  have := C163_pcc enc w et et' X [] y hy 1 labels hne ops
  rwa [stacked_one] at this

/-- **C164** for EM. -/
theorem C164_perfect_em (ops : EstOps σ D α (labelsOf y).length) (eps : ℝ) (maxIter : ℕ) (hm : 0 < maxIter) :
    experiment ops enc w ⟨emClass eps maxIter, et, et'⟩ X y (some (.probs (y.map (oneHot (labelsOf y))))) rng fuel gen glob test (bagPreds (.probs (test.y.map (oneHot (labelsOf y))))) = some (.ok (List.replicate gen.nBags (Fl.fin 0))) := by
  refine C164_right ops enc w _ X y _ rng fuel gen glob test _ b (fun _ _ _ => rfl) hg hl fun idx labels hb hne => ⟨_, bagPreds_probs _ (bagOf_map hb _), ?_⟩
  have := C163_em enc w et et' X [] y hy 1 labels hne (bagOf_sub y test hl hb) ops eps maxIter hm
  rwa [stacked_one] at this

/-- **C164** for EDy. -/
theorem C164_perfect_edy {n : ℕ} (hk : (labelsOf y).length = n + 1) (hn : 0 < n) (ops : EstOps σ D α (n + 1)) (qp : QPSolver) (hqp : ExactQP qp) (la : LinAlg n) (edFuel : ℕ) :
    experiment ops enc w ⟨edyClass qp la edFuel manhattan, et, et'⟩ X y (some (.probs (y.map (certainRow y hk)))) rng fuel gen glob test (bagPreds (.probs (test.y.map (certainRow y hk)))) = some (.ok (List.replicate gen.nBags (Fl.fin 0))) := by
  refine C164_right ops enc w _ X y _ rng fuel gen glob test _ b (fun _ _ _ => rfl) hg hl fun idx labels hb hne => ⟨_, bagPreds_probs _ (bagOf_map hb _), ?_⟩
  have := C163_edy enc w et et' X [] y hy 1 one_pos labels hne (bagOf_sub y test hl hb) hk hn ops qp hqp la edFuel
  rwa [stacked_one] at this

/-- **C164** for CvMy. -/
theorem C164_perfect_cvmy {n : ℕ} (hk : (labelsOf y).length = n + 1) (hn : 0 < n) (ops : EstOps σ D α (n + 1)) (qp : QPSolver) (hqp : ExactQP qp) (la : LinAlg n) (edFuel : ℕ) :
    experiment ops enc w ⟨cvmyClass qp la edFuel manhattan, et, et'⟩ X y (some (.probs (y.map (certainRow y hk)))) rng fuel gen glob test (bagPreds (.probs (test.y.map (certainRow y hk)))) = some (.ok (List.replicate gen.nBags (Fl.fin 0))) := by
  refine C164_right ops enc w _ X y _ rng fuel gen glob test _ b (fun _ _ _ => rfl) hg hl fun idx labels hb hne => ⟨_, bagPreds_probs _ (bagOf_map hb _), ?_⟩
  have := C163_cvmy enc w et et' X [] y hy 1 one_pos labels hne (bagOf_sub y test hl hb) hk hn ops qp hqp la edFuel
  rwa [stacked_one] at this

/-- **C164** for CC with any classifier: the error that the experiment reports for a bag is at most two times the share of examples of the bag with a wrong prediction, divided by the number of classes. -/
theorem C164_cc (P Q : List α) (hP : P.length = y.length) (hQ : Q.length = test.y.length) :
    ∃ es, experiment ops enc w ⟨ccClass, et, et'⟩ X y (some (.crisp P)) rng fuel gen glob test (bagPreds (.crisp Q)) = some (.ok es)
      ∧ ErrorsOf test.y b gen.nBags (gen.bagSize.getD test.y.length) (fun idx labels e => ∃ (bag : List (α × α)) (v : ℝ), BagOf (test.y.zip Q) idx bag ∧ bag.map Prod.fst = labels
          ∧ e = Fl.fin v ∧ v ≤ 2 * (mistakes bag / bag.length) / (labelsOf y).length) es := by
  have hbag : ∀ idx labels, BagOf test.y idx labels → ∃ bag : List (α × α), BagOf (test.y.zip Q) idx bag ∧ BagOf Q idx (bag.map Prod.snd) ∧ bag.map Prod.fst = labels := fun idx => by
    induction idx with
    | nil =>
      intro labels h
      cases labels with
      | nil => exact ⟨[], rfl, rfl, rfl⟩
      | cons a l => cases h
    | cons i idx ih =>
      intro labels h
      cases labels with
      | nil => cases h
      | cons a l =>
        unfold BagOf at h
        rw [List.map_cons, List.map_cons, List.cons.injEq] at h
        obtain ⟨bag, h1, h2, h3⟩ := ih l h.2
        obtain ⟨hi, he⟩ := List.getElem?_eq_some_iff.1 h.1
        have hi' : i < Q.length := by omega
        refine ⟨(a, Q[i]) :: bag, ?_, ?_, ?_⟩
        · unfold BagOf at h1 ⊢
          rw [List.map_cons, List.map_cons, h1]
          congr 1
          rw [List.getElem?_eq_getElem (by rw [List.length_zip]; omega), List.getElem_zip, he]
        · unfold BagOf at h2 ⊢
          rw [List.map_cons, List.map_cons, List.map_cons, h2]
          congr 1
          exact List.getElem?_eq_getElem hi'
        · rw [List.map_cons, h3]
  have hcc : ∀ (bag : List (α × α)), bag ≠ [] → ∃ x, ucRun ops enc w ⟨ccClass, et, et'⟩ X y (some (.crisp P)) [] (some (.crisp (bag.map Prod.snd))) = .ok (some (realList x))
      ∧ totalError x (bagPrevs y bag) ≤ 2 * (mistakes bag / bag.length) := fun bag hne => by
    obtain ⟨x, h1, -, h2⟩ := C157_mistakes enc w et et' X [] y hy 1 ops P (by omega) bag hne
    exact ⟨x, h1, h2⟩
  obtain ⟨es, h1, h2, h3, h4⟩ := C164_reports ops enc w ⟨ccClass, et, et'⟩ X y (some (.crisp P)) rng fuel gen glob test (bagPreds (.crisp Q)) b (fun _ _ _ => rfl) hg hl fun idx labels hb hne => by
    obtain ⟨bag, -, h2, h3⟩ := hbag idx labels hb
    obtain ⟨x, h4, -⟩ := hcc bag (by rintro rfl; exact hne h3.symm)
    exact ⟨_, x, bagPreds_crisp _ h2, h4⟩
  refine ⟨es, h1, h2, h3, fun i hi hi' => ?_⟩
  obtain ⟨labels, hb, hlen, x, v, h5, h6, h7⟩ := h4 i hi hi'
  refine ⟨labels, hb, hlen, ?_⟩
  obtain ⟨bag, g1, g2, g3⟩ := hbag _ labels hb
  have hne : bag ≠ [] := by
    rintro rfl
    have := hg.size
    rw [← hlen, ← g3] at this
    cases this
  obtain ⟨x', h6', h8⟩ := hcc bag hne
  cases h5.symm.trans (bagPreds_crisp _ g2)
  have hv : v = x' := by
    have := List.ofFn_injective (Option.some.inj (Except.ok.inj (h6.symm.trans h6')))
    funext j
    exact Fl.fin.inj (congrFun this j)
  subst hv
  refine ⟨bag, _, g1, g3, h7, div_le_div_of_nonneg_right (le_trans (le_of_eq ?_) h8) (Nat.cast_nonneg _)⟩
  unfold totalError bagPrevs freqs
  rw [g3]
  exact Finset.sum_congr rfl fun j _ => abs_sub_comm _ _

end

/-- **C164**, a class that the testing set lacks: with fewer (or more) classes among the labels of the testing set than among those of the training set, the experiment ends with a `ValueError` in the first bag. -/
theorem C164_missing_class (hg : Generated rng fuel gen glob test b) (hn : 0 < gen.nBags) (hl : (labelsOf test.y).length ≠ (labelsOf y).length)
    (H : ∀ idx labels, BagOf test.y idx labels → labels ≠ [] → ∃ x v, input idx = .ok x ∧ ucRun ops enc w o X y pt x.1 x.2 = .ok (some (realList (n := (labelsOf y).length) v))) :
    experiment ops enc w o X y pt rng fuel gen glob test input = some (.error .valueError) := by
  obtain ⟨hr, hs, hy, hbs, g', glob', hret⟩ := hg
  obtain ⟨e1, e2, e3⟩ := (C37_prior_shift_bags rng hr fuel gen hs glob test hy hbs g' glob' b hret).1
  obtain ⟨a, ys, hays⟩ := List.exists_cons_of_ne_nil hy
  have hfit : (ucFit ops enc w o (ucNew o) X y pt).2.2 = none := by
    obtain ⟨x, v, -, h⟩ := H [0] [a] (by unfold BagOf; simp [hays]) (by simp)
    exact fit_of_ucRun _ _ _ _ _ _ _ _ _ _ h
  obtain ⟨p0, ps, hps⟩ := List.exists_cons_of_ne_nil (l := b.prevs) (by rintro h; rw [h] at e1; simp at e1; omega)
  obtain ⟨i0, is, his⟩ := List.exists_cons_of_ne_nil (l := b.idx) (by rintro h; rw [h] at e2; simp at e2; omega)
  obtain ⟨h1, labels, h2, h3⟩ := e3 0 hn
  rw [hps] at h3
  rw [his] at h1 h2
  simp only [List.getD_cons_zero] at h1 h2 h3
  have hlen : labels.length = gen.bagSize.getD test.y.length := by
    have := congrArg List.length h2
    rw [List.length_map, List.length_map] at this
    omega
  obtain ⟨x, v, h4, h5⟩ := H _ labels h2 (by rintro rfl; rw [← hlen] at hbs; cases hbs)
  rw [ucRun_of_fit ops enc w o X _ y pt _ hfit] at h5
  have herr : reportedError p0 (some (realList v)) = .error .valueError := by
    have ev : realList v = (List.ofFn v).map Fl.fin := by
      unfold realList
      rw [List.map_ofFn]
      rfl
    have ep : p0 = ((labelsOf test.y).map fun c => freq labels c).map Fl.fin := by
      rw [h3, List.map_map]
      rfl
    unfold reportedError
    simp only [ev, ep, finiteEntries_fin, bind, Except.bind]
    refine (C16_length_check _ _ _).1.2 (.inl ?_)
    rw [List.length_map, List.length_ofFn]
    exact hl
  unfold experiment
  simp only [hfit, hret, Option.map_some, hps, his, List.zip_cons_cons]
  rw [bagLoop, h4]
  simp only [bind, Except.bind, h5, herr]

/-- **C164**, a class that the testing set lacks, for CC. -/
theorem C164_missing_class_cc (et et' : Option ℕ) (hy : y ≠ []) (hg : Generated rng fuel gen glob test b) (hn : 0 < gen.nBags) (hl : (labelsOf test.y).length ≠ (labelsOf y).length) (P : List α) (hP : P.length = y.length) :
    experiment ops enc w ⟨ccClass, et, et'⟩ X y (some (.crisp P)) rng fuel gen glob test (bagPreds (.crisp test.y)) = some (.error .valueError) :=
  C164_missing_class ops enc w _ X y _ rng fuel gen glob test _ b hg hn hl fun idx labels hb hne =>
    ⟨_, _, bagPreds_crisp _ hb, (C163_cc enc w et et' X [] y hy 1 ops labels hne P (by omega)).trans (truePrevalences_eq y labels)⟩

theorem lazy_generated : ∃ b, Generated lazyRng 7 ⟨7, some 4, .uniform, .none, .none, .seed 3, none⟩ true (⟨[1, 0, 1], some 3⟩ : BagData ℕ) b := by
  obtain ⟨s', b, h⟩ := C82_uniform_returns_partial lazyRng lazyRng_ok lazyRng_total 7 ⟨7, some 4, .uniform, .none, .none, .seed 3, none⟩ rfl rfl rfl (by simp)
    le_rfl true (⟨[1, 0, 1], some 3⟩ : BagData ℕ) (by simp) (Or.inr rfl) (by simp)
  exact ⟨b, ⟨lazyRng_ok, rfl, by simp, by simp, s', true, h⟩⟩

/-- Non-vacuity: seven bags of four examples of a testing set with the two classes of the training set, drawn by a generator that returns, and the report for AC and a classifier that is never wrong. -/
example (ops : EstOps Unit Unit ℕ 2) (enc : Bool → ℕ) (w : World Unit Unit ℕ) (sol : Solvers) (dist : Dist) :
    experiment ops enc w ⟨acClass sol dist, none, none⟩ [] [0, 1, 1] (some (.crisp [0, 1, 1])) lazyRng 7 ⟨7, some 4, .uniform, .none, .none, .seed 3, none⟩ true ⟨[1, 0, 1], some 3⟩ (bagPreds (.crisp [1, 0, 1]))
      = some (.ok (List.replicate 7 (Fl.fin 0))) := by
  obtain ⟨b, hb⟩ := lazy_generated
  exact C164_perfect_ac ops enc w [] [0, 1, 1] lazyRng 7 _ true _ b none none (by simp) hb (by rw [labelsOf_eq _ [0, 1] (by decide) (by decide), labelsOf_eq _ [0, 1] (by decide) (by decide)]) sol dist

/-- Non-vacuity: the testing set of the example has no examples of class 2. -/
example (ops : EstOps Unit Unit ℕ 3) (enc : Bool → ℕ) (w : World Unit Unit ℕ) :
    experiment ops enc w ⟨ccClass, none, none⟩ [] [0, 1, 2] (some (.crisp [0, 1, 1])) lazyRng 7 ⟨7, some 4, .uniform, .none, .none, .seed 3, none⟩ true ⟨[1, 0, 1], some 3⟩ (bagPreds (.crisp [1, 0, 1])) = some (.error .valueError) := by
  obtain ⟨b, hb⟩ := lazy_generated
  exact C164_missing_class_cc ops enc w [] [0, 1, 2] lazyRng 7 _ true _ b none none (by simp) hb (by simp)
    (by rw [labelsOf_eq _ [0, 1] (by decide) (by decide), labelsOf_eq [0, 1, 2] [0, 1, 2] (by decide) (by decide)]; decide) _ rfl

/-- Non-vacuity of `C164_cc`: a bag with one wrong prediction. -/
example : mistakes [(0, 0), (1, 0), (1, 1)] = 1 ∧ BagOf ([1, 0, 1].zip [1, 0, 0]) [1, 2, 0] [(0, 0), (1, 0), (1, 1)] := ⟨by decide, rfl⟩

end Verif.Props
