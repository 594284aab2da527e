import Verif.Proof.SameFrequencies
import Verif.Props.EndToEnd
import Verif.Props.Quantiles
import Verif.Model.WeightedKnn

/-!
# C126: a bag counts only through the distribution of its predictions
-/

namespace Verif.Props

open Verif.Model Verif.Spec Verif.Proof

variable {σ D α : Type} {k : ℕ}

/-- Two arrays of predictions of the same kind whose rows have the same relative frequencies. -/
inductive SamePreds : Preds α k → Preds α k → Prop
  | crisp {l l' : List α} (h : SameFrequencies l l') : SamePreds (.crisp l) (.crisp l')
  | probs1 {l l' : List ℝ} (h : SameFrequencies l l') : SamePreds (.probs1 l) (.probs1 l')
  | probs {l l' : List (Fin k → ℝ)} (h : SameFrequencies l l') : SamePreds (.probs l) (.probs l')

/-- An estimator that predicts every example by itself. -/
def RowWise (ops : EstOps σ D α k) : Prop := ∀ s, (∃ g : D → α, ∀ X, ops.predict s X = X.map g) ∧ ∃ h : D → Fin k → ℝ, ∀ X, ops.predictProba s X = X.map h

/-- The property for a class, in the states that satisfy `P`: bags with the same distribution get the same answer and leave the object in the same state, whether the predictions are given or made by an estimator that
predicts every example by itself. -/
def FrequenciesDecide (cls : UcClass α k) (P : cls.S → QState α k → Prop) : Prop :=
  ∀ (σ D : Type) (ops : EstOps σ D α k) (enc : Bool → α) (w : World σ D α) (e e' : Option ℕ) (s : UcState ⟨cls, e, e'⟩), (∀ m, s.own = some m → P m s.base) →
    (∀ X X' p p', SamePreds p p' → ucPredict ops enc w ⟨cls, e, e'⟩ s X (some p) = ucPredict ops enc w ⟨cls, e, e'⟩ s X' (some p'))
    ∧ (RowWise ops → ∀ X X', SameFrequencies X X' → ucPredict ops enc w ⟨cls, e, e'⟩ s X none = ucPredict ops enc w ⟨cls, e, e'⟩ s X' none)

/-- `mapM` of a function with a single kind of exception. -/
theorem mapM_uniform {β γ : Type*} (f : β → Except Err γ) (e0 : Err) (he : ∀ x e, f x = .error e → e = e0) (l : List β) :
    (∃ r, l.mapM f = .ok r ∧ r.map Except.ok = l.map f) ∨ (∃ x ∈ l, f x = .error e0) ∧ l.mapM f = .error e0 := by
  induction l with
  | nil => exact Or.inl ⟨[], rfl, rfl⟩
  | cons x l ih =>
    rw [List.mapM_cons]
    cases hx : f x with
    | error e => exact Or.inr ⟨⟨x, by simp, by rw [hx, he x e hx]⟩, by rw [he x e hx]; rfl⟩
    | ok v =>
      rcases ih with ⟨r, h1, h2⟩ | ⟨⟨z, hz, hz'⟩, h1⟩
      · exact Or.inl ⟨v :: r, by rw [h1]; rfl, by rw [List.map_cons, List.map_cons, h2, hx]⟩
      · exact Or.inr ⟨⟨z, by simp [hz], hz'⟩, by rw [h1]; rfl⟩

/-- The results of `mapM` on samples with the same distribution: the same exception, or samples with the same distribution. -/
theorem mapM_same {β γ : Type*} (f : β → Except Err γ) (e0 : Err) (he : ∀ x e, f x = .error e → e = e0) {l l' : List β} (h : SameFrequencies l l') :
    (∃ r r', l.mapM f = .ok r ∧ l'.mapM f = .ok r' ∧ SameFrequencies r r' ∧ r.length = l.length ∧ r'.length = l'.length) ∨ l.mapM f = .error e0 ∧ l'.mapM f = .error e0 := by
  have hno : ∀ {l : List β} {r : List γ}, r.map Except.ok = l.map f → ∀ x ∈ l, f x ≠ .error e0 := by
    intro l r hr x hx hcon
    have : f x ∈ l.map f := List.mem_map_of_mem hx
    rw [← hr, hcon] at this
    simp at this
  rcases mapM_uniform f e0 he l with ⟨r, h1, h2⟩ | ⟨⟨x, hx, hxe⟩, h1⟩ <;> rcases mapM_uniform f e0 he l' with ⟨r', h3, h4⟩ | ⟨⟨x', hx', hxe'⟩, h3⟩
  · refine Or.inl ⟨r, r', h1, h3, SameFrequencies.of_map (f := Except.ok (ε := Err)) (fun a b hab => by injection hab) ?_, by simpa using congrArg List.length h2, by simpa using congrArg List.length h4⟩
    rw [h2, h4]
    exact h.map f
  · exact absurd hxe' (hno h2 x' ((h.mem_iff x').2 hx'))
  · exact absurd hxe (hno h4 x ((h.mem_iff x).1 hx))
  · exact Or.inr ⟨h1, h3⟩

/-- `__probs2crisps` on arrays with the same distribution. -/
theorem probs2crisps_same (enc : Bool → α) (labels : List α) {p p' : Preds α k} (h : SamePreds p p') :
    (∃ r r', probs2crisps enc labels p = .ok r ∧ probs2crisps enc labels p' = .ok r' ∧ SameFrequencies r r') ∨ ∃ e, probs2crisps enc labels p = .error e ∧ probs2crisps enc labels p' = .error e := by
  cases h with
  | crisp h => exact Or.inl ⟨_, _, rfl, rfl, h⟩
  | probs1 h => exact Or.inl ⟨_, _, rfl, rfl, h.map _⟩
  | probs h =>
    let e0 : Err := if k = 0 then .valueError else .indexError
    rcases mapM_same (fun row : Fin k → ℝ => match npArgmax row with
      | some i => takeLabel labels i
      | none => .error .valueError) e0 (by
        intro row e he
        cases ha : npArgmax row with
        | none =>
          have : k = 0 := by
            have h0 := List.argmax_eq_none.1 ha
            simpa using congrArg List.length h0
          rw [ha] at he
          simp only [e0, this, if_true]
          injection he with he
          exact he.symm
        | some i =>
          have : k ≠ 0 := fun h => by subst h; exact i.elim0
          rw [ha] at he
          simp only [e0, this, if_false]
          simp only [takeLabel] at he
          split at he
          · cases he
          · injection he with he
            exact he.symm) h with ⟨r, r', h1, h2, h3, -⟩ | h
    · exact Or.inl ⟨r, r', h1, h2, h3⟩
    · exact Or.inr ⟨_, h⟩

/-- The arrays that reach the answer of a class. -/
def Reaches (probabilistic : Bool) (p : Preds α k) : Prop := probabilistic = false → ∃ l, p = .crisp l

/-- It is enough to look at the answer computed from `predictions_test_`. -/
theorem frequenciesDecide_of (cls : UcClass α k) (P : cls.S → QState α k → Prop)
    (h : ∀ m s p p', P m s → Reaches cls.probabilistic p → SamePreds p p' → cls.answer m s p = cls.answer m s p') : FrequenciesDecide cls P := by
  intro σ D ops enc w e e' s hP
  have key : ∀ X X' pt pt', (∃ p p', usingPredict ops enc w (UcObj.cfg ⟨cls, e, e'⟩) (s.base.classes.getD []) X pt = .ok p
        ∧ usingPredict ops enc w (UcObj.cfg ⟨cls, e, e'⟩) (s.base.classes.getD []) X' pt' = .ok p' ∧ Reaches cls.probabilistic p ∧ SamePreds p p')
      ∨ (∃ x, usingPredict ops enc w (UcObj.cfg ⟨cls, e, e'⟩) (s.base.classes.getD []) X pt = .error x ∧ usingPredict ops enc w (UcObj.cfg ⟨cls, e, e'⟩) (s.base.classes.getD []) X' pt' = .error x)
      → ucPredict ops enc w ⟨cls, e, e'⟩ s X pt = ucPredict ops enc w ⟨cls, e, e'⟩ s X' pt' := by
    intro X X' pt pt' hk
    unfold ucPredict
    cases hs : s.own with
    | none => rfl
    | some m =>
      rcases hk with ⟨p, p', h1, h2, h3, h4⟩ | ⟨x, h1, h2⟩
      · simp only [h1, h2]
        have := h m s.base p p' (hP m hs) h3 h4
        simp only [this]
      · simp only [h1, h2]
  constructor
  · intro X X' p p' hp
    apply key
    cases hpr : cls.probabilistic with
    | true =>
      refine Or.inl ⟨p, p', ?_, ?_, fun hc => (by cases hc), hp⟩ <;> cases e' <;> simp [usingPredict, UcObj.cfg, hpr]
    | false =>
      rcases probs2crisps_same enc (s.base.classes.getD []) hp with ⟨r, r', h1, h2, h3⟩ | ⟨x, h1, h2⟩
      · refine Or.inl ⟨.crisp r, .crisp r', ?_, ?_, fun _ => ⟨r, rfl⟩, .crisp h3⟩ <;> cases e' <;> simp [usingPredict, UcObj.cfg, hpr, h1, h2, Except.map]
      · refine Or.inr ⟨x, ?_, ?_⟩ <;> cases e' <;> simp [usingPredict, UcObj.cfg, hpr, h1, h2, Except.map]
  · intro hrw X X' hX
    apply key
    cases e' with
    | none => exact Or.inr ⟨_, rfl, rfl⟩
    | some j =>
      obtain ⟨⟨g, hg⟩, f, hf⟩ := hrw (w.est j)
      cases hpr : cls.probabilistic with
      | true =>
        refine Or.inl ⟨.probs (X.map f), .probs (X'.map f), ?_, ?_, fun hc => (by cases hc), .probs (hX.map f)⟩ <;> simp [usingPredict, UcObj.cfg, hpr, hf]
      | false =>
        refine Or.inl ⟨.crisp (X.map g), .crisp (X'.map g), ?_, ?_, fun _ => ⟨_, rfl⟩, .crisp (hX.map g)⟩ <;> simp [usingPredict, UcObj.cfg, hpr, hg]

/-- Classes that use labels. -/
theorem frequenciesDecide_crisp (cls : UcClass α k) (P : cls.S → QState α k → Prop) (hpr : cls.probabilistic = false)
    (h : ∀ m s l l', P m s → SameFrequencies l l' → cls.answer m s (.crisp l) = cls.answer m s (.crisp l')) : FrequenciesDecide cls P := by
  apply frequenciesDecide_of
  intro m s p p' hm hr hp
  obtain ⟨l, rfl⟩ := hr hpr
  cases hp with
  | crisp hl => exact h m s _ _ hm hl

/-- Classes that use probabilities. -/
theorem frequenciesDecide_probs (cls : UcClass α k) (P : cls.S → QState α k → Prop)
    (he : ∀ m s, (∀ l, cls.answer m s (.crisp l) = (m, .error .typeError)) ∧ ∀ l, cls.answer m s (.probs1 l) = (m, .error .typeError))
    (h : ∀ m s l l', P m s → SameFrequencies l l' → cls.answer m s (.probs l) = cls.answer m s (.probs l')) : FrequenciesDecide cls P := by
  apply frequenciesDecide_of
  intro m s p p' hm _ hp
  cases hp with
  | crisp hl => rw [(he m s).1, (he m s).1]
  | probs1 hl => rw [(he m s).2, (he m s).2]
  | probs hl => exact h m s _ _ hm hl

theorem classFreqs_same [DecidableEq α] (classes : List α) {l l' : List α} (h : SameFrequencies l l') : classFreqs classes l = classFreqs classes l' := by
  funext i
  have h1 : (l.length : ℝ) ≠ 0 := by simpa using h.1
  have h2 : (l'.length : ℝ) ≠ 0 := by simpa using h.2.1
  unfold classFreqs
  rw [Fl.fin_div _ h1, Fl.fin_div _ h2]
  have := h.2.2 classes[i]
  unfold freq at this
  congr 1
  convert this

theorem colMeans_same {l l' : List (Fin k → ℝ)} (h : SameFrequencies l l') : colMeans l = colMeans l' := by
  funext j
  have h1 : (l.length : ℝ) ≠ 0 := by simpa using h.1
  have h2 : (l'.length : ℝ) ≠ 0 := by simpa using h.2.1
  unfold colMeans
  rw [Fl.fin_div _ h1, Fl.fin_div _ h2, h.average]

section
variable [LinearOrder α]

/-- **C126** for CC. -/
theorem C126_cc : FrequenciesDecide (ccClass (α := α) (k := k)) fun _ _ => True := by
  apply frequenciesDecide_crisp _ _ rfl
  intro m s l l' _ h
  simp only [ccClass, crispLabels, Except.map]
  rw [classFreqs_same _ h]

/-- **C126** for PCC. -/
theorem C126_pcc : FrequenciesDecide (pccClass (α := α) (k := k)) fun _ _ => True := by
  apply frequenciesDecide_probs _ _ fun _ _ => ⟨fun _ => rfl, fun _ => rfl⟩
  intro m s l l' _ h
  simp only [pccClass, probRows, Except.map]
  rw [colMeans_same h]

/-- **C126** for AC, with every distance and every solver. -/
theorem C126_ac (sol : Solvers) (dist : Dist) : FrequenciesDecide (acClass (α := α) (k := k) sol dist) fun _ _ => True := by
  apply frequenciesDecide_crisp _ _ rfl
  intro m s l l' _ h
  simp only [acClass, crispLabels, bind, Except.bind, classFreqs_same _ h]

/-- **C126** for PAC, with every distance and every solver. -/
theorem C126_pac (sol : Solvers) (dist : Dist) : FrequenciesDecide (pacClass (α := α) (k := k) sol dist) fun _ _ => True := by
  apply frequenciesDecide_probs _ _ fun _ _ => ⟨fun _ => rfl, fun _ => rfl⟩
  intro m s l l' _ h
  simp only [pacClass, probRows, bind, Except.bind, colMeans_same h]

/-- **C126** for EM, with every stopping rule. -/
theorem C126_em (eps : ℝ) (maxIter : ℕ) : FrequenciesDecide (emClass (α := α) (k := k) eps maxIter) fun _ _ => True := by
  apply frequenciesDecide_probs _ _ fun _ _ => ⟨fun _ => rfl, fun _ => rfl⟩
  intro m s l l' _ h
  have hstep : ∀ ptr : Fin k → Fl, emStep ptr l = emStep ptr l' := by
    intro ptr
    funext p c
    exact h.average_fl _
  have hloop : ∀ (ptr : Fin k → Fl) (n : ℕ) (st : EMState k), emLoop ptr l eps n st = emLoop ptr l' eps n st := by
    intro ptr n
    induction n with
    | zero => intro st; rfl
    | succ n ih =>
      intro st
      unfold emLoop
      simp only [hstep, ih]
  simp only [emClass, probRows, bind, Except.bind, emPredict, hloop]

/-- **C126** for DeBias. -/
theorem C126_debias : FrequenciesDecide (deBiasClass (α := α)) fun _ _ => True := by
  apply frequenciesDecide_probs _ _ fun _ _ => ⟨fun _ => rfl, fun _ => rfl⟩
  intro m s l l' _ h
  simp only [deBiasClass, probRows, Except.map, deBiasPredict]
  rw [h.average_fl]

theorem countP_same {β : Type*} {l l' : List β} (h : SameFrequencies l l') (p : β → Bool) : (l.countP p : ℝ) / l.length = (l'.countP p : ℝ) / l'.length := by
  have e : ∀ m : List β, (m.countP p : ℝ) = (m.map fun x => if p x then (1 : ℝ) else 0).sum := by
    intro m
    induction m with
    | nil => simp
    | cons x m ih =>
      rw [List.countP_cons, List.map_cons, List.sum_cons, ← ih]
      push_cast
      split_ifs <;> ring
  rw [e, e]
  exact h.average _

theorem npHistogram_same {n : ℕ} (edges : Fin (n + 1) → EReal) {l l' : List ℝ} (h : SameFrequencies l l') (N N' : ℕ) (hN : N = l.length) (hN' : N' = l'.length) :
    ((npHistogram l edges).map fun v b => v b / (N : ℝ)) = (npHistogram l' edges).map fun v b => v b / (N' : ℝ) := by
  subst hN hN'
  unfold npHistogram
  split_ifs
  · simp only [Except.map]
    congr 1
    funext b
    have : ∀ i, histCum l edges i / (l.length : ℝ) = histCum l' edges i / (l'.length : ℝ) := by
      intro i
      unfold histCum
      split_ifs
      · exact countP_same h _
      · exact countP_same h _
    rw [sub_div, sub_div, this, this]
  · rfl

theorem histBlocks_same {X : Type*} {nd nb : ℕ} (att : Fin nd → X → ℝ) (cuts : Fin nd → Fin (nb + 1) → EReal) {l l' : List X} (h : SameFrequencies l l') : histBlocks att cuts l = histBlocks att cuts l' := by
  unfold histBlocks
  congr 1
  funext d
  exact npHistogram_same (cuts d) (h.map (att d)) _ _ (by simp) (by simp)

/-- **C126** for DFy, HDy and MMy, with every distance, every kind of bins and every solver. -/
theorem C126_dfy (ppf : ℝ → EReal) (sv : CvxSolver) (qp : QPSolver) (la : LinAlg k) (fuel : ℕ) (tol : ℝ) (cfg : DfCfg) (distance : DfDistance (nDescriptors k * cfg.nBins)) :
    FrequenciesDecide (dfyClass (α := α) ppf sv qp la fuel tol cfg distance) fun _ _ => True := by
  apply frequenciesDecide_probs _ _ fun _ _ => ⟨fun _ => rfl, fun _ => rfl⟩
  intro m s l l' _ h
  simp only [dfyClass, probRows, bind, Except.bind, dfyTest, dfTest, histBlocks_same _ _ h]

/-- **C126** for FriedmanME. -/
theorem C126_friedman (sv : CvxSolver) (qp : QPSolver) (la : LinAlg k) (fuel : ℕ) (tol : ℝ) (distance : DfDistance k) :
    FrequenciesDecide (friedmanClass (α := α) sv qp la fuel tol distance) fun _ _ => True := by
  apply frequenciesDecide_probs _ _ fun _ _ => ⟨fun _ => rfl, fun _ => rfl⟩
  intro m s l l' _ h
  have : ∀ f : FriedmanFit k, friedmanTest f l = friedmanTest f l' := by
    intro f
    funext j
    exact (h.map (friedmanRow f.prevs)).average _
  simp only [friedmanClass, probRows, this]

/-- **C126** for EDy. -/
theorem C126_edy {n : ℕ} (qp : QPSolver) (la : LinAlg n) (fuel : ℕ) (d : (Fin (n + 1) → ℝ) → (Fin (n + 1) → ℝ) → ℝ) : FrequenciesDecide (edyClass (α := α) qp la fuel d) fun _ _ => True := by
  apply frequenciesDecide_probs _ _ fun _ _ => ⟨fun _ => rfl, fun _ => rfl⟩
  intro m s l l' _ h
  have : edPredict qp d m l = edPredict qp d m l' := by
    refine h.ind (fun l => edPredict qp d m l) (fun a b _ hp => ?_) fun a r _ hr => C79_repetition_irrelevant qp d m a r hr
    unfold edPredict
    rw [edKt_perm d _ hp]
  simp only [edyClass, probRows, bind, Except.bind, this]

/-- **C126** for ACOrdinal. -/
theorem C126_aco (sv : CvxSolver) : FrequenciesDecide (acoClass (α := α) (k := k) sv) fun _ _ => True := by
  apply frequenciesDecide_crisp _ _ rfl
  intro m s l l' _ h
  simp only [acoClass, crispLabels, classFreqs_same _ h]

/-- **C126** for PDFOrdinaly. -/
theorem C126_pdfo (sv : CvxSolver) (qp : QPSolver) (la : LinAlg k) (fuel nBins : ℕ) (method : OrdMethod) (dist : OrdDist) :
    FrequenciesDecide (pdfoClass (α := α) sv qp la fuel nBins method dist) fun _ _ => True := by
  apply frequenciesDecide_probs _ _ fun _ _ => ⟨fun _ => rfl, fun _ => rfl⟩
  intro m s l l' _ h
  have hs : (∃ r r', ordScores method l = .ok r ∧ ordScores method l' = .ok r' ∧ SameFrequencies r r' ∧ r.length = l.length ∧ r'.length = l'.length) ∨ ∃ e, ordScores method l = .error e ∧ ordScores method l' = .error e := by
    cases method with
    | fullProbabilistic => exact Or.inl ⟨_, _, rfl, rfl, h.map _, by simp, by simp⟩
    | winnerNode =>
      rcases mapM_same winnerScore .indexError (by
        intro row e he
        unfold winnerScore at he
        simp only at he
        split_ifs at he
        all_goals
          injection he with he
          exact he.symm) h with h | h
      · exact Or.inl h
      · exact Or.inr ⟨_, h⟩
    | other => exact Or.inr ⟨_, rfl, rfl⟩
  have : pdfoPredict sv qp method dist m l = pdfoPredict sv qp method dist m l' := by
    rcases hs with ⟨r, r', h1, h2, h3, h4, h5⟩ | ⟨e, h1, h2⟩
    · have hh : (∃ e, ordHistogram nBins k r = .error e ∧ ordHistogram nBins k r' = .error e)
          ∨ ∃ v v', ordHistogram nBins k r = .ok v ∧ ordHistogram nBins k r' = .ok v' ∧ (fun b => v b / (l.length : ℝ)) = fun b => v' b / (l'.length : ℝ) := by
        unfold ordHistogram
        cases binEdges (effBins nBins k) 1 k with
        | error e => exact Or.inl ⟨e, rfl, rfl⟩
        | ok edge =>
          have := npHistogram_same (n := effBins nBins k) (fun i => (edge i : EReal)) h3 l.length l'.length h4.symm h5.symm
          simp only at this ⊢
          cases hv : npHistogram r fun i : Fin (effBins nBins k + 1) => (edge i : EReal) with
          | error e =>
            cases hv' : npHistogram r' fun i : Fin (effBins nBins k + 1) => (edge i : EReal) with
            | error e' =>
              rw [hv, hv'] at this
              injection this with this
              exact Or.inl ⟨e, rfl, by rw [this]⟩
            | ok v' => rw [hv, hv'] at this; cases this
          | ok v =>
            cases hv' : npHistogram r' fun i : Fin (effBins nBins k + 1) => (edge i : EReal) with
            | error e' => rw [hv, hv'] at this; cases this
            | ok v' =>
              rw [hv, hv'] at this
              injection this with this
              exact Or.inr ⟨v, v', rfl, rfl, this⟩
      rcases hh with ⟨e, e1, e2⟩ | ⟨v, v', e1, e2, e3⟩
      · cases dist <;> simp only [pdfoPredict, warmPredict, pdfoQ, h1, h2, e1, e2, Except.map]
      · cases dist <;> simp only [pdfoPredict, warmPredict, pdfoQ, h1, h2, e1, e2, e3, Except.map]
    · cases dist <;> simp only [pdfoPredict, warmPredict, pdfoQ, h1, h2]
  simp only [pdfoClass, probRows, this]

/-! ### QUANTy -/

theorem noSmallRemainder_one (N n : ℕ) (hn : 0 < n) (hn' : n < 10000) : NoSmallRemainder N n (fun _ => 1) := by
  intro i _ j _ _ hcon
  simp only [Finset.sum_const, Finset.card_range, nsmul_eq_mul, mul_one] at hcon
  have hnr : (0 : ℝ) < n := by exact_mod_cast hn
  have hnr' : (n : ℝ) < 10000 := by exact_mod_cast hn'
  have e : (i : ℝ) - (j : ℝ) / n * N = (((i * n : ℤ) - (j * N : ℤ) : ℤ) : ℝ) / n := by
    push_cast; field_simp
  rw [e] at hcon
  have h1 : (0 : ℝ) < (((i * n : ℤ) - (j * N : ℤ) : ℤ) : ℝ) := by
    have := mul_pos hcon.1 hnr
    rwa [div_mul_cancel₀ _ hnr.ne'] at this
  have h2 : (1 : ℤ) ≤ (i * n : ℤ) - (j * N : ℤ) := by exact_mod_cast h1
  have h3 : (1 : ℝ) ≤ (((i * n : ℤ) - (j * N : ℤ) : ℤ) : ℝ) := by exact_mod_cast h2
  have h4 := hcon.2
  rw [div_le_iff₀ hnr] at h4
  linarith

/-- The sums of the groups of a sample without weights. -/
theorem quantLoop_one (n N : ℕ) (hn : 0 < n) (hn' : n < 10000) (x : ℕ → ℝ) (j : ℕ) :
    (quantLoop (cutpoint n N) n x (fun _ => 1) N).q j = ∑ i ∈ Finset.range N, x i * ov (i : ℝ) ((i : ℝ) + 1) (edge n N j) (edge n N (j + 1)) := by
  have h := (quantLoop_spec n N hn x (fun _ => 1) (fun _ _ => zero_le_one) N le_rfl (fun i hi => by simpa using hi)
    fun i hi k hk => noSmallRemainder_one N n hn hn' i hi (k + 1) (by omega) (by omega)).1 j
  simpa using h

theorem ov_scale {r : ℝ} (hr : 0 ≤ r) (l u a b : ℝ) : ov (r * l) (r * u) (r * a) (r * b) = r * ov l u a b := by
  unfold ov
  rw [← mul_min_of_nonneg _ _ hr, ← mul_max_of_nonneg _ _ hr, ← mul_sub, ← mul_zero r, ← mul_max_of_nonneg _ _ hr, mul_zero]

/-- Repeating every element `r` times multiplies the sums of the groups by `r`. -/
theorem group_repeat (r : ℕ) (hr : 0 < r) (x : ℕ → ℝ) (a b : ℝ) (hab : a ≤ b) (N : ℕ) :
    ∑ i ∈ Finset.range (r * N), x (i / r) * ov (i : ℝ) ((i : ℝ) + 1) (r * a) (r * b) = r * ∑ i ∈ Finset.range N, x i * ov (i : ℝ) ((i : ℝ) + 1) a b := by
  have hr0 : (0 : ℝ) ≤ r := Nat.cast_nonneg r
  induction N with
  | zero => simp
  | succ N ih =>
    rw [Nat.mul_succ, Finset.sum_range_add, ih, Finset.sum_range_succ, mul_add]
    congr 1
    have e : ∀ t ∈ Finset.range r, x ((r * N + t) / r) * ov ((r * N + t : ℕ) : ℝ) (((r * N + t : ℕ) : ℝ) + 1) (r * a) (r * b)
        = x N * ov (r * a) (r * b) ((fun t : ℕ => (r : ℝ) * N + t) t) ((fun t : ℕ => (r : ℝ) * N + t) (t + 1)) := by
      intro t ht
      have : (r * N + t) / r = N := by
        rw [Nat.mul_add_div hr, Nat.div_eq_of_lt (Finset.mem_range.1 ht), add_zero]
      rw [this, ov_comm]
      push_cast
      ring_nf
    rw [Finset.sum_congr rfl e, ← Finset.mul_sum, ov_sum (mul_le_mul_of_nonneg_left hab hr0) (fun t : ℕ => (r : ℝ) * N + t) r fun k _ => by push_cast; linarith, ov_comm]
    have : ov ((r : ℝ) * N + (0 : ℕ)) ((r : ℝ) * N + r) (r * a) (r * b) = r * ov (N : ℝ) ((N : ℝ) + 1) a b := by
      rw [← ov_scale hr0]
      congr 1
      · push_cast; ring
      · ring
    rw [this]
    ring

/-- Repeating the elements of a list one by one. -/
theorem getD_repeat (r : ℕ) (hr : 0 < r) (S : List ℝ) (i : ℕ) : (S.flatMap (List.replicate r)).getD i 0 = S.getD (i / r) 0 := by
  induction S generalizing i with
  | nil => simp
  | cons a S ih =>
    rw [List.flatMap_cons]
    by_cases h : i < r
    · rw [List.getD_append _ _ _ _ (by simpa using h), Nat.div_eq_of_lt h]
      rw [List.getD_eq_getElem _ _ (by simpa using h)]
      simp
    · rw [List.getD_append_right _ _ _ _ (by simpa using h), ih]
      obtain ⟨t, rfl⟩ := Nat.exists_eq_add_of_le (not_lt.1 h)
      rw [List.length_replicate, Nat.add_sub_cancel_left, Nat.add_div_left _ hr]
      simp

/-- The sorted probabilities of a repeated bag. -/
theorem mergeSort_repeat (r : ℕ) (bag : List ℝ) :
    ((List.replicate r bag).flatten).mergeSort (fun a b => decide (a ≤ b)) = (bag.mergeSort fun a b => decide (a ≤ b)).flatMap (List.replicate r) := by
  classical
  have hs : ∀ b : List ℝ, (b.mergeSort fun a b => decide (a ≤ b)).Pairwise fun a b => a ≤ b := fun b => by
    simpa using List.pairwise_mergeSort (le := fun a b : ℝ => decide (a ≤ b)) (by simpa using fun a b c => le_trans) (by simpa using le_total) b
  have hf : ∀ S : List ℝ, S.Pairwise (fun a b => a ≤ b) → (S.flatMap (List.replicate r)).Pairwise fun a b => a ≤ b := by
    intro S hS
    induction S with
    | nil => simp
    | cons a S ih =>
      rw [List.pairwise_cons] at hS
      rw [List.flatMap_cons, List.pairwise_append]
      refine ⟨List.pairwise_replicate.2 (Or.inr le_rfl), ih hS.2, fun x hx z hz => ?_⟩
      obtain ⟨c, hc, hz⟩ := List.mem_flatMap.1 hz
      rw [List.eq_of_mem_replicate hx, List.eq_of_mem_replicate hz]
      exact hS.1 c hc
  refine List.Perm.eq_of_pairwise (le := fun a b => a ≤ b) (fun a b _ _ h1 h2 => le_antisymm h1 h2) (hs _) (hf _ (hs _)) ((List.mergeSort_perm _ _).trans ?_)
  rw [List.perm_iff_count]
  intro a
  rw [count_flatten_replicate, ← (List.mergeSort_perm bag fun a b => decide (a ≤ b)).count_eq a]
  generalize bag.mergeSort (fun a b => decide (a ≤ b)) = S
  induction S with
  | nil => simp
  | cons b S ih =>
    rw [List.flatMap_cons, List.count_append, ← ih, List.count_replicate, List.count_cons]
    split_ifs <;> ring

/-- The quantiles of a bag do not depend on order or repetition. -/
theorem computeQuantiles_same {L : Type*} [DecidableEq L] (n : ℕ) (hn' : n < 10000) (d : L) {bag bag' : List ℝ} (h : SameFrequencies bag bag') :
    computeQuantiles none bag.length (fun i => (bag.mergeSort (fun a b => decide (a ≤ b))).getD i 0) n (fun _ => d) d d
      = computeQuantiles none bag'.length (fun i => (bag'.mergeSort (fun a b => decide (a ≤ b))).getD i 0) n (fun _ => d) d d := by
  refine h.ind (fun b => computeQuantiles none b.length (fun i => (b.mergeSort (fun a b => decide (a ≤ b))).getD i 0) n (fun _ => d) d d) (fun b b' _ hp => ?_) fun b r hb hr => ?_
  · have hs : (b.mergeSort fun a b => decide (a ≤ b)) = b'.mergeSort fun a b => decide (a ≤ b) := by
      refine List.Perm.eq_of_pairwise (le := fun a b => a ≤ b) (fun a b _ _ h1 h2 => le_antisymm h1 h2) ?_ ?_
        ((List.mergeSort_perm _ _).trans (hp.trans (List.mergeSort_perm _ _).symm))
      · simpa using List.pairwise_mergeSort (le := fun a b : ℝ => decide (a ≤ b)) (by simpa using fun a b c => le_trans) (by simpa using le_total) b
      · simpa using List.pairwise_mergeSort (le := fun a b : ℝ => decide (a ≤ b)) (by simpa using fun a b c => le_trans) (by simpa using le_total) b'
    rw [hs, hp.length_eq]
  · unfold computeQuantiles
    split_ifs with hn
    · rfl
    · congr 1
      funext j
      have hn0 : 0 < n := Nat.pos_of_ne_zero hn
      have hr0 : 0 < r := Nat.pos_of_ne_zero hr
      have hb0 : (0 : ℝ) < b.length := by exact_mod_cast List.length_pos_iff.2 hb
      have hw : ∀ N, quantileWeight none N (fun _ => d) d d = fun _ => 1 := fun _ => rfl
      have hcp : ∀ N : ℕ, cutpoint n N 0 = (N : ℝ) / n := fun N => by unfold cutpoint; push_cast; ring
      have hnr : (0 : ℝ) < n := by exact_mod_cast hn0
      have hrr : (0 : ℝ) < r := by exact_mod_cast hr0
      rw [hw, hw, quantLoop_one _ _ hn0 hn', quantLoop_one _ _ hn0 hn', mergeSort_repeat, length_flatten_replicate, hcp, hcp, Fl.fin_div _ (by push_cast; positivity), Fl.fin_div _ (by positivity)]
      simp only [getD_repeat r hr0]
      have he : ∀ t, edge n (r * b.length) t = r * edge n b.length t := fun t => by unfold edge; push_cast; ring
      rw [he, he, group_repeat r hr0 (fun i => (b.mergeSort fun a b => decide (a ≤ b)).getD i 0) _ _ (edge_mono (by omega))]
      push_cast
      rw [mul_div_assoc (r : ℝ) (b.length : ℝ), mul_div_mul_left _ _ hrr.ne']

/-- **C126** for QUANTy, with fewer than 10000 quantiles. -/
theorem C126_quanty (k : ℕ) (sort : List (ℝ × α) → List (ℝ × α)) (n : ℕ) (hn : n < 10000) (dist : (Fin n → Fl) → (Fin n → Fl) → Fl) (tol : ℝ) (d : α) :
    FrequenciesDecide (quantyClass k sort n dist tol d) fun _ _ => True := by
  apply frequenciesDecide_probs _ _ fun _ _ => ⟨fun _ => rfl, fun _ => rfl⟩
  intro m s l l' _ h
  have := computeQuantiles_same n hn d (h.map fun r => r 1)
  simp only [quantyClass, probRows, quantyPredict, mixPredict, quantyQ, this, List.map_eq_nil_iff, h.1, h.2.1]

/-- **C126, partial**, for CvMy: the order of the examples of the bag does not matter. Missing: that repeating the bag does not matter either; it does, see `C126_cvmy_repetition_refuted`. -/
theorem C126_cvmy_order_partial {n : ℕ} (qp : QPSolver) (la : LinAlg n) (fuel : ℕ) (d : (Fin (n + 1) → ℝ) → (Fin (n + 1) → ℝ) → ℝ) (ops : EstOps σ D α (n + 1)) (enc : Bool → α) (w : World σ D α) (e e' : Option ℕ)
    (s : UcState ⟨cvmyClass (α := α) qp la fuel d, e, e'⟩) (X X' : List D) (l l' : List (Fin (n + 1) → ℝ)) (h : l.Perm l') :
    ucPredict ops enc w ⟨cvmyClass qp la fuel d, e, e'⟩ s X (some (.probs l)) = ucPredict ops enc w ⟨cvmyClass qp la fuel d, e, e'⟩ s X' (some (.probs l')) := by
  have hu : ∀ X p, usingPredict ops enc w (UcObj.cfg ⟨cvmyClass (α := α) qp la fuel d, e, e'⟩) (s.base.classes.getD []) X (some p) = .ok p := by
    intro X p
    cases e' <;> simp [usingPredict, UcObj.cfg, cvmyClass]
  have hr : ∀ (tr : List (Fin (n + 1) → ℝ)), rankRow (tr ++ l) = rankRow (tr ++ l') := by
    intro tr
    funext row i
    unfold rankRow rankdata
    have hp := ((h.append_left tr).map fun r : Fin (n + 1) → ℝ => r i)
    rw [hp.countP_eq, hp.countP_eq]
  have hc : ∀ (cl : Fin (n + 1) → α) (y : List α) (tr : List (Fin (n + 1) → ℝ)), cvmPredict la fuel qp d cl y tr l = cvmPredict la fuel qp d cl y tr l' := by
    intro cl y tr
    unfold cvmPredict
    simp only [hr tr]
    congr 1
    funext f
    unfold edPredict
    rw [edKt_perm d _ (h.map _)]
  unfold ucPredict
  cases s.own with
  | none => rfl
  | some m =>
    simp only [hu]
    simp only [cvmyClass, probRows, bind, Except.bind, hc]

end

/-! ### Quantifiers without classifiers -/

/-- **C126** for DFX and HDX: the distribution computed from the bag, which is all that `predict` uses of it, and with it the answer. -/
theorem C126_dfx {nf nc : ℕ} (cfg : DfCfg) (fit : DfFit nf cfg.nBins nc) (sv : CvxSolver) (qp : QPSolver) (tol : ℝ) (distance : DfDistance (nf * cfg.nBins)) (par : QPParams nc (nc + 1)) {X X' : List (Fin nf → ℝ)} (h : SameFrequencies X X') :
    dfxTest cfg fit X = dfxTest cfg fit X' ∧ (dfxTest cfg fit X >>= dfSolve sv qp tol distance fit.train par) = (dfxTest cfg fit X' >>= dfSolve sv qp tol distance fit.train par) := by
  have : dfxTest cfg fit X = dfxTest cfg fit X' := by
    unfold dfxTest dfTest
    rw [histBlocks_same _ _ h]
  exact ⟨this, by rw [this]⟩

/-- **C126** for EDX, with every distance between examples. -/
theorem C126_edx {n : ℕ} {P : Type} (qp : QPSolver) (d : P → P → ℝ) (f : EDFit P n) {X X' : List P} (h : SameFrequencies X X') : edPredict qp d f X = edPredict qp d f X' := by
  refine h.ind (fun l => edPredict qp d f l) (fun a b _ hp => ?_) fun a r _ hr => C79_repetition_irrelevant qp d f a r hr
  unfold edPredict
  rw [edKt_perm d _ hp]

/-- **C126** for PWKQ: the nearest neighbours of the examples of the bag decide the answer, and only through their frequencies. -/
theorem C126_pwkq [LinearOrder α] (sol : Solvers) (f : ACFit α) (zero : α) (y : List α) {bag bag' : List (List (Fin y.length))} (h : SameFrequencies bag bag') :
    pwkqPredict sol f (pwkPredict zero y bag) = pwkqPredict sol f (pwkPredict zero y bag') := by
  have hs : npUnique (bag.flatten.map fun i => y[i]) = npUnique (bag'.flatten.map fun i => y[i]) := by
    unfold npUnique
    congr 1
    ext a
    simp only [List.mem_toFinset, List.mem_map, List.mem_flatten]
    constructor
    · rintro ⟨i, ⟨l, hl, hi⟩, rfl⟩
      exact ⟨i, ⟨l, (h.mem_iff l).1 hl, hi⟩, rfl⟩
    · rintro ⟨i, ⟨l, hl, hi⟩, rfl⟩
      exact ⟨i, ⟨l, (h.mem_iff l).2 hl, hi⟩, rfl⟩
  unfold pwkPredict
  simp only [hs]
  unfold pwkqPredict
  simp only [classFreqs_same _ (h.map _)]

/-! ### SORDy -/

theorem ecdf_same {l l' : List ℝ} (h : SameFrequencies l l') (t : ℝ) : ecdf l t = ecdf l' t := by
  unfold ecdf
  exact countP_same h _

theorem labelsOf_npTile [LinearOrder α] (y : List α) (r : ℕ) (hr : r ≠ 0) : labelsOf (npTile y r) = labelsOf y := by
  unfold labelsOf npTile
  congr 1
  ext a
  simp [hr]

theorem sordyPredict_same (sort : List (ℝ × ℤ) → List (ℝ × ℤ)) (hsort : IsSort sort) (tol : ℝ) (y : List ℤ) (probs : List ℝ) (hlen : probs.length = y.length) (c0 c1 : ℤ) (hcls : labelsOf y = [c0, c1])
    {test test' : List ℝ} (h : SameFrequencies test test') : sordyPredict sort tol ⟨[c0, c1], sort (probs.zip y)⟩ test = sordyPredict sort tol ⟨[c0, c1], sort (probs.zip y)⟩ test' := by
  have key : ∀ t : List ℝ, t ≠ [] → sordyUnion sort ⟨[c0, c1], sort (probs.zip y)⟩ t ≠ [] ∧ ∀ p, sordyLoss [c0, c1] (sordyUnion sort ⟨[c0, c1], sort (probs.zip y)⟩ t) p
      = Fl.fin (∫ x, |(1 - p) * ecdf (scoresOf (probs.zip y) c0) x + p * ecdf (scoresOf (probs.zip y) c1) x - ecdf t x|) := by
    intro t ht
    obtain ⟨hU, u0, u1, u2⟩ := sordy_union sort hsort y probs hlen c0 c1 hcls t ht
    refine ⟨fun he => hU.neg (by rw [he]; rfl), fun p => ?_⟩
    obtain ⟨_, v, h1, h2, _⟩ := C36_sord_is_wasserstein _ c0 c1 (c1 + 1) hU (hsort _).2 p
    unfold sordyLoss
    rw [h1, h2]
    simp only [u0, u1, u2]
  obtain ⟨a1, a2⟩ := key test h.1
  obtain ⟨b1, b2⟩ := key test' h.2.1
  unfold sordyPredict
  simp only [if_neg a1, if_neg b1]
  have : sordyLoss [c0, c1] (sordyUnion sort ⟨[c0, c1], sort (probs.zip y)⟩ test) = sordyLoss [c0, c1] (sordyUnion sort ⟨[c0, c1], sort (probs.zip y)⟩ test') := by
    funext p
    rw [a2, b2]
    simp only [ecdf_same h]
  rw [this]

/-- What a `fit` of SORDy that returned leaves in the object. -/
theorem sordy_fitted {k : ℕ} (sort : List (ℝ × ℤ) → List (ℝ × ℤ)) (tol : ℝ) (ops : EstOps σ D ℤ (k + 2)) (enc : Bool → ℤ) (w w' : World σ D ℤ) (e e' : Option ℕ)
    (s0 s : UcState ⟨sordyClass k sort tol, e, e'⟩) (X : List D) (y : List ℤ) (pt : Option (Preds ℤ (k + 2))) (hfit : ucFit ops enc w ⟨sordyClass k sort tol, e, e'⟩ s0 X y pt = (w', s, none)) :
    ∃ (p : List (Fin (k + 2) → ℝ)) (ye : List ℤ) (cl : List ℤ), s.own = some (⟨cl, sort ((p.map fun r => r 1).zip ye)⟩ : SordyFit) ∧ s.base = ⟨some (labelsOf y), some (.probs p), some ye⟩ ∧ ye.length = p.length
      ∧ (ye = y ∨ ye = npTile y (p.length / y.length)) := by
  -- `super().fit` returned
  cases hU : usingFit ops enc w (UcObj.cfg ⟨sordyClass k sort tol, e, e'⟩) s0.base X y pt with
  | mk w1 r =>
    obtain ⟨b, err⟩ := r
    simp only [ucFit] at hfit
    rw [show (sordyClass k sort tol).pre y = none from rfl] at hfit
    simp only [hU] at hfit
    cases err with
    | some x => simp only [Prod.mk.injEq] at hfit; exact absurd hfit.2.2 (by simp)
    | none =>
      simp only at hfit
      cases hL : (sordyClass k sort tol).learn s0.own y b with
      | error x => rw [hL] at hfit; simp only [Prod.mk.injEq] at hfit; exact absurd hfit.2.2 (by simp)
      | ok m =>
        rw [hL] at hfit
        simp only [Prod.mk.injEq] at hfit
        obtain ⟨rfl, rfl, -⟩ := hfit
        -- the inherited attributes
        unfold usingFit at hU
        simp only at hU
        split_ifs at hU with h1 h2
        · simp only [Prod.mk.injEq] at hU
          exact absurd hU.2.2 (by simp)
        · split at hU
          · simp only [Prod.mk.injEq] at hU
            exact absurd hU.2.2 (by simp)
          · rename_i p hp
            split at hU
            · simp only [Prod.mk.injEq] at hU
              exact absurd hU.2.2 (by simp)
            · rename_i ye hye
              simp only [Prod.mk.injEq] at hU
              obtain ⟨-, rfl, -⟩ := hU
              simp only [sordyClass, trainData, bind, Except.bind] at hL
              split_ifs at hL with h3
              cases p with
              | crisp l => simp [probRows] at hL
              | probs1 l => simp [probRows] at hL
              | probs p =>
                simp only [probRows] at hL
                split_ifs at hL with h4
                refine ⟨p, ye, npUnique y, congrArg some (Except.ok.inj hL).symm, rfl, h4, ?_⟩
                unfold extendLabels at hye
                split_ifs at hye with h5 h6
                · exact Or.inl (Except.ok.inj hye).symm
                · exact Or.inr (Except.ok.inj hye).symm
        · exact absurd rfl h2

/-- **C126** for SORDy, after any `fit` that returned, on data with two classes and at least one prediction. -/
theorem C126_sordy {k : ℕ} (sort : List (ℝ × ℤ) → List (ℝ × ℤ)) (hsort : IsSort sort) (tol : ℝ) (ops : EstOps σ D ℤ (k + 2)) (enc : Bool → ℤ) (w w' : World σ D ℤ) (e e' : Option ℕ)
    (s0 s : UcState ⟨sordyClass k sort tol, e, e'⟩) (X : List D) (y : List ℤ) (pt : Option (Preds ℤ (k + 2))) (hfit : ucFit ops enc w ⟨sordyClass k sort tol, e, e'⟩ s0 X y pt = (w', s, none))
    (hy : (labelsOf y).length = 2) (hne : ∀ p, s.base.predsTrain = some p → p.len ≠ 0) :
    (∀ Xt Xt' p p', SamePreds p p' → ucPredict ops enc w' ⟨sordyClass k sort tol, e, e'⟩ s Xt (some p) = ucPredict ops enc w' ⟨sordyClass k sort tol, e, e'⟩ s Xt' (some p'))
    ∧ (RowWise ops → ∀ Xt Xt', SameFrequencies Xt Xt' → ucPredict ops enc w' ⟨sordyClass k sort tol, e, e'⟩ s Xt none = ucPredict ops enc w' ⟨sordyClass k sort tol, e, e'⟩ s Xt' none) := by
  obtain ⟨p, ye, cl, h1, h2, h3, h4⟩ := sordy_fitted sort tol ops enc w w' e e' s0 s X y pt hfit
  have hp : p.length ≠ 0 := hne (.probs p) (by rw [h2])
  have hye : labelsOf ye = labelsOf y := by
    rcases h4 with rfl | rfl
    · rfl
    · apply labelsOf_npTile
      intro h0
      rw [h0] at h3
      exact hp (by simpa [npTile] using h3.symm)
  obtain ⟨c0, c1, hc⟩ := List.length_eq_two.1 hy
  have hP : FrequenciesDecide (sordyClass k sort tol) fun m b => m = (⟨cl, sort ((p.map fun r => r 1).zip ye)⟩ : SordyFit) ∧ b = ⟨some (labelsOf y), some (.probs p), some ye⟩ := by
    apply frequenciesDecide_probs _ _ fun _ _ => ⟨fun _ => rfl, fun _ => rfl⟩
    rintro m b l l' ⟨rfl, rfl⟩ h
    have := sordyPredict_same sort hsort tol ye (p.map fun r => r 1) (by simpa using h3.symm) c0 c1 (hye.trans hc) (h.map fun r => r 1)
    simp only [sordyClass, probRows, bind, Except.bind, hc, Option.getD_some, this]
  exact hP σ D ops enc w' e e' s fun m hm => ⟨by rw [h1] at hm; exact (Option.some.inj hm).symm, h2⟩


/-! ### CvMy -/

/-- The training predictions of the counterexample: one certain example of each class. -/
def cvTrain : List (Fin 2 → ℝ) := [![1, 0], ![0, 1]]

/-- The bag of the counterexample. -/
noncomputable def cvBag : List (Fin 2 → ℝ) := [![1, 0], ![1/2, 1/2]]

theorem cv_ranks : (cvTrain.map (rankRow (cvTrain ++ cvBag)) = [![7/2, 3/2], ![1, 4]] ∧ cvBag.map (rankRow (cvTrain ++ cvBag)) = [![7/2, 3/2], ![2, 3]])
    ∧ cvTrain.map (rankRow (cvTrain ++ (cvBag ++ cvBag))) = [![5, 2], ![1, 6]] ∧ (cvBag ++ cvBag).map (rankRow (cvTrain ++ (cvBag ++ cvBag))) = [![5, 2], ![5/2, 9/2], ![5, 2], ![5/2, 9/2]] := by
  have h2 : ∀ (l : List (Fin 2 → ℝ)) (a b : ℝ), rankRow l ![a, b] = ![rankdata (l.map fun r => r 0) a, rankdata (l.map fun r => r 1) b] := by
    intro l a b
    funext i
    fin_cases i <;> rfl
  refine ⟨⟨?_, ?_⟩, ?_, ?_⟩ <;>
  · simp only [cvTrain, cvBag, List.cons_append, List.nil_append, List.map_cons, List.map_nil, h2, rankdata, List.countP_cons, List.countP_nil, Matrix.cons_val_zero, Matrix.cons_val_one]
    norm_num

/-- The prevalences that minimise the energy distance for two classes of one example each at distance `a`, when the examples of the bag are on average at distance `b` from the first and `c` from the second. -/
theorem energy_two (d : (Fin 2 → ℝ) → (Fin 2 → ℝ) → ℝ) (train : Fin 2 → List (Fin 2 → ℝ)) (test : List (Fin 2 → ℝ)) (a b c : ℝ) (ha : 0 < a) (h00 : avgDist d (train 0) (train 0) = 0) (h11 : avgDist d (train 1) (train 1) = 0)
    (h01 : avgDist d (train 0) (train 1) = a) (h10 : avgDist d (train 1) (train 0) = a) (hb : avgDist d (train 0) test = b) (hc : avgDist d (train 1) test = c) (p : Fin 2 → ℝ) (hp : IsPrev p) (t : ℝ) (ht0 : 0 ≤ t) (ht1 : t ≤ 1)
    (ht : 2 * a * t = a + b - c) (hmin : ∀ p', IsPrev p' → energyLoss (n := 1) d train test p ≤ energyLoss (n := 1) d train test p') : p = ![1 - t, t] := by
  have hs : p 0 + p 1 = 1 := by simpa [Fin.sum_univ_two] using hp.2
  have e : ∀ q : Fin 2 → ℝ, energyLoss (n := 1) d train test q = 2 * (q 0 * b + q 1 * c) - 2 * q 0 * q 1 * a := by
    intro q
    unfold energyLoss
    rw [Fin.sum_univ_two, Fin.sum_univ_two, Fin.sum_univ_two, Fin.sum_univ_two, h00, h11, h01, h10, hb, hc]
    ring
  have hm := hmin ![1 - t, t] ⟨fun i => by fin_cases i <;> simp [ht0, ht1], by simp [Fin.sum_univ_two]⟩
  rw [e, e] at hm
  simp only [Matrix.cons_val_zero, Matrix.cons_val_one] at hm
  have h0 : p 0 = 1 - p 1 := by linarith
  rw [h0] at hm
  obtain rfl : c = a + b - 2 * a * t := by linarith
  have hz : 2 * a * (p 1 - t) ^ 2 ≤ 0 := by
    have : 2 * ((1 - p 1) * b + p 1 * (a + b - 2 * a * t)) - 2 * (1 - p 1) * p 1 * a - (2 * ((1 - t) * b + t * (a + b - 2 * a * t)) - 2 * (1 - t) * t * a) = 2 * a * (p 1 - t) ^ 2 := by ring
    linarith
  have hz' : (p 1 - t) ^ 2 = 0 := by nlinarith [sq_nonneg (p 1 - t)]
  have h1 : p 1 = t := by have := pow_eq_zero_iff (two_ne_zero) |>.1 hz'; linarith
  funext i
  fin_cases i
  · simp [h0, h1]
  · simp [h1]

theorem cvm_answer (qp : QPSolver) (hqp : ExactQP qp) (la : LinAlg 1) (fuel : ℕ) (bag : List (Fin 2 → ℝ)) (hne : bag ≠ []) (r0 r1 : Fin 2 → ℝ) (test : List (Fin 2 → ℝ)) (htr : cvTrain.map (rankRow (cvTrain ++ bag)) = [r0, r1])
    (hte : bag.map (rankRow (cvTrain ++ bag)) = test) (a b c t : ℝ) (ha : 0 < a) (hd : manhattan r0 r1 = a) (hb : avgDist manhattan [r0] test = b) (hc : avgDist manhattan [r1] test = c) (ht0 : 0 ≤ t) (ht1 : t ≤ 1) (ht : 2 * a * t = a + b - c) :
    cvmPredict la fuel qp manhattan ![(0 : ℤ), 1] [0, 1] cvTrain bag = some (.ok ![1 - t, t]) := by
  set train : Fin (1 + 1) → List (Fin 2 → ℝ) := fun i => classRows [0, 1] [r0, r1] (![(0 : ℤ), 1] i) with htrain
  have t0 : train 0 = [r0] := by simp [htrain, classRows]
  have t1 : train 1 = [r1] := by simp [htrain, classRows]
  have h00 : avgDist manhattan (train 0) (train 0) = 0 := by simp [t0, avgDist, manhattan]
  have h11 : avgDist manhattan (train 1) (train 1) = 0 := by simp [t1, avgDist, manhattan]
  have h01 : avgDist manhattan (train 0) (train 1) = a := by rw [t0, t1]; simpa [avgDist] using hd
  have h10 : avgDist manhattan (train 1) (train 0) = a := by rw [manhattan_comm] at hd; rw [t0, t1]; simpa [avgDist] using hd
  have hsep : Separated manhattan train := by
    intro c hc h0
    have hc' : c 0 + c 1 = 0 := by simpa [Fin.sum_univ_two] using hc
    rw [Fin.sum_univ_two, Fin.sum_univ_two, Fin.sum_univ_two, h00, h11, h01, h10]
    have e1 : c 1 = -c 0 := by linarith
    have e0 : c 0 ≠ 0 := fun h => h0 (by funext i; fin_cases i <;> simp [h, e1])
    have := mul_pos (pow_pos (abs_pos.2 e0) 2) ha
    rw [sq_abs] at this
    rw [e1]
    nlinarith
  obtain ⟨par, p, h1, h2, h3, h4⟩ := C28_energy (n := 1) one_pos qp hqp la manhattan manhattan_comm train test (by intro i; fin_cases i <;> simp [t0, t1]) (by rw [← hte]; simpa using hne) fuel hsep
  rw [energy_two manhattan train test a b c ha h00 h11 h01 h10 (by rw [t0]; exact hb) (by rw [t1]; exact hc) p h3 t ht0 ht1 ht h4] at h2
  unfold cvmPredict edFit
  simp only [htr, hte]
  show Option.map _ (Option.map _ (computeEdParamTrain la fuel (edK manhattan train))) = _
  rw [h1]
  simp only [Option.map_some]
  exact congrArg some h2

/-- **C126** is false of CvMy: the ranks are computed on the training and testing predictions together, so a bag given twice has another answer than the bag given once. Here CvMy, with the default distance and exact solvers, answers
[7/10, 3/10] for a bag and [11/16, 5/16] for the same bag repeated. -/
theorem C126_cvmy_repetition_refuted (qp : QPSolver) (hqp : ExactQP qp) (la : LinAlg 1) (fuel : ℕ) (ops : EstOps σ D ℤ 2) (enc : Bool → ℤ) (w : World σ D ℤ) (e e' : Option ℕ) (X Xt Xt' : List D) :
    SameFrequencies cvBag (cvBag ++ cvBag)
    ∧ ucRun ops enc w ⟨cvmyClass qp la fuel manhattan, e, e'⟩ X [0, 1] (some (.probs cvTrain)) Xt (some (.probs cvBag)) = .ok (some [Fl.fin (7/10), Fl.fin (3/10)])
    ∧ ucRun ops enc w ⟨cvmyClass qp la fuel manhattan, e, e'⟩ X [0, 1] (some (.probs cvTrain)) Xt' (some (.probs (cvBag ++ cvBag))) = .ok (some [Fl.fin (11/16), Fl.fin (5/16)]) := by
  obtain ⟨⟨k1, k2⟩, k3, k4⟩ := cv_ranks
  have hlab : labelsOf [(0 : ℤ), 1] = [0, 1] := labelsOf_eq _ _ (by decide) (by decide)
  have run : ∀ (Xt : List D) (bag : List (Fin 2 → ℝ)) (t : ℝ), cvmPredict la fuel qp manhattan ![(0 : ℤ), 1] [0, 1] cvTrain bag = some (.ok ![1 - t, t])
      → ucRun ops enc w ⟨cvmyClass qp la fuel manhattan, e, e'⟩ X [0, 1] (some (.probs cvTrain)) Xt (some (.probs bag)) = .ok (some [Fl.fin (1 - t), Fl.fin t]) := by
    intro Xt bag t h
    rw [ucRun_given_probs ops enc w X Xt [0, 1] _ rfl rfl e e' (by simp) 1 cvTrain bag (by simp [cvTrain])]
    have hst : stacked [(0 : ℤ), 1] 1 = [0, 1] := by simp [stacked]
    have hcl : ∀ hk : 1 + 1 = (labelsOf [(0 : ℤ), 1]).length, (fun i : Fin (1 + 1) => (labelsOf [(0 : ℤ), 1])[Fin.cast hk i]) = ![(0 : ℤ), 1] := by
      intro hk
      have : ∀ (l : List ℤ) (hl : l = [0, 1]) (hk : 1 + 1 = l.length), (fun i : Fin (1 + 1) => l[Fin.cast hk i]) = ![(0 : ℤ), 1] := by
        rintro l rfl hk
        funext i
        fin_cases i <;> rfl
      exact this _ hlab hk
    have hk : (labelsOf [(0 : ℤ), 1]).length = 1 + 1 := by rw [hlab]; rfl
    simp only [answerOn, learnAnswer, fittedState, cvmyClass, trainData, probRows, columnsAre, if_true, bind, Except.bind, keep, hst, Option.getD_some]
    rw [dif_pos hk]
    simp only [hcl, h, show [(0 : ℤ), 1].length = cvTrain.length from rfl, ne_eq, not_true_eq_false, if_false, Except.map]
    simp [realList]
  refine ⟨?_, ?_, ?_⟩
  · have := SameFrequencies.replicate (l := cvBag) (by simp [cvBag]) (two_ne_zero)
    simpa using this.symm
  · rw [run Xt cvBag (3/10) (cvm_answer qp hqp la fuel cvBag (by simp [cvBag]) _ _ _ k1 k2 5 (3/2) (7/2) (3/10) (by norm_num) ?_ ?_ ?_ (by norm_num) (by norm_num) (by norm_num))]
    · norm_num
    · simp [manhattan, Fin.sum_univ_two]; norm_num
    · simp [avgDist, manhattan, Fin.sum_univ_two]; norm_num
    · simp [avgDist, manhattan, Fin.sum_univ_two]; norm_num
  · rw [run Xt' (cvBag ++ cvBag) (5/16) (cvm_answer qp hqp la fuel (cvBag ++ cvBag) (by simp [cvBag]) _ _ _ k3 k4 8 (5/2) (11/2) (5/16) (by norm_num) ?_ ?_ ?_ (by norm_num) (by norm_num) (by norm_num))]
    · norm_num
    · simp [manhattan, Fin.sum_univ_two]; norm_num
    · simp [avgDist, manhattan, Fin.sum_univ_two]; norm_num
    · simp [avgDist, manhattan, Fin.sum_univ_two]; norm_num

/-! ### Examples -/

/-- A bag and the same bag in another order, given twice. -/
example : SameFrequencies [![(1 : ℝ), 0], ![1/4, 3/4], ![1, 0]] [![1/4, 3/4], ![1, 0], ![1, 0], ![1, 0], ![1, 0], ![1/4, 3/4]] := by
  refine sameFrequencies_iff.2 ⟨by simp, by simp, 2, 1, two_ne_zero, one_ne_zero, ?_⟩
  simp only [List.replicate, List.flatten_cons, List.flatten_nil, List.append_nil, List.cons_append, List.nil_append]
  generalize ![(1 : ℝ), 0] = a
  generalize ![(1/4 : ℝ), 3/4] = b
  classical
  rw [List.perm_iff_count]
  intro c
  simp only [List.count_cons, List.count_nil]
  ring

/-- An estimator that predicts every example by itself. -/
example : ∃ ops : EstOps ℕ ℝ ℤ 2, RowWise ops := by
  classical
  refine ⟨⟨fun _ => false, fun s _ _ => s, fun s X => X.map fun x : ℝ => if x ≤ (s : ℝ) then 0 else 1, fun s X => X.map fun x : ℝ => if x ≤ (s : ℝ) then ![1, 0] else ![0, 1]⟩, fun s => ⟨⟨_, fun _ => rfl⟩, _, fun _ => rfl⟩⟩

/-- A `fit` of SORDy that returns, on two classes. -/
example (sort : List (ℝ × ℤ) → List (ℝ × ℤ)) (tol : ℝ) (ops : EstOps ℕ ℝ ℤ 2) (enc : Bool → ℤ) (w : World ℕ ℝ ℤ) :
    (labelsOf [(0 : ℤ), 1]).length = 2 ∧ ∃ w' s, ucFit ops enc w ⟨sordyClass 0 sort tol, none, none⟩ (ucNew _) [3, 4] [0, 1] (some (.probs [![1, 0], ![0, 1]])) = (w', s, none) ∧ ∀ p, s.base.predsTrain = some p → p.len ≠ 0 := by
  have hlab : labelsOf [(0 : ℤ), 1] = [0, 1] := labelsOf_eq _ _ (by decide) (by decide)
  have hu : npUnique [(0 : ℤ), 1] = [0, 1] := hlab
  refine ⟨by rw [hlab]; rfl, w, ⟨⟨some [0, 1], some (.probs [![1, 0], ![0, 1]]), some [0, 1]⟩, some ⟨[0, 1], sort [(0, 0), (1, 1)]⟩⟩, ?_, ?_⟩
  · simp [ucFit, sordyClass, usingFit, UcObj.cfg, trainPreds, extendLabels, Preds.len, fitIfNeeded, hu, trainData, probRows, bind, Except.bind, pure, Except.pure]
  · rintro p hp
    simp only [Option.some.injEq] at hp
    subst hp
    simp [Preds.len]

end Verif.Props
