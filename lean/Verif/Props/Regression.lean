import Verif.Model.Regression
import Verif.Spec.Regression
import Verif.Proof.Decomp
import Verif.Props.Df
import Verif.Props.Bags2

/-!
# C56 - C58, C89: the regression quantifiers
-/

namespace Verif.Props

open Verif.Model Verif.Spec Verif.Proof

variable {α D G ρ : Type}

/-! ## C56: what `predict` returns -/

theorem clip01_unit (v : Fl) (h : v ≠ .nan) : v.clip01 = .fin (nearestUnit v) := by
  cases v <;> first | rfl | exact absurd rfl h

theorem nearestUnit_mem (v : Fl) : 0 ≤ nearestUnit v ∧ nearestUnit v ≤ 1 := by
  cases v with
  | fin x => exact ⟨le_max_left _ _, max_le zero_le_one (min_le_right _ _)⟩
  | pinf => exact ⟨zero_le_one, le_rfl⟩
  | ninf => exact ⟨le_rfl, zero_le_one⟩
  | nan => exact ⟨le_rfl, zero_le_one⟩

theorem nearestUnit_pos (v : Fl) (h : 0 < v) : 0 < nearestUnit v := by
  cases v with
  | fin x =>
    rw [Fl.zero_def, Fl.fin_lt_fin] at h
    exact lt_max_of_lt_right (lt_min h zero_lt_one)
  | pinf => exact zero_lt_one
  | ninf => exact absurd h id
  | nan => exact absurd h (Fl.not_lt_nan _)

theorem nearestUnit_compl (v : Fl) (h : v ≠ .nan) : (1 - v) ≠ .nan ∧ nearestUnit (1 - v) = 1 - nearestUnit v := by
  cases v with
  | fin x =>
    rw [Fl.one_def, Fl.fin_sub]
    refine ⟨Fl.fin_ne_nan _, ?_⟩
    show max 0 (min (1 - x) 1) = 1 - max 0 (min x 1)
    rcases le_total x 0 with h0 | h0
    · rw [min_eq_right (by linarith), min_eq_left (by linarith), max_eq_left h0, max_eq_right (by norm_num)]; ring
    · rcases le_total x 1 with h1 | h1
      · rw [min_eq_left (by linarith), min_eq_left h1, max_eq_right h0, max_eq_right (by linarith)]
      · rw [min_eq_left (by linarith), min_eq_right h1, max_eq_left (by linarith), max_eq_right (by norm_num)]; ring
  | pinf =>
    have : (1 : Fl) - .pinf = .ninf := rfl
    rw [this]
    exact ⟨by simp, by simp [nearestUnit]⟩
  | ninf =>
    have : (1 : Fl) - .ninf = .pinf := rfl
    rw [this]
    exact ⟨by simp, by simp [nearestUnit]⟩
  | nan => exact absurd rfl h

/-- With two classes: whatever number the regressor returns, the answer is `[1 - p, p]` where `p` is the point of [0,1] nearest to it. -/
theorem binaryAnswer_eq (v : Fl) (h : v ≠ .nan) : regBinaryAnswer v = .ok [.fin (1 - nearestUnit v), .fin (nearestUnit v)] := by
  obtain ⟨h1, h2⟩ := nearestUnit_compl v h
  have e : [(1 - v).clip01, v.clip01] = [.fin (1 - nearestUnit v), .fin (nearestUnit v)] := by
    rw [clip01_unit _ h1, clip01_unit _ h, h2]
  have s : [Fl.fin (1 - nearestUnit v), Fl.fin (nearestUnit v)].sum = .fin 1 := by
    have := Fl.list_sum_fin [1 - nearestUnit v, nearestUnit v]
    simp only [List.map_cons, List.map_nil] at this
    rw [this]
    simp
  unfold regBinaryAnswer
  rw [e]
  rw [if_pos (by rw [s]; exact (Fl.fin_lt_fin _ _).2 zero_lt_one), s]
  simp only [List.map_cons, List.map_nil, Fl.fin_div _ (one_ne_zero (α := ℝ)), div_one]

/-- With two classes and a regressor that returns NaN: ValueError. -/
theorem binaryAnswer_nan : regBinaryAnswer .nan = .error .valueError := by
  unfold regBinaryAnswer
  have s : [((1 : Fl) - .nan).clip01, Fl.clip01 .nan].sum = .nan := rfl
  simp only [s]
  exact if_neg (Fl.not_lt_nan _)

theorem multiAnswer_eq (ps : List Fl) (h : ∀ v ∈ ps, v ≠ .nan) (hpos : ∃ v ∈ ps, 0 < v) :
    0 < (ps.map nearestUnit).sum ∧ regMultiAnswer ps = ps.map fun v => .fin (nearestUnit v / (ps.map nearestUnit).sum) := by
  have hs : 0 < (ps.map nearestUnit).sum := by
    obtain ⟨v, hv, h0⟩ := hpos
    have := List.single_le_sum (l := ps.map nearestUnit) (fun x hx => by
      obtain ⟨w, -, rfl⟩ := List.mem_map.1 hx
      exact (nearestUnit_mem w).1) _ (List.mem_map_of_mem hv)
    exact (nearestUnit_pos v h0).trans_le this
  refine ⟨hs, ?_⟩
  have e : ps.map Fl.clip01 = (ps.map nearestUnit).map Fl.fin := by
    rw [List.map_map]
    exact List.map_congr_left fun v hv => clip01_unit v (h v hv)
  unfold regMultiAnswer
  simp only [e, Fl.list_sum_fin]
  rw [List.map_map, List.map_map]
  refine List.map_congr_left fun v _ => ?_
  simp only [Function.comp, Fl.fin_div _ hs.ne']

theorem list_isPrev (l : List ℝ) (h : ∀ x ∈ l, 0 ≤ x) (hs : l.sum = 1) : IsPrev fun i : Fin l.length => l[i] :=
  ⟨fun i => h _ (List.getElem_mem _), by
    rw [← hs]
    simpa using Fin.sum_univ_fun_getElem l id⟩

/-- The numbers the regressors of a fitted object predict for a bag. -/
noncomputable def regOutputs {nd nb : ℕ} (ops : RegOps ρ (nd * nb)) (regs : ℕ → ρ) (fit : RegFit ρ nd nb) (bagX : Fin (nd * nb) → ℝ) : List Fl :=
  match fit.model with
  | .shared a => [ops.predict (regs a) bagX]
  | .single r => [ops.predict r bagX]
  | .perClass l => l.map fun r => ops.predict r bagX

/-! ## The steps of `fit` -/

theorem regFit_inv [LinearOrder α] {ppf : ℝ → EReal} {rng : Rng G} {fuel nd : ℕ} {w w' : RegWorld G ρ} {cfg : RegCfg} {ops : RegOps ρ (nd * cfg.nBins)} {range : Option (ℝ × ℝ)}
    {att : Fin nd → D → ℝ} {X : List D} {y : List α} {fit : RegFit ρ nd cfg.nBins} (h : regFit ppf rng fuel w cfg ops range att X y = some (w', .ok fit)) :
    ∃ (s' : PriorGen G) (glob' : G) (b : Bags), priorGenerate rng fuel (w.gens cfg.gen) w.glob ⟨y, some X.length⟩ = some (s', glob', .ok b)
      ∧ (seqFin fun d => computeBincuts ppf (X.map (att d)) y (labelsOf y) cfg.nBins cfg.strategy range) = .ok fit.cuts
      ∧ w'.gens = Function.update w.gens cfg.gen s' ∧ w'.glob = glob' ∧ fit.nClasses = (labelsOf y).length ∧ fit.dataY = b.prevs
      ∧ regRows att fit.cuts X s'.nBags b = .ok fit.dataX ∧ regFitRegressor ops w.regs cfg.reg fit.nClasses fit.dataX b.prevs = .ok (w'.regs, fit.model) := by
  unfold regFit at h
  simp only [npUnique_eq_labelsOf] at h
  cases hc : seqFin fun d => computeBincuts ppf (X.map (att d)) y (labelsOf y) cfg.nBins cfg.strategy range with
  | error e => rw [hc] at h; simp at h
  | ok cuts =>
    rw [hc] at h
    simp only [Option.map_eq_some_iff] at h
    obtain ⟨⟨s', glob', r⟩, hg, h⟩ := h
    cases r with
    | error e => simp [regAfterBags] at h
    | ok b =>
      simp only [regAfterBags] at h
      cases hl : regLearn ops w.regs cfg.reg att cuts X (labelsOf y).length s'.nBags b with
      | error e => rw [hl] at h; simp [regFinish] at h
      | ok r =>
        rw [hl] at h
        simp only [regFinish, Prod.mk.injEq, Except.ok.injEq] at h
        obtain ⟨rfl, rfl⟩ := h
        unfold regLearn at hl
        cases hr : regRows att cuts X s'.nBags b with
        | error e => rw [hr] at hl; cases hl
        | ok dataX =>
          rw [hr] at hl
          change (regFitRegressor ops w.regs cfg.reg (labelsOf y).length dataX b.prevs >>= _) = _ at hl
          cases hm : regFitRegressor ops w.regs cfg.reg (labelsOf y).length dataX b.prevs with
          | error e => rw [hm] at hl; cases hl
          | ok m =>
            rw [hm] at hl
            change Except.ok (m.1, _) = _ at hl
            simp only [Except.ok.injEq] at hl
            subst hl
            exact ⟨s', glob', b, hg, rfl, rfl, rfl, rfl, rfl, hr, hm⟩

theorem fitRegressor_inv {m : ℕ} {ops : RegOps ρ m} {regs regs' : ℕ → ρ} {reg : Option ℕ} {n : ℕ} {dataX : List (Fin m → ℝ)} {dataY : List (List Fl)} {model : RegModel ρ}
    (h : regFitRegressor ops regs reg n dataX dataY = .ok (regs', model)) :
    (n = 2 ∧ ∃ ex, regExamples dataX dataY 1 = .ok ex ∧ (regs', model) = regBinaryModel ops regs reg ex) ∨ (n ≠ 2 ∧ regs' = regs ∧ ∃ l : List ρ, l.length = n ∧ model = .perClass l) := by
  unfold regFitRegressor at h
  split_ifs at h with hn
  · cases he : regExamples dataX dataY 1 with
    | error e => rw [he] at h; cases h
    | ok ex =>
      rw [he] at h
      simp only [Except.map, Except.ok.injEq] at h
      exact .inl ⟨hn, ex, rfl, h.symm⟩
  · cases hl : (List.range n).mapM fun c => (regExamples dataX dataY c).map (regClassModel ops regs reg) with
    | error e => rw [hl] at h; cases h
    | ok l =>
      rw [hl] at h
      simp only [Except.map, Except.ok.injEq, Prod.mk.injEq] at h
      refine .inr ⟨hn, h.1.symm, l, ?_, h.2.symm⟩
      have : ∀ (is : List ℕ) (r : List ρ), (is.mapM fun c => (regExamples dataX dataY c).map (regClassModel ops regs reg)) = .ok r → r.length = is.length := by
        intro is
        induction is with
        | nil => intro r h; cases h; rfl
        | cons a is ih =>
          intro r h
          rw [List.mapM_cons] at h
          cases ha : (regExamples dataX dataY a).map (regClassModel ops regs reg) with
          | error e => rw [ha] at h; cases h
          | ok b =>
            rw [ha] at h
            cases hb : is.mapM fun c => (regExamples dataX dataY c).map (regClassModel ops regs reg) with
            | error e => rw [hb] at h; cases h
            | ok bs =>
              rw [hb] at h
              cases h
              simp [ih bs hb]
      rw [this _ _ hl, List.length_range]

/-- A fitted object holds one regressor if there are two classes, otherwise one per class. -/
theorem regOutputs_length [LinearOrder α] {ppf : ℝ → EReal} {rng : Rng G} {fuel nd : ℕ} {w w' : RegWorld G ρ} {cfg : RegCfg} {ops : RegOps ρ (nd * cfg.nBins)} {range : Option (ℝ × ℝ)}
    {att : Fin nd → D → ℝ} {X : List D} {y : List α} {fit : RegFit ρ nd cfg.nBins} (h : regFit ppf rng fuel w cfg ops range att X y = some (w', .ok fit)) :
    ((labelsOf y).length = 2 ∧ ∀ regs bagX, ∃ v, regOutputs ops regs fit bagX = [v] ∧ regPredictBag ops regs fit bagX = regBinaryAnswer v)
      ∨ ((labelsOf y).length ≠ 2 ∧ ∀ regs bagX, (regOutputs ops regs fit bagX).length = (labelsOf y).length ∧ regPredictBag ops regs fit bagX = .ok (regMultiAnswer (regOutputs ops regs fit bagX))) := by
  obtain ⟨s', glob', b, -, -, -, -, hn, -, -, hm⟩ := regFit_inv h
  rcases fitRegressor_inv hm with ⟨h2, ex, -, hb⟩ | ⟨h2, -, l, hl, hml⟩
  · refine .inl ⟨hn ▸ h2, fun regs bagX => ?_⟩
    have : fit.model = (regBinaryModel ops w.regs cfg.reg ex).2 := congrArg Prod.snd hb
    unfold regOutputs regPredictBag
    cases hreg : cfg.reg with
    | none => rw [this, hreg]; exact ⟨_, rfl, rfl⟩
    | some a => rw [this, hreg]; exact ⟨_, rfl, rfl⟩
  · refine .inr ⟨hn ▸ h2, fun regs bagX => ?_⟩
    unfold regOutputs regPredictBag
    rw [hml]
    exact ⟨by rw [List.length_map, hl, hn], rfl⟩

/-- **C56**, two classes: for every fitted object, descriptor of a bag and regressor, the answer is `[1 - p, p]` with `p` in [0,1], the nearest number to the
one the regressor predicts; NaN makes it raise ValueError. -/
theorem C56_reg_binary [LinearOrder α] {ppf : ℝ → EReal} {rng : Rng G} {fuel nd : ℕ} {w w' : RegWorld G ρ} {cfg : RegCfg} {ops : RegOps ρ (nd * cfg.nBins)} {range : Option (ℝ × ℝ)}
    {att : Fin nd → D → ℝ} {X : List D} {y : List α} {fit : RegFit ρ nd cfg.nBins} (h : regFit ppf rng fuel w cfg ops range att X y = some (w', .ok fit)) (h2 : (labelsOf y).length = 2)
    (regs : ℕ → ρ) (bagX : Fin (nd * cfg.nBins) → ℝ) :
    ∃ v, regOutputs ops regs fit bagX = [v]
      ∧ (v = .nan → regPredictBag ops regs fit bagX = .error .valueError)
      ∧ (v ≠ .nan → regPredictBag ops regs fit bagX = .ok [.fin (1 - nearestUnit v), .fin (nearestUnit v)] ∧ IsPrev ![1 - nearestUnit v, nearestUnit v]) := by
  rcases regOutputs_length h with ⟨-, h'⟩ | ⟨h', -⟩
  · obtain ⟨v, hv, ha⟩ := h' regs bagX
    refine ⟨v, hv, fun hn => ?_, fun hn => ⟨ha.trans (binaryAnswer_eq v hn), fun i => ?_, ?_⟩⟩
    · rw [ha, hn, binaryAnswer_nan]
    · obtain ⟨h0, h1⟩ := nearestUnit_mem v
      fin_cases i
      · show 0 ≤ 1 - nearestUnit v
        linarith
      · exact h0
    · simp [Fin.sum_univ_two]
  · exact absurd h2 h'

/-- **C56**, otherwise: one number per class, each the nearest in [0,1] to the one predicted for that class, divided by their total; it is a valid prevalence vector
whenever one of the predicted numbers is positive and none is NaN. -/
theorem C56_reg_multiclass [LinearOrder α] {ppf : ℝ → EReal} {rng : Rng G} {fuel nd : ℕ} {w w' : RegWorld G ρ} {cfg : RegCfg} {ops : RegOps ρ (nd * cfg.nBins)} {range : Option (ℝ × ℝ)}
    {att : Fin nd → D → ℝ} {X : List D} {y : List α} {fit : RegFit ρ nd cfg.nBins} (h : regFit ppf rng fuel w cfg ops range att X y = some (w', .ok fit)) (h2 : (labelsOf y).length ≠ 2)
    (regs : ℕ → ρ) (bagX : Fin (nd * cfg.nBins) → ℝ) (hnan : ∀ v ∈ regOutputs ops regs fit bagX, v ≠ .nan) (hpos : ∃ v ∈ regOutputs ops regs fit bagX, 0 < v) :
    ∃ p : Fin (labelsOf y).length → ℝ, IsPrev p ∧ regPredictBag ops regs fit bagX = .ok (List.ofFn fun c => .fin (p c))
      ∧ ∀ (c : Fin (labelsOf y).length) (v : Fl), (regOutputs ops regs fit bagX)[(c : ℕ)]? = some v → p c = nearestUnit v / ((regOutputs ops regs fit bagX).map nearestUnit).sum := by
  rcases regOutputs_length h with ⟨h', -⟩ | ⟨-, h'⟩
  · exact absurd h' h2
  obtain ⟨hlen, ha⟩ := h' regs bagX
  obtain ⟨hs, he⟩ := multiAnswer_eq _ hnan hpos
  generalize regOutputs ops regs fit bagX = vs at *
  rw [ha, he]
  clear h' ha he h2 h
  generalize (labelsOf y).length = n at *
  subst hlen
  refine ⟨fun c => nearestUnit vs[c] / (vs.map nearestUnit).sum, ⟨fun c => div_nonneg (nearestUnit_mem _).1 hs.le, ?_⟩, ?_, ?_⟩
  · rw [← Finset.sum_div, div_eq_one_iff_eq hs.ne']
    exact Fin.sum_univ_fun_getElem vs nearestUnit
  · congr 1
    apply List.ext_getElem
    · simp
    · intro i h1 h2
      simp
  · intro c v hv
    rw [List.getElem?_eq_getElem c.2] at hv
    simp only [Option.some.injEq] at hv
    simp only [Fin.getElem_fin, hv]

/-- Outside C56: when no regressor predicts a positive number the answer is NaN for every class (0/0). -/
theorem C56_reg_multiclass_nan (ps : List Fl) (h : ∀ v ∈ ps, nearestUnit v = 0) : ∀ x ∈ regMultiAnswer ps, x = .nan := by
  intro x hx
  unfold regMultiAnswer at hx
  obtain ⟨c, hc, rfl⟩ := List.mem_map.1 hx
  obtain ⟨v, hv, rfl⟩ := List.mem_map.1 hc
  by_cases hn : ∃ u ∈ ps, u = .nan
  · have : (ps.map Fl.clip01).sum = .nan := by
      obtain ⟨u, hu, rfl⟩ := hn
      clear h hx hc hv
      induction ps with
      | nil => simp at hu
      | cons a ps ih =>
        rw [List.map_cons, List.sum_cons]
        rcases List.mem_cons.1 hu with rfl | hu
        · exact Fl.nan_add _
        · rw [ih hu]; exact Fl.add_nan _
    rw [this, Fl.div_nan]
  · push Not at hn
    have e : ps.map Fl.clip01 = (ps.map fun _ => (0:ℝ)).map Fl.fin := by
      rw [List.map_map]
      exact List.map_congr_left fun v hv => by rw [clip01_unit v (hn v hv), h v hv]; rfl
    have s0 : (ps.map fun _ => (0:ℝ)).sum = 0 := by simp
    rw [e, Fl.list_sum_fin, clip01_unit v (hn v hv), h v hv, s0]
    exact Fl.zero_div_zero

/-- Three regressors that answer 1/2, -1 and +inf: the answer is (1/3, 0, 2/3). -/
example : regMultiAnswer [.fin (1/2), .fin (-1), .pinf] = [.fin (1/3), .fin 0, .fin (2/3)] := by
  have h := (multiAnswer_eq [.fin (1/2), .fin (-1), .pinf] (by simp) ⟨.pinf, by simp, trivial⟩).2
  rw [h]
  simp only [List.map_cons, List.map_nil, nearestUnit, List.sum_cons, List.sum_nil]
  norm_num

/-! ## C57: the scale of the descriptors -/

theorem mapM_item (X : List D) (idx : List ℕ) (rows : List D) (h : idx.mapM (item X) = .ok rows) : (idx.map fun i => X[i]?) = rows.map some := by
  induction idx generalizing rows with
  | nil => cases h; rfl
  | cons i idx ih =>
    rw [List.mapM_cons] at h
    cases hi : X[i]? with
    | none => simp only [item, hi] at h; cases h
    | some a =>
      have : item X i = .ok a := by simp only [item, hi]
      rw [this] at h
      cases ht : idx.mapM (item X) with
      | error e => rw [ht] at h; cases h
      | ok t =>
        rw [ht] at h
        cases h
        simp [hi, ih t ht]

/-- The descriptor of a training bag: each block is the distribution of the bag times the size of the bag divided by the number of training examples. -/
theorem bagRow_inv {nd nb : ℕ} {att : Fin nd → D → ℝ} {cuts : Fin nd → Fin (nb + 1) → EReal} (hc : ∀ d, CutsOk (cuts d)) {X : List D} {idx : List ℕ} (hidx : idx ≠ []) {row : Fin (nd * nb) → ℝ}
    (h : bagRow att cuts X idx = .ok row) :
    ∃ rows : List D, (idx.map fun i => X[i]?) = rows.map some
      ∧ ∀ d, blockOf row d = fun b => (idx.length : ℝ) / X.length * binShare (cuts d) (rows.map (att d)) b := by
  unfold bagRow at h
  cases hr : idx.mapM (item X) with
  | error e => rw [hr] at h; cases h
  | ok rows =>
    rw [hr] at h
    have hm := mapM_item X idx rows hr
    have hlen : rows.length = idx.length := by simpa using (congrArg List.length hm).symm
    refine ⟨rows, hm, fun d => ?_⟩
    change ((seqFin fun d => (npHistogram (rows.map (att d)) (cuts d)).map fun h b => h b / (X.length : ℝ)) >>= _) = _ at h
    have hs : (seqFin fun d => (npHistogram (rows.map (att d)) (cuts d)).map fun h b => h b / (X.length : ℝ))
        = .ok fun d b => ((rows.map (att d)).map (binInd (cuts d) b)).sum / (X.length : ℝ) := by
      rw [seqFin_ok]
      intro d
      rw [npHistogram_eq _ _ (hc d).mono]
      rfl
    rw [hs] at h
    cases h
    rw [blockOf_stack]
    funext b
    have hpos : (idx.length : ℝ) ≠ 0 := by exact_mod_cast (List.length_pos_iff.2 hidx).ne'
    rw [← binInd_share (cuts d) (hc d), List.length_map, hlen]
    field_simp

theorem testRow_eq {nd nb : ℕ} (att : Fin nd → D → ℝ) (cuts : Fin nd → Fin (nb + 1) → EReal) (hc : ∀ d, CutsOk (cuts d)) (rows : List D) :
    ∃ q, regTestRow att cuts rows = .ok q ∧ ∀ d, blockOf q d = binShare (cuts d) (rows.map (att d)) := by
  refine ⟨_, by unfold regTestRow; rw [histBlocks_eq att cuts (fun d => (hc d).mono) rows]; rfl, fun d => ?_⟩
  rw [blockOf_stack]
  funext b
  rw [← binInd_share (cuts d) (hc d), List.map_map, List.length_map]
  rfl

theorem blockOf_ext {nd nb : ℕ} {u v : Fin (nd * nb) → ℝ} (h : ∀ d, blockOf u d = blockOf v d) : u = v := by
  funext i
  have := congrFun (h (finProdFinEquiv.symm i).1) (finProdFinEquiv.symm i).2
  simpa only [blockOf, Prod.mk.eta, Equiv.apply_symm_apply] using this

theorem priorGenerate_nBags [LinearOrder α] {rng : Rng G} {fuel : ℕ} {s s' : PriorGen G} {glob glob' : G} {d : BagData α} {r : Except Err Bags} (h : priorGenerate rng fuel s glob d = some (s', glob', r)) :
    s'.nBags = s.nBags := by
  have hu : ∀ (s : PriorGen G) bs g r, generateUniform rng fuel s bs g d = some r → r.1.nBags = s.nBags := by
    intro s bs g r h
    unfold generateUniform at h
    split at h
    · cases h; rfl
    · split at h
      · cases h; rfl
      · simp only at h
        split at h
        · cases h; rfl
        · rw [Option.map_eq_some_iff] at h
          obtain ⟨x, -, rfl⟩ := h
          rfl
  have hd : ∀ (s : PriorGen G) bs g gl, (generateDirichlet rng s bs g gl d).1.nBags = s.nBags := by
    intro s bs g gl
    unfold generateDirichlet
    simp only
    split
    · rfl
    · split
      · rfl
      · split <;> rfl
  have core : ∀ (s1 : PriorGen G) (bs : ℕ) (g : G), s1.nBags = s.nBags →
      (match s1.method with
      | .uniform => (generateUniform rng fuel s1 bs g d).map fun r =>
          (r.1, glob, match r.2, r.1.bags with
            | some e, _ => Except.error e
            | none, some b => .ok b
            | none, none => .error .typeError)
      | .dirichlet =>
        let r := generateDirichlet rng s1 bs g glob d
        some (r.1, r.2.1, match r.2.2, r.1.bags with
            | some e, _ => .error e
            | none, some b => .ok b
            | none, none => .error .typeError)
      | .other => some (s1, glob, .error .valueError)) = some (s', glob', r) → s'.nBags = s.nBags := by
    intro s1 bs g h1 h
    cases hm : s1.method with
    | other => rw [hm] at h; simp only [Option.some.injEq, Prod.mk.injEq] at h; rw [← h.1, h1]
    | uniform =>
      rw [hm] at h
      simp only [Option.map_eq_some_iff, Prod.mk.injEq] at h
      obtain ⟨x, hx, hx1, -⟩ := h
      rw [← hx1, hu _ _ _ _ hx, h1]
    | dirichlet =>
      rw [hm] at h
      simp only [Option.some.injEq, Prod.mk.injEq] at h
      rw [← h.1, hd, h1]
  unfold priorGenerate at h
  cases hb : s.bags with
  | some b => rw [hb] at h; simp only [Option.some.injEq, Prod.mk.injEq] at h; rw [h.1]
  | none =>
    rw [hb] at h
    simp only at h
    cases hrs : s.rs with
    | invalid => rw [hrs] at h; simp only [Option.some.injEq, Prod.mk.injEq] at h; rw [h.1]
    | seed n => rw [hrs] at h; exact core { s with rs := .obj (rng.ofSeed n), bagSize := some (s.bagSize.getD d.y.length), bags := none } _ _ rfl h
    | obj g => rw [hrs] at h; exact core { s with rs := .obj g, bagSize := some (s.bagSize.getD d.y.length), bags := none } _ _ rfl h

/-- What `fit` gives to the regressors. For a new generator: the bags are bags of the training set, and the descriptor of each is the concatenation of the
distributions of its features, all of them multiplied by the size of the bags over the number of training examples. -/
theorem reg_training_rows [LinearOrder α] {ppf : ℝ → EReal} {rng : Rng G} (hr : RngOk rng) {fuel nd : ℕ} {w w' : RegWorld G ρ} {cfg : RegCfg} {ops : RegOps ρ (nd * cfg.nBins)}
    {range : Option (ℝ × ℝ)} {att : Fin nd → D → ℝ} {X : List D} {y : List α} {fit : RegFit ρ nd cfg.nBins} (h : regFit ppf rng fuel w cfg ops range att X y = some (w', .ok fit))
    (hfresh : (w.gens cfg.gen).bags = none) (hy : y ≠ []) (hbs : 0 < (w.gens cfg.gen).bagSize.getD y.length) (hc : ∀ d, CutsOk (fit.cuts d)) :
    ∃ b : Bags, AreBags y ((w.gens cfg.gen).bagSize.getD y.length) (w.gens cfg.gen).nBags b ∧ fit.dataY = b.prevs ∧
      ∀ k < (w.gens cfg.gen).nBags, ∃ (row : Fin (nd * cfg.nBins) → ℝ) (rows : List D), fit.dataX[k]? = some row ∧ ((b.idx.getD k []).map fun i => X[i]?) = rows.map some
        ∧ ∀ d, blockOf row d = fun j => (((w.gens cfg.gen).bagSize.getD y.length : ℕ) : ℝ) / X.length * binShare (fit.cuts d) (rows.map (att d)) j := by
  obtain ⟨s', glob', b, hg, -, -, -, -, hY, hX, -⟩ := regFit_inv h
  have hA := (C37_prior_shift_bags rng hr fuel _ hfresh _ _ hy hbs s' glob' b hg).1
  refine ⟨b, hA, hY, fun k hk => ?_⟩
  rw [priorGenerate_nBags hg] at hX
  have hk' : fit.dataX.length = (w.gens cfg.gen).nBags ∧ ∀ i < (w.gens cfg.gen).nBags, ∃ row, fit.dataX[i]? = some row ∧ (item b.idx i >>= bagRow att fit.cuts X) = .ok row := by
    unfold regRows at hX
    have hinv := mapM_inv _ _ _ hX
    choose! f hf using hinv
    rw [mapM_ok _ _ f hf, Except.ok.injEq] at hX
    refine ⟨by rw [← hX]; simp, fun i hi => ⟨f i, ?_, hf i (List.mem_range.2 hi)⟩⟩
    rw [← hX, List.getElem?_map, List.getElem?_range hi]
    rfl
  obtain ⟨row, h1, h2⟩ := hk'.2 k hk
  have hkb : k < b.idx.length := by rw [hA.2.1]; exact hk
  have hitem : item b.idx k = .ok b.idx[k] := by simp only [item, List.getElem?_eq_getElem hkb]
  rw [hitem] at h2
  have hget : b.idx.getD k [] = b.idx[k] := by rw [List.getD_eq_getElem?_getD, List.getElem?_eq_getElem hkb]; rfl
  have hsize := (hA.2.2 k hk).1
  rw [hget] at hsize ⊢
  obtain ⟨rows, hrows, hblock⟩ := bagRow_inv hc (by intro h0; rw [h0] at hsize; simp only [List.length_nil] at hsize; exact absurd hsize hbs.ne) h2
  refine ⟨row, rows, h1, hrows, fun d => ?_⟩
  rw [hblock d, hsize]

/-- **C57 is false**: when bags do not have as many examples as the training set, no block of the descriptor of a training bag adds up to 1, although the blocks of the
descriptor of a testing bag do; the descriptor of a training bag is not the one that the same examples would have as a testing bag. -/
theorem C57_bag_size_refuted [LinearOrder α] {ppf : ℝ → EReal} {rng : Rng G} (hr : RngOk rng) {fuel nd : ℕ} {w w' : RegWorld G ρ} {cfg : RegCfg} {ops : RegOps ρ (nd * cfg.nBins)}
    {range : Option (ℝ × ℝ)} {att : Fin nd → D → ℝ} {X : List D} {y : List α} {fit : RegFit ρ nd cfg.nBins} (h : regFit ppf rng fuel w cfg ops range att X y = some (w', .ok fit))
    (hfresh : (w.gens cfg.gen).bags = none) (hy : y ≠ []) (hlen : X.length = y.length) (hnb : 0 < cfg.nBins) (hc : ∀ d, CutsOk (fit.cuts d))
    (size : ℕ) (hsize : (w.gens cfg.gen).bagSize = some size) (hpos : 0 < size) (hne : size ≠ X.length) (k : ℕ) (hk : k < (w.gens cfg.gen).nBags) (d : Fin nd) :
    ∃ (row : Fin (nd * cfg.nBins) → ℝ) (rows : List D) (q : Fin (nd * cfg.nBins) → ℝ), fit.dataX[k]? = some row ∧ (∀ x ∈ rows, x ∈ X) ∧ rows.length = size ∧ regTestRow att fit.cuts rows = .ok q
      ∧ ∑ j, blockOf row d j = (size : ℝ) / X.length ∧ ∑ j, blockOf row d j ≠ 1 ∧ ∑ j, blockOf q d j = 1 := by
  have hbs : (w.gens cfg.gen).bagSize.getD y.length = size := by rw [hsize]; rfl
  obtain ⟨b, hA, -, hrow⟩ := reg_training_rows hr h hfresh hy (by rw [hbs]; exact hpos) hc
  obtain ⟨row, rows, h1, h2, h3⟩ := hrow k hk
  obtain ⟨q, hq, hqb⟩ := testRow_eq att fit.cuts hc rows
  have hlr : rows.length = size := by
    have := congrArg List.length h2
    simp only [List.length_map] at this
    rw [← this, (hA.2.2 k hk).1, hbs]
  have hprev := (binShare_isPrev hnb (hc d) (xs := rows.map (att d)) (by
    intro h0
    rw [List.map_eq_nil_iff] at h0
    rw [h0] at hlr
    exact absurd hlr hpos.ne)).2
  have hX0 : (X.length : ℝ) ≠ 0 := by rw [hlen]; exact_mod_cast (List.length_pos_iff.2 hy).ne'
  have hs : ∑ j, blockOf row d j = (size : ℝ) / X.length := by
    rw [h3 d, ← Finset.mul_sum, hprev, mul_one, hbs]
  refine ⟨row, rows, q, h1, fun x hx => ?_, hlr, hq, hs, ?_, ?_⟩
  · have : some x ∈ (b.idx.getD k []).map fun i => X[i]? := by rw [h2]; exact List.mem_map_of_mem hx
    obtain ⟨i, -, hi⟩ := List.mem_map.1 this
    exact List.mem_of_getElem? hi
  · rw [hs]
    intro h1
    rw [div_eq_one_iff_eq hX0] at h1
    exact hne (by exact_mod_cast h1)
  · rw [hqb d, hprev]

/-- **C57** holds when bags have as many examples as the training set, as with the default `bag_size=None`: every block is a probability distribution, and
the descriptor of a training bag is the one its examples would have as a testing bag. -/
theorem C57_same_size_partial [LinearOrder α] {ppf : ℝ → EReal} {rng : Rng G} (hr : RngOk rng) {fuel nd : ℕ} {w w' : RegWorld G ρ} {cfg : RegCfg} {ops : RegOps ρ (nd * cfg.nBins)}
    {range : Option (ℝ × ℝ)} {att : Fin nd → D → ℝ} {X : List D} {y : List α} {fit : RegFit ρ nd cfg.nBins} (h : regFit ppf rng fuel w cfg ops range att X y = some (w', .ok fit))
    (hfresh : (w.gens cfg.gen).bags = none) (hy : y ≠ []) (hlen : X.length = y.length) (hnb : 0 < cfg.nBins) (hc : ∀ d, CutsOk (fit.cuts d))
    (hsize : (w.gens cfg.gen).bagSize = none ∨ (w.gens cfg.gen).bagSize = some X.length) (k : ℕ) (hk : k < (w.gens cfg.gen).nBags) :
    ∃ (row : Fin (nd * cfg.nBins) → ℝ) (rows : List D), fit.dataX[k]? = some row ∧ rows.length = X.length ∧ (∀ x ∈ rows, x ∈ X) ∧ regTestRow att fit.cuts rows = .ok row
      ∧ ∀ d, IsPrev (blockOf row d) ∧ blockOf row d = binShare (fit.cuts d) (rows.map (att d)) := by
  have hbs : (w.gens cfg.gen).bagSize.getD y.length = X.length := by rcases hsize with h | h <;> rw [h] <;> simp [hlen]
  have hy0 := List.length_pos_iff.2 hy
  obtain ⟨b, hA, -, hrow⟩ := reg_training_rows hr h hfresh hy (by rw [hbs, hlen]; exact hy0) hc
  obtain ⟨row, rows, h1, h2, h3⟩ := hrow k hk
  obtain ⟨q, hq, hqb⟩ := testRow_eq att fit.cuts hc rows
  have hlr : rows.length = X.length := by
    have := congrArg List.length h2
    simp only [List.length_map] at this
    rw [← this, (hA.2.2 k hk).1, hbs]
  have hX0 : (X.length : ℝ) ≠ 0 := by rw [hlen]; exact_mod_cast hy0.ne'
  have hblock : ∀ d, blockOf row d = binShare (fit.cuts d) (rows.map (att d)) := by
    intro d
    rw [h3 d, hbs, div_self hX0]
    simp
  have hrq : row = q := blockOf_ext fun d => (hblock d).trans (hqb d).symm
  refine ⟨row, rows, h1, hlr, fun x hx => ?_, hrq ▸ hq, fun d => ⟨?_, hblock d⟩⟩
  · have : some x ∈ (b.idx.getD k []).map fun i => X[i]? := by rw [h2]; exact List.mem_map_of_mem hx
    obtain ⟨i, -, hi⟩ := List.mem_map.1 this
    exact List.mem_of_getElem? hi
  · rw [hblock d]
    refine binShare_isPrev hnb (hc d) ?_
    intro h0
    rw [List.map_eq_nil_iff] at h0
    rw [h0, List.length_nil, hlen] at hlr
    omega

/-! ## `fit` returns -/

theorem mapM_exists {β γ : Type} (l : List β) (f : β → Except Err γ) (h : ∀ x ∈ l, ∃ c, f x = .ok c) : ∃ r, l.mapM f = .ok r ∧ r.length = l.length := by
  cases l with
  | nil => exact ⟨[], rfl, rfl⟩
  | cons a l =>
    obtain ⟨c, -⟩ := h a (by simp)
    haveI : Nonempty γ := ⟨c⟩
    choose! g hg using h
    exact ⟨_, mapM_ok _ f g hg, by simp⟩

theorem regExamples_ok {m : ℕ} (dataX : List (Fin m → ℝ)) (dataY : List (List Fl)) (hlen : dataY.length = dataX.length) (c : ℕ) (hc : ∀ r ∈ dataY, c < r.length) :
    ∃ ex, regExamples dataX dataY c = .ok ex := by
  unfold regExamples
  obtain ⟨col, h, hl⟩ := mapM_exists dataY (fun r => item r c) fun r hr => ⟨r[c]'(hc r hr), by simp only [item, List.getElem?_eq_getElem (hc r hr)]⟩
  rw [h]
  refine ⟨dataX.zip col, ?_⟩
  show (if col.length = dataX.length then _ else _) = _
  rw [if_pos (by omega)]

theorem regLearn_ok {nd nb : ℕ} (ops : RegOps ρ (nd * nb)) (regs : ℕ → ρ) (reg : Option ℕ) (att : Fin nd → D → ℝ) (cuts : Fin nd → Fin (nb + 1) → EReal) (hc : ∀ d, CutsOk (cuts d)) (X : List D)
    (nClasses nBags : ℕ) (b : Bags) (hidx : b.idx.length = nBags) (hin : ∀ l ∈ b.idx, ∀ i ∈ l, i < X.length) (hp : b.prevs.length = nBags) (hpl : ∀ r ∈ b.prevs, nClasses ≤ r.length) :
    ∃ r, regLearn ops regs reg att cuts X nClasses nBags b = .ok r ∧ r.2.cuts = cuts := by
  have h1 : ∃ dataX, regRows att cuts X nBags b = .ok dataX ∧ dataX.length = nBags := by
    unfold regRows
    obtain ⟨r, hr, hl⟩ := mapM_exists (List.range nBags) (fun k => (item b.idx k) >>= bagRow att cuts X) fun k hk => by
      rw [List.mem_range] at hk
      have hk' : k < b.idx.length := by omega
      have hitem : item b.idx k = .ok b.idx[k] := by simp only [item, List.getElem?_eq_getElem hk']
      rw [hitem]
      show ∃ c, bagRow att cuts X b.idx[k] = .ok c
      obtain ⟨rows, hrows, -⟩ := mapM_exists b.idx[k] (item X) fun i hi => by
        have := hin _ (List.getElem_mem hk') i hi
        exact ⟨X[i], by simp only [item, List.getElem?_eq_getElem this]⟩
      unfold bagRow
      rw [hrows]
      show ∃ c, ((seqFin fun d => (npHistogram (rows.map (att d)) (cuts d)).map fun h b => h b / (X.length : ℝ)) >>= fun v => pure (stackBlocks v)) = .ok c
      have hs : (seqFin fun d => (npHistogram (rows.map (att d)) (cuts d)).map fun h b => h b / (X.length : ℝ))
          = .ok fun d b => ((rows.map (att d)).map (binInd (cuts d) b)).sum / (X.length : ℝ) := by
        rw [seqFin_ok]
        intro d
        rw [npHistogram_eq _ _ (hc d).mono]
        rfl
      rw [hs]
      exact ⟨_, rfl⟩
    exact ⟨r, hr, by simpa using hl⟩
  obtain ⟨dataX, hX, hXl⟩ := h1
  have h2 : ∃ m, regFitRegressor ops regs reg nClasses dataX b.prevs = .ok m := by
    unfold regFitRegressor
    split_ifs with hn
    · obtain ⟨ex, he⟩ := regExamples_ok dataX b.prevs (by omega) 1 fun r hr => by have := hpl r hr; omega
      rw [he]
      exact ⟨_, rfl⟩
    · obtain ⟨l, hl, -⟩ := mapM_exists (List.range nClasses) (fun c => (regExamples dataX b.prevs c).map (regClassModel ops regs reg)) fun c hcc => by
        rw [List.mem_range] at hcc
        obtain ⟨ex, he⟩ := regExamples_ok dataX b.prevs (by omega) c fun r hr => by have := hpl r hr; omega
        rw [he]
        exact ⟨_, rfl⟩
      rw [hl]
      exact ⟨_, rfl⟩
  obtain ⟨m, hm⟩ := h2
  unfold regLearn
  rw [hX]
  show ∃ r, (regFitRegressor ops regs reg nClasses dataX b.prevs >>= _) = .ok r ∧ _
  rw [hm]
  exact ⟨_, rfl, rfl⟩

theorem areBags_shape [LinearOrder α] {y : List α} {size n : ℕ} {b : Bags} (h : AreBags y size n b) :
    b.idx.length = n ∧ (∀ l ∈ b.idx, ∀ i ∈ l, i < y.length) ∧ b.prevs.length = n ∧ ∀ r ∈ b.prevs, r.length = (labelsOf y).length := by
  refine ⟨h.2.1, ?_, h.1, ?_⟩
  · intro l hl i hi
    obtain ⟨k, hk, rfl⟩ := List.getElem_of_mem hl
    obtain ⟨-, labels, hlab, -⟩ := h.2.2 k (by rw [← h.2.1]; exact hk)
    rw [List.getD_eq_getElem?_getD, List.getElem?_eq_getElem hk, Option.getD_some] at hlab
    have : y[i]? ∈ labels.map some := by rw [← hlab]; exact List.mem_map_of_mem (f := fun i => y[i]?) hi
    obtain ⟨a, -, ha⟩ := List.mem_map.1 this
    exact (List.getElem?_eq_some_iff.1 ha.symm).1
  · intro r hr
    obtain ⟨k, hk, rfl⟩ := List.getElem_of_mem hr
    obtain ⟨-, labels, -, hp⟩ := h.2.2 k (by rw [← h.1]; exact hk)
    rw [List.getD_eq_getElem?_getD, List.getElem?_eq_getElem hk, Option.getD_some] at hp
    rw [hp, List.length_map]

/-- Given its cut points, `fit` is the generation of the bags followed by the training of the regressors. -/
theorem regFit_of_cuts [LinearOrder α] {ppf : ℝ → EReal} {rng : Rng G} {fuel nd : ℕ} {w : RegWorld G ρ} {cfg : RegCfg} {ops : RegOps ρ (nd * cfg.nBins)} {range : Option (ℝ × ℝ)}
    {att : Fin nd → D → ℝ} {X : List D} {y : List α} {cuts : Fin nd → Fin (cfg.nBins + 1) → EReal}
    (hcuts : (seqFin fun d => computeBincuts ppf (X.map (att d)) y (labelsOf y) cfg.nBins cfg.strategy range) = .ok cuts)
    {s' : PriorGen G} {glob' : G} {b : Bags} (hg : priorGenerate rng fuel (w.gens cfg.gen) w.glob ⟨y, some X.length⟩ = some (s', glob', .ok b)) {r : (ℕ → ρ) × RegFit ρ nd cfg.nBins}
    (hl : regLearn ops w.regs cfg.reg att cuts X (labelsOf y).length s'.nBags b = .ok r) :
    regFit ppf rng fuel w cfg ops range att X y = some (⟨Function.update w.gens cfg.gen s', r.1, glob'⟩, .ok r.2) := by
  unfold regFit
  simp only [npUnique_eq_labelsOf]
  rw [hcuts]
  simp only [hg, Option.map_some, regAfterBags, hl, regFinish]

/-- `fit` of an object with a new uniform generator and equal-width bins returns, for every nonempty training set. -/
theorem regFit_returns [LinearOrder α] (ppf : ℝ → EReal) (rng : Rng G) (hr : RngOk rng) (ht : RngTotal rng) (fuel : ℕ) {nd : ℕ} (w : RegWorld G ρ) (cfg : RegCfg) (ops : RegOps ρ (nd * cfg.nBins))
    (range : Option (ℝ × ℝ)) (hrange : range = none ∨ range = some (0, 1)) (att : Fin nd → D → ℝ) (X : List D) (y : List α) (hy : y ≠ []) (hlen : X.length = y.length) (hnb : 0 < cfg.nBins)
    (hst : cfg.strategy = .equalWidth) (hfresh : (w.gens cfg.gen).bags = none) (hm : (w.gens cfg.gen).method = .uniform) (hmin : (w.gens cfg.gen).minPrev = .none)
    (hrs : (w.gens cfg.gen).rs ≠ .invalid) (hfuel : (w.gens cfg.gen).nBags ≤ fuel) (hbs : 0 < (w.gens cfg.gen).bagSize.getD y.length) :
    ∃ w' fit, regFit ppf rng fuel w cfg ops range att X y = some (w', .ok fit) ∧ ∀ d, CutsOk (fit.cuts d) := by
  have hX : X ≠ [] := by
    intro h
    rw [h, List.length_nil] at hlen
    exact hy (List.length_eq_zero_iff.1 hlen.symm)
  have hc : ∀ d, ∃ cuts, computeBincuts ppf (X.map (att d)) y (labelsOf y) cfg.nBins cfg.strategy range = .ok cuts ∧ CutsOk cuts := by
    intro d
    rw [hst]
    refine C46_equal_width ppf _ y _ cfg.nBins hnb range (fun _ => by simpa using hX) fun r hr => ?_
    rcases hrange with h | h
    · rw [h] at hr; cases hr
    · rw [h] at hr; cases hr; norm_num
  choose cuts hc1 hc2 using hc
  obtain ⟨s', b, hg⟩ := C82_uniform_returns_partial rng hr ht fuel (w.gens cfg.gen) hfresh hm hmin hrs hfuel w.glob ⟨y, some X.length⟩ hy (Or.inr (by rw [hlen])) hbs
  have hA := (C37_prior_shift_bags rng hr fuel _ hfresh _ _ hy hbs s' _ b hg).1
  obtain ⟨h1, h2, h3, h4⟩ := areBags_shape hA
  obtain ⟨r, hl, hcr⟩ := regLearn_ok ops w.regs cfg.reg att cuts hc2 X (labelsOf y).length s'.nBags b (by rw [priorGenerate_nBags hg]; exact h1) (by rw [hlen]; exact h2) (by rw [priorGenerate_nBags hg]; exact h3)
    fun r hr => (h4 r hr).ge
  exact ⟨_, _, regFit_of_cuts ((seqFin_ok _ _).2 hc1) hg hl, fun d => by rw [hcr]; exact hc2 d⟩

/-! ## C58: objects built with the default generator -/

/-- After a call that returns, the generator holds the bags it returned. -/
theorem priorGenerate_stored [LinearOrder α] {rng : Rng G} {fuel : ℕ} {s s' : PriorGen G} {glob glob' : G} {d : BagData α} {b : Bags} (h : priorGenerate rng fuel s glob d = some (s', glob', .ok b)) :
    s'.bags = some b := by
  have hmatch : ∀ (o : Option Err) (c : Option Bags), (match o, c with
      | some e, _ => Except.error e
      | none, some b => .ok b
      | none, none => .error .typeError) = Except.ok b → c = some b := by
    intro o c h
    cases o with
    | some e => simp at h
    | none => cases c with
      | none => simp at h
      | some b0 => simp only [Except.ok.injEq] at h; rw [h]
  have core : ∀ (s1 : PriorGen G) (bs : ℕ) (g : G),
      (match s1.method with
      | .uniform => (generateUniform rng fuel s1 bs g d).map fun r =>
          (r.1, glob, match r.2, r.1.bags with
            | some e, _ => Except.error e
            | none, some b => .ok b
            | none, none => .error .typeError)
      | .dirichlet =>
        let r := generateDirichlet rng s1 bs g glob d
        some (r.1, r.2.1, match r.2.2, r.1.bags with
            | some e, _ => .error e
            | none, some b => .ok b
            | none, none => .error .typeError)
      | .other => some (s1, glob, .error .valueError)) = some (s', glob', .ok b) → s'.bags = some b := by
    intro s1 bs g h
    cases hm : s1.method with
    | other => rw [hm] at h; simp at h
    | uniform =>
      rw [hm] at h
      simp only [Option.map_eq_some_iff, Prod.mk.injEq] at h
      obtain ⟨x, hx, hx1, -, hx2⟩ := h
      rw [← hx1]
      exact hmatch _ _ hx2
    | dirichlet =>
      rw [hm] at h
      simp only [Option.some.injEq, Prod.mk.injEq] at h
      rw [← h.1]
      exact hmatch _ _ h.2.2
  unfold priorGenerate at h
  cases hb : s.bags with
  | some b => rw [hb] at h; simp only [Option.some.injEq, Prod.mk.injEq, Except.ok.injEq] at h; rw [← h.1, hb, h.2.2]
  | none =>
    rw [hb] at h
    simp only at h
    cases hrs : s.rs with
    | invalid => rw [hrs] at h; simp at h
    | seed n => rw [hrs] at h; exact core { s with rs := .obj (rng.ofSeed n), bagSize := some (s.bagSize.getD d.y.length), bags := none } _ _ h
    | obj g => rw [hrs] at h; exact core { s with rs := .obj g, bagSize := some (s.bagSize.getD d.y.length), bags := none } _ _ h

/-- **C58 is false**: two objects built with the default arguments hold the same bag generator. Once the first has been fitted, the second learns the prevalences of the
bags of the first, whatever its own data, and not what it would have learnt on its own: with another number of classes even their number is wrong. -/
theorem C58_shared_generator_refuted [LinearOrder α] {ppf : ℝ → EReal} {rng : Rng G} (hr : RngOk rng) {fuel fuel' nd nd' : ℕ} {w w1 w2 w3 : RegWorld G ρ} {cfgA cfgB : RegCfg} (hgen : cfgB.gen = cfgA.gen)
    {opsA : RegOps ρ (nd * cfgA.nBins)} {opsB : RegOps ρ (nd' * cfgB.nBins)} {rangeA rangeB : Option (ℝ × ℝ)} {D' : Type} {attA : Fin nd → D → ℝ} {attB : Fin nd' → D' → ℝ} {XA : List D} {XB : List D'} {yA yB : List α}
    {fA : RegFit ρ nd cfgA.nBins} {fB fB0 : RegFit ρ nd' cfgB.nBins}
    (hfresh : (w.gens cfgA.gen).bags = none) (hn : 0 < (w.gens cfgA.gen).nBags) (hyA : yA ≠ []) (hyB : yB ≠ []) (hbs : ∀ s, (w.gens cfgA.gen).bagSize = some s → 0 < s)
    (hA : regFit ppf rng fuel w cfgA opsA rangeA attA XA yA = some (w1, .ok fA))
    (hB : regFit ppf rng fuel' w1 cfgB opsB rangeB attB XB yB = some (w2, .ok fB))
    (hB0 : regFit ppf rng fuel' w cfgB opsB rangeB attB XB yB = some (w3, .ok fB0)) :
    fB.dataY = fA.dataY ∧ ((labelsOf yA).length ≠ (labelsOf yB).length → fB0.dataY ≠ fB.dataY) := by
  have hbs' : ∀ y : List α, y ≠ [] → 0 < (w.gens cfgA.gen).bagSize.getD y.length := by
    intro y hy
    cases h : (w.gens cfgA.gen).bagSize with
    | none => exact List.length_pos_iff.2 hy
    | some s => exact hbs s h
  obtain ⟨sA, glA, bA, hgA, -, hw1, -, -, hYA, -, -⟩ := regFit_inv hA
  obtain ⟨sB, glB, bB, hgB, -, -, -, -, hYB, -, -⟩ := regFit_inv hB
  obtain ⟨s0, gl0, b0, hg0, -, -, -, -, hY0, -, -⟩ := regFit_inv hB0
  have hst := priorGenerate_stored hgA
  have hbb : bB = bA := by
    rw [hgen, hw1, Function.update_self] at hgB
    unfold priorGenerate at hgB
    rw [hst] at hgB
    simp only [Option.some.injEq, Prod.mk.injEq, Except.ok.injEq] at hgB
    exact hgB.2.2.symm
  refine ⟨by rw [hYB, hYA, hbb], fun hne heq => hne ?_⟩
  rw [hgen] at hg0
  have hAA := areBags_shape (C37_prior_shift_bags rng hr fuel _ hfresh _ _ hyA (hbs' yA hyA) sA glA bA hgA).1
  have hA0 := areBags_shape (C37_prior_shift_bags rng hr fuel' _ hfresh _ _ hyB (hbs' yB hyB) s0 gl0 b0 hg0).1
  rw [hY0, hYB, hbb] at heq
  rw [heq] at hA0
  have hne' : bA.prevs ≠ [] := by
    intro h
    have := hAA.2.2.1
    rw [h, List.length_nil] at this
    omega
  obtain ⟨r, t, hrt⟩ := List.exists_cons_of_ne_nil hne'
  have hmem : r ∈ bA.prevs := by rw [hrt]; simp
  rw [← hAA.2.2.2 r hmem, ← hA0.2.2.2 r hmem]

theorem priorGenerate_uniform_glob [LinearOrder α] (rng : Rng G) (fuel : ℕ) (s : PriorGen G) (hm : s.method = .uniform) (glob glob2 : G) (d : BagData α) :
    priorGenerate rng fuel s glob2 d = (priorGenerate rng fuel s glob d).map fun r => (r.1, glob2, r.2.2) := by
  unfold priorGenerate
  cases hb : s.bags with
  | some b => rfl
  | none => cases hrs : s.rs <;> simp only [hm, Option.map_map, Option.map_some] <;> rfl

/-- **C58** holds for objects with different generators (and different regressors, or none): whatever happens in the `fit` of the first, the second learns the same, if it uses the uniform method, that does not
depend on the global random generator. -/
theorem C58_separate_generators_partial [LinearOrder α] (ppf : ℝ → EReal) (rng : Rng G) (fuel fuel' : ℕ) {nd nd' : ℕ} (w w1 : RegWorld G ρ) (cfgA cfgB : RegCfg) (hgen : cfgB.gen ≠ cfgA.gen)
    (hreg : cfgB.reg = none ∨ cfgB.reg ≠ cfgA.reg) (hm : (w.gens cfgB.gen).method = .uniform)
    (opsA : RegOps ρ (nd * cfgA.nBins)) (opsB : RegOps ρ (nd' * cfgB.nBins)) (rangeA rangeB : Option (ℝ × ℝ)) {D' : Type} (attA : Fin nd → D → ℝ) (attB : Fin nd' → D' → ℝ) (XA : List D) (XB : List D') (yA yB : List α)
    (rA : Except Err (RegFit ρ nd cfgA.nBins)) (hA : regFit ppf rng fuel w cfgA opsA rangeA attA XA yA = some (w1, rA)) :
    (regFit ppf rng fuel' w1 cfgB opsB rangeB attB XB yB).map Prod.snd = (regFit ppf rng fuel' w cfgB opsB rangeB attB XB yB).map Prod.snd := by
  have hw1 : w1.gens cfgB.gen = w.gens cfgB.gen ∧ ∀ a, cfgB.reg = some a → w1.regs a = w.regs a := by
    unfold regFit at hA
    simp only [npUnique_eq_labelsOf] at hA
    split at hA
    · cases hA; exact ⟨rfl, fun _ _ => rfl⟩
    · rename_i cuts hc
      simp only [Option.map_eq_some_iff] at hA
      obtain ⟨⟨s', glob', r⟩, -, h⟩ := hA
      cases r with
      | error e =>
        simp only [regAfterBags, Prod.mk.injEq] at h
        obtain ⟨rfl, -⟩ := h
        exact ⟨Function.update_of_ne hgen _ _, fun _ _ => rfl⟩
      | ok b =>
        simp only [regAfterBags] at h
        cases hl : regLearn opsA w.regs cfgA.reg attA cuts XA (labelsOf yA).length s'.nBags b with
        | error e =>
          rw [hl] at h
          simp only [regFinish, Prod.mk.injEq] at h
          obtain ⟨rfl, -⟩ := h
          exact ⟨Function.update_of_ne hgen _ _, fun _ _ => rfl⟩
        | ok r =>
          rw [hl] at h
          simp only [regFinish, Prod.mk.injEq] at h
          obtain ⟨rfl, -⟩ := h
          refine ⟨Function.update_of_ne hgen _ _, fun a ha => ?_⟩
          unfold regLearn at hl
          cases hr : regRows attA cuts XA s'.nBags b with
          | error e => rw [hr] at hl; cases hl
          | ok dataX =>
            rw [hr] at hl
            change (regFitRegressor opsA w.regs cfgA.reg (labelsOf yA).length dataX b.prevs >>= _) = _ at hl
            cases hm : regFitRegressor opsA w.regs cfgA.reg (labelsOf yA).length dataX b.prevs with
            | error e => rw [hm] at hl; cases hl
            | ok m =>
              rw [hm] at hl
              change Except.ok (m.1, _) = _ at hl
              simp only [Except.ok.injEq] at hl
              subst hl
              show m.1 a = w.regs a
              rcases fitRegressor_inv (regs' := m.1) (model := m.2) hm with ⟨-, ex, -, hb⟩ | ⟨-, hb, -⟩
              · have hb1 : m.1 = (regBinaryModel opsA w.regs cfgA.reg ex).1 := congrArg Prod.fst hb
                rw [hb1]
                cases hra : cfgA.reg with
                | none => rfl
                | some c =>
                  rcases hreg with h0 | h0
                  · rw [h0] at ha; cases ha
                  · refine Function.update_of_ne ?_ _ _
                    rintro rfl
                    exact h0 (by rw [ha, hra])
              · rw [hb]
  obtain ⟨hg, hr⟩ := hw1
  have hclass : ∀ {m : ℕ} (ops : RegOps ρ m) ex, regClassModel ops w1.regs cfgB.reg ex = regClassModel ops w.regs cfgB.reg ex := by
    intro m ops ex
    cases h : cfgB.reg with
    | none => rfl
    | some a => simp only [regClassModel, hr a h]
  have hbin : ∀ {m : ℕ} (ops : RegOps ρ m) ex, (regBinaryModel ops w1.regs cfgB.reg ex).2 = (regBinaryModel ops w.regs cfgB.reg ex).2 := by
    intro m ops ex
    cases h : cfgB.reg <;> rfl
  have hfr : ∀ {m : ℕ} (ops : RegOps ρ m) n dataX dataY, (regFitRegressor ops w1.regs cfgB.reg n dataX dataY).map Prod.snd = (regFitRegressor ops w.regs cfgB.reg n dataX dataY).map Prod.snd := by
    intro m ops n dataX dataY
    unfold regFitRegressor
    split_ifs
    · cases regExamples dataX dataY 1 with
      | error e => rfl
      | ok ex => simp only [Except.map, hbin]
    · have : (fun c => (regExamples dataX dataY c).map (regClassModel ops w1.regs cfgB.reg)) = fun c => (regExamples dataX dataY c).map (regClassModel ops w.regs cfgB.reg) := by
        funext c
        cases regExamples dataX dataY c with
        | error e => rfl
        | ok ex => simp only [Except.map, hclass]
      rw [this]
      cases (List.range n).mapM fun c => (regExamples dataX dataY c).map (regClassModel ops w.regs cfgB.reg) <;> rfl
  have hlearn : ∀ cuts n nBags b, (regLearn opsB w1.regs cfgB.reg attB cuts XB n nBags b).map Prod.snd = (regLearn opsB w.regs cfgB.reg attB cuts XB n nBags b).map Prod.snd := by
    intro cuts n nBags b
    unfold regLearn
    cases regRows attB cuts XB nBags b with
    | error e => rfl
    | ok dataX =>
      have := hfr opsB n dataX b.prevs
      show ((regFitRegressor opsB w1.regs cfgB.reg n dataX b.prevs >>= _) : Except Err _).map _ = ((regFitRegressor opsB w.regs cfgB.reg n dataX b.prevs >>= _) : Except Err _).map _
      revert this
      cases regFitRegressor opsB w1.regs cfgB.reg n dataX b.prevs with
      | error e => cases regFitRegressor opsB w.regs cfgB.reg n dataX b.prevs with
        | error e' => intro h; simp only [Except.map, Except.error.injEq] at h; rw [h]
        | ok m => intro h; simp [Except.map] at h
      | ok m => cases regFitRegressor opsB w.regs cfgB.reg n dataX b.prevs with
        | error e' => intro h; simp [Except.map] at h
        | ok m' =>
          intro h
          simp only [Except.map, Except.ok.injEq] at h
          show Except.ok _ = Except.ok _
          simp only [h]
  unfold regFit
  simp only [npUnique_eq_labelsOf]
  cases hc : seqFin fun d => computeBincuts ppf (XB.map (attB d)) yB (labelsOf yB) cfgB.nBins cfgB.strategy rangeB with
  | error e => rfl
  | ok cuts =>
    simp only [hg]
    rw [priorGenerate_uniform_glob rng fuel' (w.gens cfgB.gen) hm w.glob w1.glob]
    simp only [Option.map_map]
    congr 1
    funext r
    obtain ⟨s, gl, b⟩ := r
    cases b with
    | error e => rfl
    | ok b =>
      have := hlearn cuts (labelsOf yB).length s.nBags b
      simp only [Function.comp, regAfterBags]
      revert this
      cases regLearn opsB w1.regs cfgB.reg attB cuts XB (labelsOf yB).length s.nBags b with
      | error e => cases regLearn opsB w.regs cfgB.reg attB cuts XB (labelsOf yB).length s.nBags b with
        | error e' => intro h; simp only [Except.map, Except.error.injEq] at h; simp only [regFinish, h]
        | ok m => intro h; simp [Except.map] at h
      | ok m => cases regLearn opsB w.regs cfgB.reg attB cuts XB (labelsOf yB).length s.nBags b with
        | error e' => intro h; simp [Except.map] at h
        | ok m' => intro h; simp only [Except.map, Except.ok.injEq] at h; simp only [regFinish, h]

/-- The objects of the examples below: all generators are the default one, and a regressor is the number of bags it has been trained with. -/
noncomputable def toyWorld : RegWorld Bool ℕ := ⟨fun _ => defaultGen, fun _ => 0, true⟩

/-- A regressor that predicts the inverse of the number of bags. -/
noncomputable def toyOps (m : ℕ) : RegOps ℕ m := ⟨fun _ ex => ex.length, fun r _ => .fin (1 / r), fun ex => ex.length⟩

theorem toy_fit (cfg : RegCfg) (hnb : 0 < cfg.nBins) (hst : cfg.strategy = .equalWidth) (X : List (Fin 1 → ℝ)) (y : List ℕ) (hy : y ≠ []) (hlen : X.length = y.length) :
    ∃ w' fit, regFit (fun _ => ⊥) lazyRng 1000 toyWorld cfg (toyOps (1 * cfg.nBins)) none (fun d row => row d) X y = some (w', .ok fit) ∧ ∀ d, CutsOk (fit.cuts d) :=
  regFit_returns _ lazyRng lazyRng_ok lazyRng_total 1000 toyWorld cfg _ none (.inl rfl) _ X y hy hlen hnb hst rfl rfl rfl (by simp [toyWorld, defaultGen]) le_rfl (List.length_pos_iff.2 hy)

/-- C56, C57: a training set with three examples of two classes, default generator. -/
example : ∃ w' fit, regFit (fun _ => ⊥) lazyRng 1000 toyWorld ⟨0, 8, .equalWidth, none⟩ (toyOps (1 * 8)) none (fun d row => row d) [fun _ => 0, fun _ => 1, fun _ => 5] [0, 1, 1] = some (w', .ok fit)
    ∧ ∀ d, CutsOk (fit.cuts d) :=
  toy_fit ⟨0, 8, .equalWidth, none⟩ (by norm_num) rfl _ _ (by simp) rfl

/-- C58: three classes first, then two classes with the same default generator: both calls of `fit` return, and so would the second alone. -/
example : ∃ w1 w2 w3 fA fB fB0,
    regFit (fun _ => ⊥) lazyRng 1000 toyWorld ⟨0, 8, .equalWidth, none⟩ (toyOps (1 * 8)) none (fun d row => row d) [fun _ => 0, fun _ => 1, fun _ => 5] [0, 1, 2] = some (w1, .ok fA)
    ∧ regFit (fun _ => ⊥) lazyRng 1000 w1 ⟨0, 8, .equalWidth, none⟩ (toyOps (1 * 8)) none (fun d row => row d) [fun _ => 0, fun _ => 1, fun _ => 5] [0, 1, 1] = some (w2, .ok fB)
    ∧ regFit (fun _ => ⊥) lazyRng 1000 toyWorld ⟨0, 8, .equalWidth, none⟩ (toyOps (1 * 8)) none (fun d row => row d) [fun _ => 0, fun _ => 1, fun _ => 5] [0, 1, 1] = some (w3, .ok fB0)
    ∧ fB0.dataY ≠ fB.dataY := by
  obtain ⟨w1, fA, hA, -⟩ := toy_fit ⟨0, 8, .equalWidth, none⟩ (by norm_num) rfl [fun _ => 0, fun _ => 1, fun _ => 5] [0, 1, 2] (by simp) rfl
  obtain ⟨w3, fB0, hB0, hc⟩ := toy_fit ⟨0, 8, .equalWidth, none⟩ (by norm_num) rfl [fun _ => 0, fun _ => 1, fun _ => 5] [0, 1, 1] (by simp) rfl
  obtain ⟨sA, glA, bA, hgA, -, hw1, -, -, hYA, -, -⟩ := regFit_inv hA
  obtain ⟨s0, gl0, b0, hg0, hcuts, -, -, -, -, -, -⟩ := regFit_inv hB0
  have hl3 : labelsOf ([0, 1, 2] : List ℕ) = [0, 1, 2] := labelsOf_eq _ [0, 1, 2] (by decide) (by decide)
  have hl2 : labelsOf ([0, 1, 1] : List ℕ) = [0, 1] := labelsOf_eq _ [0, 1] (by decide) (by decide)
  have hAA := areBags_shape (C37_prior_shift_bags lazyRng lazyRng_ok 1000 _ (by rfl) _ _ (by simp) (by simp [toyWorld, defaultGen]) sA glA bA hgA).1
  have hst := priorGenerate_stored hgA
  have hgB : priorGenerate lazyRng 1000 (w1.gens 0) w1.glob (⟨[0, 1, 1], some 3⟩ : BagData ℕ) = some (sA, w1.glob, .ok bA) := by
    rw [hw1, Function.update_self]
    unfold priorGenerate
    rw [hst]
  have hn := priorGenerate_nBags hgA
  obtain ⟨r, hr, -⟩ := regLearn_ok (toyOps (1 * 8)) w1.regs none (fun d row => row d) fB0.cuts hc [fun _ => 0, fun _ => 1, fun _ => 5] (labelsOf ([0, 1, 1] : List ℕ)).length sA.nBags bA
    (by rw [hn]; exact hAA.1) (by simpa using hAA.2.1) (by rw [hn]; exact hAA.2.2.1) fun r hr => by rw [hAA.2.2.2 r hr, hl3, hl2]; decide
  have hB := regFit_of_cuts (w := w1) (cfg := ⟨0, 8, .equalWidth, none⟩) hcuts hgB hr
  refine ⟨w1, _, w3, fA, _, fB0, hA, hB, hB0, ?_⟩
  exact (C58_shared_generator_refuted lazyRng_ok rfl rfl (by simp [toyWorld, defaultGen]) (by simp) (by simp) (by simp [toyWorld, defaultGen]) hA hB hB0).2 (by rw [hl3, hl2]; decide)

/-! ## C89: regressors given by the user -/

/-- **C89 is false** for two classes: the object trains the very regressor it was given. After a second binary object is fitted with the same regressor (and its own bag generator), the first one
answers every bag as the second does. -/
theorem C89_shared_regressor_refuted [LinearOrder α] {ppf : ℝ → EReal} {rng : Rng G} {fuel fuel' nd : ℕ} {w w1 w2 : RegWorld G ρ} {cfgA : RegCfg} {genB : ℕ} {ops : RegOps ρ (nd * cfgA.nBins)}
    {rangeA rangeB : Option (ℝ × ℝ)} {attA attB : Fin nd → D → ℝ} {XA XB : List D} {yA yB : List α} {fA fB : RegFit ρ nd cfgA.nBins}
    (a : ℕ) (hreg : cfgA.reg = some a) (h2A : (labelsOf yA).length = 2) (h2B : (labelsOf yB).length = 2)
    (hA : regFit ppf rng fuel w cfgA ops rangeA attA XA yA = some (w1, .ok fA)) (hB : regFit ppf rng fuel' w1 { cfgA with gen := genB } ops rangeB attB XB yB = some (w2, .ok fB))
    (bagX : Fin (nd * cfgA.nBins) → ℝ) : regPredictBag ops w2.regs fA bagX = regPredictBag ops w2.regs fB bagX := by
  obtain ⟨sA, glA, bA, h1, h2, h3, h4, hnA, h5, h6, hmA⟩ := regFit_inv hA
  obtain ⟨sB, glB, bB, k1, k2, k3, k4, hnB, k5, k6, hmB⟩ := regFit_inv hB
  have key : ∀ {m : ℕ} {o : RegOps ρ m} {regs regs' : ℕ → ρ} {reg n dX dY model}, regFitRegressor o regs reg n dX dY = .ok (regs', model) → n = 2 → reg = some a → model = .shared a := by
    intro m o regs regs' reg n dX dY model h hn hreg
    rcases fitRegressor_inv h with ⟨-, ex, -, hb⟩ | ⟨h', -⟩
    · rw [hreg] at hb
      exact congrArg Prod.snd hb
    · exact absurd hn h'
  have hA' : fA.model = .shared a := key hmA (hnA.trans h2A) hreg
  have hB' : fB.model = .shared a := key hmB (hnB.trans h2B) hreg
  unfold regPredictBag
  rw [hA', hB']

/-- **C89** holds for three or more classes, or when no regressor is given, or for other regressors: the answers of a fitted object do not depend on the regressors of the others. -/
theorem C89_own_regressors_partial [LinearOrder α] {ppf : ℝ → EReal} {rng : Rng G} {fuel nd : ℕ} {w w1 : RegWorld G ρ} {cfgA : RegCfg} {ops : RegOps ρ (nd * cfgA.nBins)} {rangeA : Option (ℝ × ℝ)}
    {attA : Fin nd → D → ℝ} {XA : List D} {yA : List α} {fA : RegFit ρ nd cfgA.nBins} (hA : regFit ppf rng fuel w cfgA ops rangeA attA XA yA = some (w1, .ok fA)) (w2 : RegWorld G ρ)
    (h : (labelsOf yA).length ≠ 2 ∨ cfgA.reg = none ∨ ∀ a, cfgA.reg = some a → w2.regs a = w1.regs a) (X : List D) :
    regPredict ops w2 fA attA X = regPredict ops w1 fA attA X := by
  obtain ⟨sA, glA, bA, h1, h2, h3, h4, hnA, h5, h6, hmA⟩ := regFit_inv hA
  unfold regPredict
  congr 1
  funext bagX
  unfold regPredictBag
  rcases fitRegressor_inv hmA with ⟨hn, ex, -, hb⟩ | ⟨-, -, l, -, hl⟩
  · have hb2 : fA.model = (regBinaryModel ops w.regs cfgA.reg ex).2 := congrArg Prod.snd hb
    cases hra : cfgA.reg with
    | none => rw [hb2, hra]; rfl
    | some a =>
      rw [hb2, hra]
      rcases h with h | h | h
      · exact absurd (hnA ▸ hn) h
      · rw [hra] at h; cases h
      · show regBinaryAnswer (ops.predict (w2.regs a) bagX) = regBinaryAnswer (ops.predict (w1.regs a) bagX)
        rw [h a hra]
  · rw [hl]

theorem mapM_length {β γ : Type} (l : List β) (f : β → Except Err γ) (r : List γ) (h : l.mapM f = .ok r) : r.length = l.length := by
  obtain ⟨r', h', hl⟩ := mapM_exists l f (mapM_inv l f r h)
  rw [h] at h'
  cases h'
  exact hl

theorem regExamples_length {m : ℕ} {dataX : List (Fin m → ℝ)} {dataY : List (List Fl)} {c : ℕ} {ex : List ((Fin m → ℝ) × Fl)} (h : regExamples dataX dataY c = .ok ex) : ex.length = dataX.length := by
  unfold regExamples at h
  cases hc : dataY.mapM fun r => item r c with
  | error e => rw [hc] at h; cases h
  | ok col =>
    rw [hc] at h
    change (if col.length = dataX.length then _ else _) = _ at h
    split_ifs at h with hl
    cases h
    rw [List.length_zip, hl, min_self]

/-- The state of the regressor of a binary object after `fit`, for the regressor of the examples: the number of bags. -/
theorem toy_state {w w' : RegWorld Bool ℕ} {cfg : RegCfg} (hreg : cfg.reg = some 0) {X : List (Fin 1 → ℝ)} {y : List ℕ} (h2 : (labelsOf y).length = 2) {fit : RegFit ℕ 1 cfg.nBins}
    (h : regFit (fun _ => ⊥) lazyRng 1000 w cfg (toyOps (1 * cfg.nBins)) none (fun d row => row d) X y = some (w', .ok fit)) : fit.model = .shared 0 ∧ w'.regs 0 = (w.gens cfg.gen).nBags := by
  obtain ⟨sA, glA, bA, h1, -, h3, h4, hnA, h5, h6, hmA⟩ := regFit_inv h
  have hlen := mapM_length _ _ _ h6
  rw [List.length_range, priorGenerate_nBags h1] at hlen
  rcases fitRegressor_inv hmA with ⟨-, ex, hex, hb⟩ | ⟨h', -⟩
  · rw [hreg] at hb
    refine ⟨congrArg Prod.snd hb, ?_⟩
    have hb1 := congrFun (congrArg Prod.fst hb) 0
    rw [← hlen, ← regExamples_length hex]
    simpa [regBinaryModel, toyOps] using hb1
  · exact absurd (hnA.trans h2) h'

/-- C89 fails in a concrete case, which also meets the hypotheses of the theorems above: two binary objects with different generators (1000 bags and 2 bags) share a regressor. Fitting the second
changes all the answers of the first. -/
theorem C89_answers_change_refuted : ∃ w1 w2 fA fB,
    regFit (fun _ => ⊥) lazyRng 1000 ⟨Function.update (fun _ => defaultGen) 1 { defaultGen with nBags := 2 }, fun _ => 0, true⟩ ⟨0, 8, .equalWidth, some 0⟩ (toyOps (1 * 8)) none (fun d row => row d)
      [fun _ => 0, fun _ => 1, fun _ => 5] [0, 1, 1] = some (w1, .ok fA)
    ∧ regFit (fun _ => ⊥) lazyRng 1000 w1 ⟨1, 8, .equalWidth, some 0⟩ (toyOps (1 * 8)) none (fun d row => row d) [fun _ => 0, fun _ => 1, fun _ => 5] [0, 1, 1] = some (w2, .ok fB)
    ∧ ∀ bagX, regPredictBag (toyOps (1 * 8)) w2.regs fA bagX ≠ regPredictBag (toyOps (1 * 8)) w1.regs fA bagX := by
  have hl2 : (labelsOf ([0, 1, 1] : List ℕ)).length = 2 := by rw [labelsOf_eq _ [0, 1] (by decide) (by decide)]; rfl
  obtain ⟨w1, fA, hA, -⟩ := regFit_returns (α := ℕ) (D := Fin 1 → ℝ) (nd := 1) (fun _ => ⊥) lazyRng lazyRng_ok lazyRng_total 1000 (⟨Function.update (fun _ => defaultGen) 1 { defaultGen with nBags := 2 }, fun _ => 0, true⟩ : RegWorld Bool ℕ)
    ⟨0, 8, .equalWidth, some 0⟩ (toyOps (1 * 8)) none (.inl rfl) (fun d row => row d) [fun _ => 0, fun _ => 1, fun _ => 5] [0, 1, 1] (by simp) rfl (by norm_num) rfl rfl rfl rfl (by simp [defaultGen]) (by simp [defaultGen]) (by simp [defaultGen])
  obtain ⟨sA, glA, bA, h1, h2, h3, h4, hnA, h5, h6, hmA⟩ := regFit_inv hA
  have hg : w1.gens 1 = { defaultGen with nBags := 2 } := by
    rw [h3]
    simp
  obtain ⟨w2, fB, hB, -⟩ := regFit_returns (α := ℕ) (D := Fin 1 → ℝ) (nd := 1) (fun _ => ⊥) lazyRng lazyRng_ok lazyRng_total 1000 w1 ⟨1, 8, .equalWidth, some 0⟩ (toyOps (1 * 8)) none (.inl rfl) (fun d row => row d)
    [fun _ => 0, fun _ => 1, fun _ => 5] [0, 1, 1] (by simp) rfl (by norm_num) rfl (by rw [hg]; rfl) (by rw [hg]; rfl) (by rw [hg]; rfl) (by rw [hg]; simp [defaultGen]) (by rw [hg]; simp) (by rw [hg]; simp [defaultGen])
  refine ⟨w1, w2, fA, fB, hA, hB, fun bagX => ?_⟩
  obtain ⟨hmodel, hs1⟩ := toy_state rfl hl2 hA
  obtain ⟨-, hs2⟩ := toy_state rfl hl2 hB
  simp only [hg] at hs2
  have hs1' : w1.regs 0 = 1000 := hs1
  unfold regPredictBag
  rw [hmodel]
  simp only [toyOps, hs1', hs2]
  rw [binaryAnswer_eq _ (by simp), binaryAnswer_eq _ (by simp)]
  simp only [nearestUnit]
  norm_num

end Verif.Props
