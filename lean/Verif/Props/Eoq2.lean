import Verif.Props.Eoq
import Verif.Props.Regression
import Verif.Props.Bags2
import Verif.Props.Base

/-!
# C59 (continued), C60, C90 - C95: ensembles of quantifiers
-/

namespace Verif.Props

open Verif.Model Verif.Spec Verif.Proof

variable {α G Q : Type}

section
variable [LinearOrder α] {ppf : ℝ → EReal} {rng : Rng G} {fuel : ℕ} {w w' : EoqWorld G} {cfg : EoqCfg} {y : List α} {prevs : Option (List (List Fl))} {idx : Option (List (List ℕ))} {argsort : List Fl → List ℕ}
  {nc : ℕ} {vs : List (List ℝ)}

/-! ## C94: members selected by their predictions -/

theorem selected_le (hp1 : cfg.pct ≤ 1) : roundHalfEven ((cfg.nQuant : ℝ) * cfg.pct) ≤ (cfg.nQuant : ℤ) := by
  apply roundHalfEven_le
  have : (0 : ℝ) ≤ cfg.nQuant := Nat.cast_nonneg _
  push_cast
  nlinarith

/-- The mean of the members selected by a score. -/
theorem meanOf_best (hs : ArgsortOk argsort) (hvalid : ∀ v ∈ vs, IsPrevList nc v) (hlen : vs.length = cfg.nQuant) (d : List ℝ) (hd : d.length = cfg.nQuant) (hp1 : cfg.pct ≤ 1) (k : ℕ) (hk0 : 1 ≤ k)
    (hk : roundHalfEven ((cfg.nQuant : ℝ) * cfg.pct) = k) :
    ∃ v : Fin nc → Fl, eoqMeanOf (vs.map (asVec nc)) (eoqSelect argsort cfg (d.map Fl.fin)) = .ok v ∧ MeanOfBest (fun i => d.getD i 0) cfg.nQuant k vs v := by
  obtain ⟨s1, s2, s3, s4⟩ := select_spec (cfg := cfg) hs d hd k hk
  have hkn : k ≤ cfg.nQuant := by
    have := selected_le (cfg := cfg) hp1
    omega
  rw [min_eq_left hkn] at s2
  have hr : ∀ i ∈ eoqSelect argsort cfg (d.map Fl.fin), i < (vs.map (asVec nc)).length := fun i hi => by rw [List.length_map, hlen]; exact s3 i hi
  rw [meanOf_eq _ _ hr]
  refine ⟨_, rfl, _, s1, s2, s3, s4, fun c => ?_⟩
  have hne : (eoqSelect argsort cfg (d.map Fl.fin)).map (fun i => (vs.map (asVec nc)).getD i 0) ≠ [] := by
    intro h0
    have := congrArg List.length h0
    rw [List.length_map, s2, List.length_nil] at this
    omega
  have hall : ∀ r ∈ vs.map (asVec nc), IsPrev r := by
    intro r hr
    obtain ⟨v, hv, rfl⟩ := List.mem_map.1 hr
    exact asVec_isPrev (hvalid v hv)
  rw [eoqMean_eq _ hne (sel_rows hall _ hr)]
  unfold meanRows
  rw [List.length_map, s2]
  beta_reduce
  rw [List.map_map]
  congr 3
  refine List.map_congr_left fun i hi => ?_
  have hi' : i < vs.length := by rw [hlen]; exact s3 i hi
  simp [asVec, List.getD_eq_getElem, hi']

theorem differences_spec (hnc : 0 < nc) (vs : List (List ℝ)) : eoqDifferences (vs.map (asVec nc)) = ((List.range vs.length).map (distanceToMean nc vs)).map Fl.fin := by
  rw [differences_eq hnc]
  congr 1
  apply List.ext_getElem (by simp)
  intro i h1 h2
  simp only [List.length_map] at h1
  have hm : ∀ j : Fin nc, meanRows (vs.map (asVec nc)) j = meanPrediction vs j := by
    intro j
    unfold meanRows meanPrediction
    rw [List.length_map, List.map_map]
    rfl
  simp only [List.getElem_map, List.getElem_range, hm, distanceToMean, List.getD_eq_getElem _ _ h1]
  rfl

/-- **C94**: the answer of 'prevalence_similarity' is the mean of the predictions of the members (as many as the percentage says) that are closest to the mean prediction. -/
theorem C94_eoqx_prevalence_similarity {nf : ℕ} {ops : EoqOps Q (List (Fin nf → ℝ)) α} {X : List (Fin nf → ℝ)} {fit : EoqFit Q nf cfg.nBins} (hs : ArgsortOk argsort)
    (hfit : eoqxFit ppf rng fuel w cfg ops X y prevs idx = some (w', .ok fit)) (Xt : List (Fin nf → ℝ)) (hn : 0 < cfg.nQuant) (hst : cfg.strategy = .prevalenceSimilarity)
    (hvs : (fit.members.map fun q => ops.predict q Xt) = vs.map .ok) (hvalid : ∀ v ∈ vs, IsPrevList nc v) (hp1 : cfg.pct ≤ 1) (k : ℕ) (hk0 : 1 ≤ k) (hk : roundHalfEven ((cfg.nQuant : ℝ) * cfg.pct) = k) :
    ∃ v, eoqxPredict argsort nc cfg ops fit Xt = .ok (.vec v) ∧ MeanOfBest (distanceToMean nc vs) cfg.nQuant k vs v := by
  obtain ⟨hl, -⟩ := eoqx_shape hfit hn Xt
  have hlen : vs.length = cfg.nQuant := by
    have := congrArg List.length hvs
    simpa [hl] using this.symm
  have hnc : 0 < nc := by
    have hne : vs ≠ [] := List.length_pos_iff.1 (by omega)
    exact isPrev_nc (asVec_isPrev (hvalid _ (List.head_mem hne)))
  obtain ⟨v, h1, S, s1, s2, s3, s4, s5⟩ := meanOf_best hs hvalid hlen ((List.range vs.length).map (distanceToMean nc vs)) (by simpa using hlen) hp1 k hk0 hk
  refine ⟨v, ?_, S, s1, s2, s3, fun i hi j hj hjS => ?_, s5⟩
  · unfold eoqxPredict
    rw [eoqxRows_eq hl hvs fun v hv => (hvalid v hv).1]
    show eoqCombine _ _ _ _ = _
    unfold eoqCombine
    rw [hst]
    show Except.map _ (eoqMeanOf _ _) = _
    rw [differences_spec hnc, h1]
    rfl
  · have := s4 i hi j hj hjS
    simpa [List.getD_eq_getElem, hlen, s3 i hi, hj] using this

theorem C94_eoqy_prevalence_similarity {lenX : ℕ} {ops : EoqOps Q (Preds α nc) α} {preds : EoqPreds α nc} {fit : EoqFit Q (nDescriptors nc) cfg.nBins} (hs : ArgsortOk argsort)
    (hfit : eoqyFit ppf rng fuel w cfg ops lenX preds y prevs idx = some (w', .ok fit)) (test : EoqPreds α nc) (hn : 0 < cfg.nQuant) (hst : cfg.strategy = .prevalenceSimilarity)
    (hvs : (fit.members.mapIdx fun i q => test.forMember i >>= ops.predict q) = vs.map .ok) (hvalid : ∀ v ∈ vs, IsPrevList nc v) (hp1 : cfg.pct ≤ 1) (k : ℕ) (hk0 : 1 ≤ k)
    (hk : roundHalfEven ((cfg.nQuant : ℝ) * cfg.pct) = k) :
    ∃ v, eoqyPredict argsort cfg ops fit test = .ok (.vec v) ∧ MeanOfBest (distanceToMean nc vs) cfg.nQuant k vs v := by
  obtain ⟨hl, -⟩ := eoqy_shape hfit hn test
  have hlen : vs.length = cfg.nQuant := by
    have := congrArg List.length hvs
    simpa [hl] using this.symm
  have hnc : 0 < nc := by
    have hne : vs ≠ [] := List.length_pos_iff.1 (by omega)
    exact isPrev_nc (asVec_isPrev (hvalid _ (List.head_mem hne)))
  obtain ⟨v, h1, S, s1, s2, s3, s4, s5⟩ := meanOf_best hs hvalid hlen ((List.range vs.length).map (distanceToMean nc vs)) (by simpa using hlen) hp1 k hk0 hk
  refine ⟨v, ?_, S, s1, s2, s3, fun i hi j hj hjS => ?_, s5⟩
  · unfold eoqyPredict
    rw [eoqyRows_eq hl hvs fun v hv => (hvalid v hv).1]
    show eoqCombine _ _ _ _ = _
    unfold eoqCombine
    rw [hst]
    show Except.map _ (eoqMeanOf _ _) = _
    rw [differences_spec hnc, h1]
    rfl
  · have := s4 i hi j hj hjS
    simpa [List.getD_eq_getElem, hlen, s3 i hi, hj] using this

/-! ## C95: the mean and the median -/

/-- The answer of the strategy 'mean' is the mean of the predictions; that of 'median' is proportional to medians of the predictions; it is NaN for every class exactly when every class is given prevalence 0 by
more than half of the members. -/
theorem combine_mean_median (hvalid : ∀ v ∈ vs, IsPrevList nc v) (hne : vs ≠ []) (dists : Except Err (List Fl)) :
    (cfg.strategy = .mean → eoqCombine argsort cfg (vs.map (asVec nc)) dists = .ok (.vec fun c => .fin (meanPrediction vs c)))
    ∧ (cfg.strategy = .median → ∃ m : Fin nc → ℝ, (∀ c, IsMedian (m c) (vs.map fun v => v.getD c 0)) ∧ (∀ c, 0 ≤ m c)
        ∧ (((∃ c, 0 < m c) ∧ eoqCombine argsort cfg (vs.map (asVec nc)) dists = .ok (.vec fun c => .fin (m c / ∑ i, m i)))
          ∨ ((∀ c : Fin nc, 2 * vs.countP (fun v => decide (0 < v.getD c 0)) < vs.length) ∧ eoqCombine argsort cfg (vs.map (asVec nc)) dists = .ok (.vec fun _ => .nan)))) := by
  have hall : ∀ r ∈ vs.map (asVec nc), IsPrev r := by
    intro r hr
    obtain ⟨v, hv, rfl⟩ := List.mem_map.1 hr
    exact asVec_isPrev (hvalid v hv)
  have hne' : vs.map (asVec nc) ≠ [] := by simpa using hne
  refine ⟨fun hst => ?_, fun hst => ?_⟩
  · unfold eoqCombine
    rw [hst]
    simp only
    rw [eoqMean_eq _ hne' hall]
    congr 2
    funext c
    congr 1
    unfold meanRows meanPrediction
    rw [List.length_map, List.map_map]
    rfl
  · obtain ⟨m, h1, h2, h3, h4⟩ := eoqMedian_spec _ hne' fun r hr => (hall r hr).1
    refine ⟨m, fun c => ?_, h2, ?_⟩
    · have := h1 c
      rw [List.map_map] at this
      exact this
    · unfold eoqCombine
      rw [hst]
      simp only
      rw [h4]
      by_cases hp : ∃ c, 0 < m c
      · left
        refine ⟨hp, ?_⟩
        obtain ⟨c, hc⟩ := hp
        have hs : 0 < ∑ i, m i := Finset.sum_pos' (fun i _ => h2 i) ⟨c, Finset.mem_univ _, hc⟩
        rw [normalise_fin m hs.ne']
      · right
        push Not at hp
        refine ⟨fun c => ?_, ?_⟩
        · have := (h3 c).not.1 (not_lt.2 (hp c))
          rw [List.length_map, List.countP_map] at this
          exact not_le.1 this
        · rw [show (fun j => Fl.fin (m j)) = fun _ => Fl.fin 0 from funext fun j => by rw [le_antisymm (hp j) (h2 j)], normalise_zero]

/-- **C95** for quantifiers that do not use classifiers. -/
theorem C95_eoqx_mean_median {nf : ℕ} {ops : EoqOps Q (List (Fin nf → ℝ)) α} {X : List (Fin nf → ℝ)} {fit : EoqFit Q nf cfg.nBins}
    (hfit : eoqxFit ppf rng fuel w cfg ops X y prevs idx = some (w', .ok fit)) (Xt : List (Fin nf → ℝ)) (hn : 0 < cfg.nQuant)
    (hvs : (fit.members.map fun q => ops.predict q Xt) = vs.map .ok) (hvalid : ∀ v ∈ vs, IsPrevList nc v) :
    (cfg.strategy = .mean → eoqxPredict argsort nc cfg ops fit Xt = .ok (.vec fun c => .fin (meanPrediction vs c)))
    ∧ (cfg.strategy = .median → ∃ m : Fin nc → ℝ, (∀ c, IsMedian (m c) (vs.map fun v => v.getD c 0)) ∧ (∀ c, 0 ≤ m c)
        ∧ (((∃ c, 0 < m c) ∧ eoqxPredict argsort nc cfg ops fit Xt = .ok (.vec fun c => .fin (m c / ∑ i, m i)))
          ∨ ((∀ c : Fin nc, 2 * vs.countP (fun v => decide (0 < v.getD c 0)) < vs.length) ∧ eoqxPredict argsort nc cfg ops fit Xt = .ok (.vec fun _ => .nan)))) := by
  obtain ⟨hl, -⟩ := eoqx_shape hfit hn Xt
  have hlen : vs.length = cfg.nQuant := by
    have := congrArg List.length hvs
    simpa [hl] using this.symm
  unfold eoqxPredict
  rw [eoqxRows_eq hl hvs fun v hv => (hvalid v hv).1]
  exact combine_mean_median hvalid (List.length_pos_iff.1 (by omega)) _

/-- **C95** for quantifiers that use classifiers. -/
theorem C95_eoqy_mean_median {lenX : ℕ} {ops : EoqOps Q (Preds α nc) α} {preds : EoqPreds α nc} {fit : EoqFit Q (nDescriptors nc) cfg.nBins}
    (hfit : eoqyFit ppf rng fuel w cfg ops lenX preds y prevs idx = some (w', .ok fit)) (test : EoqPreds α nc) (hn : 0 < cfg.nQuant)
    (hvs : (fit.members.mapIdx fun i q => test.forMember i >>= ops.predict q) = vs.map .ok) (hvalid : ∀ v ∈ vs, IsPrevList nc v) :
    (cfg.strategy = .mean → eoqyPredict argsort cfg ops fit test = .ok (.vec fun c => .fin (meanPrediction vs c)))
    ∧ (cfg.strategy = .median → ∃ m : Fin nc → ℝ, (∀ c, IsMedian (m c) (vs.map fun v => v.getD c 0)) ∧ (∀ c, 0 ≤ m c)
        ∧ (((∃ c, 0 < m c) ∧ eoqyPredict argsort cfg ops fit test = .ok (.vec fun c => .fin (m c / ∑ i, m i)))
          ∨ ((∀ c : Fin nc, 2 * vs.countP (fun v => decide (0 < v.getD c 0)) < vs.length) ∧ eoqyPredict argsort cfg ops fit test = .ok (.vec fun _ => .nan)))) := by
  obtain ⟨hl, -⟩ := eoqy_shape hfit hn test
  have hlen : vs.length = cfg.nQuant := by
    have := congrArg List.length hvs
    simpa [hl] using this.symm
  unfold eoqyPredict
  rw [eoqyRows_eq hl hvs fun v hv => (hvalid v hv).1]
  exact combine_mean_median hvalid (List.length_pos_iff.1 (by omega)) _

/-- C59: when no member is selected the answer is NaN for every class. In particular a single member with the default percentage 0.5 is never selected: `round(0.5)` is 0. -/
theorem C59_none_selected (hst : cfg.strategy = .prevalenceSimilarity) (rows : List (Fin nc → ℝ)) (dists : Except Err (List Fl)) (h0 : roundHalfEven ((cfg.nQuant : ℝ) * cfg.pct) = 0) :
    eoqCombine argsort cfg rows dists = .ok (.vec fun _ => .nan) := by
  unfold eoqCombine eoqSelect sliceTo
  rw [hst, h0]
  simp only [le_refl, if_true, Int.toNat_zero, List.take_zero]
  show Except.map _ (Except.map _ (Except.ok [])) = _
  simp only [Except.map, eoqMean_nil]

theorem round_half : roundHalfEven (1 / 2) = 0 := by
  have : ⌊(1 / 2 : ℝ)⌋ = 0 := by norm_num [Int.floor_eq_iff]
  unfold roundHalfEven
  rw [this]
  norm_num

/-! ## C91: which options work -/

/-- **C91 is false**: with the documented option `distribution_function='CDF'`, `fit` never returns. -/
theorem C91_cdf_refuted {nf : ℕ} {ops : EoqOps Q (List (Fin nf → ℝ)) α} {X : List (Fin nf → ℝ)} {fit : EoqFit Q nf cfg.nBins} (hf : cfg.f = .cdf) (hn : 0 < cfg.nQuant) (hnf : 0 < nf) :
    eoqxFit ppf rng fuel w cfg ops X y prevs idx ≠ some (w', .ok fit) := by
  intro hfit
  obtain ⟨idx', -, h⟩ := eoqxFit_inv hfit
  obtain ⟨-, -, h3⟩ := eoqxLearn_inv h
  obtain ⟨v, -, hv⟩ := (mapM_range h3).2 0 hn
  obtain ⟨b, -, h2⟩ := bind_inv hv
  rw [if_pos ⟨hf, hnf⟩] at h2
  cases h2

theorem C91_cdf_classifiers_refuted {lenX : ℕ} {ops : EoqOps Q (Preds α nc) α} {preds : EoqPreds α nc} {fit : EoqFit Q (nDescriptors nc) cfg.nBins} (hf : cfg.f = .cdf) (hn : 0 < cfg.nQuant) (hnc : 0 < nc) :
    eoqyFit ppf rng fuel w cfg ops lenX preds y prevs idx ≠ some (w', .ok fit) := by
  intro hfit
  have hd : 0 < nDescriptors nc := by unfold nDescriptors; split_ifs <;> omega
  obtain ⟨idx', -, h⟩ := eoqyFit_inv hfit
  obtain ⟨_, _, -, -, -, h3⟩ := eoqyLearn_inv h
  obtain ⟨v, -, hv⟩ := (mapM_range h3).2 0 hn
  unfold eoqyDistribution at hv
  cases hr : preds.rows with
  | none =>
    rw [hr] at hv
    simp only at hv
    rw [if_pos ⟨hf, hd⟩] at hv
    cases hv
  | some l =>
    rw [hr] at hv
    obtain ⟨b, -, h2⟩ := bind_inv hv
    rw [if_pos ⟨hf, hd⟩] at h2
    cases h2

/-- **C91 is false**: with quantifiers that do not use classifiers, `fit` never returns unless there are exactly 100 bins. -/
theorem C91_bins_refuted {nf : ℕ} {ops : EoqOps Q (List (Fin nf → ℝ)) α} {X : List (Fin nf → ℝ)} {fit : EoqFit Q nf cfg.nBins} (hb : cfg.nBins ≠ 100) (hnf : 0 < nf) :
    eoqxFit ppf rng fuel w cfg ops X y prevs idx ≠ some (w', .ok fit) := by
  intro hfit
  obtain ⟨idx', -, h⟩ := eoqxFit_inv hfit
  obtain ⟨h1, -, -⟩ := eoqxLearn_inv h
  obtain ⟨b, -, h2⟩ := bind_inv h1
  rw [if_pos ⟨hb, hnf⟩] at h2
  cases h2

/-! ## C92: what the members are trained on -/

theorem mapM_item_iff {β : Type} (l : List β) (bag : List ℕ) (rows : List β) : bag.mapM (item l) = .ok rows ↔ BagOf l bag rows := by
  rw [mapM_iff]
  unfold BagOf
  constructor
  · intro h
    induction h with
    | nil => rfl
    | cons h1 _ ih => rw [List.map_cons, List.map_cons, ih, item_ok.1 h1]
  · intro h
    induction bag generalizing rows with
    | nil => cases rows with
      | nil => exact .nil
      | cons a t => simp at h
    | cons i t ih => cases rows with
      | nil => simp at h
      | cons a r =>
        simp only [List.map_cons, List.cons.injEq] at h
        exact .cons (item_ok.2 h.1) (ih r h.2)

theorem mapM_bind_iff {β γ : Type} (l : List β) (g : β → Option γ) (h : β → Except Err γ) (hg : ∀ b c, h b = .ok c ↔ g b = some c) (bag : List ℕ) (rows : List γ) :
    (bag.mapM fun j => item l j >>= h) = .ok rows ↔ (bag.map fun j => l[j]?.bind g) = rows.map some := by
  have key : ∀ j c, (item l j >>= h) = .ok c ↔ l[j]?.bind g = some c := by
    intro j c
    unfold item
    cases l[j]? with
    | none => simp [bind, Except.bind]
    | some b => exact hg b c
  rw [mapM_iff]
  constructor
  · intro h
    induction h with
    | nil => rfl
    | cons h1 _ ih => rw [List.map_cons, List.map_cons, ih, (key _ _).1 h1]
  · intro h
    induction bag generalizing rows with
    | nil => cases rows with
      | nil => exact .nil
      | cons a t => simp at h
    | cons i t ih => cases rows with
      | nil => simp at h
      | cons a r =>
        simp only [List.map_cons, List.cons.injEq] at h
        exact .cons ((key _ _).2 h.1) (ih r h.2)

theorem ofBag_iff {preds : EoqPreds α nc} {bag : List ℕ} {i : ℕ} {p : Preds α nc} : preds.ofBag bag i = .ok p ↔ BagPreds preds bag i p := by
  have h : ∀ {β : Type} {x : Except Err β} {f : β → Preds α nc}, x.map f = .ok p ↔ ∃ b, p = f b ∧ x = .ok b := by
    intro β x f
    cases x with
    | error e => simp [Except.map]
    | ok b => simp [Except.map, eq_comm]
  cases preds with
  | crisp l => simp only [EoqPreds.ofBag, BagPreds, h, mapM_item_iff]
  | probs l => simp only [EoqPreds.ofBag, BagPreds, h, mapM_item_iff]
  | ens l =>
    simp only [EoqPreds.ofBag, BagPreds, h]
    refine exists_congr fun ps => and_congr_right fun _ => mapM_bind_iff l _ _ (fun b c => ?_) bag ps
    exact item_ok

/-- **C92**: member `i` is the result of training the base quantifier with the examples and the labels of bag `i`. -/
theorem C92_eoqx_own_bag {nf : ℕ} {ops : EoqOps Q (List (Fin nf → ℝ)) α} {X : List (Fin nf → ℝ)} {fit : EoqFit Q nf cfg.nBins}
    (hfit : eoqxFit ppf rng fuel w cfg ops X y prevs idx = some (w', .ok fit)) :
    ∃ bags, eoqBags rng fuel w cfg y X.length prevs idx = some (w', .ok bags) ∧ fit.members.length = cfg.nQuant ∧ ∀ i < cfg.nQuant, ∃ l bag rows ys q, bags = some l ∧ l[i]? = some bag ∧ BagOf X bag rows
      ∧ BagOf y bag ys ∧ fit.members[i]? = some q ∧ ops.fit rows ys = .ok q := by
  obtain ⟨bags, h0, h⟩ := eoqxFit_inv hfit
  obtain ⟨-, h2, -⟩ := eoqxLearn_inv h
  refine ⟨bags, h0, (mapM_range h2).1, fun i hi => ?_⟩
  obtain ⟨q, hq, he⟩ := (mapM_range h2).2 i hi
  obtain ⟨bag, hb, he1⟩ := bind_inv he
  obtain ⟨rows, hr, he2⟩ := bind_inv he1
  obtain ⟨ys, hy, he3⟩ := bind_inv he2
  cases bags with
  | none => cases hb
  | some l => exact ⟨l, bag, rows, ys, q, rfl, item_ok.1 hb, (mapM_item_iff _ _ _).1 hr, (mapM_item_iff _ _ _).1 hy, hq, he3⟩

/-- **C92** for quantifiers that use classifiers, with a prediction per example. -/
theorem C92_eoqy_own_bag {lenX : ℕ} {ops : EoqOps Q (Preds α nc) α} {preds : EoqPreds α nc} {fit : EoqFit Q (nDescriptors nc) cfg.nBins} (hlen : preds.len = y.length)
    (hfit : eoqyFit ppf rng fuel w cfg ops lenX preds y prevs idx = some (w', .ok fit)) :
    ∃ bags, eoqBags rng fuel w cfg y lenX prevs idx = some (w', .ok bags) ∧ fit.members.length = cfg.nQuant ∧ ∀ i < cfg.nQuant, ∃ l bag p ys q, bags = some l ∧ l[i]? = some bag ∧ BagPreds preds bag i p
      ∧ BagOf y bag ys ∧ fit.members[i]? = some q ∧ ops.fit p ys = .ok q := by
  obtain ⟨bags, h0, h⟩ := eoqyFit_inv hfit
  obtain ⟨yExt, idxExt, h1, h2, -⟩ := eoqyLearn_inv h
  have hext : yExt = y ∧ idxExt = bags := by
    unfold eoqExtend extendLabels at h1
    rw [if_pos hlen.symm] at h1
    obtain ⟨ye, hy, h1⟩ := bind_inv h1
    rw [if_pos hlen.symm] at h1
    simp only [pure, Except.pure, Except.ok.injEq, Prod.mk.injEq] at h1 hy
    exact ⟨h1.1 ▸ hy.symm, h1.2.symm⟩
  obtain ⟨rfl, rfl⟩ := hext
  refine ⟨idxExt, h0, (mapM_range h2).1, fun i hi => ?_⟩
  obtain ⟨q, hq, he⟩ := (mapM_range h2).2 i hi
  obtain ⟨bag, hb, he1⟩ := bind_inv he
  obtain ⟨ys, hy, he2⟩ := bind_inv he1
  obtain ⟨p, hp, he3⟩ := bind_inv he2
  cases idxExt with
  | none => cases hb
  | some l => exact ⟨l, bag, p, ys, q, rfl, item_ok.1 hb, ofBag_iff.1 hp, (mapM_item_iff _ _ _).1 hy, hq, he3⟩

/-- **C92, partial**: with `r` predictions per example, member `i` is trained with the `r` predictions of every example of bag `i`, each with the label of its example. -/
theorem C92_eoqy_repeated_partial {lenX r : ℕ} {ops : EoqOps Q (Preds α nc) α} {preds : EoqPreds α nc} {fit : EoqFit Q (nDescriptors nc) cfg.nBins} (hy0 : y ≠ []) (hr : r ≠ 1) (hlen : preds.len = r * y.length)
    (hfit : eoqyFit ppf rng fuel w cfg ops lenX preds y prevs idx = some (w', .ok fit)) :
    ∃ bags, eoqBags rng fuel w cfg y lenX prevs idx = some (w', .ok bags) ∧ fit.members.length = cfg.nQuant ∧ ∀ i < cfg.nQuant, ∃ l bag p ys q, bags = some l ∧ l[i]? = some bag
      ∧ BagPreds preds ((List.range r).flatMap fun t => bag.map fun j => j + t * y.length) i p
      ∧ BagOf ((List.range r).flatMap fun _ => y) ((List.range r).flatMap fun t => bag.map fun j => j + t * y.length) ys ∧ fit.members[i]? = some q ∧ ops.fit p ys = .ok q := by
  obtain ⟨bags, h0, h⟩ := eoqyFit_inv hfit
  obtain ⟨yExt, idxExt, h1, h2, -⟩ := eoqyLearn_inv h
  have hpos : 0 < y.length := List.length_pos_iff.2 hy0
  have hne : y.length ≠ preds.len := by
    rw [hlen]
    intro h
    apply hr
    have h' : 1 * y.length = r * y.length := by omega
    exact (Nat.eq_of_mul_eq_mul_right hpos h').symm
  obtain ⟨l, rfl, rfl, rfl⟩ : ∃ l, bags = some l ∧ yExt = ((List.range r).flatMap fun _ => y) ∧ idxExt = some (l.map fun bag => (List.range r).flatMap fun t => bag.map fun j => j + t * y.length) := by
    unfold eoqExtend at h1
    rw [hlen, extendLabels_tile y hy0] at h1
    obtain ⟨ye, hy, h1⟩ := bind_inv h1
    rw [if_neg (hlen ▸ hne), Nat.mul_div_cancel _ hpos] at h1
    obtain ⟨ie, hi, h1⟩ := bind_inv h1
    simp only [pure, Except.pure, Except.ok.injEq, Prod.mk.injEq] at h1 hy
    obtain ⟨rfl, rfl⟩ := h1
    unfold extIndexes at hi
    cases bags with
    | none => cases hi
    | some l =>
      simp only at hi
      split_ifs at hi
      refine ⟨l, rfl, ?_, ?_⟩
      · rw [← hy, npTile]
        rw [List.flatMap_def, List.map_const', List.length_range]
      · simp only [Except.ok.injEq] at hi
        rw [← hi]
        rfl
  refine ⟨_, h0, (mapM_range h2).1, fun i hi => ?_⟩
  obtain ⟨q, hq, he⟩ := (mapM_range h2).2 i hi
  obtain ⟨bag, hb, he1⟩ := bind_inv he
  obtain ⟨ys, hy, he2⟩ := bind_inv he1
  obtain ⟨p, hp, he3⟩ := bind_inv he2
  have hb' := item_ok.1 hb
  rw [List.getElem?_map, Option.map_eq_some_iff] at hb'
  obtain ⟨bag0, hb0, rfl⟩ := hb'
  exact ⟨l, bag0, p, ys, q, rfl, hb0, ofBag_iff.1 hp, (mapM_item_iff _ _ _).1 hy, hq, he3⟩

/-- **C92 is false** with several predictions per example (as those of `CV_estimator` without averaging) unless all the bags have as many examples as the training set: `fit` never returns. -/
theorem C92_bag_size_refuted {lenX r : ℕ} {ops : EoqOps Q (Preds α nc) α} {preds : EoqPreds α nc} {fit : EoqFit Q (nDescriptors nc) cfg.nBins} (hy0 : y ≠ []) (hr : 1 < r) (hlen : preds.len = r * y.length)
    (bags : List (List ℕ)) (hbags : eoqBags rng fuel w cfg y lenX prevs idx = some (w', .ok (some bags))) (bag : List ℕ) (hmem : bag ∈ bags) (hsize : bag.length ≠ y.length) :
    eoqyFit ppf rng fuel w cfg ops lenX preds y prevs idx ≠ some (w', .ok fit) := by
  intro hfit
  obtain ⟨bags', h0, h⟩ := eoqyFit_inv hfit
  rw [hbags] at h0
  simp only [Option.some.injEq, Prod.mk.injEq, Except.ok.injEq, true_and] at h0
  subst h0
  obtain ⟨yExt, idxExt, h1, -⟩ := eoqyLearn_inv h
  have hpos : 0 < y.length := List.length_pos_iff.2 hy0
  unfold eoqExtend at h1
  rw [hlen, extendLabels_tile y hy0] at h1
  obtain ⟨ye, hy, h1⟩ := bind_inv h1
  have hne : y.length ≠ r * y.length := by
    intro h
    have h' : 1 * y.length = r * y.length := by omega
    have := Nat.eq_of_mul_eq_mul_right hpos h'
    omega
  rw [if_neg hne, Nat.mul_div_cancel _ hpos] at h1
  obtain ⟨ie, hi, h1⟩ := bind_inv h1
  unfold extIndexes at hi
  simp only at hi
  rw [if_neg fun hc => (hc.2.resolve_left (by omega)) bag hmem |> hsize] at hi
  cases hi

/-! ## C91: when `fit` returns -/

theorem bind_ok {β γ : Type} {x : Except Err β} {b : β} (h : x = .ok b) (f : β → Except Err γ) : (x >>= f) = f b := by
  rw [h]
  rfl

theorem eoqDistribution_pdf {nf nb : ℕ} {f : DistFun} (hpdf : f = .pdf) {cuts : Fin nf → Fin (nb + 1) → EReal} (hc : ∀ d, CutsOk (cuts d)) (rows : List (Fin nf → ℝ)) :
    eoqDistribution f (fun d row => row d) cuts rows = .ok (sampleDistribution cuts rows) := by
  unfold eoqDistribution
  rw [histBlocks_eq _ _ fun d => (hc d).mono]
  show (if _ then _ else _) = _
  rw [if_neg fun h => by rw [hpdf] at h; cases h.1]
  congr 1
  funext k
  unfold sampleDistribution stackBlocks
  rw [← binInd_share _ (hc _), List.map_map, List.length_map]
  rfl

theorem eoqxLearn_returns {nf : ℕ} (hpdf : cfg.f = .pdf) (hb : cfg.nBins = 100) (ops : EoqOps Q (List (Fin nf → ℝ)) α) (hops : ∀ rows ys, ∃ q, ops.fit rows ys = .ok q) (X : List (Fin nf → ℝ)) (hX : X ≠ [])
    (y : List α) (hy : X.length = y.length) (bags : List (List ℕ)) (hl : bags.length = cfg.nQuant) (hi : ∀ bag ∈ bags, ∀ i ∈ bag, i < y.length) :
    ∃ fit, eoqxLearn ppf cfg ops X y (some bags) = .ok fit ∧ (∀ d, computeBincuts ppf (X.map fun row => row d) y (labelsOf y) cfg.nBins .equalWidth none = .ok (fit.cuts d))
      ∧ (∀ d, CutsOk (fit.cuts d)) ∧ fit.dists = List.replicate cfg.nQuant (sampleDistribution fit.cuts X) := by
  have hc := fun d : Fin nf => C46_equal_width ppf (X.map fun row => row d) y (labelsOf y) cfg.nBins (by omega) none (fun _ => by simpa using hX) (by simp)
  choose cuts hc1 hc2 using hc
  have e1 : eoqxCuts ppf cfg.nBins X y = .ok cuts := by
    unfold eoqxCuts
    rw [npUnique_eq_labelsOf, (seqFin_ok _ _).2 hc1]
    show (if _ then _ else _) = _
    rw [if_neg fun h => h.1 hb]
  have hitem : ∀ {β : Type} (l : List β), l.length = y.length → ∀ bag ∈ bags, ∃ r, bag.mapM (item l) = .ok r := by
    intro β l hly bag hbag
    obtain ⟨r, hr, -⟩ := mapM_exists bag (item l) fun i hib => by
      have := hi bag hbag i hib
      exact ⟨l[i], item_ok.2 (List.getElem?_eq_getElem (by omega))⟩
    exact ⟨r, hr⟩
  obtain ⟨members, e2, -⟩ := mapM_exists (List.range cfg.nQuant) (fun i => bagAt (some bags) i >>= eoqxMember ops X y) fun i hir => by
    rw [List.mem_range] at hir
    have hib : i < bags.length := by omega
    have hmem : bags[i] ∈ bags := List.getElem_mem hib
    obtain ⟨rows, hrows⟩ := hitem X hy _ hmem
    obtain ⟨ys, hys⟩ := hitem y rfl _ hmem
    obtain ⟨q, hq⟩ := hops rows ys
    refine ⟨q, ?_⟩
    show (item bags i >>= eoqxMember ops X y) = _
    rw [item_ok.2 (List.getElem?_eq_getElem hib)]
    show (bags[i].mapM (item X) >>= fun rows => bags[i].mapM (item y) >>= fun ys => ops.fit rows ys) = _
    rw [hrows]
    show (bags[i].mapM (item y) >>= fun ys => ops.fit rows ys) = _
    rw [hys]
    exact hq
  have e3 := eoqDistribution_pdf hpdf hc2 X
  have e4 : ((List.range cfg.nQuant).mapM fun _ => eoqDistribution cfg.f (fun d (row : Fin nf → ℝ) => row d) cuts X) = .ok (List.replicate cfg.nQuant (sampleDistribution cuts X)) := by
    rw [mapM_ok _ _ (fun _ => sampleDistribution cuts X) fun _ _ => e3, List.map_const', List.length_range]
  refine ⟨⟨members, cuts, List.replicate cfg.nQuant (sampleDistribution cuts X)⟩, ?_, hc1, hc2, rfl⟩
  exact (bind_ok e1 _).trans ((bind_ok e2 _).trans ((bind_ok e4 _).trans rfl))

/-- **C91, partial**: with 'PDF' and 100 bins, `fit` returns with every bags given by the user. -/
theorem C91_given_bags_partial {nf : ℕ} (hpdf : cfg.f = .pdf) (hb : cfg.nBins = 100) (ops : EoqOps Q (List (Fin nf → ℝ)) α) (hops : ∀ rows ys, ∃ q, ops.fit rows ys = .ok q) (X : List (Fin nf → ℝ)) (hX : X ≠ [])
    (y : List α) (hy : X.length = y.length) (bags : List (List ℕ)) (hl : bags.length = cfg.nQuant) (hi : ∀ bag ∈ bags, ∀ i ∈ bag, i < y.length) (prevs : List (List Fl)) :
    ∃ fit, eoqxFit ppf rng fuel w cfg ops X y (some prevs) (some bags) = some (w, .ok fit) := by
  obtain ⟨fit, h, -⟩ := eoqxLearn_returns (ppf := ppf) hpdf hb ops hops X hX y hy bags hl hi
  exact ⟨fit, by unfold eoqxFit eoqBags; simp only [Option.map_some]; exact congrArg (fun r => some (w, r)) h⟩

/-- **C91, partial**: with 'PDF' and 100 bins, `fit` returns with the bags of a new generator that uses the uniform method. -/
theorem C91_generated_bags_partial (hr : RngOk rng) (ht : RngTotal rng) {nf : ℕ} (hpdf : cfg.f = .pdf) (hb : cfg.nBins = 100) (ops : EoqOps Q (List (Fin nf → ℝ)) α) (hops : ∀ rows ys, ∃ q, ops.fit rows ys = .ok q)
    (X : List (Fin nf → ℝ)) (hX : X ≠ []) (y : List α) (hy : X.length = y.length) (hfresh : (w.gens cfg.gen).bags = none) (hm : (w.gens cfg.gen).method = .uniform) (hmin : (w.gens cfg.gen).minPrev = .none)
    (hrs : (w.gens cfg.gen).rs ≠ .invalid) (hfuel : cfg.nQuant ≤ fuel) (hbs : 0 < (w.gens cfg.gen).bagSize.getD y.length) :
    ∃ w' fit, eoqxFit ppf rng fuel w cfg ops X y none none = some (w', .ok fit) := by
  have hy0 : y ≠ [] := by
    rintro rfl
    exact hX (List.length_eq_zero_iff.1 hy)
  obtain ⟨s', b, hg⟩ := C82_uniform_returns_partial rng hr ht fuel { w.gens cfg.gen with nBags := cfg.nQuant } hfresh hm hmin hrs hfuel w.glob ⟨y, some X.length⟩ hy0 (Or.inr (by rw [hy])) hbs
  have hA := (C37_prior_shift_bags rng hr fuel { w.gens cfg.gen with nBags := cfg.nQuant } hfresh _ _ hy0 hbs s' _ b hg).1
  obtain ⟨h1, h2, -, -⟩ := areBags_shape hA
  obtain ⟨fit, h, -⟩ := eoqxLearn_returns (ppf := ppf) hpdf hb ops hops X hX y hy b.idx h1 h2
  refine ⟨⟨Function.update w.gens cfg.gen s', w.glob⟩, fit, ?_⟩
  unfold eoqxFit eoqBags
  simp only [hg, Option.map_some]
  exact congrArg (fun r => some ((⟨Function.update w.gens cfg.gen s', w.glob⟩ : EoqWorld G), r)) h

/-! ## C90: objects built with the default generator -/

/-- **C90 is false**: when two objects have the same generator (as those built with the default argument) and the first has been fitted, the second is trained with the bags of the first. If it has more
members, its `fit` never returns, although it would have returned on its own. -/
theorem C90_shared_generator_refuted (hr : RngOk rng) (ht : RngTotal rng) {nf : ℕ} {cfgB : EoqCfg} (hgen : cfgB.gen = cfg.gen) {opsA : EoqOps Q (List (Fin nf → ℝ)) α} {opsB : EoqOps Q (List (Fin nf → ℝ)) α}
    {XA XB : List (Fin nf → ℝ)} {yA yB : List α} {fA : EoqFit Q nf cfg.nBins} (hfresh : (w.gens cfg.gen).bags = none) (hyA : yA ≠ []) (hA : eoqxFit ppf rng fuel w cfg opsA XA yA none none = some (w', .ok fA))
    (hpdf : cfgB.f = .pdf) (hb : cfgB.nBins = 100) (hops : ∀ rows ys, ∃ q, opsB.fit rows ys = .ok q) (hX : XB ≠ []) (hy : XB.length = yB.length) (hm : (w.gens cfg.gen).method = .uniform)
    (hmin : (w.gens cfg.gen).minPrev = .none) (hrs : (w.gens cfg.gen).rs ≠ .invalid) (hfuel : cfgB.nQuant ≤ fuel) (hbs : ∀ s, (w.gens cfg.gen).bagSize = some s → 0 < s) (hmore : cfg.nQuant < cfgB.nQuant) :
    (∃ w2 fB, eoqxFit ppf rng fuel w cfgB opsB XB yB none none = some (w2, .ok fB)) ∧ ∀ w2 fB, eoqxFit ppf rng fuel w' cfgB opsB XB yB none none ≠ some (w2, .ok fB) := by
  have hbs' : ∀ y : List α, y ≠ [] → 0 < (w.gens cfg.gen).bagSize.getD y.length := by
    intro y hy
    cases h : (w.gens cfg.gen).bagSize with
    | none => exact List.length_pos_iff.2 hy
    | some s => exact hbs s h
  have hyB : yB ≠ [] := by
    rintro rfl
    exact hX (List.length_eq_zero_iff.1 hy)
  refine ⟨C91_generated_bags_partial hr ht hpdf hb opsB hops XB hX yB hy (hgen ▸ hfresh) (hgen ▸ hm) (hgen ▸ hmin) (hgen ▸ hrs) hfuel (hgen ▸ hbs' _ hyB), fun w2 fB hB => ?_⟩
  obtain ⟨bags, h0, -⟩ := eoqxFit_inv hA
  unfold eoqBags at h0
  simp only [Option.map_eq_some_iff] at h0
  obtain ⟨⟨s1, gl1, r1⟩, hg, h0⟩ := h0
  simp only [Prod.mk.injEq] at h0
  obtain ⟨rfl, h0⟩ := h0
  obtain ⟨b, rfl, rfl⟩ := map_inv h0
  have hst := priorGenerate_stored hg
  have hA := (C37_prior_shift_bags rng hr fuel { w.gens cfg.gen with nBags := cfg.nQuant } hfresh _ _ hyA (hbs' _ hyA) s1 _ b hg).1
  obtain ⟨bags, h1, h2, h3⟩ := C92_eoqx_own_bag hB
  obtain ⟨l, bag, -, -, -, rfl, hlb, -⟩ := h3 cfg.nQuant hmore
  unfold eoqBags at h1
  simp only [hgen, Function.update_self] at h1
  have hg2 : priorGenerate rng fuel { s1 with nBags := cfgB.nQuant } gl1 ⟨yB, some XB.length⟩ = some ({ s1 with nBags := cfgB.nQuant }, gl1, .ok b) := by
    unfold priorGenerate
    simp only [hst]
  rw [hg2] at h1
  simp only [Option.map_some, Except.map, Option.some.injEq, Prod.mk.injEq, Except.ok.injEq] at h1
  rw [← h1.2, List.getElem?_eq_none (by rw [(areBags_shape hA).1])] at hlb
  cases hlb

/-- **C90** holds for objects with different generators: whatever happens in the `fit` of the first, the second learns the same, if it uses the uniform method, that does not depend on the global random generator. -/
theorem C90_separate_generators_partial {nf nf' : ℕ} {cfgA cfgB : EoqCfg} (hgen : cfgB.gen ≠ cfgA.gen) (opsA : EoqOps Q (List (Fin nf → ℝ)) α) (opsB : EoqOps Q (List (Fin nf' → ℝ)) α)
    (XA : List (Fin nf → ℝ)) (XB : List (Fin nf' → ℝ)) (yA yB : List α) (rA : Except Err (EoqFit Q nf cfgA.nBins)) (prevsB : Option (List (List Fl))) (idxB : Option (List (List ℕ)))
    (hA : eoqxFit ppf rng fuel w cfgA opsA XA yA prevs idx = some (w', rA)) (hm : (w.gens cfgB.gen).method = .uniform) :
    (eoqxFit ppf rng fuel w' cfgB opsB XB yB prevsB idxB).map (fun r => r.2) = (eoqxFit ppf rng fuel w cfgB opsB XB yB prevsB idxB).map fun r => r.2 := by
  have hw : w'.gens cfgB.gen = w.gens cfgB.gen := by
    unfold eoqxFit eoqBags at hA
    cases prevs with
    | some p => simp at hA; rw [← hA.1]
    | none => cases idx with
      | some i => simp at hA; rw [← hA.1]
      | none =>
        simp only [Option.map_map, Option.map_eq_some_iff] at hA
        obtain ⟨r, -, hr⟩ := hA
        simp only [Function.comp, Prod.mk.injEq] at hr
        rw [← hr.1]
        exact Function.update_of_ne hgen _ _
  unfold eoqxFit
  rw [Option.map_map, Option.map_map]
  unfold eoqBags
  cases prevsB with
  | some p => rfl
  | none => cases idxB with
    | some i => rfl
    | none =>
      simp only
      rw [hw, priorGenerate_uniform_glob rng fuel { w.gens cfgB.gen with nBags := cfgB.nQuant } hm w.glob w'.glob, Option.map_map, Option.map_map, Option.map_map]
      rfl

/-! ## C60: members selected by their distributions -/

/-- What happens instead of C60: the selected members are any of them, since the distributions compared are, for all the members, that of the whole training set. -/
theorem eoqx_distribution_similarity (hs : ArgsortOk argsort) {nf : ℕ} {ops : EoqOps Q (List (Fin nf → ℝ)) α} {X : List (Fin nf → ℝ)} {fit : EoqFit Q nf cfg.nBins}
    (hfit : eoqxFit ppf rng fuel w cfg ops X y prevs idx = some (w', .ok fit)) (hcuts : ∀ d, CutsOk (fit.cuts d)) (hpdf : cfg.f = .pdf) (Xt : List (Fin nf → ℝ)) (hn : 0 < cfg.nQuant)
    (hst : cfg.strategy = .distributionSimilarity) (hvs : (fit.members.map fun q => ops.predict q Xt) = vs.map .ok) (hvalid : ∀ v ∈ vs, IsPrevList nc v) (hp1 : cfg.pct ≤ 1) (k : ℕ) (hk0 : 1 ≤ k)
    (hk : roundHalfEven ((cfg.nQuant : ℝ) * cfg.pct) = k) :
    ∃ v, eoqxPredict argsort nc cfg ops fit Xt = .ok (.vec v) ∧ MeanOfBest (fun _ => cfg.dist _ (sampleDistribution fit.cuts Xt) (sampleDistribution fit.cuts X)) cfg.nQuant k vs v := by
  obtain ⟨hl, -⟩ := eoqx_shape hfit hn Xt
  have hlen : vs.length = cfg.nQuant := by
    have := congrArg List.length hvs
    simpa [hl] using this.symm
  have e3 := eoqDistribution_pdf hpdf hcuts
  have hd : fit.dists = List.replicate cfg.nQuant (sampleDistribution fit.cuts X) := by
    obtain ⟨idx', -, h⟩ := eoqxFit_inv hfit
    obtain ⟨-, -, h3⟩ := eoqxLearn_inv h
    rw [mapM_ok _ _ (fun _ => sampleDistribution fit.cuts X) fun _ _ => e3 X, List.map_const', List.length_range] at h3
    exact (Except.ok.inj h3).symm
  obtain ⟨v, h1, S, s1, s2, s3, s4, s5⟩ := meanOf_best hs hvalid hlen (List.replicate cfg.nQuant (cfg.dist _ (sampleDistribution fit.cuts Xt) (sampleDistribution fit.cuts X))) (by simp) hp1 k hk0 hk
  refine ⟨v, ?_, S, s1, s2, s3, fun i hi j hj hjS => le_rfl, s5⟩
  unfold eoqxPredict
  rw [eoqxRows_eq hl hvs fun v hv => (hvalid v hv).1, e3 Xt]
  show eoqCombine _ _ _ _ = _
  unfold eoqCombine
  rw [hst]
  show Except.map _ (eoqMeanOf _ (eoqSelect argsort cfg (eoqDistances cfg fit _))) = _
  rw [distances_fin, hd, List.map_replicate, h1]
  rfl

/-- **C60, partial**: the members whose bags are the most similar are selected if all the bags have the distribution of the whole training set. -/
theorem C60_representative_bags_partial (hs : ArgsortOk argsort) {nf : ℕ} {ops : EoqOps Q (List (Fin nf → ℝ)) α} {X : List (Fin nf → ℝ)} {fit : EoqFit Q nf cfg.nBins}
    (hfit : eoqxFit ppf rng fuel w cfg ops X y prevs idx = some (w', .ok fit)) (hcuts : ∀ d, CutsOk (fit.cuts d)) (hpdf : cfg.f = .pdf) (Xt : List (Fin nf → ℝ)) (hn : 0 < cfg.nQuant)
    (hst : cfg.strategy = .distributionSimilarity) (hvs : (fit.members.map fun q => ops.predict q Xt) = vs.map .ok) (hvalid : ∀ v ∈ vs, IsPrevList nc v) (hp1 : cfg.pct ≤ 1) (k : ℕ) (hk0 : 1 ≤ k)
    (hk : roundHalfEven ((cfg.nQuant : ℝ) * cfg.pct) = k) (bagRows : ℕ → List (Fin nf → ℝ)) (hrep : ∀ i < cfg.nQuant, sampleDistribution fit.cuts (bagRows i) = sampleDistribution fit.cuts X) :
    ∃ v, eoqxPredict argsort nc cfg ops fit Xt = .ok (.vec v) ∧ MeanOfBest (fun i => cfg.dist _ (sampleDistribution fit.cuts Xt) (sampleDistribution fit.cuts (bagRows i))) cfg.nQuant k vs v := by
  obtain ⟨v, h1, S, s1, s2, s3, -, s5⟩ := eoqx_distribution_similarity hs hfit hcuts hpdf Xt hn hst hvs hvalid hp1 k hk0 hk
  exact ⟨v, h1, S, s1, s2, s3, fun i hi j hj _ => by simp only; rw [hrep i (s3 i hi), hrep j hj], s5⟩

end

end Verif.Props
