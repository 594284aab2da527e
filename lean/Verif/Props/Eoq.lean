import Verif.Proof.Eoq
import Verif.Props.Regression

/-!
# C59, C60, C90 - C95: ensembles of quantifiers
-/

namespace Verif.Props

open Verif.Model Verif.Spec Verif.Proof

variable {α G Q : Type}

/-! ## The combination of the predictions of the members -/

theorem storeRow_of_length {nc : ℕ} (v : List ℝ) (h : v.length = nc) : storeRow nc v = .ok fun i => v.getD i 0 := by
  unfold storeRow
  rw [dif_pos h]
  congr 1
  funext i
  rw [List.getD_eq_getElem _ _ (by omega)]
  rfl

/-- An array of numbers as a vector. -/
def asVec (nc : ℕ) (v : List ℝ) : Fin nc → ℝ := fun i => v.getD i 0

theorem asVec_isPrev {nc : ℕ} {v : List ℝ} (h : IsPrevList nc v) : IsPrev (asVec nc v) := by
  obtain ⟨rfl, h0, hs⟩ := h
  refine ⟨fun i => ?_, ?_⟩
  · unfold asVec
    rw [List.getD_eq_getElem _ _ i.2]
    exact h0 _ (List.getElem_mem _)
  · rw [← hs]
    have := Fin.sum_univ_fun_getElem v id
    simp only [id, List.map_id] at this
    rw [← this]
    refine Finset.sum_congr rfl fun i _ => ?_
    unfold asVec
    rw [List.getD_eq_getElem _ _ i.2]

section combine
variable {nc : ℕ} {argsort : List Fl → List ℕ} {cfg : EoqCfg} {rows : List (Fin nc → ℝ)}

/-- The differences are finite. -/
theorem differences_eq (hnc : 0 < nc) (rows : List (Fin nc → ℝ)) :
    eoqDifferences rows = (rows.map fun r => (∑ j, |r j - meanRows rows j|) / nc).map Fl.fin := by
  unfold eoqDifferences
  rw [List.map_map]
  refine List.map_congr_left fun r _ => ?_
  unfold meanAbsoluteError
  simp only [Fl.fin_sub, Fl.abs_fin, Fl.sum_fin, Function.comp]
  rw [Fl.fin_div _ (by exact_mod_cast hnc.ne')]

/-- The members selected, and those left out. -/
theorem select_spec (hs : ArgsortOk argsort) (d : List ℝ) (hd : d.length = cfg.nQuant) (k : ℕ) (hk : roundHalfEven ((cfg.nQuant : ℝ) * cfg.pct) = k) :
    (eoqSelect argsort cfg (d.map Fl.fin)).Nodup ∧ (eoqSelect argsort cfg (d.map Fl.fin)).length = min k cfg.nQuant ∧ (∀ i ∈ eoqSelect argsort cfg (d.map Fl.fin), i < cfg.nQuant)
      ∧ ∀ i ∈ eoqSelect argsort cfg (d.map Fl.fin), ∀ j < cfg.nQuant, j ∉ eoqSelect argsort cfg (d.map Fl.fin) → d.getD i 0 ≤ d.getD j 0 := by
  have e : eoqSelect argsort cfg (d.map Fl.fin) = (argsort (d.map Fl.fin)).take k := by
    unfold eoqSelect sliceTo
    rw [hk, if_pos (by omega), Int.toNat_natCast]
  rw [e]
  have hp := hs.perm d
  have hsrt := hs.sorted d
  rw [hd] at hp
  have hnd : (argsort (d.map Fl.fin)).Nodup := hp.nodup_iff.2 List.nodup_range
  refine ⟨hnd.sublist (List.take_sublist _ _), ?_, fun i hi => ?_, fun i hi j hj hjn => ?_⟩
  · rw [List.length_take, hp.length_eq, List.length_range]
  · have := hp.mem_iff.1 (List.mem_of_mem_take hi)
    simpa using this
  · have hj' : j ∈ argsort (d.map Fl.fin) := hp.mem_iff.2 (by simpa using hj)
    rw [← List.take_append_drop k (argsort (d.map Fl.fin))] at hj' hsrt
    have hjd : j ∈ (argsort (d.map Fl.fin)).drop k := (List.mem_append.1 hj').resolve_left hjn
    exact (List.pairwise_append.1 hsrt).2.2 i hi j hjd

/-- The mean of the selected members. -/
theorem meanOf_eq (rows : List (Fin nc → ℝ)) (sel : List ℕ) (h : ∀ i ∈ sel, i < rows.length) :
    eoqMeanOf rows sel = .ok (eoqMean (sel.map fun i => rows.getD i 0)) := by
  unfold eoqMeanOf
  rw [mapM_ok sel (item rows) (fun i => rows.getD i 0) fun i hi => by
    rw [item_ok, List.getD_eq_getElem _ _ (h i hi)]
    exact List.getElem?_eq_getElem _]
  rfl

theorem sel_rows {p : (Fin nc → ℝ) → Prop} (h : ∀ r ∈ rows, p r) (sel : List ℕ) (hsel : ∀ i ∈ sel, i < rows.length) : ∀ r ∈ sel.map fun i => rows.getD i 0, p r := by
  intro r hr
  obtain ⟨i, hi, rfl⟩ := List.mem_map.1 hr
  rw [List.getD_eq_getElem _ _ (hsel i hi)]
  exact h _ (List.getElem_mem _)

theorem eoqMedian_spec (rows : List (Fin nc → ℝ)) (hne : rows ≠ []) (h : ∀ r ∈ rows, ∀ j, 0 ≤ r j) :
    ∃ m : Fin nc → ℝ, (∀ j, IsMedian (m j) (rows.map fun r => r j)) ∧ (∀ j, 0 ≤ m j) ∧ (∀ j, 0 < m j ↔ rows.length ≤ 2 * rows.countP fun r => decide (0 < r j))
      ∧ eoqMedian rows = normalise fun j => .fin (m j) := by
  have key := fun j : Fin nc => npMedian_spec (rows.map fun r => r j) (by simpa using hne)
  choose m h1 h2 h3 using key
  have h0 : ∀ j, ∀ x ∈ rows.map (fun r => r j), 0 ≤ x := by
    intro j x hx
    obtain ⟨r, hr, rfl⟩ := List.mem_map.1 hx
    exact h r hr j
  refine ⟨m, h2, fun j => (h3 j (h0 j)).1, fun j => ?_, ?_⟩
  · have := (h3 j (h0 j)).2
    rw [List.length_map, List.countP_map] at this
    exact this
  · unfold eoqMedian
    congr 1
    funext j
    exact h1 j

theorem eoqMedian_isPrev (rows : List (Fin nc → ℝ)) (h : ∀ r ∈ rows, ∀ j, 0 ≤ r j) (hpos : ∃ j, rows.length ≤ 2 * rows.countP fun r => decide (0 < r j)) (hne : rows ≠ []) : IsPrevFl (eoqMedian rows) := by
  obtain ⟨m, -, h0, hp, he⟩ := eoqMedian_spec rows hne h
  rw [he]
  refine normalise_isPrev m h0 ?_
  obtain ⟨j, hj⟩ := hpos
  exact Finset.sum_pos' (fun i _ => h0 i) ⟨j, Finset.mem_univ _, (hp j).2 hj⟩

theorem isPrev_nc {nc : ℕ} {p : Fin nc → ℝ} (h : IsPrev p) : 0 < nc := by
  rcases Nat.eq_zero_or_pos nc with rfl | h0
  · have := h.2
    simp at this
  · exact h0

theorem avg4_isPrev {a b c d : Fin nc → Fl} (ha : IsPrevFl a) (hb : IsPrevFl b) (hc : IsPrevFl c) (hd : IsPrevFl d) : IsPrevFl fun j => (a j + b j + c j + d j) / Fl.fin 4 := by
  obtain ⟨a, ⟨a0, a1⟩, rfl⟩ := ha
  obtain ⟨b, ⟨b0, b1⟩, rfl⟩ := hb
  obtain ⟨c, ⟨c0, c1⟩, rfl⟩ := hc
  obtain ⟨d, ⟨d0, d1⟩, rfl⟩ := hd
  refine ⟨fun j => (a j + b j + c j + d j) / 4, ⟨fun j => ?_, ?_⟩, ?_⟩
  · have := a0 j; have := b0 j; have := c0 j; have := d0 j
    show 0 ≤ (a j + b j + c j + d j) / 4
    linarith
  · rw [← Finset.sum_div, Finset.sum_add_distrib, Finset.sum_add_distrib, Finset.sum_add_distrib, a1, b1, c1, d1]
    norm_num
  · funext j
    simp only [Fl.fin_add]
    rw [Fl.fin_div _ (by norm_num)]

/-- What the combination returns, when the distances are known. -/
theorem combine_valid (hs : ArgsortOk argsort) (hrows : ∀ r ∈ rows, IsPrev r) (hlen : rows.length = cfg.nQuant) (hn : 0 < cfg.nQuant) (hst : cfg.strategy ≠ .other)
    (hsel : Selects cfg.strategy → 1 ≤ roundHalfEven ((cfg.nQuant : ℝ) * cfg.pct))
    (hmed : UsesMedian cfg.strategy → ∃ j, cfg.nQuant ≤ 2 * rows.countP fun r => decide (0 < r j))
    (dists : Except Err (List Fl)) (hd : UsesDistributions cfg.strategy → ∃ d : List ℝ, d.length = cfg.nQuant ∧ dists = .ok (d.map Fl.fin)) :
    ValidFor cfg.strategy (eoqCombine argsort cfg rows dists) := by
  have hne : rows ≠ [] := List.length_pos_iff.1 (by omega)
  have hnc : 0 < nc := isPrev_nc (hrows _ (List.head_mem hne))
  have hsub : Selects cfg.strategy → ∀ d : List ℝ, d.length = cfg.nQuant → ∃ v, eoqMeanOf rows (eoqSelect argsort cfg (d.map Fl.fin)) = .ok v ∧ IsPrevFl v := by
    intro hS d hdl
    have h1 := hsel hS
    obtain ⟨k, hk⟩ := Int.eq_ofNat_of_zero_le (by omega : 0 ≤ roundHalfEven ((cfg.nQuant : ℝ) * cfg.pct))
    obtain ⟨-, s2, s3, -⟩ := select_spec (cfg := cfg) hs d hdl k hk
    have hr := fun i hi => hlen ▸ s3 i hi
    rw [meanOf_eq rows _ hr]
    refine ⟨_, rfl, ?_⟩
    have hne' : (eoqSelect argsort cfg (d.map Fl.fin)).map (fun i => rows.getD i 0) ≠ [] := by
      intro h0
      have := congrArg List.length h0
      rw [List.length_map, s2, List.length_nil] at this
      omega
    rw [eoqMean_eq _ hne' (sel_rows hrows _ hr)]
    exact ⟨_, meanRows_isPrev _ hne' (sel_rows hrows _ hr), rfl⟩
  have hmean : IsPrevFl (eoqMean rows) := by
    rw [eoqMean_eq rows hne hrows]
    exact ⟨_, meanRows_isPrev rows hne hrows, rfl⟩
  have hmedian : UsesMedian cfg.strategy → IsPrevFl (eoqMedian rows) := fun h => eoqMedian_isPrev rows (fun r hr => (hrows r hr).1) (by rw [hlen]; exact hmed h) hne
  have hdl : (rows.map fun r => (∑ j, |r j - meanRows rows j|) / (nc : ℝ)).length = cfg.nQuant := by rw [List.length_map, hlen]
  unfold eoqCombine
  cases hc : cfg.strategy with
  | mean => exact ⟨_, rfl, hmean⟩
  | median => exact ⟨_, rfl, hmedian (.inl hc)⟩
  | prevalenceSimilarity =>
    obtain ⟨v, h1, h2⟩ := hsub (.inl hc) _ hdl
    rw [differences_eq hnc]
    exact ⟨v, by simp only [h1]; rfl, h2⟩
  | distributionSimilarity =>
    obtain ⟨d, h0, rfl⟩ := hd (.inl hc)
    obtain ⟨v, h1, h2⟩ := hsub (.inr (.inl hc)) d h0
    refine ⟨v, ?_, h2⟩
    show Except.map _ (eoqMeanOf rows (eoqSelect argsort cfg (d.map Fl.fin))) = _
    rw [h1]
    rfl
  | all =>
    obtain ⟨d, h0, rfl⟩ := hd (.inr hc)
    obtain ⟨v, h1, h2⟩ := hsub (.inr (.inr hc)) d h0
    obtain ⟨u, h3, h4⟩ := hsub (.inr (.inr hc)) _ hdl
    have hm := hmedian (.inr hc)
    refine ⟨_, _, u, v, _, ?_, hmean, hm, h4, h2, avg4_isPrev hmean hm h4 h2⟩
    show (eoqMeanOf rows (eoqSelect argsort cfg (eoqDifferences rows)) >>= fun m2 => eoqMeanOf rows (eoqSelect argsort cfg (d.map Fl.fin)) >>= fun m3 => _) = _
    rw [differences_eq hnc, h3, h1]
    rfl
  | other => exact absurd hc hst

/-- What the combination returns when all the members agree. -/
theorem combine_const (hs : ArgsortOk argsort) {p : Fin nc → ℝ} (hp : IsPrev p) (hrows : ∀ r ∈ rows, r = p) (hlen : rows.length = cfg.nQuant) (hn : 0 < cfg.nQuant) (hst : cfg.strategy ≠ .other)
    (hsel : Selects cfg.strategy → 1 ≤ roundHalfEven ((cfg.nQuant : ℝ) * cfg.pct))
    (dists : Except Err (List Fl)) (hd : UsesDistributions cfg.strategy → ∃ d : List ℝ, d.length = cfg.nQuant ∧ dists = .ok (d.map Fl.fin)) :
    AnswerIs cfg.strategy (eoqCombine argsort cfg rows dists) fun j => .fin (p j) := by
  have hne : rows ≠ [] := List.length_pos_iff.1 (by omega)
  have hnc : 0 < nc := isPrev_nc hp
  have hsub : Selects cfg.strategy → ∀ d : List ℝ, d.length = cfg.nQuant → eoqMeanOf rows (eoqSelect argsort cfg (d.map Fl.fin)) = .ok fun j => .fin (p j) := by
    intro hS d hdl
    have h1 := hsel hS
    obtain ⟨k, hk⟩ := Int.eq_ofNat_of_zero_le (by omega : 0 ≤ roundHalfEven ((cfg.nQuant : ℝ) * cfg.pct))
    obtain ⟨-, s2, s3, -⟩ := select_spec (cfg := cfg) hs d hdl k hk
    have hr := fun i hi => hlen ▸ s3 i hi
    rw [meanOf_eq rows _ hr]
    have hne' : (eoqSelect argsort cfg (d.map Fl.fin)).map (fun i => rows.getD i 0) ≠ [] := by
      intro h0
      have := congrArg List.length h0
      rw [List.length_map, s2, List.length_nil] at this
      omega
    have hall := sel_rows hrows _ hr
    rw [eoqMean_eq _ hne' fun r hr => hall r hr ▸ hp, meanRows_const _ hne' p hall]
  have hmean : eoqMean rows = fun j => .fin (p j) := by
    rw [eoqMean_eq rows hne fun r hr => hrows r hr ▸ hp, meanRows_const _ hne p hrows]
  have hmedian : eoqMedian rows = fun j => .fin (p j) := by
    unfold eoqMedian
    rw [show (fun j => npMedian (rows.map fun r => r j)) = fun j => Fl.fin (p j) from funext fun j => npMedian_const _ (by simpa using hne) _ fun x hx => by
      obtain ⟨r, hr, rfl⟩ := List.mem_map.1 hx
      rw [hrows r hr]]
    exact normalise_of_isPrev hp
  have hdl : (rows.map fun r => (∑ j, |r j - meanRows rows j|) / (nc : ℝ)).length = cfg.nQuant := by rw [List.length_map, hlen]
  unfold eoqCombine
  cases hc : cfg.strategy with
  | mean => exact congrArg (fun v => Except.ok (EoqAnswer.vec v)) hmean
  | median => exact congrArg (fun v => Except.ok (EoqAnswer.vec v)) hmedian
  | prevalenceSimilarity =>
    have h1 := hsub (.inl hc) _ hdl
    show Except.map _ (eoqMeanOf rows _) = _
    rw [differences_eq hnc, h1]
    rfl
  | distributionSimilarity =>
    obtain ⟨d, h0, rfl⟩ := hd (.inl hc)
    have h1 := hsub (.inr (.inl hc)) d h0
    show Except.map _ (eoqMeanOf rows (eoqSelect argsort cfg (d.map Fl.fin))) = _
    rw [h1]
    rfl
  | all =>
    obtain ⟨d, h0, rfl⟩ := hd (.inr hc)
    have h1 := hsub (.inr (.inr hc)) d h0
    have h3 := hsub (.inr (.inr hc)) _ hdl
    show (eoqMeanOf rows (eoqSelect argsort cfg (eoqDifferences rows)) >>= fun m2 => eoqMeanOf rows (eoqSelect argsort cfg (d.map Fl.fin)) >>= fun m3 => _) = _
    rw [differences_eq hnc, h3, h1, hmean, hmedian]
    show Except.ok (EoqAnswer.dict _ _ _ _ _) = _
    congr 2
    funext j
    simp only [Fl.fin_add]
    rw [Fl.fin_div _ (by norm_num)]
    congr 1
    ring
  | other => exact absurd hc hst

end combine

/-! ## Fitted objects -/

theorem bind_inv {β γ : Type} {x : Except Err β} {f : β → Except Err γ} {c : γ} (h : (x >>= f) = .ok c) : ∃ b, x = .ok b ∧ f b = .ok c := by
  cases x with
  | error e => cases h
  | ok b => exact ⟨b, rfl, h⟩

theorem map_inv {β γ : Type} {x : Except Err β} {f : β → γ} {c : γ} (h : x.map f = .ok c) : ∃ b, x = .ok b ∧ f b = c := by
  cases x with
  | error e => cases h
  | ok b => exact ⟨b, rfl, by cases h; rfl⟩

theorem eoqxLearn_inv [LinearOrder α] {ppf : ℝ → EReal} {nf : ℕ} {cfg : EoqCfg} {ops : EoqOps Q (List (Fin nf → ℝ)) α} {X : List (Fin nf → ℝ)} {y : List α} {idx : Option (List (List ℕ))}
    {fit : EoqFit Q nf cfg.nBins} (h : eoqxLearn ppf cfg ops X y idx = .ok fit) :
    eoqxCuts ppf cfg.nBins X y = .ok fit.cuts ∧ ((List.range cfg.nQuant).mapM fun i => bagAt idx i >>= eoqxMember ops X y) = .ok fit.members
      ∧ ((List.range cfg.nQuant).mapM fun _ => eoqDistribution cfg.f (fun d row => row d) fit.cuts X) = .ok fit.dists := by
  obtain ⟨cuts, h1, h⟩ := bind_inv h
  obtain ⟨members, h2, h⟩ := bind_inv h
  obtain ⟨dists, h3, h⟩ := bind_inv h
  cases h
  exact ⟨h1, h2, h3⟩

theorem eoqyLearn_inv [LinearOrder α] {ppf : ℝ → EReal} {nc : ℕ} {cfg : EoqCfg} {ops : EoqOps Q (Preds α nc) α} {preds : EoqPreds α nc} {y : List α} {idx : Option (List (List ℕ))}
    {fit : EoqFit Q (nDescriptors nc) cfg.nBins} (h : eoqyLearn ppf cfg ops preds y idx = .ok fit) :
    ∃ yExt idxExt, eoqExtend y preds.len cfg.nQuant idx = .ok (yExt, idxExt) ∧ ((List.range cfg.nQuant).mapM fun i => bagAt idxExt i >>= eoqyMember ops preds yExt i) = .ok fit.members
      ∧ eoqyCuts ppf cfg.nBins cfg.binStrategy (npUnique y) yExt preds = .ok fit.cuts ∧ ((List.range cfg.nQuant).mapM fun _ => eoqyDistribution cfg.f fit.cuts preds) = .ok fit.dists := by
  obtain ⟨⟨yExt, idxExt⟩, h0, h⟩ := bind_inv h
  obtain ⟨members, h1, h⟩ := bind_inv h
  obtain ⟨cuts, h2, h⟩ := bind_inv h
  obtain ⟨dists, h3, h⟩ := bind_inv h
  cases h
  exact ⟨yExt, idxExt, h0, h1, h2, h3⟩

theorem eoqxFit_inv [LinearOrder α] {ppf : ℝ → EReal} {rng : Rng G} {fuel nf : ℕ} {w w' : EoqWorld G} {cfg : EoqCfg} {ops : EoqOps Q (List (Fin nf → ℝ)) α} {X : List (Fin nf → ℝ)} {y : List α}
    {prevs : Option (List (List Fl))} {idx : Option (List (List ℕ))} {fit : EoqFit Q nf cfg.nBins} (h : eoqxFit ppf rng fuel w cfg ops X y prevs idx = some (w', .ok fit)) :
    ∃ idx', eoqBags rng fuel w cfg y X.length prevs idx = some (w', .ok idx') ∧ eoqxLearn ppf cfg ops X y idx' = .ok fit := by
  obtain ⟨⟨w1, r⟩, h1, h2⟩ := Option.map_eq_some_iff.1 h
  simp only [Prod.mk.injEq] at h2
  obtain ⟨idx', rfl, h4⟩ := bind_inv h2.2
  exact ⟨idx', by rw [h1, h2.1], h4⟩

theorem eoqyFit_inv [LinearOrder α] {ppf : ℝ → EReal} {rng : Rng G} {fuel nc lenX : ℕ} {w w' : EoqWorld G} {cfg : EoqCfg} {ops : EoqOps Q (Preds α nc) α} {preds : EoqPreds α nc} {y : List α}
    {prevs : Option (List (List Fl))} {idx : Option (List (List ℕ))} {fit : EoqFit Q (nDescriptors nc) cfg.nBins} (h : eoqyFit ppf rng fuel w cfg ops lenX preds y prevs idx = some (w', .ok fit)) :
    ∃ idx', eoqBags rng fuel w cfg y lenX prevs idx = some (w', .ok idx') ∧ eoqyLearn ppf cfg ops preds y idx' = .ok fit := by
  obtain ⟨⟨w1, r⟩, h1, h2⟩ := Option.map_eq_some_iff.1 h
  simp only [Prod.mk.injEq] at h2
  obtain ⟨idx', rfl, h4⟩ := bind_inv h2.2
  exact ⟨idx', by rw [h1, h2.1], h4⟩

/-- If the distribution of a sample can be computed, so can that of any other sample. -/
theorem eoqDistribution_total {D D' : Type} {nd nb : ℕ} {f : DistFun} {att : Fin nd → D → ℝ} {cuts : Fin nd → Fin (nb + 1) → EReal} {rows : List D} {v : Fin (nd * nb) → ℝ}
    (h : eoqDistribution f att cuts rows = .ok v) (att' : Fin nd → D' → ℝ) (rows' : List D') : ∃ v', eoqDistribution f att' cuts rows' = .ok v' := by
  obtain ⟨b, h1, h2⟩ := bind_inv h
  have hm : ∀ d, ∀ i : Fin nb, cuts d i.castSucc ≤ cuts d i.succ := by
    intro d
    unfold histBlocks at h1
    have := (seqFin_ok _ _).1 h1 d
    obtain ⟨c, h3, -⟩ := map_inv this
    unfold npHistogram at h3
    split_ifs at h3 with hc
    exact hc
  obtain ⟨b', h1'⟩ : ∃ b', histBlocks att' cuts rows' = .ok b' := by
    refine ⟨fun d b => (histCum (rows'.map (att' d)) (cuts d) b.succ - histCum (rows'.map (att' d)) (cuts d) b.castSucc) / rows'.length, ?_⟩
    unfold histBlocks
    rw [seqFin_ok]
    intro d
    unfold npHistogram
    rw [if_pos (hm d)]
    rfl
  unfold eoqDistribution
  rw [h1']
  split_ifs at h2 with hc
  exact ⟨_, if_neg hc⟩

theorem distances_fin {nd nb : ℕ} (cfg : EoqCfg) (fit : EoqFit Q nd nb) (test : Fin (nd * nb) → ℝ) : eoqDistances cfg fit test = (fit.dists.map fun d => cfg.dist _ test d).map Fl.fin := by
  unfold eoqDistances
  rw [List.map_map]
  rfl

/-- The predictions of the members are the rows of the array. -/
theorem eoqxRows_eq {nc nf nb : ℕ} {cfg : EoqCfg} {ops : EoqOps Q (List (Fin nf → ℝ)) α} {fit : EoqFit Q nf nb} {X : List (Fin nf → ℝ)} {vs : List (List ℝ)}
    (hlen : fit.members.length = cfg.nQuant) (hv : (fit.members.map fun q => ops.predict q X) = vs.map .ok) (hnc : ∀ v ∈ vs, v.length = nc) :
    eoqxRows nc cfg ops fit X = .ok (vs.map (asVec nc)) := by
  have hl : vs.length = cfg.nQuant := by
    have := congrArg List.length hv
    simpa [hlen] using this.symm
  refine mapM_range_of (by simpa using hl) fun i hi r hr => ?_
  have hi' : i < vs.length := by omega
  have hm : i < fit.members.length := by omega
  rw [(item_ok (m := fit.members)).2 (List.getElem?_eq_getElem hm)]
  have hp : ops.predict fit.members[i] X = .ok vs[i] := by
    have := congrArg (fun l => l[i]?) hv
    simpa [hi', hm] using this
  show (ops.predict fit.members[i] X >>= storeRow nc) = _
  rw [hp]
  show storeRow nc vs[i] = _
  rw [storeRow_of_length _ (hnc _ (List.getElem_mem _))]
  rw [List.getElem?_map, List.getElem?_eq_getElem hi'] at hr
  cases hr
  rfl

theorem eoqyRows_eq {nc nb : ℕ} {cfg : EoqCfg} {ops : EoqOps Q (Preds α nc) α} {fit : EoqFit Q (nDescriptors nc) nb} {preds : EoqPreds α nc} {vs : List (List ℝ)}
    (hlen : fit.members.length = cfg.nQuant) (hv : (fit.members.mapIdx fun i q => preds.forMember i >>= ops.predict q) = vs.map .ok) (hnc : ∀ v ∈ vs, v.length = nc) :
    eoqyRows cfg ops fit preds = .ok (vs.map (asVec nc)) := by
  have hl : vs.length = cfg.nQuant := by
    have := congrArg List.length hv
    simpa [hlen] using this.symm
  refine mapM_range_of (by simpa using hl) fun i hi r hr => ?_
  have hi' : i < vs.length := by omega
  have hm : i < fit.members.length := by omega
  rw [(item_ok (m := fit.members)).2 (List.getElem?_eq_getElem hm)]
  have hp : (preds.forMember i >>= ops.predict fit.members[i]) = .ok vs[i] := by
    have := congrArg (fun l => l[i]?) hv
    simpa [hi', hm] using this
  obtain ⟨p, h1, h2⟩ := bind_inv hp
  show (preds.forMember i >>= fun p => ops.predict fit.members[i] p >>= storeRow nc) = _
  rw [h1]
  show (ops.predict fit.members[i] p >>= storeRow nc) = _
  rw [h2]
  show storeRow nc vs[i] = _
  rw [storeRow_of_length _ (hnc _ (List.getElem_mem _))]
  rw [List.getElem?_map, List.getElem?_eq_getElem hi'] at hr
  cases hr
  rfl

/-! ## C59: valid predictions -/

section C59
variable [LinearOrder α] {ppf : ℝ → EReal} {rng : Rng G} {fuel : ℕ} {w w' : EoqWorld G} {cfg : EoqCfg} {y : List α} {prevs : Option (List (List Fl))} {idx : Option (List (List ℕ))} {argsort : List Fl → List ℕ}
  {nc : ℕ} {vs : List (List ℝ)}

section X
variable {nf : ℕ} {ops : EoqOps Q (List (Fin nf → ℝ)) α} {X : List (Fin nf → ℝ)} {fit : EoqFit Q nf cfg.nBins}

/-- The shape of a fitted object, and the distances it computes. -/
theorem eoqx_shape (hfit : eoqxFit ppf rng fuel w cfg ops X y prevs idx = some (w', .ok fit)) (hn : 0 < cfg.nQuant) (Xt : List (Fin nf → ℝ)) :
    fit.members.length = cfg.nQuant ∧ ∃ d : List ℝ, d.length = cfg.nQuant ∧ (eoqDistribution cfg.f (fun d row => row d) fit.cuts Xt).map (eoqDistances cfg fit) = .ok (d.map Fl.fin) := by
  obtain ⟨idx', -, h⟩ := eoqxFit_inv hfit
  obtain ⟨-, h2, h3⟩ := eoqxLearn_inv h
  refine ⟨(mapM_range h2).1, ?_⟩
  obtain ⟨v, -, hv⟩ := (mapM_range h3).2 0 hn
  obtain ⟨v', hv'⟩ := eoqDistribution_total hv (fun d row => row d) Xt
  refine ⟨fit.dists.map fun d => cfg.dist _ v' d, by rw [List.length_map, (mapM_range h3).1], ?_⟩
  rw [hv']
  exact congrArg Except.ok (distances_fin cfg fit v')

/-- **C59** for quantifiers that do not use classifiers. If `vs` are the predictions of the members of a fitted ensemble and all are valid prevalence vectors then `predict` returns, and it returns a valid
prevalence vector (five of them for 'all'), provided that at least one member is selected and, for medians, that some class is given a positive prevalence by at least half of the members. -/
theorem C59_eoqx_valid (hs : ArgsortOk argsort) (hfit : eoqxFit ppf rng fuel w cfg ops X y prevs idx = some (w', .ok fit)) (Xt : List (Fin nf → ℝ)) (hn : 0 < cfg.nQuant)
    (hvs : (fit.members.map fun q => ops.predict q Xt) = vs.map .ok) (hvalid : ∀ v ∈ vs, IsPrevList nc v) (hst : cfg.strategy ≠ .other)
    (hsel : Selects cfg.strategy → 1 ≤ roundHalfEven ((cfg.nQuant : ℝ) * cfg.pct))
    (hmed : UsesMedian cfg.strategy → ∃ j < nc, cfg.nQuant ≤ 2 * vs.countP fun v => decide (0 < v.getD j 0)) : ValidFor cfg.strategy (eoqxPredict argsort nc cfg ops fit Xt) := by
  obtain ⟨hl, d, hd, he⟩ := eoqx_shape hfit hn Xt
  unfold eoqxPredict
  rw [eoqxRows_eq hl hvs fun v hv => (hvalid v hv).1]
  have hlen : vs.length = cfg.nQuant := by
    have := congrArg List.length hvs
    simpa [hl] using this.symm
  refine combine_valid (rows := vs.map (asVec nc)) hs ?_ (by simpa using hlen) hn hst hsel ?_ _ fun _ => ⟨d, hd, he⟩
  · intro r hr
    obtain ⟨v, hv, rfl⟩ := List.mem_map.1 hr
    exact asVec_isPrev (hvalid v hv)
  · intro hu
    obtain ⟨j, hj, hc⟩ := hmed hu
    refine ⟨⟨j, hj⟩, ?_⟩
    rw [List.countP_map]
    exact hc

/-- **C59**, unanimity: if all the members predict `p`, the answer is `p`. -/
theorem C59_eoqx_unanimous (hs : ArgsortOk argsort) (hfit : eoqxFit ppf rng fuel w cfg ops X y prevs idx = some (w', .ok fit)) (Xt : List (Fin nf → ℝ)) (hn : 0 < cfg.nQuant) (p : Fin nc → ℝ) (hp : IsPrev p)
    (hvs : ∀ q ∈ fit.members, ops.predict q Xt = .ok (List.ofFn p)) (hst : cfg.strategy ≠ .other) (hsel : Selects cfg.strategy → 1 ≤ roundHalfEven ((cfg.nQuant : ℝ) * cfg.pct)) :
    AnswerIs cfg.strategy (eoqxPredict argsort nc cfg ops fit Xt) fun j => .fin (p j) := by
  obtain ⟨hl, d, hd, he⟩ := eoqx_shape hfit hn Xt
  unfold eoqxPredict
  rw [eoqxRows_eq (vs := fit.members.map fun _ => List.ofFn p) hl (by rw [List.map_map]; exact List.map_congr_left hvs) fun v hv => by
    obtain ⟨q, -, rfl⟩ := List.mem_map.1 hv
    simp]
  refine combine_const (rows := (fit.members.map fun _ => List.ofFn p).map (asVec nc)) hs hp ?_ (by simpa using hl) hn hst hsel _ fun _ => ⟨d, hd, he⟩
  intro r hr
  rw [List.map_map] at hr
  obtain ⟨v, hv, rfl⟩ := List.mem_map.1 hr
  funext i
  simp [asVec]

end X

section Y
variable {lenX : ℕ} {ops : EoqOps Q (Preds α nc) α} {preds : EoqPreds α nc} {fit : EoqFit Q (nDescriptors nc) cfg.nBins}

theorem eoqyDistribution_total {nb : ℕ} {f : DistFun} {cuts : Fin (nDescriptors nc) → Fin (nb + 1) → EReal} {v : Fin (nDescriptors nc * nb) → ℝ} (h : eoqyDistribution f cuts preds = .ok v)
    (hcuts : preds.rows = none → cuts = fun _ _ => 0) (rows : List (Fin nc → ℝ)) : ∃ v', eoqDistribution f (dfyAtt nc) cuts rows = .ok v' := by
  unfold eoqyDistribution at h
  cases hr : preds.rows with
  | some l => rw [hr] at h; exact eoqDistribution_total h _ _
  | none =>
    rw [hr] at h
    rw [hcuts hr]
    unfold eoqDistribution
    rw [histBlocks_eq _ _ (fun d => monotone_const)]
    simp only at h
    split_ifs at h with hc
    exact ⟨_, if_neg hc⟩

/-- The shape of a fitted object, and the distances it computes for predictions that are not crisp. -/
theorem eoqy_shape (hfit : eoqyFit ppf rng fuel w cfg ops lenX preds y prevs idx = some (w', .ok fit)) (hn : 0 < cfg.nQuant) (test : EoqPreds α nc) :
    fit.members.length = cfg.nQuant ∧ ((∀ l, test ≠ .crisp l) → ∃ d : List ℝ, d.length = cfg.nQuant ∧ (eoqyTest cfg.f fit.cuts test).map (eoqDistances cfg fit) = .ok (d.map Fl.fin)) := by
  obtain ⟨idx', -, h⟩ := eoqyFit_inv hfit
  obtain ⟨yExt, idxExt, -, h2, h4, h3⟩ := eoqyLearn_inv h
  refine ⟨(mapM_range h2).1, fun hne => ?_⟩
  obtain ⟨v, -, hv⟩ := (mapM_range h3).2 0 hn
  obtain ⟨rows, hrows⟩ : ∃ rows, test.rows = some rows := by
    cases test with
    | crisp l => exact absurd rfl (hne l)
    | probs l => exact ⟨_, rfl⟩
    | ens l => exact ⟨_, rfl⟩
  obtain ⟨v', hv'⟩ := eoqyDistribution_total hv (fun hr => by
    unfold eoqyCuts at h4
    rw [hr] at h4
    exact (Except.ok.inj h4).symm) rows
  refine ⟨fit.dists.map fun d => cfg.dist _ v' d, by rw [List.length_map, (mapM_range h3).1], ?_⟩
  unfold eoqyTest
  rw [hrows]
  simp only
  rw [hv']
  exact congrArg Except.ok (distances_fin cfg fit v')

/-- **C59** for quantifiers that use classifiers: as `C59_eoqx_valid`; the strategies that compare distributions need probabilities. -/
theorem C59_eoqy_valid (hs : ArgsortOk argsort) (hfit : eoqyFit ppf rng fuel w cfg ops lenX preds y prevs idx = some (w', .ok fit)) (test : EoqPreds α nc) (hn : 0 < cfg.nQuant)
    (hvs : (fit.members.mapIdx fun i q => test.forMember i >>= ops.predict q) = vs.map .ok) (hvalid : ∀ v ∈ vs, IsPrevList nc v) (hst : cfg.strategy ≠ .other)
    (hsel : Selects cfg.strategy → 1 ≤ roundHalfEven ((cfg.nQuant : ℝ) * cfg.pct)) (hprob : UsesDistributions cfg.strategy → ∀ l, test ≠ .crisp l)
    (hmed : UsesMedian cfg.strategy → ∃ j < nc, cfg.nQuant ≤ 2 * vs.countP fun v => decide (0 < v.getD j 0)) : ValidFor cfg.strategy (eoqyPredict argsort cfg ops fit test) := by
  obtain ⟨hl, hd⟩ := eoqy_shape hfit hn test
  unfold eoqyPredict
  rw [eoqyRows_eq hl hvs fun v hv => (hvalid v hv).1]
  have hlen : vs.length = cfg.nQuant := by
    have := congrArg List.length hvs
    simpa [hl] using this.symm
  refine combine_valid (rows := vs.map (asVec nc)) hs ?_ (by simpa using hlen) hn hst hsel ?_ _ fun hu => hd (hprob hu)
  · intro r hr
    obtain ⟨v, hv, rfl⟩ := List.mem_map.1 hr
    exact asVec_isPrev (hvalid v hv)
  · intro hu
    obtain ⟨j, hj, hc⟩ := hmed hu
    refine ⟨⟨j, hj⟩, ?_⟩
    rw [List.countP_map]
    exact hc

/-- **C59**, unanimity, for quantifiers that use classifiers. -/
theorem C59_eoqy_unanimous (hs : ArgsortOk argsort) (hfit : eoqyFit ppf rng fuel w cfg ops lenX preds y prevs idx = some (w', .ok fit)) (test : EoqPreds α nc) (hn : 0 < cfg.nQuant) (p : Fin nc → ℝ) (hp : IsPrev p)
    (hvs : (fit.members.mapIdx fun i q => test.forMember i >>= ops.predict q) = fit.members.map fun _ => .ok (List.ofFn p)) (hst : cfg.strategy ≠ .other)
    (hsel : Selects cfg.strategy → 1 ≤ roundHalfEven ((cfg.nQuant : ℝ) * cfg.pct)) (hprob : UsesDistributions cfg.strategy → ∀ l, test ≠ .crisp l) :
    AnswerIs cfg.strategy (eoqyPredict argsort cfg ops fit test) fun j => .fin (p j) := by
  obtain ⟨hl, hd⟩ := eoqy_shape hfit hn test
  unfold eoqyPredict
  rw [eoqyRows_eq (vs := fit.members.map fun _ => List.ofFn p) hl (by rw [hvs, List.map_map]; rfl) fun v hv => by
    obtain ⟨q, -, rfl⟩ := List.mem_map.1 hv
    simp]
  refine combine_const (rows := (fit.members.map fun _ => List.ofFn p).map (asVec nc)) hs hp ?_ (by simpa using hl) hn hst hsel _ fun hu => hd (hprob hu)
  intro r hr
  rw [List.map_map] at hr
  obtain ⟨v, hv, rfl⟩ := List.mem_map.1 hr
  funext i
  simp [asVec]

end Y

end C59

end Verif.Props
