import Verif.Props.Eoq3

/-!
# C60 with quantifiers that use classifiers
-/

namespace Verif.Props

open Verif.Model Verif.Spec Verif.Proof

/-- The probabilities of the classes that are described for an example: that of the first class for two classes, all of them otherwise. -/
def described {nc : ℕ} (p : Fin nc → ℝ) : Fin (nDescriptors nc) → ℝ := fun d => p ⟨d, lt_of_lt_of_le d.2 (nDescriptors_le nc)⟩

/-- The described probabilities of the examples. With several classifiers, the average of the probabilities that they give. -/
noncomputable def describedRows {α : Type} {nc : ℕ} : EoqPreds α nc → List (Fin (nDescriptors nc) → ℝ)
  | .crisp _ => []
  | .probs l => l.map described
  | .ens l => l.map fun ps => described fun c => (ps.map fun p => p c).sum / ps.length

variable {α G Q : Type}

theorem eoqDistribution_described {nc nb : ℕ} {f : DistFun} (hpdf : f = .pdf) {cuts : Fin (nDescriptors nc) → Fin (nb + 1) → EReal} (hc : ∀ d, CutsOk (cuts d)) (rows : List (Fin nc → ℝ)) :
    eoqDistribution f (dfyAtt nc) cuts rows = .ok (sampleDistribution cuts (rows.map described)) := by
  unfold eoqDistribution
  rw [histBlocks_eq _ _ fun d => (hc d).mono]
  show (if _ then _ else _) = _
  rw [if_neg fun h => by rw [hpdf] at h; cases h.1]
  congr 1
  funext k
  unfold sampleDistribution stackBlocks
  rw [← binInd_share _ (hc _), List.map_map, List.length_map, List.map_map, List.length_map]
  rfl

theorem rows_described {nc : ℕ} {preds : EoqPreds α nc} (hne : ∀ l, preds ≠ .crisp l) : ∃ rows, preds.rows = some rows ∧ rows.map described = describedRows preds := by
  cases preds with
  | crisp l => exact absurd rfl (hne l)
  | probs l => exact ⟨l, rfl, rfl⟩
  | ens l => exact ⟨l.map meanRows, rfl, by rw [List.map_map]; rfl⟩

section
variable [LinearOrder α] {ppf : ℝ → EReal} {rng : Rng G} {fuel lenX nc : ℕ} {w w' : EoqWorld G} {cfg : EoqCfg} {y : List α} {prevs : Option (List (List Fl))} {idx : Option (List (List ℕ))} {argsort : List Fl → List ℕ}
  {vs : List (List ℝ)} {ops : EoqOps Q (Preds α nc) α} {preds : EoqPreds α nc} {fit : EoqFit Q (nDescriptors nc) cfg.nBins}

/-- The distributions kept for the members, all the same: that of the whole training set. -/
theorem eoqy_dists (hfit : eoqyFit ppf rng fuel w cfg ops lenX preds y prevs idx = some (w', .ok fit)) (hcuts : ∀ d, CutsOk (fit.cuts d)) (hpdf : cfg.f = .pdf) (hne : ∀ l, preds ≠ .crisp l) :
    fit.dists = List.replicate cfg.nQuant (sampleDistribution fit.cuts (describedRows preds)) := by
  obtain ⟨idx', -, h⟩ := eoqyFit_inv hfit
  obtain ⟨yExt, idxExt, -, -, -, h3⟩ := eoqyLearn_inv h
  obtain ⟨rows, h1, h2⟩ := rows_described hne
  rw [mapM_ok _ _ (fun _ => sampleDistribution fit.cuts (describedRows preds)) fun _ _ => by
    unfold eoqyDistribution
    rw [h1]
    show eoqDistribution _ _ _ _ = _
    rw [eoqDistribution_described hpdf hcuts, h2], List.map_const', List.length_range] at h3
  exact (Except.ok.inj h3).symm

/-- **C60, partial, with classifiers**: the members whose bags have the most similar probabilities are selected if all the bags have the distribution of the whole training set. -/
theorem C60_classifiers_partial (hs : ArgsortOk argsort) (hfit : eoqyFit ppf rng fuel w cfg ops lenX preds y prevs idx = some (w', .ok fit)) (hcuts : ∀ d, CutsOk (fit.cuts d)) (hpdf : cfg.f = .pdf)
    (hne : ∀ l, preds ≠ .crisp l) (test : EoqPreds α nc) (hnt : ∀ l, test ≠ .crisp l) (hn : 0 < cfg.nQuant) (hst : cfg.strategy = .distributionSimilarity)
    (hvs : (fit.members.mapIdx fun i q => test.forMember i >>= ops.predict q) = vs.map .ok) (hvalid : ∀ v ∈ vs, IsPrevList nc v) (hp1 : cfg.pct ≤ 1) (k : ℕ) (hk0 : 1 ≤ k)
    (hk : roundHalfEven ((cfg.nQuant : ℝ) * cfg.pct) = k) (bags : ℕ → EoqPreds α nc)
    (hrep : ∀ i < cfg.nQuant, sampleDistribution fit.cuts (describedRows (bags i)) = sampleDistribution fit.cuts (describedRows preds)) :
    ∃ v, eoqyPredict argsort cfg ops fit test = .ok (.vec v)
      ∧ MeanOfBest (fun i => cfg.dist _ (sampleDistribution fit.cuts (describedRows test)) (sampleDistribution fit.cuts (describedRows (bags i)))) cfg.nQuant k vs v := by
  obtain ⟨hl, -⟩ := eoqy_shape hfit hn test
  have hlen : vs.length = cfg.nQuant := by
    have := congrArg List.length hvs
    simpa [hl] using this.symm
  obtain ⟨rows, h1, h2⟩ := rows_described hnt
  obtain ⟨v, h3, S, s1, s2, s3, -, s5⟩ := meanOf_best hs hvalid hlen
    (List.replicate cfg.nQuant (cfg.dist _ (sampleDistribution fit.cuts (describedRows test)) (sampleDistribution fit.cuts (describedRows preds)))) (by simp) hp1 k hk0 hk
  refine ⟨v, ?_, S, s1, s2, s3, fun i hi j hj _ => by simp only; rw [hrep i (s3 i hi), hrep j hj], s5⟩
  have ht : eoqyTest cfg.f fit.cuts test = .ok (sampleDistribution fit.cuts (describedRows test)) := by
    unfold eoqyTest
    rw [h1]
    show eoqDistribution _ _ _ _ = _
    rw [eoqDistribution_described hpdf hcuts, h2]
  unfold eoqyPredict
  rw [eoqyRows_eq hl hvs fun v hv => (hvalid v hv).1, ht]
  show eoqCombine _ _ _ _ = _
  unfold eoqCombine
  rw [hst]
  show Except.map _ (eoqMeanOf _ (eoqSelect argsort cfg (eoqDistances cfg fit _))) = _
  rw [distances_fin, eoqy_dists hfit hcuts hpdf hne, List.map_replicate, h3]
  rfl

/-- **C60, with crisp predictions** for the testing sample there is no distribution to compare: `predict` raises ValueError. -/
theorem C60_crisp_rejected (hfit : eoqyFit ppf rng fuel w cfg ops lenX preds y prevs idx = some (w', .ok fit)) (test : List α) (hn : 0 < cfg.nQuant)
    (hst : cfg.strategy = .distributionSimilarity ∨ cfg.strategy = .all) (hvs : (fit.members.map fun q => ops.predict q (.crisp test)) = vs.map .ok) (hvalid : ∀ v ∈ vs, v.length = nc) :
    eoqyPredict argsort cfg ops fit (.crisp test) = .error .valueError := by
  obtain ⟨hl, -⟩ := eoqy_shape hfit hn (.crisp test)
  unfold eoqyPredict
  rw [eoqyRows_eq hl (vs := vs) (by rw [← hvs]; exact List.ext_getElem (by simp) fun i _ _ => by simp [EoqPreds.forMember, bind, Except.bind]) hvalid]
  show eoqCombine _ _ _ _ = _
  unfold eoqCombine
  rcases hst with h | h <;> rw [h] <;> rfl

end

/-- Two members, two classifiers: the examples 0 and 1 have the averaged probabilities (1/2, 1/2) and (0, 1). -/
noncomputable def pairEns : EoqPreds ℕ 2 := .ens [[![1, 0], ![0, 1]], [![0, 1], ![0, 1]]]

theorem pairEns_fit {G : Type} (ppf : ℝ → EReal) (rng : Rng G) (fuel : ℕ) (w : EoqWorld G) (s : EoqStrategy) :
    ∃ fit : EoqFit ℝ (nDescriptors 2) (pairCfg s).nBins, eoqyFit ppf rng fuel w (pairCfg s) labelOps 2 pairEns [0, 1] (some []) (some [[0, 1], [1, 0]]) = some (w, .ok fit) ∧ fit.members = [1 / 2, 1 / 2]
      ∧ ∀ d, CutsOk (fit.cuts d) := by
  obtain ⟨rows, h1, -⟩ := rows_described (preds := pairEns) (by intro l; simp [pairEns])
  have hrows : rows.length = 2 := by
    have : rows = [meanRows [![1, 0], ![0, 1]], meanRows [![0, 1], ![0, 1]]] := (Option.some.inj h1).symm
    rw [this]
    rfl
  have hc := fun d : Fin (nDescriptors 2) => C46_equal_width ppf (rows.map (dfyAtt 2 d)) [0, 1] (npUnique [0, 1]) (pairCfg s).nBins (by simp [pairCfg]) none (fun _ h => by
    have := congrArg List.length h
    rw [List.length_map, hrows] at this
    simp at this) (by simp)
  choose cuts hc1 hc2 using hc
  refine ⟨⟨[1 / 2, 1 / 2], cuts, List.replicate 2 (sampleDistribution cuts (rows.map described))⟩, eoqyFit_of (eoqyLearn_of (ext := ([0, 1], some [[0, 1], [1, 0]])) rfl ?_ ?_ ?_), rfl, hc2⟩
  · rw [show (pairCfg s).nQuant = 2 from rfl]
    simp [List.range_succ, bagAt, item, eoqyMember, labelOps, bind, Except.bind, pure, Except.pure, EoqPreds.ofBag, Except.map, pairEns]
  · unfold eoqyCuts
    rw [h1]
    exact (seqFin_ok _ _).2 hc1
  · rw [mapM_ok _ _ (fun _ => sampleDistribution cuts (rows.map described)) fun _ _ => by
      unfold eoqyDistribution
      rw [h1]
      exact eoqDistribution_described rfl hc2 rows, List.map_const', List.length_range]
    rfl

example {argsort : List Fl → List ℕ} (hs : ArgsortOk argsort) : ∃ fit : EoqFit ℝ (nDescriptors 2) (pairCfg .distributionSimilarity).nBins, ∃ v,
    eoqyPredict argsort (pairCfg .distributionSimilarity) labelOps fit pairEns = .ok (.vec v)
      ∧ MeanOfBest (fun _ => euclidean (sampleDistribution fit.cuts (describedRows pairEns)) (sampleDistribution fit.cuts (describedRows pairEns))) 2 1 [[1 - 1 / 2, 1 / 2], [1 - 1 / 2, 1 / 2]] v := by
  obtain ⟨fit, h1, h2, h3⟩ := pairEns_fit (fun _ => 0) lazyRng 0 ⟨fun _ => defaultGen, true⟩ .distributionSimilarity
  obtain ⟨v, hv⟩ := C60_classifiers_partial hs h1 h3 rfl (by intro l; simp [pairEns]) pairEns (by intro l; simp [pairEns]) (by simp [pairCfg]) rfl (vs := [[1 - 1 / 2, 1 / 2], [1 - 1 / 2, 1 / 2]])
    (by rw [h2]; simp [labelOps, EoqPreds.forMember, pairEns, bind, Except.bind, item, Except.map, pure, Except.pure]) (by simp [IsPrevList]; norm_num) (by norm_num [pairCfg]) 1 le_rfl (pairCfg_round _) (fun _ => pairEns)
    (fun _ _ => rfl)
  exact ⟨fit, v, hv⟩

example {argsort : List Fl → List ℕ} : ∃ fit : EoqFit ℝ (nDescriptors 2) (pairCfg .all).nBins, eoqyPredict argsort (pairCfg .all) labelOps fit (.crisp [0]) = .error .valueError := by
  obtain ⟨fit, h1, h2, -⟩ := pairEns_fit (fun _ => 0) lazyRng 0 ⟨fun _ => defaultGen, true⟩ .all
  exact ⟨fit, C60_crisp_rejected h1 [0] (by simp [pairCfg]) (Or.inr rfl) (vs := [[1 - 1 / 2, 1 / 2], [1 - 1 / 2, 1 / 2]]) (by rw [h2]; rfl) (by simp)⟩

end Verif.Props
