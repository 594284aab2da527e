import Verif.Props.Eoq2
import Verif.Spec.NegType

/-!
# C60, C93: counterexamples, and concrete cases for C59, C60, C90 - C95
-/

namespace Verif.Props

open Verif.Model Verif.Spec Verif.Proof

/-! ## C60 -/

/-- A base quantifier trained with one feature: it remembers the sum `q` of the feature over its bag, and predicts `(1 - q, q)`. -/
def sumOps : EoqOps ℝ (List (Fin 1 → ℝ)) ℕ where
  fit rows _ := .ok (rows.map fun r => r 0).sum
  predict q _ := .ok [1 - q, q]

/-- Two members, of which one is selected. -/
noncomputable def pairCfg (strategy : EoqStrategy) : EoqCfg := ⟨2, 0, strategy, .pdf, 100, .equalWidth, fun _ => euclidean, 1 / 2⟩

theorem pairCfg_round (s : EoqStrategy) : roundHalfEven (((pairCfg s).nQuant : ℝ) * (pairCfg s).pct) = (1 : ℕ) := by
  have : ((pairCfg s).nQuant : ℝ) * (pairCfg s).pct = 1 := by simp [pairCfg]
  rw [this]
  unfold roundHalfEven
  rw [Int.floor_one]
  norm_num

/-- The training examples: 0 and 1. -/
def pairX : List (Fin 1 → ℝ) := [fun _ => 0, fun _ => 1]

/-- Fitting with the bags {0} and {1}. -/
theorem pair_fit {G : Type} (ppf : ℝ → EReal) (rng : Rng G) (fuel : ℕ) (w : EoqWorld G) (s : EoqStrategy) :
    ∃ fit : EoqFit ℝ 1 (pairCfg s).nBins, eoqxFit ppf rng fuel w (pairCfg s) sumOps pairX [0, 1] (some []) (some [[0], [1]]) = some (w, .ok fit) ∧ fit.members = [0, 1] ∧ (∀ d, CutsOk (fit.cuts d))
      ∧ fit.dists = List.replicate 2 (sampleDistribution fit.cuts pairX) ∧ fit.cuts 0 1 = ((1 / 100 : ℝ) : EReal) := by
  obtain ⟨fit, h1, h2, h3, h4⟩ := eoqxLearn_returns (ppf := ppf) (cfg := pairCfg s) rfl rfl sumOps (fun _ _ => ⟨_, rfl⟩) pairX (by simp [pairX]) [0, 1] rfl [[0], [1]] rfl (by simp)
  refine ⟨fit, ?_, ?_, h3, h4, ?_⟩
  · unfold eoqxFit eoqBags
    simp only [Option.map_some]
    exact congrArg (fun r => some (w, r)) h1
  · obtain ⟨-, h5, -⟩ := eoqxLearn_inv h1
    have : ((List.range (pairCfg s).nQuant).mapM fun i => bagAt (some [[0], [1]]) i >>= eoqxMember sumOps pairX [0, 1]) = .ok [0, 1] := by
      rw [show (pairCfg s).nQuant = 2 from rfl]
      simp [List.range_succ, bagAt, item, eoqxMember, sumOps, pairX, bind, Except.bind, pure, Except.pure]
    rw [this] at h5
    exact (Except.ok.inj h5).symm
  · have := h2 0
    rw [show (pairX.map fun row => row 0) = [0, 1] from rfl] at this
    have hr : binRange [0, 1] none = some (0, 1) := by
      simp [binRange, List.min?, List.max?]
    have he : binEdges (pairCfg s).nBins 0 1 = .ok (linspace 0 1 100) := by
      unfold binEdges
      rw [if_neg (by simp [pairCfg]), if_neg (by norm_num), if_neg (by norm_num)]
      rfl
    unfold computeBincuts at this
    simp only [hr, he, Except.ok.injEq] at this
    rw [← this]
    beta_reduce
    rw [if_neg (by show ¬ ((1 : Fin 101) = Fin.last 100); decide), if_neg (by show ¬ ((1 : Fin 101) = 0); decide)]
    congr 1
    have h1 : ((1 : Fin ((pairCfg s).nBins + 1)) : ℕ) = 1 := by
      show ((1 : Fin 101) : ℕ) = 1
      rfl
    rw [h1]
    simp [linspace]

theorem pair_predictions {G : Type} {ppf : ℝ → EReal} {rng : Rng G} {fuel : ℕ} {w : EoqWorld G} {s : EoqStrategy} {fit : EoqFit ℝ 1 (pairCfg s).nBins} (hm : fit.members = [0, 1]) (Xt : List (Fin 1 → ℝ)) :
    (fit.members.map fun q => sumOps.predict q Xt) = ([[1, 0], [0, 1]] : List (List ℝ)).map .ok := by
  rw [hm]
  simp [sumOps]

theorem pair_valid : ∀ v ∈ ([[1, 0], [0, 1]] : List (List ℝ)), IsPrevList 2 v := by
  simp [IsPrevList]

theorem binShare_pair {n : ℕ} (cuts : Fin (n + 1) → EReal) (a b : ℝ) (k : Fin n) : binShare cuts [a, b] k = (binShare cuts [a] k + binShare cuts [b] k) / 2 := by
  unfold binShare
  simp only [List.countP_cons, List.countP_nil, List.length_cons, List.length_nil]
  push_cast
  ring

/-- Both training examples are at the same distance from the training set. -/
theorem pair_equidistant {nb : ℕ} (cuts : Fin 1 → Fin (nb + 1) → EReal) :
    euclidean (sampleDistribution cuts [fun _ => 0]) (sampleDistribution cuts pairX) = euclidean (sampleDistribution cuts [fun _ => 1]) (sampleDistribution cuts pairX) := by
  unfold euclidean
  congr 1
  refine Finset.sum_congr rfl fun k _ => ?_
  unfold sampleDistribution pairX
  simp only [List.map_cons, List.map_nil]
  rw [binShare_pair]
  ring

/-- With a cut point between them, they are at a positive distance. -/
theorem pair_apart {cuts : Fin 1 → Fin 101 → EReal} (hc : ∀ d, CutsOk (cuts d)) (h1 : cuts 0 1 = ((1 / 100 : ℝ) : EReal)) :
    0 < euclidean (sampleDistribution cuts [fun _ => 0]) (sampleDistribution cuts [fun _ => 1]) := by
  unfold euclidean
  refine Real.sqrt_pos.2 (Finset.sum_pos' (fun _ _ => sq_nonneg _) ⟨0, Finset.mem_univ _, ?_⟩)
  have e0 : sampleDistribution (nb := 100) cuts [fun _ => 0] 0 = 1 := by
    show binShare (cuts 0) [0] 0 = 1
    unfold binShare
    rw [show (0 : Fin 100).castSucc = 0 from rfl, show (0 : Fin 100).succ = 1 from rfl, (hc 0).first, h1]
    have : ((0 : ℝ) : EReal) < ((1 / 100 : ℝ) : EReal) := EReal.coe_lt_coe_iff.2 (by norm_num)
    simp [this, -one_div, -EReal.coe_zero]
  have e1 : sampleDistribution (nb := 100) cuts [fun _ => 1] 0 = 0 := by
    show binShare (cuts 0) [1] 0 = 0
    unfold binShare
    rw [show (0 : Fin 100).castSucc = 0 from rfl, show (0 : Fin 100).succ = 1 from rfl, (hc 0).first, h1]
    have : ¬ ((1 : ℝ) : EReal) < ((1 / 100 : ℝ) : EReal) := fun h => by
      have := EReal.coe_lt_coe_iff.1 h
      norm_num at this
    simp [this, -one_div, -EReal.coe_one]
    norm_num
  rw [e0, e1]
  norm_num

/-- The member chosen is the only one whose score is the least. -/
theorem best_of_two {score : ℕ → ℝ} {a b : List ℝ} {v : Fin 2 → Fl} {i : ℕ} (hi : i < 2) (h : MeanOfBest score 2 1 [a, b] v) (hlt : ∀ j < 2, j ≠ i → score i < score j) :
    ∀ c : Fin 2, v c = .fin (([a, b].getD i []).getD c 0) := by
  obtain ⟨S, -, h2, h3, h4, h5⟩ := h
  obtain ⟨j, rfl⟩ := List.length_eq_one_iff.1 h2
  have hj := h3 j (by simp)
  have : j = i := by
    by_contra hne
    exact absurd (h4 j (by simp) i hi (by simp [Ne.symm hne])) (not_le.2 (hlt j hj hne))
  subst this
  intro c
  rw [h5 c]
  simp

/-- **C60 is false**, with every sorting algorithm: an ensemble with a member trained on {0} and another trained on {1}, and one of these samples for testing. The member whose own bag is identical to the
testing sample is not the one selected. -/
theorem C60_refuted {G : Type} {argsort : List Fl → List ℕ} (ppf : ℝ → EReal) (rng : Rng G) (fuel : ℕ) (w : EoqWorld G) :
    ∃ (fit : EoqFit ℝ 1 (pairCfg .distributionSimilarity).nBins) (Xt : List (Fin 1 → ℝ)),
      eoqxFit ppf rng fuel w (pairCfg .distributionSimilarity) sumOps pairX [0, 1] (some []) (some [[0], [1]]) = some (w, .ok fit)
      ∧ (fit.members.map fun q => sumOps.predict q Xt) = ([[1, 0], [0, 1]] : List (List ℝ)).map .ok
      ∧ ¬ ∃ v, eoqxPredict argsort 2 (pairCfg .distributionSimilarity) sumOps fit Xt = .ok (.vec v)
        ∧ MeanOfBest (fun i => euclidean (sampleDistribution fit.cuts Xt) (sampleDistribution fit.cuts [fun _ => (i : ℝ)])) 2 1 [[1, 0], [0, 1]] v := by
  obtain ⟨fit, h1, hm, hc, hd, hcut⟩ := pair_fit ppf rng fuel w .distributionSimilarity
  by_contra hcon
  push Not at hcon
  have hcon := fun Xt => hcon fit Xt h1 (pair_predictions (ppf := ppf) (rng := rng) (fuel := fuel) (w := w) hm Xt)
  obtain ⟨v0, p0, b0⟩ := hcon [fun _ => 0]
  obtain ⟨v1, p1, b1⟩ := hcon [fun _ => 1]
  have e3 := eoqDistribution_pdf (f := (pairCfg .distributionSimilarity).f) rfl hc
  have hpred : ∀ Xt, eoqxPredict argsort 2 (pairCfg .distributionSimilarity) sumOps fit Xt = eoqCombine argsort (pairCfg .distributionSimilarity) (([[1, 0], [0, 1]] : List (List ℝ)).map (asVec 2))
      (.ok (List.replicate 2 (Fl.fin (euclidean (sampleDistribution fit.cuts Xt) (sampleDistribution fit.cuts pairX))))) := by
    intro Xt
    unfold eoqxPredict
    rw [eoqxRows_eq (by rw [hm]; rfl) (pair_predictions (ppf := ppf) (rng := rng) (fuel := fuel) (w := w) hm Xt) fun v hv => (pair_valid v hv).1, e3 Xt]
    have : eoqDistances (pairCfg .distributionSimilarity) fit (sampleDistribution fit.cuts Xt) =
        List.replicate 2 (Fl.fin (euclidean (sampleDistribution fit.cuts Xt) (sampleDistribution fit.cuts pairX))) := by
      unfold eoqDistances
      rw [hd, List.map_replicate]
      rfl
    rw [← this]
    rfl
  have hv : v0 = v1 := by
    rw [hpred, pair_equidistant, ← hpred, p1] at p0
    simpa using p0.symm
  have hself : ∀ u : Fin (1 * 100) → ℝ, euclidean u u = 0 := by
    intro u
    simp [euclidean]
  have hsymm : ∀ u v : Fin (1 * 100) → ℝ, euclidean u v = euclidean v u := by
    intro u v
    unfold euclidean
    congr 1
    exact Finset.sum_congr rfl fun i _ => by ring
  have hap := pair_apart hc hcut
  have k0 := best_of_two (i := 0) (by norm_num) b0 (fun j hj hne => by
    obtain rfl : j = 1 := by omega
    simp only [Nat.cast_zero, Nat.cast_one]
    exact (hself _).trans_lt hap) 0
  have k1 := best_of_two (i := 1) (by norm_num) b1 (fun j hj hne => by
    obtain rfl : j = 0 := by omega
    simp only [Nat.cast_zero, Nat.cast_one]
    exact (hself _).trans_lt (hap.trans_eq (hsymm _ _))) 0
  rw [hv, k1] at k0
  simp at k0

/-! ## C93 -/

/-- **C93 is false**: a member trained on a bag with a single class predicts a single prevalence, 1, that is recorded for every class. If all the members are so, the mean is the same for all the classes, whatever
the class of the bags. -/
theorem C93_single_class_refuted {α G Q : Type} [LinearOrder α] {ppf : ℝ → EReal} {rng : Rng G} {fuel : ℕ} {w w' : EoqWorld G} {cfg : EoqCfg} {y : List α} {prevs : Option (List (List Fl))}
    {idx : Option (List (List ℕ))} {argsort : List Fl → List ℕ} {nc nf : ℕ} {ops : EoqOps Q (List (Fin nf → ℝ)) α} {X : List (Fin nf → ℝ)} {fit : EoqFit Q nf cfg.nBins} (hnc : 1 < nc)
    (hfit : eoqxFit ppf rng fuel w cfg ops X y prevs idx = some (w', .ok fit)) (Xt : List (Fin nf → ℝ)) (hn : 0 < cfg.nQuant) (hst : cfg.strategy = .mean)
    (hone : ∀ q ∈ fit.members, ops.predict q Xt = .ok [1]) : eoqxPredict argsort nc cfg ops fit Xt = .ok (.vec fun _ => .fin (1 / nc)) := by
  obtain ⟨hl, -⟩ := eoqx_shape hfit hn Xt
  have hrows : eoqxRows nc cfg ops fit Xt = .ok (List.replicate cfg.nQuant fun _ => 1) := by
    unfold eoqxRows
    rw [mapM_ok _ _ (fun _ => fun _ => (1 : ℝ)) fun i hi => by
      have hi' : i < fit.members.length := by rw [hl]; exact List.mem_range.1 hi
      rw [bind_ok (item_ok.2 (List.getElem?_eq_getElem hi')) _, bind_ok (hone _ (List.getElem_mem hi')) _]
      unfold storeRow
      rw [dif_neg (by simp; omega)], List.map_const', List.length_range]
  unfold eoqxPredict
  rw [hrows]
  show eoqCombine _ _ _ _ = _
  unfold eoqCombine
  rw [hst]
  simp only
  congr 2
  unfold eoqMean
  have hq : (cfg.nQuant : ℝ) ≠ 0 := by exact_mod_cast hn.ne'
  have hn' : (nc : ℝ) ≠ 0 := by
    have : nc ≠ 0 := by omega
    exact_mod_cast this
  simp only [List.map_replicate, List.sum_replicate, List.length_replicate, smul_eq_mul, nsmul_eq_mul, mul_one]
  rw [Fl.fin_div _ hq, div_self hq, normalise_fin _ (by simpa using hn')]
  simp

/-- **C93 is false**: the predictions of a member trained on a bag with some classes, but not all of them, cannot be recorded: `predict` never returns. -/
theorem C93_missing_class_refuted {α G Q : Type} [LinearOrder α] {ppf : ℝ → EReal} {rng : Rng G} {fuel : ℕ} {w w' : EoqWorld G} {cfg : EoqCfg} {y : List α} {prevs : Option (List (List Fl))}
    {idx : Option (List (List ℕ))} {argsort : List Fl → List ℕ} {nc nf : ℕ} {ops : EoqOps Q (List (Fin nf → ℝ)) α} {X : List (Fin nf → ℝ)} {fit : EoqFit Q nf cfg.nBins}
    (hfit : eoqxFit ppf rng fuel w cfg ops X y prevs idx = some (w', .ok fit)) (Xt : List (Fin nf → ℝ)) (hn : 0 < cfg.nQuant) {q : Q} (hq : q ∈ fit.members) {v : List ℝ} (hv : ops.predict q Xt = .ok v)
    (h1 : v.length ≠ 1) (hnc : v.length < nc) (a : EoqAnswer nc) : eoqxPredict argsort nc cfg ops fit Xt ≠ .ok a := by
  intro h
  obtain ⟨hl, -⟩ := eoqx_shape hfit hn Xt
  obtain ⟨rows, hr, -⟩ := bind_inv h
  obtain ⟨i, hi, rfl⟩ := List.getElem_of_mem hq
  obtain ⟨r, -, hri⟩ := (mapM_range hr).2 i (by rw [← hl]; exact hi)
  rw [bind_ok (item_ok.2 (List.getElem?_eq_getElem hi)) _, bind_ok hv _] at hri
  unfold storeRow at hri
  rw [dif_neg (by omega)] at hri
  match v, h1 with
  | [], _ => cases hri
  | [a], h1 => exact h1 rfl
  | _ :: _ :: _, _ => cases hri

/-- **C93, partial**: when the members predict a prevalence for every class, they are recorded class by class. -/
theorem C93_all_classes_partial {α G Q : Type} [LinearOrder α] {ppf : ℝ → EReal} {rng : Rng G} {fuel : ℕ} {w w' : EoqWorld G} {cfg : EoqCfg} {y : List α} {prevs : Option (List (List Fl))}
    {idx : Option (List (List ℕ))} {nc nf : ℕ} {ops : EoqOps Q (List (Fin nf → ℝ)) α} {X : List (Fin nf → ℝ)} {fit : EoqFit Q nf cfg.nBins}
    (hfit : eoqxFit ppf rng fuel w cfg ops X y prevs idx = some (w', .ok fit)) (Xt : List (Fin nf → ℝ)) (hn : 0 < cfg.nQuant) {vs : List (List ℝ)}
    (hvs : (fit.members.map fun q => ops.predict q Xt) = vs.map .ok) (hlen : ∀ v ∈ vs, v.length = nc) :
    ∃ rows, eoqxRows nc cfg ops fit Xt = .ok rows ∧ rows.length = vs.length ∧ ∀ i < vs.length, ∀ c : Fin nc, (rows.getD i 0) c = (vs.getD i []).getD c 0 := by
  obtain ⟨hl, -⟩ := eoqx_shape hfit hn Xt
  refine ⟨_, eoqxRows_eq hl hvs hlen, by simp, fun i hi c => ?_⟩
  simp [List.getD_eq_getElem, hi, asVec]

/-! ## Concrete cases -/

/-- C59, C60, C92, C94, C95: an ensemble with two members. -/
example {argsort : List Fl → List ℕ} (hs : ArgsortOk argsort) : ∃ v, ∃ fit : EoqFit ℝ 1 (pairCfg .prevalenceSimilarity).nBins,
    eoqxPredict argsort 2 (pairCfg .prevalenceSimilarity) sumOps fit [fun _ => 1] = .ok (.vec v) ∧ MeanOfBest (distanceToMean 2 [[1, 0], [0, 1]]) 2 1 [[1, 0], [0, 1]] v := by
  obtain ⟨fit, h1, hm, -⟩ := pair_fit (fun _ => 0) lazyRng 0 ⟨fun _ => defaultGen, true⟩ .prevalenceSimilarity
  obtain ⟨v, hv⟩ := C94_eoqx_prevalence_similarity hs h1 [fun _ => 1] (by simp [pairCfg]) rfl (pair_predictions (ppf := fun _ => 0) (rng := lazyRng) (fuel := 0) (w := ⟨fun _ => defaultGen, true⟩) hm _) pair_valid
    (by norm_num [pairCfg]) 1 le_rfl (pairCfg_round _)
  exact ⟨v, fit, hv⟩

example {argsort : List Fl → List ℕ} (hs : ArgsortOk argsort) (s : EoqStrategy) (h : s ≠ .other) : ∃ fit : EoqFit ℝ 1 (pairCfg s).nBins,
    ValidFor s (eoqxPredict argsort 2 (pairCfg s) sumOps fit [fun _ => 1]) := by
  obtain ⟨fit, h1, hm, -⟩ := pair_fit (fun _ => 0) lazyRng 0 ⟨fun _ => defaultGen, true⟩ s
  refine ⟨fit, C59_eoqx_valid hs h1 [fun _ => 1] (by simp [pairCfg]) (pair_predictions (ppf := fun _ => 0) (rng := lazyRng) (fuel := 0) (w := ⟨fun _ => defaultGen, true⟩) hm _) pair_valid h (fun _ => ?_) fun _ => ⟨0, by norm_num, ?_⟩⟩
  · rw [pairCfg_round]; norm_num
  · simp [pairCfg]

/-- C59: three members that give all the prevalence to a different class have no median. -/
example {argsort : List Fl → List ℕ} (dists : Except Err (List Fl)) (cfg : EoqCfg) (hst : cfg.strategy = .median) :
    eoqCombine argsort cfg (([[1, 0, 0], [0, 1, 0], [0, 0, 1]] : List (List ℝ)).map (asVec 3)) dists = .ok (.vec fun _ => .nan) := by
  obtain ⟨m, h1, h2, h | h⟩ := (combine_mean_median (argsort := argsort) (cfg := cfg) (nc := 3) (vs := [[1, 0, 0], [0, 1, 0], [0, 0, 1]]) (by simp [IsPrevList]) (by simp) dists).2 hst
  · obtain ⟨⟨c, hc⟩, -⟩ := h
    have := (h1 c).1
    fin_cases c <;> simp [List.countP_cons] at this hc <;> simp [hc] at this <;> split_ifs at this <;> simp at this <;> linarith
  · exact h.2

/-- C90: the first object has one member and the second, two. -/
example : ∃ w' : EoqWorld Bool, (∃ w2 fB, eoqxFit (fun _ => 0) lazyRng 2 ⟨fun _ => defaultGen, true⟩ (pairCfg .mean) sumOps pairX [0, 1] none none = some (w2, .ok fB)) ∧
    ∀ w2 fB, eoqxFit (fun _ => 0) lazyRng 2 w' (pairCfg .mean) sumOps pairX [0, 1] none none ≠ some (w2, .ok fB) := by
  obtain ⟨w', fA, hA⟩ := C91_generated_bags_partial (ppf := fun _ => 0) (w := ⟨fun _ => defaultGen, true⟩) (cfg := { pairCfg .mean with nQuant := 1 }) lazyRng_ok lazyRng_total (fuel := 2) rfl rfl sumOps (fun _ _ => ⟨_, rfl⟩) pairX
    (by simp [pairX]) [0, 1] rfl rfl rfl rfl (by simp [defaultGen]) (by norm_num) (by simp [defaultGen])
  exact ⟨w', C90_shared_generator_refuted (cfg := { pairCfg .mean with nQuant := 1 }) lazyRng_ok lazyRng_total (cfgB := pairCfg .mean) rfl rfl (by simp) hA rfl rfl (fun _ _ => ⟨_, rfl⟩) (by simp [pairX]) rfl rfl rfl (by simp [defaultGen]) (by simp [pairCfg])
    (by simp [defaultGen]) (by simp [pairCfg])⟩

/-- C60, partial: two bags that are the whole training set. -/
example {argsort : List Fl → List ℕ} (hs : ArgsortOk argsort) : ∃ fit : EoqFit ℝ 1 (pairCfg .distributionSimilarity).nBins, ∃ v,
    eoqxPredict argsort 2 (pairCfg .distributionSimilarity) { sumOps with predict := fun _ _ => .ok [1 / 2, 1 / 2] } fit [fun _ => 1] = .ok (.vec v) := by
  set ops : EoqOps ℝ (List (Fin 1 → ℝ)) ℕ := { sumOps with predict := fun _ _ => .ok [1 / 2, 1 / 2] } with hops
  obtain ⟨fit, h1, h2, h3, -⟩ := eoqxLearn_returns (ppf := fun _ => 0) (cfg := pairCfg .distributionSimilarity) rfl rfl ops (fun _ _ => ⟨_, rfl⟩) pairX (by simp [pairX]) [0, 1] rfl [[0, 1], [1, 0]] rfl (by simp)
  have hf : eoqxFit (fun _ => 0) lazyRng 0 ⟨fun _ => defaultGen, true⟩ (pairCfg .distributionSimilarity) ops pairX [0, 1] (some []) (some [[0, 1], [1, 0]]) = some (⟨fun _ => defaultGen, true⟩, .ok fit) := by
    unfold eoqxFit eoqBags
    simp only [Option.map_some]
    exact congrArg (fun r => some ((⟨fun _ => defaultGen, true⟩ : EoqWorld Bool), r)) h1
  obtain ⟨hl, -⟩ := eoqx_shape hf (by simp [pairCfg]) [fun _ => 1]
  obtain ⟨v, hv, -⟩ := C60_representative_bags_partial hs hf h3 rfl [fun _ => 1] (by simp [pairCfg]) rfl (vs := [[1 / 2, 1 / 2], [1 / 2, 1 / 2]]) (nc := 2)
    (by
      obtain ⟨a, b, hab⟩ : ∃ a b, fit.members = [a, b] := List.length_eq_two.1 hl
      rw [hab]; rfl) (by simp [IsPrevList]; norm_num) (by norm_num [pairCfg]) 1 le_rfl (pairCfg_round _) (fun i => if i = 0 then pairX else [fun _ => 1, fun _ => 0]) (fun i hi => by
      split_ifs
      · rfl
      · funext k
        simp only [sampleDistribution, pairX, List.map_cons, List.map_nil, binShare_pair]
        ring)
  exact ⟨fit, v, hv⟩

/-- A base quantifier that uses classifiers: it remembers the mean `q` of the labels of its bag, and predicts `(1 - q, q)`. -/
noncomputable def labelOps : EoqOps ℝ (Preds ℕ 2) ℕ where
  fit _ ys := .ok ((ys.map fun (c : ℕ) => (c : ℝ)).sum / ys.length)
  predict q _ := .ok [1 - q, q]

theorem eoqyLearn_of {α Q : Type} [LinearOrder α] {ppf : ℝ → EReal} {nc : ℕ} {cfg : EoqCfg} {ops : EoqOps Q (Preds α nc) α} {preds : EoqPreds α nc} {y : List α} {idx : Option (List (List ℕ))}
    {ext : List α × Option (List (List ℕ))} {members : List Q} {cuts : Fin (nDescriptors nc) → Fin (cfg.nBins + 1) → EReal} {dists : List (Fin (nDescriptors nc * cfg.nBins) → ℝ)}
    (h0 : eoqExtend y preds.len cfg.nQuant idx = .ok ext) (h1 : ((List.range cfg.nQuant).mapM fun i => bagAt ext.2 i >>= eoqyMember ops preds ext.1 i) = .ok members)
    (h2 : eoqyCuts ppf cfg.nBins cfg.binStrategy (npUnique y) ext.1 preds = .ok cuts) (h3 : ((List.range cfg.nQuant).mapM fun _ => eoqyDistribution cfg.f cuts preds) = .ok dists) :
    eoqyLearn ppf cfg ops preds y idx = .ok ⟨members, cuts, dists⟩ :=
  (bind_ok h0 _).trans ((bind_ok h1 _).trans ((bind_ok h2 _).trans ((bind_ok h3 _).trans rfl)))

theorem eoqyFit_of {α G Q : Type} [LinearOrder α] {ppf : ℝ → EReal} {rng : Rng G} {fuel lenX : ℕ} {w : EoqWorld G} {nc : ℕ} {cfg : EoqCfg} {ops : EoqOps Q (Preds α nc) α} {preds : EoqPreds α nc} {y : List α}
    {prevs : List (List Fl)} {idx : List (List ℕ)} {fit : EoqFit Q (nDescriptors nc) cfg.nBins} (h : eoqyLearn ppf cfg ops preds y (some idx) = .ok fit) :
    eoqyFit ppf rng fuel w cfg ops lenX preds y (some prevs) (some idx) = some (w, .ok fit) := by
  unfold eoqyFit eoqBags
  simp only [Option.map_some]
  exact congrArg (fun r => some (w, r)) h

/-- An ensemble fitted with crisp predictions, one or several for each of the two examples. -/
theorem crisp_fit {G : Type} (ppf : ℝ → EReal) (rng : Rng G) (fuel : ℕ) (w : EoqWorld G) (s : EoqStrategy) :
    (∃ fit : EoqFit ℝ (nDescriptors 2) (pairCfg s).nBins, eoqyFit ppf rng fuel w (pairCfg s) labelOps 2 (.crisp [0, 1]) [0, 1] (some []) (some [[0], [1]]) = some (w, .ok fit) ∧ fit.members = [0, 1])
    ∧ ∃ fit : EoqFit ℝ (nDescriptors 2) (pairCfg s).nBins, eoqyFit ppf rng fuel w (pairCfg s) labelOps 2 (.crisp [0, 1, 1, 1]) [0, 1] (some []) (some [[0, 0], [0, 1]]) = some (w, .ok fit)
      ∧ fit.members = [0, 1 / 2] := by
  have hd : ∀ l : List ℕ, ((List.range (pairCfg s).nQuant).mapM fun _ => eoqyDistribution (nc := 2) (nb := (pairCfg s).nBins) (pairCfg s).f (fun _ _ => 0) (.crisp l)) = .ok [fun _ => 0, fun _ => 0] := by
    intro l
    rw [mapM_ok _ _ (fun _ => fun _ => (0 : ℝ)) fun _ _ => by
      simp [eoqyDistribution, EoqPreds.rows, pairCfg]]
    rfl
  constructor
  · refine ⟨⟨[0, 1], fun _ _ => 0, [fun _ => 0, fun _ => 0]⟩, eoqyFit_of (eoqyLearn_of (ext := ([0, 1], some [[0], [1]])) rfl ?_ rfl (hd _)), rfl⟩
    rw [show (pairCfg s).nQuant = 2 from rfl]
    simp [List.range_succ, bagAt, item, eoqyMember, labelOps, bind, Except.bind, pure, Except.pure, EoqPreds.ofBag, Except.map]
  · refine ⟨⟨[0, 1 / 2], fun _ _ => 0, [fun _ => 0, fun _ => 0]⟩, eoqyFit_of (eoqyLearn_of (ext := ([0, 1, 0, 1], some [[0, 0, 2, 2], [0, 1, 2, 3]])) ?_ ?_ rfl (hd _)), rfl⟩
    · simp [eoqExtend, extendLabels, npTile, extIndexes, EoqPreds.len, pairCfg, bind, Except.bind, pure, Except.pure, List.range_succ]
    · rw [show (pairCfg s).nQuant = 2 from rfl]
      simp [List.range_succ, bagAt, item, eoqyMember, labelOps, bind, Except.bind, pure, Except.pure, EoqPreds.ofBag, Except.map]
      norm_num

/-- C59, C92, C94, C95 with quantifiers that use classifiers. -/
example {argsort : List Fl → List ℕ} (hs : ArgsortOk argsort) : ∃ v, ∃ fit : EoqFit ℝ (nDescriptors 2) (pairCfg .prevalenceSimilarity).nBins,
    eoqyPredict argsort (pairCfg .prevalenceSimilarity) labelOps fit (.crisp [1]) = .ok (.vec v) ∧ MeanOfBest (distanceToMean 2 [[1, 0], [0, 1]]) 2 1 [[1, 0], [0, 1]] v := by
  obtain ⟨⟨fit, h1, hm⟩, -⟩ := crisp_fit (fun _ => 0) lazyRng 0 ⟨fun _ => defaultGen, true⟩ .prevalenceSimilarity
  obtain ⟨v, hv⟩ := C94_eoqy_prevalence_similarity hs h1 (.crisp [1]) (by simp [pairCfg]) rfl (vs := [[1, 0], [0, 1]]) (by rw [hm]; simp [labelOps, EoqPreds.forMember, bind, Except.bind]) pair_valid
    (by norm_num [pairCfg]) 1 le_rfl (pairCfg_round _)
  exact ⟨v, fit, hv⟩

example {argsort : List Fl → List ℕ} (hs : ArgsortOk argsort) : ∃ fit : EoqFit ℝ (nDescriptors 2) (pairCfg .all).nBins,
    ValidFor .all (eoqyPredict argsort (pairCfg .all) labelOps fit (.probs [fun _ => 1 / 2])) := by
  obtain ⟨⟨fit, h1, hm⟩, -⟩ := crisp_fit (fun _ => 0) lazyRng 0 ⟨fun _ => defaultGen, true⟩ .all
  refine ⟨fit, C59_eoqy_valid hs h1 (.probs [fun _ => 1 / 2]) (by simp [pairCfg]) (vs := [[1, 0], [0, 1]]) (by rw [hm]; simp [labelOps, EoqPreds.forMember, bind, Except.bind]) pair_valid (by simp [pairCfg])
    (fun _ => ?_) (by simp) fun _ => ⟨0, by norm_num, ?_⟩⟩
  · rw [pairCfg_round]; norm_num
  · simp [pairCfg]

example : ∃ fit : EoqFit ℝ (nDescriptors 2) (pairCfg .all).nBins, ∃ (bag : List ℕ) (p : Preds ℕ 2) (ys : List ℕ) (q : ℝ), BagPreds (nc := 2) (EoqPreds.crisp [0, 1, 1, 1]) ((List.range 2).flatMap fun t => bag.map fun j => j + t * 2) 1 p
    ∧ fit.members[1]? = some q ∧ labelOps.fit p ys = .ok q := by
  obtain ⟨-, fit, h1, -⟩ := crisp_fit (fun _ => 0) lazyRng 0 ⟨fun _ => defaultGen, true⟩ .all
  obtain ⟨_, -, -, h⟩ := C92_eoqy_repeated_partial (r := 2) (by simp) (by norm_num) rfl h1
  obtain ⟨_, bag, p, ys, q, -, -, h2, -, h3, h4⟩ := h 1 (by simp [pairCfg])
  exact ⟨fit, bag, p, ys, q, h2, h3, h4⟩

/-- C93: bags with a single class. -/
example {argsort : List Fl → List ℕ} : ∃ fit : EoqFit ℝ 1 (pairCfg .mean).nBins,
    eoqxPredict argsort 2 (pairCfg .mean) { sumOps with predict := fun _ _ => .ok [1] } fit [fun _ => 1] = .ok (.vec fun _ => .fin (1 / 2)) := by
  obtain ⟨fit, h1⟩ := C91_given_bags_partial (ppf := fun _ => 0) (rng := lazyRng) (fuel := 0) (w := ⟨fun _ => defaultGen, true⟩) (cfg := pairCfg .mean) rfl rfl { sumOps with predict := fun _ _ => .ok [1] } (fun _ _ => ⟨_, rfl⟩) pairX
    (by simp [pairX]) [0, 1] rfl [[1], [1]] rfl (by simp) []
  exact ⟨fit, by simpa using C93_single_class_refuted (argsort := argsort) (nc := 2) (by norm_num) h1 [fun _ => 1] (by simp [pairCfg]) rfl fun _ _ => rfl⟩

end Verif.Props
