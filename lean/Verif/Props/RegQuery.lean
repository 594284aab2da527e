import Verif.Props.RegLearn

/-!
# C57, C119: the bag that the regressors are asked about
-/

namespace Verif.Props

open Verif.Model Verif.Spec Verif.Proof

variable {α D G ρ : Type} [LinearOrder α] {ppf : ℝ → EReal} {rng : Rng G} {fuel nd : ℕ} {w w' : RegWorld G ρ} {cfg : RegCfg} {ops : RegOps ρ (nd * cfg.nBins)} {range : Option (ℝ × ℝ)} {att : Fin nd → D → ℝ} {X : List D} {y : List α}
  {fit : RegFit ρ nd cfg.nBins}

/-- **C119**, two classes: `predict` asks the regressor about the distributions of the features in the whole testing bag, with the bins of `fit`. -/
theorem C119_predict_two_classes (hr : RngOk rng) (h : regFit ppf rng fuel w cfg ops range att X y = some (w', .ok fit)) (hfresh : (w.gens cfg.gen).bags = none) (hy : y ≠ [])
    (hbs : 0 < (w.gens cfg.gen).bagSize.getD y.length) (hc : ∀ d, CutsOk (fit.cuts d)) (h2 : (labelsOf y).length = 2) :
    ∃ (b : Bags) (ex : List ((Fin (nd * cfg.nBins) → ℝ) × Fl)), AreBags y ((w.gens cfg.gen).bagSize.getD y.length) (w.gens cfg.gen).nBags b
      ∧ TeachesClass att fit.cuts X y ((((w.gens cfg.gen).bagSize.getD y.length : ℕ) : ℝ) / X.length) b.idx ((labelsOf y)[1]'(by omega)) ex
      ∧ ∀ (Xt : List D) (bag : Fin (nd * cfg.nBins) → ℝ), (∀ d, blockOf bag d = binShare (fit.cuts d) (Xt.map (att d))) → ops.predict (trainedWith ops w.regs cfg.reg ex) bag ≠ .nan →
        regPredict ops w' fit att Xt
          = .ok [.fin (1 - nearestUnit (ops.predict (trainedWith ops w.regs cfg.reg ex) bag)), .fin (nearestUnit (ops.predict (trainedWith ops w.regs cfg.reg ex) bag))] := by
  obtain ⟨b, ex, h1, h3, h4⟩ := C119_two_classes hr h hfresh hy hbs hc h2
  refine ⟨b, ex, h1, h3, fun Xt bag hb hp => ?_⟩
  obtain ⟨q, hq, hq'⟩ := testRow_eq att fit.cuts hc Xt
  obtain rfl : bag = q := blockOf_ext fun d => (hb d).trans (hq' d).symm
  unfold regPredict
  rw [hq]
  exact h4 bag _ rfl hp

/-- **C119**, other numbers of classes: `predict` asks the regressors about the distributions of the features in the whole testing bag, with the bins of `fit`. -/
theorem C119_predict_multiclass (hr : RngOk rng) (h : regFit ppf rng fuel w cfg ops range att X y = some (w', .ok fit)) (hfresh : (w.gens cfg.gen).bags = none) (hy : y ≠ [])
    (hbs : 0 < (w.gens cfg.gen).bagSize.getD y.length) (hc : ∀ d, CutsOk (fit.cuts d)) (h2 : (labelsOf y).length ≠ 2) :
    ∃ (b : Bags) (ex : Fin (labelsOf y).length → List ((Fin (nd * cfg.nBins) → ℝ) × Fl)), AreBags y ((w.gens cfg.gen).bagSize.getD y.length) (w.gens cfg.gen).nBags b
      ∧ (∀ c, TeachesClass att fit.cuts X y ((((w.gens cfg.gen).bagSize.getD y.length : ℕ) : ℝ) / X.length) b.idx (labelsOf y)[c] (ex c))
      ∧ ∀ (Xt : List D) (bag : Fin (nd * cfg.nBins) → ℝ) (p : Fin (labelsOf y).length → Fl), (∀ d, blockOf bag d = binShare (fit.cuts d) (Xt.map (att d))) →
        (∀ c, ops.predict (trainedWith ops w.regs cfg.reg (ex c)) bag = p c) → (∀ c, p c ≠ .nan) → (∃ c, 0 < p c) →
        regPredict ops w' fit att Xt = .ok (List.ofFn fun c => .fin (nearestUnit (p c) / ∑ j, nearestUnit (p j))) := by
  obtain ⟨b, ex, h1, h3, h4⟩ := C119_multiclass hr h hfresh hy hbs hc h2
  refine ⟨b, ex, h1, h3, fun Xt bag p hb hp hn hpos => ?_⟩
  obtain ⟨q, hq, hq'⟩ := testRow_eq att fit.cuts hc Xt
  obtain rfl : bag = q := blockOf_ext fun d => (hb d).trans (hq' d).symm
  unfold regPredict
  rw [hq]
  exact h4 bag p hp hn hpos

/-- The limits of `n` bins of the same width that cover the posteriors: `0, 1/n, …, 1`, where the first and the last bins have no outer limit. -/
def UnitBins {n : ℕ} (cuts : Fin (n + 1) → EReal) : Prop :=
  cuts 0 = ⊥ ∧ cuts (Fin.last n) = ⊤ ∧ ∀ i : Fin (n + 1), i ≠ 0 → i ≠ Fin.last n → cuts i = (((i : ℕ) / n : ℝ) : EReal)

/-- **C57** for REGy with bins of the same width: they are those of the interval from 0 to 1, whatever the posteriors of the training set, and `predict` uses the same ones: the distributions of two testing bags, or of bags in two trainings, are on the same scale. -/
theorem C57_regy_bins_partial {nc : ℕ} {opsy : RegOps ρ (nDescriptors nc * cfg.nBins)} {P : List (Fin nc → ℝ)} {fity : RegFit ρ (nDescriptors nc) cfg.nBins} (h : regyFit ppf rng fuel w cfg opsy P y = some (w', .ok fity))
    (hst : cfg.strategy = .equalWidth) :
    (∀ d, UnitBins (fity.cuts d))
    ∧ ∀ (Pt : List (Fin nc → ℝ)) (bag : Fin (nDescriptors nc * cfg.nBins) → ℝ), (∀ d, blockOf bag d = binShare (fity.cuts d) (Pt.map (dfyAtt nc d))) →
        regPredict opsy w' fity (dfyAtt nc) Pt = regPredictBag opsy w'.regs fity bag := by
  obtain ⟨s', glob', b, -, hcuts, -⟩ := regFit_inv h
  have hU : ∀ d, UnitBins (fity.cuts d) ∧ CutsOk (fity.cuts d) := by
    intro d
    have := (seqFin_ok _ _).1 hcuts d
    rw [hst] at this
    simp only [computeBincuts, binRange, binEdges] at this
    by_cases hn : cfg.nBins = 0
    · rw [if_pos hn] at this; cases this
    rw [if_neg hn, if_neg (by norm_num), if_neg (by norm_num)] at this
    simp only [Except.ok.injEq] at this
    have hne : (0 : Fin (cfg.nBins + 1)) ≠ Fin.last cfg.nBins := by
      intro hh
      have := congrArg Fin.val hh
      simp at this
      omega
    have hu : UnitBins (fity.cuts d) := by
      rw [← this]
      refine ⟨by simp [hne], by simp, fun i h0 h1 => ?_⟩
      simp only [if_neg h0, if_neg h1, linspace]
      congr 1
      ring
    refine ⟨hu, ⟨hu.1, hu.2.1, ?_⟩⟩
    intro i j hij
    by_cases hj : j = Fin.last cfg.nBins
    · rw [hj, hu.2.1]; exact le_top
    by_cases hi : i = 0
    · rw [hi, hu.1]; exact bot_le
    have hi' : i ≠ Fin.last cfg.nBins := fun hh => hj (le_antisymm (Fin.le_last j) (hh ▸ hij))
    have hj' : j ≠ 0 := fun hh => hi (le_antisymm (hh ▸ hij) (Fin.zero_le i))
    rw [hu.2.2 i hi hi', hu.2.2 j hj' hj, EReal.coe_le_coe_iff]
    exact div_le_div_of_nonneg_right (by exact_mod_cast hij) (Nat.cast_nonneg _)
  refine ⟨fun d => (hU d).1, fun Pt bag hb => ?_⟩
  obtain ⟨q, hq, hq'⟩ := testRow_eq (dfyAtt nc) fity.cuts (fun d => (hU d).2) Pt
  obtain rfl : bag = q := blockOf_ext fun d => (hb d).trans (hq' d).symm
  unfold regPredict
  rw [hq]
  rfl

/-- REGy with the posteriors of three examples. -/
example : ∃ (w' : RegWorld Bool Fl) (fit : RegFit Fl 1 4), regyFit (nc := 2) (fun _ => ⊥) lazyRng 1000 firstWorld ⟨0, 4, .equalWidth, none⟩ (firstOps (1 * 4)) [![1/4, 3/4], ![1/2, 1/2], ![1, 0]] [0, 1, 1] = some (w', .ok fit) := by
  obtain ⟨w', fit, h, -⟩ := regFit_returns (α := ℕ) (fun _ => ⊥) lazyRng lazyRng_ok lazyRng_total 1000 firstWorld ⟨0, 4, .equalWidth, none⟩ (firstOps (1 * 4)) (some (0, 1)) (.inr rfl) (dfyAtt 2 : Fin 1 → (Fin 2 → ℝ) → ℝ)
    [![1/4, 3/4], ![1/2, 1/2], ![1, 0]] [0, 1, 1] (by simp) rfl (by norm_num) rfl rfl rfl rfl (by simp [firstWorld, defaultGen]) le_rfl (by simp [firstWorld, defaultGen])
  exact ⟨w', fit, h⟩

end Verif.Props
