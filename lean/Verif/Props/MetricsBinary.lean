import Verif.Model.MetricsBinary
import Mathlib.Tactic.FieldSimp
import Mathlib.Analysis.SpecialFunctions.Log.Deriv

/-!
# C13-C15: binary metrics
-/

namespace Verif.Props

open Verif.Model Set

/-- A finite nonnegative error that is zero exactly for the right prediction. -/
def IsError (m : ℝ → ℝ → Fl) : Prop :=
  ∀ p ∈ Icc (0:ℝ) 1, ∀ q ∈ Icc (0:ℝ) 1, ∃ e : ℝ, m p q = Fl.fin e ∧ 0 ≤ e ∧ (e = 0 ↔ q = p)

/-! ## C13 -/

/-- **C13**: absolute_error. -/
theorem C13_absolute_error : IsError absoluteError
    ∧ (∀ p q, absoluteError p q = absoluteError q p)
    ∧ ∀ p q, absoluteError p q = (bias p q).abs := by
  refine ⟨fun p _ q _ => ⟨|q - p|, by simp [absoluteError], abs_nonneg _, ?_⟩, fun p q => ?_, fun p q => ?_⟩
  · rw [abs_eq_zero, sub_eq_zero]
  · simp [absoluteError, abs_sub_comm]
  · simp [absoluteError, bias]

/-- **C13**: squared_error. -/
theorem C13_squared_error : IsError squaredError
    ∧ (∀ p q, squaredError p q = squaredError q p)
    ∧ ∀ p q, squaredError p q = (absoluteError p q).sq := by
  refine ⟨fun p _ q _ => ⟨(q - p)^2, by simp [squaredError], sq_nonneg _, ?_⟩, fun p q => ?_, fun p q => ?_⟩
  · rw [sq_eq_zero_iff, sub_eq_zero]
  · simp only [squaredError, Fl.fin_sub, Fl.sq_fin]
    congr 1
    ring
  · simp [squaredError, absoluteError]

/-- **C13**: bias is finite, antisymmetric, positive exactly when the prediction is too large. -/
theorem C13_bias (p q : ℝ) : bias p q = -bias q p ∧ (Fl.fin 0 < bias p q ↔ p < q)
    ∧ (bias p q = Fl.fin 0 ↔ q = p) := by
  refine ⟨?_, ?_, ?_⟩
  · simp [bias]
  · simp [bias, sub_pos]
  · simp [bias, sub_eq_zero]

/-- **C13**: relative_absolute_error, for every positive `eps`. -/
theorem C13_relative_absolute_error (eps : ℝ) (he : 0 < eps) :
    IsError fun p q => relativeAbsoluteError p q eps := by
  intro p hp q hq
  by_cases h : p = 0
  · subst h
    refine ⟨|q - 0| / (0 + eps), ?_, by positivity, ?_⟩
    · simp only [relativeAbsoluteError, if_true, Fl.fin_sub, Fl.abs_fin, Fl.fin_add]
      rw [Fl.fin_div _ (by linarith)]
    · rw [div_eq_zero_iff, abs_eq_zero]
      constructor
      · rintro (h | h) <;> linarith
      · intro h; left; linarith
  · have hp0 : 0 < p := lt_of_le_of_ne hp.1 (Ne.symm h)
    refine ⟨|q - p| / p, ?_, by positivity, ?_⟩
    · simp only [relativeAbsoluteError, if_neg h, Fl.fin_sub, Fl.abs_fin]
      rw [Fl.fin_div _ h]
    · rw [div_eq_zero_iff, abs_eq_zero]
      constructor
      · rintro (h | h) <;> linarith
      · intro h; left; linarith

/-- **C13** (value): for a positive true prevalence it is the absolute error relative to it. -/
theorem C13_relative_absolute_error_value (eps p q : ℝ) (hp : 0 < p) :
    relativeAbsoluteError p q eps = Fl.fin (|q - p| / p) := by
  simp only [relativeAbsoluteError, if_neg hp.ne', Fl.fin_sub, Fl.abs_fin]
  rw [Fl.fin_div _ hp.ne']

/-- **C13**: symmetric_absolute_percentage_error, also symmetric and at most 1. -/
theorem C13_sape : IsError sape ∧ (∀ p q, sape p q = sape q p)
    ∧ ∀ p ∈ Icc (0:ℝ) 1, ∀ q ∈ Icc (0:ℝ) 1, ∃ e : ℝ, sape p q = Fl.fin e ∧ e ≤ 1 := by
  refine ⟨fun p hp q hq => ?_, fun p q => ?_, fun p hp q hq => ?_⟩
  · by_cases h : q + p = 0
    · have hp0 : p = 0 := by linarith [hp.1, hq.1]
      have hq0 : q = 0 := by linarith [hp.1, hq.1]
      exact ⟨0, by simp [sape, h], le_rfl, by simp [hp0, hq0]⟩
    · have hpos : 0 < q + p := lt_of_le_of_ne (by linarith [hp.1, hq.1]) (Ne.symm h)
      refine ⟨|q - p| / (q + p), ?_, by positivity, ?_⟩
      · simp only [sape, if_neg h, Fl.fin_sub, Fl.abs_fin, Fl.fin_add]
        rw [Fl.fin_div _ h]
      · rw [div_eq_zero_iff, abs_eq_zero]
        constructor
        · rintro (h | h) <;> linarith
        · intro h; left; linarith
  · unfold sape
    rw [add_comm q p]
    simp only [Fl.fin_sub, Fl.abs_fin, Fl.fin_add, abs_sub_comm q p, add_comm q p]
  · by_cases h : q + p = 0
    · exact ⟨0, by simp [sape, h], zero_le_one⟩
    · have hpos : 0 < q + p := lt_of_le_of_ne (by linarith [hp.1, hq.1]) (Ne.symm h)
      refine ⟨|q - p| / (q + p), ?_, ?_⟩
      · simp only [sape, if_neg h, Fl.fin_sub, Fl.abs_fin, Fl.fin_add]
        rw [Fl.fin_div _ h]
      · rw [div_le_one hpos, abs_le]
        constructor <;> linarith [hp.1, hq.1]

example : (0.3 : ℝ) ∈ Icc (0:ℝ) 1 := by constructor <;> norm_num

/-! ## C14 -/

/-- A score in [0,1] which is 1 exactly for the right prediction, decreases strictly with the
absolute error, and is 0 for some prediction. -/
def IsScore (m : ℝ → ℝ → Fl) : Prop :=
  ∀ p ∈ Icc (0:ℝ) 1,
    (∀ q ∈ Icc (0:ℝ) 1, ∃ s : ℝ, m p q = Fl.fin s ∧ s ∈ Icc (0:ℝ) 1 ∧ (s = 1 ↔ q = p))
    ∧ (∀ q ∈ Icc (0:ℝ) 1, ∀ q' ∈ Icc (0:ℝ) 1, |q - p| < |q' - p| → m p q' < m p q)
    ∧ ∃ q ∈ Icc (0:ℝ) 1, m p q = Fl.fin 0

theorem worst_err {p q : ℝ} (hq : q ∈ Icc (0:ℝ) 1) : |q - p| ≤ max p (1 - p) := by
  rw [abs_le]
  constructor
  · linarith [le_max_left p (1 - p), hq.1]
  · linarith [le_max_right p (1 - p), hq.2]

theorem max_pos' (p : ℝ) : 0 < max p (1 - p) := by
  rcases le_total p (1/2) with h | h
  · exact lt_of_lt_of_le (by linarith) (le_max_right p (1 - p))
  · exact lt_of_lt_of_le (by linarith) (le_max_left p (1 - p))

theorem nas_eq (p q : ℝ) : normalizedAbsoluteScore p q = Fl.fin (1 - |q - p| / max p (1 - p)) := by
  simp only [normalizedAbsoluteScore, Fl.fin_sub, Fl.abs_fin]
  rw [Fl.fin_div _ (max_pos' p).ne', Fl.fin_sub]

theorem nss_eq (p q : ℝ) :
    normalizedSquaredScore p q = Fl.fin (1 - (|q - p| / max p (1 - p))^2) := by
  simp only [normalizedSquaredScore, Fl.fin_sub, Fl.abs_fin]
  rw [Fl.fin_div _ (max_pos' p).ne', Fl.sq_fin, Fl.fin_sub]

theorem worst_exists {p : ℝ} (hp : p ∈ Icc (0:ℝ) 1) : ∃ q ∈ Icc (0:ℝ) 1, |q - p| = max p (1 - p) := by
  rcases le_total p (1 - p) with h | h
  · refine ⟨1, ⟨zero_le_one, le_rfl⟩, ?_⟩
    rw [max_eq_right h, abs_of_nonneg (by linarith [hp.2])]
  · refine ⟨0, ⟨le_rfl, zero_le_one⟩, ?_⟩
    rw [max_eq_left h, zero_sub, abs_neg, abs_of_nonneg hp.1]

/-- **C14**: normalized_absolute_score. -/
theorem C14_nas : IsScore normalizedAbsoluteScore := by
  intro p hp
  have hm := max_pos' p
  refine ⟨fun q hq => ⟨_, nas_eq p q, ⟨?_, ?_⟩, ?_⟩, fun q _ q' _ h => ?_, ?_⟩
  · rw [sub_nonneg, div_le_one hm]
    exact worst_err hq
  · have : 0 ≤ |q - p| / max p (1 - p) := by positivity
    linarith
  · rw [sub_eq_self, div_eq_zero_iff, abs_eq_zero]
    constructor
    · rintro (h | h) <;> linarith
    · intro h; left; linarith
  · rw [nas_eq, nas_eq, Fl.fin_lt_fin]
    have := div_lt_div_of_pos_right h hm
    linarith
  · obtain ⟨q, hq, h⟩ := worst_exists hp
    refine ⟨q, hq, ?_⟩
    rw [nas_eq, h, div_self hm.ne', sub_self]

/-- **C14**: normalized_squared_score. -/
theorem C14_nss : IsScore normalizedSquaredScore := by
  intro p hp
  have hm := max_pos' p
  refine ⟨fun q hq => ⟨_, nss_eq p q, ⟨?_, ?_⟩, ?_⟩, fun q _ q' _ h => ?_, ?_⟩
  · have h0 : 0 ≤ |q - p| / max p (1 - p) := by positivity
    have h1 : |q - p| / max p (1 - p) ≤ 1 := (div_le_one hm).2 (worst_err hq)
    nlinarith
  · have : 0 ≤ (|q - p| / max p (1 - p))^2 := by positivity
    linarith
  · rw [sub_eq_self, sq_eq_zero_iff, div_eq_zero_iff, abs_eq_zero]
    constructor
    · rintro (h | h) <;> linarith
    · intro h; left; linarith
  · rw [nss_eq, nss_eq, Fl.fin_lt_fin]
    have h0 : 0 ≤ |q - p| / max p (1 - p) := by positivity
    have := div_lt_div_of_pos_right h hm
    nlinarith
  · obtain ⟨q, hq, h⟩ := worst_exists hp
    refine ⟨q, hq, ?_⟩
    rw [nss_eq, h, div_self hm.ne']
    norm_num

/-! ## C15 -/

/-- Gibbs' inequality for one term, with the equality case. -/
theorem gibbs_term {a b : ℝ} (ha : 0 < a) (hb : 0 < b) :
    a - b ≤ a * Real.log (a / b) ∧ (a - b = a * Real.log (a / b) ↔ a = b) := by
  have hx : 0 < b / a := by positivity
  have hlog : Real.log (a / b) = -Real.log (b / a) := by
    rw [← Real.log_inv, inv_div]
  have key : a * (b / a - 1) = b - a := by field_simp
  constructor
  · rw [hlog]
    have := Real.log_le_sub_one_of_pos hx
    nlinarith
  · constructor
    · intro h
      by_contra hne
      have hne' : b / a ≠ 1 := by
        rw [Ne, div_eq_one_iff_eq ha.ne']
        exact Ne.symm hne
      have := Real.log_lt_sub_one_of_pos hx hne'
      rw [hlog] at h
      nlinarith
    · rintro rfl
      simp [div_self ha.ne']

theorem log2_div (a b : ℝ) (ha : 0 < a) (hb : 0 < b) :
    (Fl.fin a / Fl.fin b).log2 = Fl.fin (Real.log (a / b) / Real.log 2) := by
  rw [Fl.fin_div _ hb.ne', Fl.log2_fin (by positivity)]
  rfl

/-- The value of `binary_kld` for a true prevalence strictly between 0 and 1: the
Kullback-Leibler divergence in bits between `(p, 1-p)` and the prediction, where a predicted 0 is
replaced by `eps`. -/
theorem binaryKld_value (p q eps : ℝ) (hp : p ∈ Ioo (0:ℝ) 1) (hq : q ∈ Icc (0:ℝ) 1) (he : 0 < eps) :
    binaryKld p q eps
      = Fl.fin ((p * Real.log (p / if q = 0 then eps else q)
          + (1 - p) * Real.log ((1 - p) / if q = 1 then eps else 1 - q)) / Real.log 2) := by
  have hp' : 0 < 1 - p := by linarith [hp.2]
  have hq0 : 0 < (if q = 0 then eps else q) := by
    split
    · exact he
    · rename_i h; exact lt_of_le_of_ne hq.1 (Ne.symm h)
  have hq1 : 0 < (if q = 1 then eps else 1 - q) := by
    split
    · exact he
    · rename_i h
      have := lt_of_le_of_ne hq.2 h
      linarith
  have h1 : (if q = 0 then Fl.fin p * (Fl.fin p / Fl.fin eps).log2
      else Fl.fin p * (Fl.fin p / Fl.fin q).log2)
      = Fl.fin (p * (Real.log (p / if q = 0 then eps else q) / Real.log 2)) := by
    rw [← Fl.fin_mul, ← log2_div _ _ hp.1 hq0]
    split <;> rfl
  have h2 : ∀ x : Fl, (if q = 1 then x + Fl.fin (1 - p) * (Fl.fin (1 - p) / Fl.fin eps).log2
      else x + Fl.fin (1 - p) * (Fl.fin (1 - p) / Fl.fin (1 - q)).log2)
      = x + Fl.fin ((1 - p) * (Real.log ((1 - p) / if q = 1 then eps else 1 - q) / Real.log 2)) := by
    intro x
    rw [← Fl.fin_mul, ← log2_div _ _ hp' hq1]
    split <;> rfl
  unfold binaryKld
  simp only [h1, h2, Fl.fin_add, Fl.fin_inj]
  ring

/-- **C15** (refuted at the ends): with a true prevalence 0 or 1 the result is always NaN, even
for the perfect prediction. -/
theorem C15_binary_kld_refuted (q eps : ℝ) (he : 0 < eps) :
    binaryKld 0 q eps = Fl.nan ∧ binaryKld 1 q eps = Fl.nan := by
  have hl : Real.log 2 ≠ 0 := (Real.log_pos one_lt_two).ne'
  constructor
  · have h1 : (if q = 0 then Fl.fin 0 * (Fl.fin 0 / Fl.fin eps).log2
        else Fl.fin 0 * (Fl.fin 0 / Fl.fin q).log2) = Fl.nan := by
      split
      · rw [Fl.fin_div _ he.ne', zero_div, Fl.log2_zero, Fl.zero_mul_ninf]
      · rename_i h
        rw [Fl.fin_div _ h, zero_div, Fl.log2_zero, Fl.zero_mul_ninf]
    unfold binaryKld
    simp only [h1, Fl.nan_add, ite_self]
  · have hx : ∀ x : Fl, (if q = 1 then x + Fl.fin (1 - 1) * (Fl.fin (1 - 1) / Fl.fin eps).log2
        else x + Fl.fin (1 - 1) * (Fl.fin (1 - 1) / Fl.fin (1 - q)).log2) = Fl.nan := by
      intro x
      rw [sub_self]
      split
      · rw [Fl.fin_div _ he.ne', zero_div, Fl.log2_zero, Fl.zero_mul_ninf, Fl.add_nan]
      · rename_i h
        rw [Fl.fin_div _ (by intro h0; apply h; linarith), zero_div, Fl.log2_zero, Fl.zero_mul_ninf,
          Fl.add_nan]
    unfold binaryKld
    simp only [hx]

/-- **C15** (partial): for `0 < p < 1` the result is finite and at least `-log2(1+eps)`; if also
`0 < q < 1` it is nonnegative and zero exactly when `p = q`. Missing: `p ∈ {0, 1}`, where the code
returns NaN, and exact nonnegativity at `q ∈ {0, 1}`, which fails when `eps` is not small compared
with the true prevalence (`C15_binary_kld_negative`). -/
theorem C15_binary_kld_partial (p q eps : ℝ) (hp : p ∈ Ioo (0:ℝ) 1) (hq : q ∈ Icc (0:ℝ) 1)
    (he : 0 < eps) : ∃ d : ℝ, binaryKld p q eps = Fl.fin d ∧ -Real.logb 2 (1 + eps) ≤ d
      ∧ (q ∈ Ioo (0:ℝ) 1 → 0 ≤ d ∧ (d = 0 ↔ q = p)) := by
  have hl : 0 < Real.log 2 := Real.log_pos one_lt_two
  have hp' : 0 < 1 - p := by linarith [hp.2]
  refine ⟨_, binaryKld_value p q eps hp hq he, ?_, ?_⟩
  · set a := (if q = 0 then eps else q) with ha
    set b := (if q = 1 then eps else 1 - q) with hb
    have hq0 : 0 < a := by
      rw [ha]; split
      · exact he
      · rename_i h; exact lt_of_le_of_ne hq.1 (Ne.symm h)
    have hq1 : 0 < b := by
      rw [hb]; split
      · exact he
      · rename_i h
        have := lt_of_le_of_ne hq.2 h
        linarith
    have hab : a + b ≤ 1 + eps := by
      rw [ha, hb]
      split
      · rename_i h; rw [if_neg (by rw [h]; norm_num), h]; linarith
      · split
        · rename_i h; rw [h]
        · linarith
    -- scale the prediction so that it adds up to one
    have hs : 0 < a + b := by linarith
    have e1 : Real.log (p / a) = Real.log (p / (a / (a + b))) - Real.log (a + b) := by
      rw [← Real.log_div (div_pos hp.1 (div_pos hq0 hs)).ne' hs.ne']
      congr 1
      field_simp
    have e2 : Real.log ((1 - p) / b) = Real.log ((1 - p) / (b / (a + b))) - Real.log (a + b) := by
      rw [← Real.log_div (div_pos hp' (div_pos hq1 hs)).ne' hs.ne']
      congr 1
      field_simp
    have g1 := (gibbs_term hp.1 (by positivity : 0 < a / (a + b))).1
    have g2 := (gibbs_term hp' (by positivity : 0 < b / (a + b))).1
    have hsum : a / (a + b) + b / (a + b) = 1 := by field_simp
    have hlog : Real.log (a + b) ≤ Real.log (1 + eps) := Real.log_le_log hs hab
    rw [e1, e2, show -Real.logb 2 (1 + eps) = -Real.log (1 + eps) / Real.log 2 by
      rw [Real.logb]; ring]
    apply div_le_div_of_nonneg_right _ hl.le
    nlinarith
  · rintro ⟨h0, h1⟩
    rw [if_neg h0.ne', if_neg h1.ne]
    have hq' : 0 < 1 - q := by linarith
    have g1 := gibbs_term hp.1 h0
    have g2 := gibbs_term hp' hq'
    constructor
    · apply div_nonneg _ hl.le
      linarith [g1.1, g2.1]
    · rw [div_eq_zero_iff, or_iff_left hl.ne']
      constructor
      · intro h
        have : p - q = p * Real.log (p / q) := by linarith [g1.1, g2.1]
        exact (g1.2.1 this).symm
      · rintro rfl
        simp [div_self h0.ne', div_self hq'.ne']

/-- **C15** (refuted, sign): a prediction 0 of a true prevalence smaller than `eps` gets a negative
divergence. -/
theorem C15_binary_kld_negative_refuted (p eps : ℝ) (hp : 0 < p) (hpe : p < eps) (hp1 : p < 1) :
    ∃ d : ℝ, binaryKld p 0 eps = Fl.fin d ∧ d < 0 := by
  have hl : 0 < Real.log 2 := Real.log_pos one_lt_two
  refine ⟨_, binaryKld_value p 0 eps ⟨hp, hp1⟩ ⟨le_rfl, zero_le_one⟩ (by linarith), ?_⟩
  apply div_neg_of_neg_of_pos _ hl
  have he : 0 < eps := by linarith
  have h1 : Real.log (p / eps) < 0 := Real.log_neg (by positivity) ((div_lt_one he).2 hpe)
  have h2 : Real.log (1 - p) < 0 := Real.log_neg (by linarith) (by linarith)
  simp only [if_true, if_neg (zero_ne_one : (0:ℝ) ≠ 1), sub_zero, div_one]
  nlinarith

example : (0.25 : ℝ) ∈ Ioo (0:ℝ) 1 := by constructor <;> norm_num

end Verif.Props
