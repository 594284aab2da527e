import Verif.Spec.Joined
import Verif.Props.TrainInfluenceEnergy
import Verif.Props.Merge

/-!
# C173: two bags put together
-/

namespace Verif.Props

open Verif.Model Verif.Spec Verif.Proof

theorem between_mono {f : ℝ → ℝ} (hf : Monotone f) {a b c : ℝ} (h : Between a b c) : Between (f a) (f b) (f c) := h.imp (fun h => ⟨hf h.1, hf h.2⟩) fun h => ⟨hf h.1, hf h.2⟩

theorem between_anti {f : ℝ → ℝ} (hf : Antitone f) {a b c : ℝ} (h : Between a b c) : Between (f a) (f b) (f c) := h.symm.imp (fun h => ⟨hf h.2, hf h.1⟩) fun h => ⟨hf h.2, hf h.1⟩

theorem between_convex {a b c t : ℝ} (h0 : 0 ≤ t) (h1 : t ≤ 1) (h : c = t * a + (1 - t) * b) : Between a b c := by
  rcases le_total a b with hab | hab
  · left
    constructor <;> nlinarith
  · right
    constructor <;> nlinarith

/-- Two prevalences: it is enough to look at one of the two classes. -/
theorem between_two {n : ℕ} (h2 : n = 2) {x1 x2 x : Fin n → ℝ} (hx1 : IsPrev x1) (hx2 : IsPrev x2) (hx : IsPrev x) (j : Fin n) (h : Between (x1 j) (x2 j) (x j)) (i : Fin n) : Between (x1 i) (x2 i) (x i) := by
  subst h2
  have s1 := hx1.2
  have s2 := hx2.2
  have s := hx.2
  rw [Fin.sum_univ_two] at s1 s2 s
  by_cases e : i = j
  · rwa [e]
  · have key : ∀ z : Fin 2 → ℝ, z 0 + z 1 = 1 → z i = 1 - z j := fun z hz => by
      obtain ⟨rfl, rfl⟩ | ⟨rfl, rfl⟩ : (i = 0 ∧ j = 1) ∨ (i = 1 ∧ j = 0) := by omega
      all_goals linarith
    rw [key _ s1, key _ s2, key _ s]
    exact between_anti (f := fun u => 1 - u) (fun u v h => by dsimp only; linarith) h

/-- The mean over two bags put together. -/
theorem meanOf_joined {β : Type*} (B1 B2 : List β) (h1 : B1 ≠ []) (h2 : B2 ≠ []) : ∃ t : ℝ, 0 ≤ t ∧ t ≤ 1 ∧ ∀ f : β → ℝ, meanOf (B1 ++ B2) f = t * meanOf B1 f + (1 - t) * meanOf B2 f := by
  have l1 : (0:ℝ) < B1.length := by exact_mod_cast List.length_pos_iff.2 h1
  have l2 : (0:ℝ) < B2.length := by exact_mod_cast List.length_pos_iff.2 h2
  refine ⟨B1.length / (B1.length + B2.length), by positivity, (div_le_one (by linarith)).2 (by linarith), fun f => ?_⟩
  simp only [meanOf, List.map_append, List.sum_append, List.length_append, Nat.cast_add]
  field_simp
  ring

/-- The adjustment of AC and PAC for two classes. -/
theorem adjust_between (sol : Solvers) (dist : Dist) {n : ℕ} (h2 : n = 2) (M : Fin n → Fin n → ℝ) (q1 q2 q : Fin n → ℝ) (hq1 : IsPrev q1) (hq2 : IsPrev q2) (hq : IsPrev q) (hb : ∀ j, Between (q1 j) (q2 j) (q j)) :
    ∃ x1 x2 x : Fin n → ℝ, adjust sol dist (fun i j => Fl.fin (M i j)) (fun j => Fl.fin (q1 j)) = .ok (fun i => Fl.fin (x1 i)) ∧ adjust sol dist (fun i j => Fl.fin (M i j)) (fun j => Fl.fin (q2 j)) = .ok (fun i => Fl.fin (x2 i))
      ∧ adjust sol dist (fun i j => Fl.fin (M i j)) (fun j => Fl.fin (q j)) = .ok (fun i => Fl.fin (x i)) ∧ ∀ i, Between (x1 i) (x2 i) (x i) := by
  subst h2
  by_cases hd : 1/1000 < |M 1 1 - M 0 1|
  · set g : ℝ → ℝ := fun u => max 0 (min ((u - M 0 1) / (M 1 1 - M 0 1)) 1) with hg
    have e : ∀ q : Fin 2 → ℝ, adjust sol dist (fun i j => Fl.fin (M i j)) (fun j => Fl.fin (q j)) = .ok (fun i => Fl.fin ((![1 - g (q 1), g (q 1)] : Fin 2 → ℝ) i)) := fun q => by
      rw [C09_binary_formula _ _ (M 1 1) (M 0 1) (q 1) rfl rfl rfl hd]
      congr 1; funext i; fin_cases i <;> rfl
    have hgb : Between (g (q1 1)) (g (q2 1)) (g (q 1)) := by
      rcases le_total (M 0 1) (M 1 1) with h | h
      · exact between_mono (f := g) (fun u v huv => max_le_max le_rfl (min_le_min (div_le_div_of_nonneg_right (by linarith) (by linarith)) le_rfl)) (hb 1)
      · exact between_anti (f := g) (fun u v huv => max_le_max le_rfl (min_le_min (div_le_div_of_nonpos_of_le (by linarith) (by linarith)) le_rfl)) (hb 1)
    refine ⟨_, _, _, e q1, e q2, e q, fun i => ?_⟩
    fin_cases i
    · exact between_anti (f := fun u => 1 - u) (fun u v h => by dsimp only; linarith) hgb
    · exact hgb
  · have hu : ∀ q : Fin 2 → ℝ, IsPrev q → adjust sol dist (fun i j => Fl.fin (M i j)) (fun j => Fl.fin (q j)) = .ok (fun i => Fl.fin (q i)) := fun q hq =>
      C09_binary_unadjusted _ q hq (by
        rintro ⟨t, f, ht, hf, h⟩
        rw [← Fl.fin.inj ht, ← Fl.fin.inj hf] at h
        exact hd h) (fun i => ⟨by simp, by simp⟩) sol dist
    exact ⟨q1, q2, q, hu q1 hq1, hu q2 hq2, hu q hq, hb⟩

/-- Minima of three parabolas with the same curvature over the same interval. -/
theorem parabola_between {A b1 b2 b t s1 s2 s : ℝ} (hA : 0 < A) (h0 : 0 ≤ t) (h1 : t ≤ 1) (hb : b = t * b1 + (1 - t) * b2) (o1 : (b1 - A * s1) * (s - s1) ≤ 0) (o2 : (b2 - A * s2) * (s - s2) ≤ 0)
    (o3 : (b - A * s) * (s1 - s) ≤ 0) : Between s1 s2 s := by
  by_contra hn
  unfold Between at hn
  push Not at hn
  have key : (s1 < s ∧ s2 < s) ∨ (s < s1 ∧ s < s2) := by
    rcases lt_trichotomy s1 s with h | h | h
    · exact .inl ⟨h, hn.1 h.le⟩
    · rcases le_total s1 s2 with h' | h'
      · exact absurd (hn.1 h.le) (by linarith)
      · exact absurd (hn.2 (by linarith)) (by linarith)
    · refine .inr ⟨h, ?_⟩
      by_contra hc
      exact absurd (hn.2 (not_lt.1 hc)) (by linarith)
  rcases key with ⟨g1, g2⟩ | ⟨g1, g2⟩
  · have a1 : b1 - A * s1 ≤ 0 := by by_contra h; nlinarith
    have a2 : b2 - A * s2 ≤ 0 := by by_contra h; nlinarith
    have a3 : 0 ≤ b - A * s := by by_contra h; nlinarith
    have c1 : b1 - A * s < 0 := by nlinarith
    have c2 : b2 - A * s < 0 := by nlinarith
    have : b - A * s = t * (b1 - A * s) + (1 - t) * (b2 - A * s) := by rw [hb]; ring
    rcases h0.lt_or_eq with ht | ht
    · nlinarith
    · rw [← ht] at this
      nlinarith
  · have a1 : 0 ≤ b1 - A * s1 := by by_contra h; nlinarith
    have a2 : 0 ≤ b2 - A * s2 := by by_contra h; nlinarith
    have a3 : b - A * s ≤ 0 := by by_contra h; nlinarith
    have c1 : 0 < b1 - A * s := by nlinarith
    have c2 : 0 < b2 - A * s := by nlinarith
    have : b - A * s = t * (b1 - A * s) + (1 - t) * (b2 - A * s) := by rw [hb]; ring
    rcases h0.lt_or_eq with ht | ht
    · nlinarith
    · rw [← ht] at this
      nlinarith

/-- The closest mixtures ('L2') of two classes. -/
theorem l2_between {m n : ℕ} (h2 : n = 2) (T : Fin m → Fin n → ℝ) (hd : ∀ x : Fin n → ℝ, (∀ i, ∑ j, T i j * x j = 0) → x = 0) (q1 q2 q : Fin m → ℝ) {t : ℝ} (h0 : 0 ≤ t) (h1 : t ≤ 1) (hq : ∀ k, q k = t * q1 k + (1 - t) * q2 k)
    (x1 x2 x : Fin n → ℝ) (hx1 : IsPrev x1) (hx2 : IsPrev x2) (hx : IsPrev x) (ho1 : ∀ p, IsPrev p → euclidean q1 (mixtureOf T x1) ≤ euclidean q1 (mixtureOf T p)) (ho2 : ∀ p, IsPrev p → euclidean q2 (mixtureOf T x2) ≤ euclidean q2 (mixtureOf T p))
    (ho : ∀ p, IsPrev p → euclidean q (mixtureOf T x) ≤ euclidean q (mixtureOf T p)) (i : Fin n) : Between (x1 i) (x2 i) (x i) := by
  subst h2
  refine between_two rfl hx1 hx2 hx 1 ?_ i
  have hA : 0 < ∑ k, (T k 1 - T k 0) ^ 2 := by
    refine lt_of_le_of_ne (Finset.sum_nonneg fun k _ => sq_nonneg _) fun h => ?_
    have hz := (Finset.sum_eq_zero_iff_of_nonneg fun k _ => sq_nonneg _).1 h.symm
    have := congrFun (hd ![-1, 1] fun k => by
      have := pow_eq_zero_iff two_ne_zero |>.1 (hz k (Finset.mem_univ k))
      simp only [Fin.sum_univ_two, Matrix.cons_val_zero, Matrix.cons_val_one]
      linarith) 1
    simp at this
  have form : ∀ (q : Fin m → ℝ) (x z : Fin 2 → ℝ), IsPrev x → IsPrev z → ∑ k, (q k - mixtureOf T x k) * (mixtureOf T z k - mixtureOf T x k)
      = (∑ k, (q k - T k 0) * (T k 1 - T k 0) - (∑ k, (T k 1 - T k 0) ^ 2) * x 1) * (z 1 - x 1) := by
    intro q x z hx hz
    have sx := hx.2
    have sz := hz.2
    rw [Fin.sum_univ_two] at sx sz
    rw [Finset.sum_mul, ← Finset.sum_sub_distrib, Finset.sum_mul]
    refine Finset.sum_congr rfl fun k _ => ?_
    simp only [mixtureOf, Fin.sum_univ_two]
    rw [show x 0 = 1 - x 1 by linarith, show z 0 = 1 - z 1 by linarith]
    ring
  have c1 := closest_mixture T q1 x1 x hx1 hx ho1
  have c2 := closest_mixture T q2 x2 x hx2 hx ho2
  have c3 := closest_mixture T q x x1 hx hx1 ho
  rw [form _ _ _ hx1 hx] at c1
  rw [form _ _ _ hx2 hx] at c2
  rw [form _ _ _ hx hx1] at c3
  refine parabola_between hA h0 h1 ?_ c1 c2 c3
  rw [Finset.mul_sum, Finset.mul_sum, ← Finset.sum_add_distrib]
  exact Finset.sum_congr rfl fun k _ => by rw [hq k]; ring

/-- The mixtures of two classes at the least energy distance. -/
theorem energy_between {P : Type*} {n : ℕ} (hn : n = 1) (d : P → P → ℝ) (hd : ∀ x y, d x y = d y x) (train : Fin (n + 1) → List P) (hsep : Separated d train) (B1 B2 : List P) (hB1 : B1 ≠ []) (hB2 : B2 ≠ [])
    (x1 x2 x : Fin (n + 1) → ℝ) (hx1 : IsPrev x1) (hx2 : IsPrev x2) (hx : IsPrev x) (ho1 : ∀ p, IsPrev p → energyLoss d train B1 x1 ≤ energyLoss d train B1 p) (ho2 : ∀ p, IsPrev p → energyLoss d train B2 x2 ≤ energyLoss d train B2 p)
    (ho : ∀ p, IsPrev p → energyLoss d train (B1 ++ B2) x ≤ energyLoss d train (B1 ++ B2) p) (i : Fin (n + 1)) : Between (x1 i) (x2 i) (x i) := by
  subst hn
  refine between_two rfl hx1 hx2 hx 1 ?_ i
  obtain ⟨t, h0, h1, ht⟩ := meanOf_joined B1 B2 hB1 hB2
  have hA : 0 < -(avgDist d (train 1) (train 1) - avgDist d (train 0) (train 1) - avgDist d (train 1) (train 0) + avgDist d (train 0) (train 0)) := by
    have h := hsep ![-1, 1] (by
      show ∑ i : Fin 2, (![-1, 1] : Fin 2 → ℝ) i = 0
      simp [Fin.sum_univ_two]) (fun h => by
      have := congrFun h (1 : Fin 2)
      simp at this)
    change ∑ i : Fin 2, ∑ j : Fin 2, (![-1, 1] : Fin 2 → ℝ) i * (![-1, 1] : Fin 2 → ℝ) j * avgDist d (train i) (train j) < 0 at h
    simp only [Fin.sum_univ_two, Matrix.cons_val_zero, Matrix.cons_val_one] at h
    linarith
  have form : ∀ (bag : List P) (x z : Fin 2 → ℝ), IsPrev x → IsPrev z → (∀ p : Fin 2 → ℝ, IsPrev p → energyLoss (n := 1) d train bag x ≤ energyLoss (n := 1) d train bag p) →
      (-(avgDist d (train 1) bag - avgDist d (train 0) bag - avgDist d (train 1) (train 0) + avgDist d (train 0) (train 0))
        - -(avgDist d (train 1) (train 1) - avgDist d (train 0) (train 1) - avgDist d (train 1) (train 0) + avgDist d (train 0) (train 0)) * x 1) * (z 1 - x 1) ≤ 0 := by
    intro bag x z hx hz ho
    have h := closest_energy (n := 1) d hd train bag x z hx hz ho
    change 0 ≤ ∑ i : Fin 2, (z i - x i) * (avgDist d (train i) bag - ∑ j : Fin 2, x j * avgDist d (train i) (train j)) at h
    have sx := hx.2
    have sz := hz.2
    simp only [Fin.sum_univ_two] at sx sz h
    rw [show x 0 = 1 - x 1 by linarith, show z 0 = 1 - z 1 by linarith] at h
    linarith
  have c1 := form B1 x1 x hx1 hx ho1
  have c2 := form B2 x2 x hx2 hx ho2
  have c3 := form _ x x1 hx hx1 ho
  refine parabola_between hA h0 h1 ?_ c1 c2 c3
  simp only [avgDist_mean _ _ (B1 ++ B2), avgDist_mean _ _ B1, avgDist_mean _ _ B2, ht]
  ring

/-! ## C173 -/

section
variable {σ D α : Type} {k : ℕ} [LinearOrder α] (enc : Bool → α) (w : World σ D α) (et et' : Option ℕ) (X Xt : List D) (y : List α) (hy : y ≠ []) (r : ℕ) (hr : 0 < r)
include hy

/-- **C173** for CC, with any number of classes. -/
theorem C173_cc (ops : EstOps σ D α k) (P : List α) (hP : P.length = r * y.length) (B1 B2 : List α) (h1 : B1 ≠ []) (h2 : B2 ≠ []) :
    ∃ x1 x2 x : Fin (labelsOf y).length → ℝ, ucRun ops enc w ⟨ccClass, et, et'⟩ X y (some (.crisp P)) Xt (some (.crisp B1)) = .ok (some (realList x1))
      ∧ ucRun ops enc w ⟨ccClass, et, et'⟩ X y (some (.crisp P)) Xt (some (.crisp B2)) = .ok (some (realList x2))
      ∧ ucRun ops enc w ⟨ccClass, et, et'⟩ X y (some (.crisp P)) Xt (some (.crisp (B1 ++ B2))) = .ok (some (realList x)) ∧ ∀ i, Between (x1 i) (x2 i) (x i) := by
  have e : ∀ bag : List α, bag ≠ [] → ucRun ops enc w ⟨ccClass, et, et'⟩ X y (some (.crisp P)) Xt (some (.crisp bag)) = .ok (some (realList (freqs (labelsOf y) bag))) := by
    intro bag hne
    rw [ucRun_given_crisp ops enc w X Xt y ccClass rfl rfl et et' hy r P _ hP]
    have : answerOn (k := k) ccClass y r (.crisp P) (.crisp bag) = .ok (some (vecList (classFreqs (labelsOf y) bag))) := rfl
    rw [this, classFreqs_fin _ _ hne]
    rfl
  refine ⟨_, _, _, e B1 h1, e B2 h2, e _ (by simp [h1]), fun i => ?_⟩
  obtain ⟨t, t0, t1, ht⟩ := meanOf_joined B1 B2 h1 h2
  simp only [freqs_meanOf]
  exact between_convex t0 t1 (ht _)

/-- **C173** for PCC, with any number of classes. -/
theorem C173_pcc (ops : EstOps σ D α (labelsOf y).length) (P : List (Fin (labelsOf y).length → ℝ)) (hP : P.length = r * y.length) (B1 B2 : List (Fin (labelsOf y).length → ℝ)) (h1 : B1 ≠ []) (h2 : B2 ≠ []) :
    ∃ x1 x2 x : Fin (labelsOf y).length → ℝ, ucRun ops enc w ⟨pccClass, et, et'⟩ X y (some (.probs P)) Xt (some (.probs B1)) = .ok (some (realList x1))
      ∧ ucRun ops enc w ⟨pccClass, et, et'⟩ X y (some (.probs P)) Xt (some (.probs B2)) = .ok (some (realList x2))
      ∧ ucRun ops enc w ⟨pccClass, et, et'⟩ X y (some (.probs P)) Xt (some (.probs (B1 ++ B2))) = .ok (some (realList x)) ∧ ∀ i, Between (x1 i) (x2 i) (x i) := by
  have e : ∀ bag : List (Fin (labelsOf y).length → ℝ), bag ≠ [] → ucRun ops enc w ⟨pccClass, et, et'⟩ X y (some (.probs P)) Xt (some (.probs bag)) = .ok (some (realList fun j => meanOf bag fun row => row j)) := by
    intro bag hne
    rw [ucRun_given_probs ops enc w X Xt y pccClass rfl rfl et et' hy r P _ hP]
    have : answerOn pccClass y r (.probs P) (.probs bag) = .ok (some (vecList (colMeans bag))) := rfl
    rw [this, colMeans_eq _ hne]
    rfl
  refine ⟨_, _, _, e B1 h1, e B2 h2, e _ (by simp [h1]), fun i => ?_⟩
  obtain ⟨t, t0, t1, ht⟩ := meanOf_joined B1 B2 h1 h2
  exact between_convex t0 t1 (ht _)

include hr in
/-- **C173** for AC with two classes. -/
theorem C173_ac (ops : EstOps σ D α k) (sol : Solvers) (dist : Dist) (hk : (labelsOf y).length = 2) (P : List α) (hP : P.length = r * y.length) (hPy : ∀ a ∈ P, a ∈ y) (B1 B2 : List α) (h1 : B1 ≠ []) (h2 : B2 ≠ []) (hy1 : ∀ a ∈ B1, a ∈ y)
    (hy2 : ∀ a ∈ B2, a ∈ y) :
    ∃ x1 x2 x : Fin (labelsOf y).length → ℝ, ucRun ops enc w ⟨acClass sol dist, et, et'⟩ X y (some (.crisp P)) Xt (some (.crisp B1)) = .ok (some (realList x1))
      ∧ ucRun ops enc w ⟨acClass sol dist, et, et'⟩ X y (some (.crisp P)) Xt (some (.crisp B2)) = .ok (some (realList x2))
      ∧ ucRun ops enc w ⟨acClass sol dist, et, et'⟩ X y (some (.crisp P)) Xt (some (.crisp (B1 ++ B2))) = .ok (some (realList x)) ∧ ∀ i, Between (x1 i) (x2 i) (x i) := by
  have hne : B1 ++ B2 ≠ [] := by simp [h1]
  have prev : ∀ bag : List α, bag ≠ [] → (∀ a ∈ bag, a ∈ y) → IsPrev (freqs (labelsOf y) bag) := fun bag hne hb => freqs_isPrev _ (labelsOf_nodup y) bag hne fun a ha => (mem_labelsOf y _).2 (hb a ha)
  obtain ⟨t, t0, t1, ht⟩ := meanOf_joined B1 B2 h1 h2
  obtain ⟨x1, x2, x, e1, e2, e, hb⟩ := adjust_between sol dist hk (cmReal y r P) _ _ _ (prev B1 h1 hy1) (prev B2 h2 hy2) (prev _ hne fun a ha => (List.mem_append.1 ha).elim (hy1 a) (hy2 a)) fun j => by
    simp only [freqs_meanOf]
    exact between_convex t0 t1 (ht _)
  have run : ∀ bag x, bag ≠ [] → adjust sol dist (fun i j => Fl.fin (cmReal y r P i j)) (fun j => Fl.fin (freqs (labelsOf y) bag j)) = .ok (fun i => Fl.fin (x i)) →
      ucRun ops enc w ⟨acClass sol dist, et, et'⟩ X y (some (.crisp P)) Xt (some (.crisp bag)) = .ok (some (realList x)) := by
    intro bag x hne e
    rw [ucRun_given_crisp ops enc w X Xt y (acClass sol dist) rfl rfl et et' hy r P _ hP, answer_ac_eq y sol dist r P _ hP hne, normalizeRows_eq y r hr P hP hPy, e]
    rfl
  exact ⟨x1, x2, x, run _ _ h1 e1, run _ _ h2 e2, run _ _ hne e, hb⟩

include hr in
/-- **C173** for PAC with two classes. -/
theorem C173_pac (ops : EstOps σ D α (labelsOf y).length) (sol : Solvers) (dist : Dist) (hk : (labelsOf y).length = 2) (P : List (Fin (labelsOf y).length → ℝ)) (hP : P.length = r * y.length) (B1 B2 : List (Fin (labelsOf y).length → ℝ))
    (h1 : B1 ≠ []) (h2 : B2 ≠ []) (hp1 : ∀ row ∈ B1, IsPrev row) (hp2 : ∀ row ∈ B2, IsPrev row) :
    ∃ x1 x2 x : Fin (labelsOf y).length → ℝ, ucRun ops enc w ⟨pacClass sol dist, et, et'⟩ X y (some (.probs P)) Xt (some (.probs B1)) = .ok (some (realList x1))
      ∧ ucRun ops enc w ⟨pacClass sol dist, et, et'⟩ X y (some (.probs P)) Xt (some (.probs B2)) = .ok (some (realList x2))
      ∧ ucRun ops enc w ⟨pacClass sol dist, et, et'⟩ X y (some (.probs P)) Xt (some (.probs (B1 ++ B2))) = .ok (some (realList x)) ∧ ∀ i, Between (x1 i) (x2 i) (x i) := by
  have hne : B1 ++ B2 ≠ [] := by simp [h1]
  obtain ⟨t, t0, t1, ht⟩ := meanOf_joined B1 B2 h1 h2
  obtain ⟨x1, x2, x, e1, e2, e, hb⟩ := adjust_between sol dist hk (pcmReal y r P) _ _ _ (meanOf_isPrev B1 h1 hp1) (meanOf_isPrev B2 h2 hp2) (meanOf_isPrev _ hne fun a ha => (List.mem_append.1 ha).elim (hp1 a) (hp2 a))
    fun j => between_convex t0 t1 (ht fun row => row j)
  have run : ∀ bag x, bag ≠ [] → adjust sol dist (fun i j => Fl.fin (pcmReal y r P i j)) (fun j => Fl.fin (meanOf bag fun row => row j)) = .ok (fun i => Fl.fin (x i)) →
      ucRun ops enc w ⟨pacClass sol dist, et, et'⟩ X y (some (.probs P)) Xt (some (.probs bag)) = .ok (some (realList x)) := by
    intro bag x hne e
    rw [pac_run enc w et et' X Xt y hy r hr ops sol dist P hP _ hne, e]
    rfl
  exact ⟨x1, x2, x, run _ _ h1 e1, run _ _ h2 e2, run _ _ hne e, hb⟩

include hr in
/-- **C173** for FriedmanME with 'L2' and two classes. -/
theorem C173_friedman (ops : EstOps σ D α (labelsOf y).length) (sv : CvxSolver) (hsv : ExactCvx sv) (qp : QPSolver) (hqp : ExactQP qp) (la : LinAlg (labelsOf y).length) (hla : ExactLinAlg la) (fuel : ℕ) (tol : ℝ) (hk : (labelsOf y).length = 2)
    (P : List (Fin (labelsOf y).length → ℝ)) (hP : P.length = r * y.length) (T : Fin (labelsOf y).length → Fin (labelsOf y).length → ℝ)
    (hT : T = fun i c => reachShare i (freq y (labelsOf y)[i]) (ofClass ((stacked y r).zip P) (labelsOf y)[c])) (hd : ∀ x : Fin (labelsOf y).length → ℝ, (∀ i, ∑ j, T i j * x j = 0) → x = 0)
    (B1 B2 : List (Fin (labelsOf y).length → ℝ)) (h1 : B1 ≠ []) (h2 : B2 ≠ []) :
    ∃ x1 x2 x : Fin (labelsOf y).length → ℝ, ucRun ops enc w ⟨friedmanClass sv qp la (fuel + 1) tol .l2, et, et'⟩ X y (some (.probs P)) Xt (some (.probs B1)) = .ok (some (realList x1))
      ∧ ucRun ops enc w ⟨friedmanClass sv qp la (fuel + 1) tol .l2, et, et'⟩ X y (some (.probs P)) Xt (some (.probs B2)) = .ok (some (realList x2))
      ∧ ucRun ops enc w ⟨friedmanClass sv qp la (fuel + 1) tol .l2, et, et'⟩ X y (some (.probs P)) Xt (some (.probs (B1 ++ B2))) = .ok (some (realList x)) ∧ ∀ i, Between (x1 i) (x2 i) (x i) := by
  have run := friedman_closest enc w et et' X Xt y hy r hr ops sv hsv qp hqp la hla fuel tol .l2 rfl P hP T hT hd
  obtain ⟨x1, e1, hx1, ho1⟩ := run B1
  obtain ⟨x2, e2, hx2, ho2⟩ := run B2
  obtain ⟨x, e, hx, ho⟩ := run (B1 ++ B2)
  obtain ⟨t, t0, t1, ht⟩ := meanOf_joined B1 B2 h1 h2
  exact ⟨x1, x2, x, e1, e2, e, l2_between hk T hd _ _ _ t0 t1 (fun k => by simp only [reachShare_mean]; exact ht _) x1 x2 x hx1 hx2 hx ho1 ho2 ho⟩

/-- **C173** for DFy (and MMy) with 'L2' and two classes. -/
theorem C173_dfy (ops : EstOps σ D α (labelsOf y).length) (sv : CvxSolver) (hsv : ExactCvx sv) (qp : QPSolver) (hqp : ExactQP qp) (ppf : ℝ → EReal) (la : LinAlg (labelsOf y).length) (hla : ExactLinAlg la) (fuel : ℕ) (tol : ℝ)
    (hk : (labelsOf y).length = 2) (cfg : DfCfg) (P : List (Fin (labelsOf y).length → ℝ)) (hP : P.length = r * y.length) (fit : DfFit (nDescriptors (labelsOf y).length) cfg.nBins (labelsOf y).length)
    (hfit : dfyFit ppf cfg (labelsOf y) y (stacked y r) P = .ok fit) (hd : ∀ x : Fin (labelsOf y).length → ℝ, (∀ i, ∑ j, fit.train i j * x j = 0) → x = 0)
    (B1 B2 : List (Fin (labelsOf y).length → ℝ)) (h1 : B1 ≠ []) (h2 : B2 ≠ []) :
    ∃ x1 x2 x : Fin (labelsOf y).length → ℝ, ucRun ops enc w ⟨dfyClass ppf sv qp la (fuel + 1) tol cfg .l2, et, et'⟩ X y (some (.probs P)) Xt (some (.probs B1)) = .ok (some (realList x1))
      ∧ ucRun ops enc w ⟨dfyClass ppf sv qp la (fuel + 1) tol cfg .l2, et, et'⟩ X y (some (.probs P)) Xt (some (.probs B2)) = .ok (some (realList x2))
      ∧ ucRun ops enc w ⟨dfyClass ppf sv qp la (fuel + 1) tol cfg .l2, et, et'⟩ X y (some (.probs P)) Xt (some (.probs (B1 ++ B2))) = .ok (some (realList x)) ∧ ∀ i, Between (x1 i) (x2 i) (x i) := by
  have run := dfy_closest enc w et et' X Xt y hy r ops sv hsv qp hqp ppf la hla fuel tol cfg .l2 rfl P hP fit hfit hd
  obtain ⟨q1, x1, g1, e1, hx1, ho1⟩ := run B1
  obtain ⟨q2, x2, g2, e2, hx2, ho2⟩ := run B2
  obtain ⟨q, x, g, e, hx, ho⟩ := run (B1 ++ B2)
  obtain ⟨t, t0, t1, ht⟩ := meanOf_joined B1 B2 h1 h2
  refine ⟨x1, x2, x, e1, e2, e, l2_between hk fit.train hd _ _ _ t0 t1 (fun i => ?_) x1 x2 x hx1 hx2 hx ho1 ho2 ho⟩
  have hm := (df_means ppf .whole cfg (some (0, 1)) _ y (stacked y r) hy P fit hfit fun _ => 0).1
  unfold dfyTest at g1 g2 g
  rw [dfTest_eq .whole cfg _ fit hm] at g1 g2 g
  rw [← Except.ok.inj g1, ← Except.ok.inj g2, ← Except.ok.inj g]
  have h := accumulate_mixture .whole cfg.f (fun (c : Fin 2) d b => if c = 0 then meanOf B1 fun row => binInd (fit.cuts d) b (dfyAtt (labelsOf y).length d row) else meanOf B2 fun row => binInd (fit.cuts d) b (dfyAtt (labelsOf y).length d row))
    ![t, 1 - t] i
  simp only [Fin.sum_univ_two, if_true, if_neg (show (1 : Fin 2) ≠ 0 by decide), Matrix.cons_val_zero, Matrix.cons_val_one] at h
  unfold meanOf at h ht
  refine Eq.trans ?_ (h.trans (by ring))
  congr 1
  funext d b
  rw [ht fun row => binInd (fit.cuts d) b (dfyAtt (labelsOf y).length d row)]
  ring

include hr in
/-- **C173** for EDy with two classes. -/
theorem C173_edy (ops : EstOps σ D α (1 + 1)) (hk : (labelsOf y).length = 1 + 1) (qp : QPSolver) (hqp : ExactQP qp) (la : LinAlg 1) (fuel : ℕ) (d : (Fin (1 + 1) → ℝ) → (Fin (1 + 1) → ℝ) → ℝ) (hd : ∀ x y, d x y = d y x)
    (P : List (Fin (1 + 1) → ℝ)) (hP : P.length = r * y.length) (train : Fin (1 + 1) → List (Fin (1 + 1) → ℝ)) (htr : train = fun i => ofClass ((stacked y r).zip P) (labelsOf y)[Fin.cast hk.symm i]) (hsep : Separated d train)
    (B1 B2 : List (Fin (1 + 1) → ℝ)) (h1 : B1 ≠ []) (h2 : B2 ≠ []) :
    ∃ x1 x2 x : Fin (1 + 1) → ℝ, ucRun ops enc w ⟨edyClass qp la fuel d, et, et'⟩ X y (some (.probs P)) Xt (some (.probs B1)) = .ok (some (realList x1))
      ∧ ucRun ops enc w ⟨edyClass qp la fuel d, et, et'⟩ X y (some (.probs P)) Xt (some (.probs B2)) = .ok (some (realList x2))
      ∧ ucRun ops enc w ⟨edyClass qp la fuel d, et, et'⟩ X y (some (.probs P)) Xt (some (.probs (B1 ++ B2))) = .ok (some (realList x)) ∧ ∀ i, Between (x1 i) (x2 i) (x i) := by
  subst htr
  have hl : (stacked y r).length = P.length := by rw [stacked_length, hP]
  have hmem : ∀ i : Fin (1 + 1), (labelsOf y)[Fin.cast hk.symm i] ∈ stacked y r := fun i => stacked_mem y r hr _ ((mem_labelsOf y _).1 (List.getElem_mem _))
  obtain ⟨f, hf, h⟩ := ed_closest one_pos qp hqp la d hd (fun i : Fin (1 + 1) => (labelsOf y)[Fin.cast hk.symm i]) (stacked y r) P hl hmem hsep fuel
  have hf' : edFit la fuel d (fun i => (npUnique y)[Fin.cast (show 1 + 1 = (npUnique y).length from hk.symm) i]) (stacked y r) P = some f := hf
  have run : ∀ bag x, edPredict qp d f bag = .ok x → ucRun ops enc w ⟨edyClass qp la fuel d, et, et'⟩ X y (some (.probs P)) Xt (some (.probs bag)) = .ok (some (realList x)) := by
    intro bag x h3
    rw [ucRun_given_probs ops enc w X Xt y (edyClass qp la fuel d) rfl rfl et et' hy r P _ hP]
    simp only [answerOn, learnAnswer, fittedState, edyClass, trainData, probRows, columnsAre, if_true, bind, Except.bind, keep, hl, ne_eq, not_true_eq_false, if_false]
    rw [dif_pos (show (npUnique y).length = 1 + 1 from hk)]
    simp only [hf', h3, Except.map]
  obtain ⟨x1, e1, hx1, ho1⟩ := h B1 h1
  obtain ⟨x2, e2, hx2, ho2⟩ := h B2 h2
  obtain ⟨x, e, hx, ho⟩ := h (B1 ++ B2) (by simp [h1])
  exact ⟨x1, x2, x, run _ _ e1, run _ _ e2, run _ _ e, energy_between rfl d hd _ hsep B1 B2 h1 h2 x1 x2 x hx1 hx2 hx ho1 ho2 ho⟩

/-- **C173** for DeBias, which is for two classes. -/
theorem C173_debias (ops : EstOps σ D α 2) (hk : (labelsOf y).length = 2) (P : List (Fin 2 → ℝ)) (hP : P.length = r * y.length) (hv : ∃ row ∈ P, row 1 ≠ freq y (posLabel y hk)) (B1 B2 : List (Fin 2 → ℝ)) (h1 : B1 ≠ []) (h2 : B2 ≠ []) :
    ∃ x1 x2 x : Fin 2 → ℝ, ucRun ops enc w ⟨deBiasClass, et, et'⟩ X y (some (.probs P)) Xt (some (.probs B1)) = .ok (some (realList x1))
      ∧ ucRun ops enc w ⟨deBiasClass, et, et'⟩ X y (some (.probs P)) Xt (some (.probs B2)) = .ok (some (realList x2))
      ∧ ucRun ops enc w ⟨deBiasClass, et, et'⟩ X y (some (.probs P)) Xt (some (.probs (B1 ++ B2))) = .ok (some (realList x)) ∧ ∀ i, Between (x1 i) (x2 i) (x i) := by
  have run : ∀ bag : List (Fin 2 → ℝ), bag ≠ [] → ∃ p : ℝ, ucRun ops enc w ⟨deBiasClass, et, et'⟩ X y (some (.probs P)) Xt (some (.probs bag)) = .ok (some (realList ![1 - p, p]))
      ∧ p = max 0 (min (freq y (posLabel y hk) + (meanOf bag (fun r => r 1) - freq y (posLabel y hk)) / relVariance (freq y (posLabel y hk)) P) 1) ∧ 0 < relVariance (freq y (posLabel y hk)) P := by
    intro bag hne
    obtain ⟨f, p, h1, hp, e, hV⟩ := C50_debias_formula y hk P bag hv hne
    refine ⟨p, ?_, e, hV⟩
    have hpre : (deBiasClass (α := α)).pre y = none := by
      simp only [deBiasClass]
      rw [if_neg (not_not.2 (show (npUnique y).length = 2 from hk))]
    rw [ucRun_given_probs ops enc w X Xt y deBiasClass rfl hpre et et' hy r P _ hP]
    simp only [answerOn, learnAnswer, fittedState, deBiasClass, trainData, probRows, if_true, bind, Except.bind, h1, keep, Except.map, hp]
    simp [vecList, realList]
  obtain ⟨p1, e1, hp1, hV⟩ := run B1 h1
  obtain ⟨p2, e2, hp2, -⟩ := run B2 h2
  obtain ⟨p, e, hp, -⟩ := run (B1 ++ B2) (by simp [h1])
  obtain ⟨t, t0, t1, ht⟩ := meanOf_joined B1 B2 h1 h2
  have hb : Between p1 p2 p := by
    rw [hp1, hp2, hp]
    refine between_mono (f := fun u => max 0 (min (freq y (posLabel y hk) + (u - freq y (posLabel y hk)) / relVariance (freq y (posLabel y hk)) P) 1)) (fun u v huv => ?_) (between_convex t0 t1 (ht fun row => row 1))
    exact max_le_max le_rfl (min_le_min (by gcongr) le_rfl)
  refine ⟨_, _, _, e1, e2, e, fun i => ?_⟩
  fin_cases i
  · exact between_anti (f := fun u => 1 - u) (fun u v h => by dsimp only; linarith) hb
  · exact hb

end

/-- **C173** for EDX with two classes. -/
theorem C173_edx {β α : Type*} [LinearOrder α] (y : List α) (hk : (labelsOf y).length = 1 + 1) (qp : QPSolver) (hqp : ExactQP qp) (la : LinAlg 1) (fuel : ℕ) (d : β → β → ℝ) (hd : ∀ x y, d x y = d y x)
    (X : List β) (hX : y.length = X.length) (hsep : Separated d fun i => ofClass (y.zip X) (labelsOf y)[Fin.cast hk.symm i]) :
    ∃ f, edFit la fuel d (fun i => (labelsOf y)[Fin.cast hk.symm i]) y X = some f ∧ ∀ B1 B2, B1 ≠ [] → B2 ≠ [] → ∃ x1 x2 x, edPredict qp d f B1 = .ok x1 ∧ edPredict qp d f B2 = .ok x2 ∧ edPredict qp d f (B1 ++ B2) = .ok x
      ∧ ∀ i, Between (x1 i) (x2 i) (x i) := by
  have hmem : ∀ i : Fin (1 + 1), (labelsOf y)[Fin.cast hk.symm i] ∈ y := fun i => (mem_labelsOf' y _).1 (List.getElem_mem _)
  obtain ⟨f, hf, h⟩ := ed_closest one_pos qp hqp la d hd (fun i : Fin (1 + 1) => (labelsOf y)[Fin.cast hk.symm i]) y X hX hmem hsep fuel
  refine ⟨f, hf, fun B1 B2 h1 h2 => ?_⟩
  obtain ⟨x1, e1, hx1, ho1⟩ := h B1 h1
  obtain ⟨x2, e2, hx2, ho2⟩ := h B2 h2
  obtain ⟨x, e, hx, ho⟩ := h (B1 ++ B2) (by simp [h1])
  exact ⟨x1, x2, x, e1, e2, e, energy_between rfl d hd _ hsep B1 B2 h1 h2 x1 x2 x hx1 hx2 hx ho1 ho2 ho⟩

/-- Three classes, half of whose examples are predicted right and a quarter as each of the other two. -/
theorem three_classes (sol : Solvers) (dist : Dist) {n : ℕ} (h : n = 3) (M : Matrix (Fin n) (Fin n) ℝ) (hM : ∀ i j : Fin n, M i j = if i.1 = j.1 then 1/2 else 1/4) (q : Fin n → ℝ) (z : Fin 3 → ℝ) (hz : z 0 + z 1 + z 2 = 1)
    (hq : ∀ j : Fin n, q j = 1/4 + 1/4 * z (Fin.cast h j)) :
    (adjust sol dist (fun i j => Fl.fin (M i j)) fun j => Fl.fin (q j)).map vecList = .ok ([0, 1, 2].map fun i => Fl.fin (max 0 (z i) / (max 0 (z 0) + max 0 (z 1) + max 0 (z 2)))) := by
  subst h
  have hdet : M.det ≠ 0 := by
    rw [Matrix.det_fin_three]
    simp only [hM]
    norm_num
  have hx : adjX M q = z := by
    refine adjX_unique M hdet z q fun j => ?_
    rw [hq]
    simp only [hM, Fin.sum_univ_three]
    obtain rfl | rfl | rfl : j = 0 ∨ j = 1 ∨ j = 2 := by omega
    · show _ = 1/4 + 1/4 * z 0
      norm_num
      linarith
    · show _ = 1/4 + 1/4 * z 1
      norm_num
      linarith
    · show _ = 1/4 + 1/4 * z 2
      norm_num
      linarith
  have hs : 0 < ∑ i, max 0 (z i) := by
    refine lt_of_lt_of_le one_pos ?_
    calc (1:ℝ) = ∑ i, z i := by rw [Fin.sum_univ_three, hz]
      _ ≤ _ := Finset.sum_le_sum fun i _ => le_max_right _ _
  rw [adjust_ne_two sol dist (by norm_num), multiAdjust_fin sol dist M hdet q (by rw [hx]; exact hs.ne'), hx]
  simp [Except.map, vecList, Fin.sum_univ_three, List.ofFn_succ]

/-- With three classes AC does not have the property: it gives the first class a quarter of each bag and half of the two together. -/
theorem C173_three_classes (ops : EstOps Unit Unit ℕ 3) (enc : Bool → ℕ) (w : World Unit Unit ℕ) (sol : Solvers) (dist : Dist) (y P B1 B2 : List ℕ) (hy : y = [0, 0, 0, 0, 1, 1, 1, 1, 2, 2, 2, 2]) (hP : P = [0, 0, 1, 2, 0, 1, 1, 2, 0, 1, 2, 2])
    (h1 : B1 = [0, 0, 0, 1, 1, 1, 1, 1]) (h2 : B2 = [0, 0, 0, 2, 2, 2, 2, 2]) :
    ucRun ops enc w ⟨acClass sol dist, none, none⟩ [] y (some (.crisp P)) [] (some (.crisp B1)) = .ok (some [Fl.fin (1/4), Fl.fin (3/4), Fl.fin 0])
    ∧ ucRun ops enc w ⟨acClass sol dist, none, none⟩ [] y (some (.crisp P)) [] (some (.crisp B2)) = .ok (some [Fl.fin (1/4), Fl.fin 0, Fl.fin (3/4)])
    ∧ ucRun ops enc w ⟨acClass sol dist, none, none⟩ [] y (some (.crisp P)) [] (some (.crisp (B1 ++ B2))) = .ok (some [Fl.fin (1/2), Fl.fin (1/4), Fl.fin (1/4)]) := by
  have hl : labelsOf y = [0, 1, 2] := by rw [hy]; exact labelsOf_eq _ _ (by decide) (by decide)
  have h3 : (labelsOf y).length = 3 := by rw [hl]; rfl
  have hi : ∀ i : Fin (labelsOf y).length, (labelsOf y)[i] = i.1 ∧ i.1 < 3 := by
    intro i
    have h3 : i.1 < 3 := lt_of_lt_of_eq i.2 h3
    refine ⟨?_, h3⟩
    have : (labelsOf y)[i] = [0, 1, 2][i.1]'h3 := by
      simp only [Fin.getElem_fin]
      congr 1
    rw [this]
    rcases i with ⟨i, hi⟩
    dsimp only at h3 ⊢
    obtain rfl | rfl | rfl : i = 0 ∨ i = 1 ∨ i = 2 := by omega
    all_goals rfl
  have hM : ∀ i j : Fin (labelsOf y).length, cmReal y 1 P i j = if i.1 = j.1 then 1/2 else 1/4 := fun i j => by
    simp only [cmReal, (hi _).1]
    have h1 := (hi i).2
    have h2 := (hi j).2
    generalize i.1 = a at *
    generalize j.1 = b at *
    subst hy hP
    obtain rfl | rfl | rfl : a = 0 ∨ a = 1 ∨ a = 2 := by omega
    all_goals
      obtain rfl | rfl | rfl : b = 0 ∨ b = 1 ∨ b = 2 := by omega
      all_goals norm_num [condFreq, stacked, List.countP_cons, List.count_cons]
  have run : ∀ (bag : List ℕ) (a b c : ℝ), bag ≠ [] → a + b + c = 1 → freq bag 0 = 1/4 + 1/4 * a → freq bag 1 = 1/4 + 1/4 * b → freq bag 2 = 1/4 + 1/4 * c →
      ucRun ops enc w ⟨acClass sol dist, none, none⟩ [] y (some (.crisp P)) [] (some (.crisp bag)) = .ok (some ([a, b, c].map fun i => Fl.fin (max 0 i / (max 0 a + max 0 b + max 0 c)))) := by
    intro bag a b c hne hz f0 f1 f2
    rw [ucRun_given_crisp ops enc w [] [] y (acClass sol dist) rfl rfl none none (by simp [hy]) 1 P _ (by simp [hy, hP]), answer_ac_eq y sol dist 1 P _ (by simp [hy, hP]) hne,
      normalizeRows_eq y 1 one_pos P (by simp [hy, hP]) (by subst hy hP; decide), three_classes sol dist h3 (cmReal y 1 P) hM (freqs (labelsOf y) bag) ![a, b, c] hz fun j => ?_]
    · rfl
    · simp only [freqs, (hi _).1]
      have h1 := (hi j).2
      rcases j with ⟨j, hj⟩
      dsimp only at h1 ⊢
      obtain rfl | rfl | rfl : j = 0 ∨ j = 1 ∨ j = 2 := by omega
      exacts [f0, f1, f2]
  subst h1 h2
  refine ⟨?_, ?_, ?_⟩
  · rw [run _ (1/2) (3/2) (-1) (by simp) (by norm_num) (by norm_num [freq, List.count_cons]) (by norm_num [freq, List.count_cons]) (by norm_num [freq, List.count_cons])]
    norm_num
  · rw [run _ (1/2) (-1) (3/2) (by simp) (by norm_num) (by norm_num [freq, List.count_cons]) (by norm_num [freq, List.count_cons]) (by norm_num [freq, List.count_cons])]
    norm_num
  · rw [run _ (1/2) (1/4) (1/4) (by simp) (by norm_num) (by norm_num [freq, List.count_cons]) (by norm_num [freq, List.count_cons]) (by norm_num [freq, List.count_cons])]
    norm_num

/-- A quarter and a quarter do not have a half between them. -/
example : ¬ Between (1/4) (1/4) (1/2) := by
  unfold Between
  norm_num

/-- C173: two bags for AC with two classes, half and all of whose predictions are of the second class. -/
example (ops : EstOps Unit Unit ℕ 2) (enc : Bool → ℕ) (w : World Unit Unit ℕ) (sol : Solvers) (dist : Dist) :
    ∃ x1 x2 x : Fin (labelsOf [0, 0, 1, 1]).length → ℝ, ucRun ops enc w ⟨acClass sol dist, none, none⟩ [] [0, 0, 1, 1] (some (.crisp [0, 1, 1, 1])) [] (some (.crisp [0, 1])) = .ok (some (realList x1))
      ∧ ucRun ops enc w ⟨acClass sol dist, none, none⟩ [] [0, 0, 1, 1] (some (.crisp [0, 1, 1, 1])) [] (some (.crisp [1, 1])) = .ok (some (realList x2))
      ∧ ucRun ops enc w ⟨acClass sol dist, none, none⟩ [] [0, 0, 1, 1] (some (.crisp [0, 1, 1, 1])) [] (some (.crisp ([0, 1] ++ [1, 1]))) = .ok (some (realList x)) ∧ ∀ i, Between (x1 i) (x2 i) (x i) :=
  C173_ac enc w none none [] [] [0, 0, 1, 1] (by simp) 1 one_pos ops sol dist (by rw [labelsOf_eq [0, 0, 1, 1] [0, 1] (by decide) (by decide)]; rfl) _ rfl (by decide) _ _ (by simp) (by simp) (by decide) (by decide)

end Verif.Props
