import Verif.Spec.Rounding
import Verif.Model.Rounding
import Mathlib.Tactic.Linarith
import Mathlib.Tactic.Positivity
import Mathlib.Tactic.GCongr
import Mathlib.Topology.Algebra.Order.Field
import Mathlib.Topology.Order.LiminfLimsup
import Mathlib.Analysis.SpecificLimits.Basic

/-!
# Sums and quotients in rounded arithmetic
-/

namespace Verif.Proof

open Verif.Spec Filter Topology

variable {A : Arith} {u : ℝ}

/-! ## Bounds -/

theorem rnd_lower (h : A.Ok u) {x : ℝ} (hx : 0 ≤ x) : (1 - u) * x ≤ A.rnd x := by
  have := (abs_le.1 (h.rnd x)).1
  rw [abs_of_nonneg hx] at this
  linarith

theorem rnd_upper (h : A.Ok u) {x : ℝ} (hx : 0 ≤ x) : A.rnd x ≤ (1 + u) * x := by
  have := (abs_le.1 (h.rnd x)).2
  rw [abs_of_nonneg hx] at this
  linarith

theorem rnd_nonneg (h : A.Ok u) {x : ℝ} (hx : 0 ≤ x) : 0 ≤ A.rnd x :=
  le_trans (mul_nonneg (by linarith [h.lt_one]) hx) (rnd_lower h hx)

theorem rnd_pos (h : A.Ok u) {x : ℝ} (hx : 0 < x) : 0 < A.rnd x :=
  lt_of_lt_of_le (mul_pos (by linarith [h.lt_one]) hx) (rnd_lower h hx.le)

theorem rnd_nonpos (h : A.Ok u) {x : ℝ} (hx : x ≤ 0) : A.rnd x ≤ 0 := by
  have := (abs_le.1 (h.rnd x)).2
  rw [abs_of_nonpos hx] at this
  nlinarith [h.lt_one]

theorem rnd_zero (h : A.Ok u) : A.rnd 0 = 0 := le_antisymm (rnd_nonpos h le_rfl) (rnd_nonneg h le_rfl)

/-- The error of a computed sum. -/
theorem sumsTo_error (h : A.Ok u) {l : List ℝ} {s : ℝ} {d : ℕ} (hs : SumsTo A.rnd l s d) : |s - l.sum| ≤ ((1 + u) ^ d - 1) * (l.map abs).sum := by
  have hu := h.nonneg
  have h1 : ∀ d : ℕ, 1 ≤ (1 + u) ^ d := fun d => one_le_pow₀ (by linarith)
  have hnn : ∀ l : List ℝ, 0 ≤ (l.map abs).sum := fun l => List.sum_nonneg fun x hx => by
    obtain ⟨y, -, rfl⟩ := List.mem_map.1 hx
    exact abs_nonneg y
  have habs : ∀ l : List ℝ, |l.sum| ≤ (l.map abs).sum := by
    intro l
    induction l with
    | nil => simp
    | cons x l ih =>
      simp only [List.sum_cons, List.map_cons]
      exact (abs_add_le _ _).trans (by linarith)
  induction hs with
  | nil => simp
  | one x => simp
  | @add l l' s s' d d' _ _ ih ih' =>
    rw [List.sum_append, List.map_append, List.sum_append]
    have e1 : (1 + u) ^ d ≤ (1 + u) ^ (max d d') := pow_le_pow_right₀ (by linarith) (le_max_left _ _)
    have e2 : (1 + u) ^ d' ≤ (1 + u) ^ (max d d') := pow_le_pow_right₀ (by linarith) (le_max_right _ _)
    set M := (1 + u) ^ (max d d') with hM
    have i1 : |s - l.sum| ≤ (M - 1) * (l.map abs).sum := ih.trans (mul_le_mul_of_nonneg_right (by linarith) (hnn l))
    have i2 : |s' - l'.sum| ≤ (M - 1) * (l'.map abs).sum := ih'.trans (mul_le_mul_of_nonneg_right (by linarith) (hnn l'))
    have hr := h.rnd (s + s')
    have hd : |s + s' - (l.sum + l'.sum)| ≤ (M - 1) * ((l.map abs).sum + (l'.map abs).sum) := by
      have : s + s' - (l.sum + l'.sum) = (s - l.sum) + (s' - l'.sum) := by ring
      rw [this]
      exact (abs_add_le _ _).trans (by linarith)
    have hss : |s + s'| ≤ M * ((l.map abs).sum + (l'.map abs).sum) := by
      have : s + s' = (s + s' - (l.sum + l'.sum)) + (l.sum + l'.sum) := by ring
      rw [this]
      have := habs l
      have := habs l'
      exact (abs_add_le _ _).trans (by linarith [abs_add_le l.sum l'.sum])
    have : A.rnd (s + s') - (l.sum + l'.sum) = (A.rnd (s + s') - (s + s')) + (s + s' - (l.sum + l'.sum)) := by ring
    rw [this, pow_succ]
    refine (abs_add_le _ _).trans ?_
    have := mul_le_mul_of_nonneg_left hss hu
    linarith
  | @perm l l' s d hp _ ih => rwa [← hp.sum_eq, ← (hp.map abs).sum_eq]

/-- Sums of nonnegative numbers have a small relative error. -/
theorem sumsTo_bounds (h : A.Ok u) {l : List ℝ} {s : ℝ} {d : ℕ} (hs : SumsTo A.rnd l s d) (hl : ∀ x ∈ l, 0 ≤ x) : (1 - u) ^ d * l.sum ≤ s ∧ s ≤ (1 + u) ^ d * l.sum := by
  have hu := h.nonneg
  have hu1 := h.lt_one
  induction hs with
  | nil => simp
  | one x => simp
  | @add l l' s s' d d' _ _ ih ih' =>
    have hl1 : ∀ x ∈ l, 0 ≤ x := fun x hx => hl x (List.mem_append_left _ hx)
    have hl2 : ∀ x ∈ l', 0 ≤ x := fun x hx => hl x (List.mem_append_right _ hx)
    obtain ⟨a1, a2⟩ := ih hl1
    obtain ⟨b1, b2⟩ := ih' hl2
    have n1 := List.sum_nonneg hl1
    have n2 := List.sum_nonneg hl2
    have e1 : (1 + u) ^ d ≤ (1 + u) ^ (max d d') := pow_le_pow_right₀ (by linarith) (le_max_left _ _)
    have e2 : (1 + u) ^ d' ≤ (1 + u) ^ (max d d') := pow_le_pow_right₀ (by linarith) (le_max_right _ _)
    have f1 : (1 - u) ^ (max d d') ≤ (1 - u) ^ d := pow_le_pow_of_le_one (by linarith) (by linarith) (le_max_left _ _)
    have f2 : (1 - u) ^ (max d d') ≤ (1 - u) ^ d' := pow_le_pow_of_le_one (by linarith) (by linarith) (le_max_right _ _)
    have p1 : 0 ≤ (1 - u) ^ (max d d') := pow_nonneg (by linarith) _
    have lo : (1 - u) ^ (max d d') * (l.sum + l'.sum) ≤ s + s' := by
      have := mul_le_mul_of_nonneg_right f1 n1
      have := mul_le_mul_of_nonneg_right f2 n2
      linarith
    have hi : s + s' ≤ (1 + u) ^ (max d d') * (l.sum + l'.sum) := by
      have := mul_le_mul_of_nonneg_right e1 n1
      have := mul_le_mul_of_nonneg_right e2 n2
      linarith
    have h0 : 0 ≤ s + s' := le_trans (mul_nonneg p1 (add_nonneg n1 n2)) lo
    rw [List.sum_append, pow_succ, pow_succ]
    refine ⟨le_trans ?_ (rnd_lower h h0), (rnd_upper h h0).trans ?_⟩
    · have := mul_le_mul_of_nonneg_left lo (show 0 ≤ 1 - u by linarith)
      linarith
    · have := mul_le_mul_of_nonneg_left hi (show 0 ≤ 1 + u by linarith)
      linarith
  | @perm l l' s d hp _ ih =>
    rw [← hp.sum_eq]
    exact ih fun x hx => hl x (hp.mem_iff.1 hx)

theorem sum_bounds (h : A.Ok u) {l : List ℝ} (hl : ∀ x ∈ l, 0 ≤ x) : (1 - u) ^ l.length * l.sum ≤ A.sum l ∧ A.sum l ≤ (1 + u) ^ l.length * l.sum := by
  obtain ⟨d, hd, hs⟩ := h.sum l
  obtain ⟨h1, h2⟩ := sumsTo_bounds h hs hl
  have hn := List.sum_nonneg hl
  exact ⟨le_trans (mul_le_mul_of_nonneg_right (pow_le_pow_of_le_one (by linarith [h.lt_one]) (by linarith [h.nonneg]) hd) hn) h1,
    h2.trans (mul_le_mul_of_nonneg_right (pow_le_pow_right₀ (by linarith [h.nonneg]) hd) hn)⟩

theorem sum_error (h : A.Ok u) (l : List ℝ) : |A.sum l - l.sum| ≤ ((1 + u) ^ l.length - 1) * (l.map abs).sum := by
  obtain ⟨d, hd, hs⟩ := h.sum l
  refine (sumsTo_error h hs).trans (mul_le_mul_of_nonneg_right ?_ (List.sum_nonneg fun x hx => ?_))
  · linarith [pow_le_pow_right₀ (show 1 ≤ 1 + u by linarith [h.nonneg]) hd]
  · obtain ⟨y, -, rfl⟩ := List.mem_map.1 hx
    exact abs_nonneg y

theorem sum_nonneg (h : A.Ok u) {l : List ℝ} (hl : ∀ x ∈ l, 0 ≤ x) : 0 ≤ A.sum l :=
  le_trans (mul_nonneg (pow_nonneg (by linarith [h.lt_one]) _) (List.sum_nonneg hl)) (sum_bounds h hl).1

theorem sum_pos (h : A.Ok u) {l : List ℝ} (hl : ∀ x ∈ l, 0 ≤ x) (hp : 0 < l.sum) : 0 < A.sum l :=
  lt_of_lt_of_le (mul_pos (pow_pos (by linarith [h.lt_one]) _) hp) (sum_bounds h hl).1

/-! ## Limits -/

section
variable {A : ℕ → Arith} {u : ℕ → ℝ}

theorem tendsto_rnd (hA : ∀ m, (A m).Ok (u m)) (hu : Tendsto u atTop (𝓝 0)) {f : ℕ → ℝ} {a : ℝ} (hf : Tendsto f atTop (𝓝 a)) :
    Tendsto (fun m => (A m).rnd (f m)) atTop (𝓝 a) := by
  have h0 : Tendsto (fun m => (A m).rnd (f m) - f m) atTop (𝓝 0) := by
    refine squeeze_zero_norm (fun m => ?_) (?_ : Tendsto (fun m => u m * |f m|) atTop (𝓝 0))
    · exact (hA m).rnd (f m)
    · simpa using hu.mul hf.abs
  simpa using h0.add hf

theorem tendsto_map_sum {β : Type*} (l : List β) {g : ℕ → β → ℝ} {a : β → ℝ} (hg : ∀ b ∈ l, Tendsto (fun m => g m b) atTop (𝓝 (a b))) :
    Tendsto (fun m => (l.map (g m)).sum) atTop (𝓝 (l.map a).sum) := by
  induction l with
  | nil => simp
  | cons b l ih =>
    simp only [List.map_cons, List.sum_cons]
    exact (hg b (by simp)).add (ih fun c hc => hg c (List.mem_cons_of_mem _ hc))

theorem tendsto_sum (hA : ∀ m, (A m).Ok (u m)) (hu : Tendsto u atTop (𝓝 0)) {β : Type*} (l : List β) {g : ℕ → β → ℝ} {a : β → ℝ}
    (hg : ∀ b ∈ l, Tendsto (fun m => g m b) atTop (𝓝 (a b))) : Tendsto (fun m => (A m).sum (l.map (g m))) atTop (𝓝 (l.map a).sum) := by
  have h0 : Tendsto (fun m => (A m).sum (l.map (g m)) - (l.map (g m)).sum) atTop (𝓝 0) := by
    refine squeeze_zero_norm (fun m => ?_) (?_ : Tendsto (fun m => ((1 + u m) ^ l.length - 1) * (l.map fun b => |g m b|).sum) atTop (𝓝 0))
    · have := sum_error (hA m) (l.map (g m))
      simpa [List.map_map, Function.comp_def] using this
    · have h1 : Tendsto (fun m => (1 + u m) ^ l.length - 1) atTop (𝓝 0) := by
        simpa using ((hu.const_add 1).pow l.length).sub_const 1
      have h2 := tendsto_map_sum l (g := fun m b => |g m b|) (a := fun b => |a b|) fun b hb => (hg b hb).abs
      simpa using h1.mul h2
  simpa using h0.add (tendsto_map_sum l hg)

theorem tendsto_ofFn_sum (hA : ∀ m, (A m).Ok (u m)) (hu : Tendsto u atTop (𝓝 0)) {n : ℕ} {g : ℕ → Fin n → ℝ} {a : Fin n → ℝ}
    (hg : ∀ i, Tendsto (fun m => g m i) atTop (𝓝 (a i))) : Tendsto (fun m => (A m).sum (List.ofFn (g m))) atTop (𝓝 (∑ i, a i)) := by
  have := tendsto_sum hA hu (List.finRange n) (g := g) (a := a) fun b _ => hg b
  simpa [← List.ofFn_eq_map, List.sum_ofFn] using this

end

end Verif.Proof
