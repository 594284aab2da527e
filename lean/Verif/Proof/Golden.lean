import Verif.Model.Search
import Mathlib.Analysis.Convex.Function

/-!
# Invariants of golden section search
-/

namespace Verif.Proof

open Verif.Model

theorem invphi_sq : invphi * invphi = invphi2 := by
  unfold invphi invphi2
  have := Real.mul_self_sqrt (show (0:ℝ) ≤ 5 by norm_num)
  nlinarith

theorem invphi2_eq : invphi2 = 1 - invphi := by
  unfold invphi invphi2
  ring

theorem invphi_pos : 0 < invphi := by
  unfold invphi
  have : (1:ℝ) < Real.sqrt 5 := by
    rw [Real.lt_sqrt] <;> norm_num
  linarith

theorem invphi_lt_one : invphi < 1 := by
  unfold invphi
  have : Real.sqrt 5 < 3 := by
    rw [Real.sqrt_lt'] <;> norm_num
  linarith

theorem invphi2_pos : 0 < invphi2 := by rw [← invphi_sq]; exact mul_pos invphi_pos invphi_pos

theorem invphi2_lt : invphi2 < invphi := by
  rw [← invphi_sq]
  have h1 := invphi_pos
  have h2 := invphi_lt_one
  nlinarith

/-- The invariant of the loop after `k` iterations. -/
structure GInv (f : ℝ → Fl) (a0 b0 : ℝ) (k : ℕ) (s : Golden) : Prop where
  h_eq : s.h = s.b - s.a
  h_pow : s.h = invphi ^ k * (b0 - a0)
  c_eq : s.c = s.a + invphi2 * s.h
  d_eq : s.d = s.a + invphi * s.h
  fc : s.fc = f s.c
  fd : s.fd = f s.d
  a_le : a0 ≤ s.a
  b_le : s.b ≤ b0
  len : s.evals.length = k + 2
  mem : ∀ p ∈ s.evals, a0 ≤ p ∧ p ≤ b0

namespace GInv
variable {f : ℝ → Fl} {a0 b0 : ℝ} {k : ℕ} {s : Golden}

theorem h_pos (hi : GInv f a0 b0 k s) (hab : a0 < b0) : 0 < s.h := by
  rw [hi.h_pow]; exact mul_pos (pow_pos invphi_pos _) (by linarith)

theorem a_lt_c (hi : GInv f a0 b0 k s) (hab : a0 < b0) : s.a < s.c := by
  rw [hi.c_eq]; have := mul_pos invphi2_pos (hi.h_pos hab); linarith

theorem c_lt_d (hi : GInv f a0 b0 k s) (hab : a0 < b0) : s.c < s.d := by
  rw [hi.c_eq, hi.d_eq]; have := mul_lt_mul_of_pos_right invphi2_lt (hi.h_pos hab); linarith

theorem d_lt_b (hi : GInv f a0 b0 k s) (hab : a0 < b0) : s.d < s.b := by
  rw [hi.d_eq]
  have := mul_lt_mul_of_pos_right invphi_lt_one (hi.h_pos hab)
  have := hi.h_eq
  linarith

end GInv

theorem ginv_init (f : ℝ → Fl) (a b : ℝ) (hab : a < b) : GInv f a b 0 (goldenInit f a b) := by
  have hh : 0 < b - a := by linarith
  have h1 := mul_pos invphi2_pos hh
  have h2 := mul_pos invphi_pos hh
  have h3 := mul_lt_mul_of_pos_right invphi_lt_one hh
  have h4 := mul_lt_mul_of_pos_right invphi2_lt hh
  refine ⟨rfl, by simp [goldenInit], rfl, rfl, rfl, rfl, le_rfl, le_rfl, rfl, ?_⟩
  intro p hp
  simp only [goldenInit, List.mem_cons, List.not_mem_nil, or_false] at hp
  rcases hp with rfl | rfl <;> constructor <;> linarith

theorem ginv_step {f : ℝ → Fl} {a0 b0 : ℝ} {k : ℕ} {s : Golden} (hab : a0 < b0) (hi : GInv f a0 b0 k s) :
    GInv f a0 b0 (k + 1) (goldenStep f s) := by
  have hh := hi.h_pos hab
  have e1 := hi.h_eq
  have e2 := hi.h_pow
  have e3 := hi.c_eq
  have e4 := hi.d_eq
  have l1 := hi.a_lt_c hab
  have l2 := hi.c_lt_d hab
  have l3 := hi.d_lt_b hab
  have l4 := hi.a_le
  have l5 := hi.b_le
  have p1 := invphi_sq
  have p2 := invphi2_eq
  have hh' : 0 < invphi * s.h := mul_pos invphi_pos hh
  have q1 := mul_pos invphi2_pos hh'
  have q2 := mul_lt_mul_of_pos_right invphi_lt_one hh'
  have q3 := mul_lt_mul_of_pos_right invphi2_lt hh'
  have q4 := mul_pos invphi_pos hh'
  have p3 : invphi2 * s.h = s.h - invphi * s.h := by rw [p2]; ring
  have p4 : invphi * (invphi * s.h) = invphi2 * s.h := by rw [← p1]; ring
  have p5 : invphi2 * (invphi * s.h) = invphi * s.h - invphi * (invphi * s.h) := by rw [p2]; ring
  unfold goldenStep
  split
  · refine ⟨?_, ?_, rfl, ?_, rfl, hi.fc, l4, ?_, ?_, ?_⟩
    · show invphi * s.h = s.d - s.a; linarith
    · show invphi * s.h = _; rw [e2]; ring
    · show s.c = s.a + invphi * (invphi * s.h); linarith
    · show s.d ≤ b0; linarith
    · simp [hi.len]
    · intro p hp
      simp only [List.mem_append, List.mem_singleton] at hp
      rcases hp with hp | rfl
      · exact hi.mem p hp
      · constructor <;> linarith
  · refine ⟨?_, ?_, ?_, rfl, hi.fd, rfl, ?_, l5, ?_, ?_⟩
    · show invphi * s.h = s.b - s.c; linarith
    · show invphi * s.h = _; rw [e2]; ring
    · show s.d = s.c + invphi2 * (invphi * s.h); linarith
    · show a0 ≤ s.c; linarith
    · simp [hi.len]
    · intro p hp
      simp only [List.mem_append, List.mem_singleton] at hp
      rcases hp with hp | rfl
      · exact hi.mem p hp
      · constructor <;> linarith

theorem ginv_iter (f : ℝ → Fl) (a b : ℝ) (hab : a < b) (k : ℕ) :
    GInv f a b k ((goldenStep f)^[k] (goldenInit f a b)) := by
  induction k with
  | zero => exact ginv_init f a b hab
  | succ k ih => rw [Function.iterate_succ_apply']; exact ginv_step hab ih

/-- The bracket reported at the end is no wider than the tolerance. -/
theorem golden_width (tol a b : ℝ) (hab : a < b) (htol : 0 < tol) :
    invphi ^ ((goldenSteps tol (b - a) - 1).toNat + 1) * (b - a) ≤ tol := by
  have hh : 0 < b - a := by linarith
  have hlog : Real.log invphi < 0 := Real.log_neg invphi_pos invphi_lt_one
  set n := goldenSteps tol (b - a) with hn
  by_cases h1 : 1 ≤ n
  · have hk : ((n - 1).toNat + 1 : ℕ) = n.toNat := by omega
    rw [hk]
    have hcast : ((n.toNat : ℕ) : ℝ) = (n : ℝ) := by
      have : ((n.toNat : ℕ) : ℤ) = n := Int.toNat_of_nonneg (by omega)
      exact_mod_cast this
    have hle : Real.log (tol / (b - a)) / Real.log invphi ≤ n := Int.le_ceil _
    have h2 : (n : ℝ) * Real.log invphi ≤ Real.log (tol / (b - a)) := by
      rwa [div_le_iff_of_neg hlog] at hle
    have h3 : Real.log (invphi ^ n.toNat) ≤ Real.log (tol / (b - a)) := by
      rw [Real.log_pow, hcast]; exact h2
    have h4 := (Real.log_le_log_iff (pow_pos invphi_pos _) (div_pos htol hh)).1 h3
    rwa [le_div_iff₀ hh] at h4
  · have hk : (n - 1).toNat = 0 := by omega
    have hle : Real.log (tol / (b - a)) / Real.log invphi ≤ n := Int.le_ceil _
    have hn0 : (n : ℝ) ≤ 0 := by exact_mod_cast (by omega : n ≤ 0)
    have h5 : Real.log (tol / (b - a)) / Real.log invphi ≤ 0 := hle.trans hn0
    have h6 : 0 ≤ Real.log (tol / (b - a)) := by
      rw [div_le_iff_of_neg hlog, zero_mul] at h5; exact h5
    have h7 : 1 ≤ tol / (b - a) := (Real.log_nonneg_iff (div_pos htol hh)).1 h6
    rw [le_div_iff₀ hh] at h7
    rw [hk, zero_add, pow_one]
    have := mul_lt_mul_of_pos_right invphi_lt_one hh
    linarith

/-- What is known of the result: the reported loss is the loss of a point `x` of a bracket `[u, v]`
around the returned prevalence, no wider than the tolerance. -/
theorem golden_result (f : ℝ → Fl) (tol a b : ℝ) (hab : a < b) (htol : 0 < tol) :
    ∃ loss u v x, goldenSectionSearch f tol a b = .ok (loss, (u + v) / 2) ∧ a ≤ u ∧ u < x ∧ x < v ∧ v ≤ b
      ∧ v - u ≤ tol ∧ loss = f x := by
  have hi := ginv_iter f a b hab (goldenSteps tol (b - a) - 1).toNat
  have hw := golden_width tol a b hab htol
  have hh : 0 < b - a := by linarith
  have hok : goldenSectionSearch f tol a b = .ok (goldenResult (goldenFinal f tol a b)) := by
    unfold goldenSectionSearch
    rw [if_neg hh.ne', if_neg (not_le.2 (div_pos htol hh))]
  set s := goldenFinal f tol a b with hs
  change GInv f a b _ s at hi
  have hpow := hi.h_pow
  have hwid : invphi * s.h ≤ tol := by
    rw [hpow]
    calc _ = _ := by rw [← mul_assoc, ← pow_succ']
      _ ≤ tol := hw
  have l1 := hi.a_lt_c hab
  have l2 := hi.c_lt_d hab
  have l3 := hi.d_lt_b hab
  by_cases hcd : s.fc < s.fd
  · refine ⟨s.fc, s.a, s.d, s.c, ?_, hi.a_le, l1, l2, l3.le.trans hi.b_le, ?_, hi.fc⟩
    · rw [hok]; unfold goldenResult; rw [if_pos hcd]
    · rw [hi.d_eq]; linarith
  · refine ⟨s.fd, s.c, s.b, s.d, ?_, hi.a_le.trans l1.le, l2, l3, hi.b_le, ?_, hi.fd⟩
    · rw [hok]; unfold goldenResult; rw [if_neg hcd]
    · have e1 := hi.h_eq
      have e2 := hi.c_eq
      have p2 := invphi2_eq
      have : invphi2 * s.h = s.h - invphi * s.h := by rw [p2]; ring
      linarith

/-- Semi-strict quasi-convexity on `[a,b]`: in the middle of three points the function is below the
larger of the outer values, or the three values agree. -/
def Valley (g : ℝ → ℝ) (a b : ℝ) : Prop :=
  ∀ x y z, a ≤ x → x < y → y < z → z ≤ b → g y < max (g x) (g z) ∨ (g x = g y ∧ g y = g z)

/-- `m` minimises `g` on `[a,b]`. -/
def MinOn (g : ℝ → ℝ) (a b m : ℝ) : Prop := a ≤ m ∧ m ≤ b ∧ ∀ x, a ≤ x → x ≤ b → g m ≤ g x

/-- Narrowing a bracket keeps a minimiser. -/
theorem valley_left {g : ℝ → ℝ} {a b m c d : ℝ} (hv : Valley g a b) (hm : MinOn g a b m) (hac : a ≤ c) (hcd : c < d)
    (hdb : d ≤ b) (h : g c < g d) : m ≤ d := by
  by_contra hcon
  push Not at hcon
  have hmc := hm.2.2 c hac (hcd.le.trans hdb)
  rcases hv c d m hac hcd hcon hm.2.1 with h1 | ⟨h1, _⟩
  · rw [max_eq_left hmc] at h1; linarith
  · linarith

theorem valley_right {g : ℝ → ℝ} {a b m c d : ℝ} (hv : Valley g a b) (hm : MinOn g a b m) (hac : a ≤ c) (hcd : c < d)
    (hdb : d ≤ b) (h : ¬ g c < g d) : c ≤ m ∨ g c = g m := by
  by_contra hcon
  push Not at hcon
  obtain ⟨h1, h2⟩ := hcon
  have hmd := hm.2.2 d (hac.trans hcd.le) hdb
  rcases hv m c d hm.1 h1 hcd hdb with h3 | ⟨h3, _⟩
  · rw [max_eq_right hmd] at h3; exact h h3
  · exact h2 h3.symm

/-- The bracket keeps containing a minimiser. -/
theorem golden_bracket (g : ℝ → ℝ) (a b m : ℝ) (hab : a < b) (hv : Valley g a b) (hm : MinOn g a b m) (k : ℕ) :
    ∃ m', MinOn g a b m' ∧ ((goldenStep fun p => Fl.fin (g p))^[k] (goldenInit (fun p => Fl.fin (g p)) a b)).a ≤ m'
      ∧ m' ≤ ((goldenStep fun p => Fl.fin (g p))^[k] (goldenInit (fun p => Fl.fin (g p)) a b)).b := by
  induction k with
  | zero => exact ⟨m, hm, hm.1, hm.2.1⟩
  | succ k ih =>
    obtain ⟨m', hm', h1, h2⟩ := ih
    have hi := ginv_iter (fun p => Fl.fin (g p)) a b hab k
    rw [Function.iterate_succ_apply']
    set s := (goldenStep fun p => Fl.fin (g p))^[k] (goldenInit (fun p => Fl.fin (g p)) a b) with hs
    have l1 := hi.a_lt_c hab
    have l2 := hi.c_lt_d hab
    have l3 := hi.d_lt_b hab
    have hac : a ≤ s.c := hi.a_le.trans l1.le
    have hdb : s.d ≤ b := l3.le.trans hi.b_le
    unfold goldenStep
    split
    · rename_i hlt
      rw [hi.fc, hi.fd, Fl.fin_lt_fin] at hlt
      exact ⟨m', hm', h1, valley_left hv hm' hac l2 hdb hlt⟩
    · rename_i hlt
      rw [hi.fc, hi.fd, Fl.fin_lt_fin] at hlt
      rcases valley_right hv hm' hac l2 hdb hlt with h | h
      · exact ⟨m', hm', h, h2⟩
      · refine ⟨s.c, ⟨hac, l2.le.trans hdb, fun x hx hx' => h.le.trans (hm'.2.2 x hx hx')⟩, le_rfl, ?_⟩
        exact (l2.trans l3).le

/-- The prevalence returned is within half the tolerance of a minimiser. -/
theorem golden_min (g : ℝ → ℝ) (tol a b m : ℝ) (hab : a < b) (htol : 0 < tol) (hv : Valley g a b) (hm : MinOn g a b m) :
    ∃ loss u v x m', goldenSectionSearch (fun p => Fl.fin (g p)) tol a b = .ok (loss, (u + v) / 2) ∧ a ≤ u ∧ u < x ∧ x < v ∧ v ≤ b
      ∧ v - u ≤ tol ∧ loss = Fl.fin (g x) ∧ MinOn g a b m' ∧ u ≤ m' ∧ m' ≤ v := by
  set f : ℝ → Fl := fun p => Fl.fin (g p) with hf
  have hi := ginv_iter f a b hab (goldenSteps tol (b - a) - 1).toNat
  obtain ⟨m', hm', h1, h2⟩ := golden_bracket g a b m hab hv hm (goldenSteps tol (b - a) - 1).toNat
  have hw := golden_width tol a b hab htol
  have hh : 0 < b - a := by linarith
  have hok : goldenSectionSearch f tol a b = .ok (goldenResult (goldenFinal f tol a b)) := by
    unfold goldenSectionSearch
    rw [if_neg hh.ne', if_neg (not_le.2 (div_pos htol hh))]
  set s := goldenFinal f tol a b with hs
  change GInv f a b _ s at hi
  change s.a ≤ m' at h1
  change m' ≤ s.b at h2
  have hpow := hi.h_pow
  have hwid : invphi * s.h ≤ tol := by
    rw [hpow]
    calc _ = _ := by rw [← mul_assoc, ← pow_succ']
      _ ≤ tol := hw
  have l1 := hi.a_lt_c hab
  have l2 := hi.c_lt_d hab
  have l3 := hi.d_lt_b hab
  have hac : a ≤ s.c := hi.a_le.trans l1.le
  have hdb : s.d ≤ b := l3.le.trans hi.b_le
  by_cases hcd : s.fc < s.fd
  · have hlt := hcd
    rw [hi.fc, hi.fd, hf, Fl.fin_lt_fin] at hlt
    refine ⟨s.fc, s.a, s.d, s.c, m', ?_, hi.a_le, l1, l2, l3.le.trans hi.b_le, ?_, hi.fc, hm', h1,
      valley_left hv hm' hac l2 hdb hlt⟩
    · rw [hok]; unfold goldenResult; rw [if_pos hcd]
    · rw [hi.d_eq]; linarith
  · have hlt := hcd
    rw [hi.fc, hi.fd, hf, Fl.fin_lt_fin] at hlt
    have hwd : s.b - s.c ≤ tol := by
      have e1 := hi.h_eq
      have e2 := hi.c_eq
      have p2 := invphi2_eq
      have : invphi2 * s.h = s.h - invphi * s.h := by rw [p2]; ring
      linarith
    have hre : goldenSectionSearch f tol a b = .ok (s.fd, (s.c + s.b) / 2) := by
      rw [hok]; unfold goldenResult; rw [if_neg hcd]
    rcases valley_right hv hm' hac l2 hdb hlt with h | h
    · exact ⟨s.fd, s.c, s.b, s.d, m', hre, hac, l2, l3, hi.b_le, hwd, hi.fd, hm', h, h2⟩
    · exact ⟨s.fd, s.c, s.b, s.d, s.c, hre, hac, l2, l3, hi.b_le, hwd, hi.fd,
        ⟨hac, l2.le.trans hdb, fun x hx hx' => h.le.trans (hm'.2.2 x hx hx')⟩, le_rfl, (l2.trans l3).le⟩

theorem valley_of_convex {g : ℝ → ℝ} {a b : ℝ} (hg : ConvexOn ℝ (Set.Icc a b) g) : Valley g a b := by
  intro x y z hax hxy hyz hzb
  have hxz : 0 < z - x := by linarith
  set t := (y - x) / (z - x) with ht
  have ht0 : 0 < t := div_pos (by linarith) hxz
  have ht1 : t < 1 := by rw [ht, div_lt_one hxz]; linarith
  have hy : (1 - t) * x + t * z = y := by rw [ht]; field_simp; ring
  have := hg.2 (⟨hax, by linarith⟩ : x ∈ Set.Icc a b) (⟨by linarith, hzb⟩ : z ∈ Set.Icc a b) (by linarith : 0 ≤ 1 - t) ht0.le
    (by ring)
  simp only [smul_eq_mul, hy] at this
  rcases lt_trichotomy (g x) (g z) with h | h | h
  · left
    rw [max_eq_right h.le]
    nlinarith
  · by_cases he : g y < g x
    · left; exact lt_max_of_lt_left he
    · right
      rw [← h] at this
      have : g y ≤ g x := by nlinarith
      have : g x = g y := le_antisymm (not_lt.1 he) this
      exact ⟨this, by rw [← this, h]⟩
  · left
    rw [max_eq_left h.le]
    nlinarith

theorem valley_of_unimodal {g : ℝ → ℝ} {a b m : ℝ} (h1 : StrictAntiOn g (Set.Icc a m)) (h2 : StrictMonoOn g (Set.Icc m b)) :
    Valley g a b := by
  intro x y z hax hxy hyz hzb
  left
  rcases le_or_gt y m with h | h
  · exact lt_max_of_lt_left (h1 ⟨hax, by linarith⟩ ⟨by linarith, h⟩ hxy)
  · exact lt_max_of_lt_right (h2 ⟨h.le, by linarith⟩ ⟨by linarith, hzb⟩ hyz)

theorem minOn_of_unimodal {g : ℝ → ℝ} {a b m : ℝ} (ham : a ≤ m) (hmb : m ≤ b) (h1 : StrictAntiOn g (Set.Icc a m))
    (h2 : StrictMonoOn g (Set.Icc m b)) : MinOn g a b m ∧ ∀ m', MinOn g a b m' → m' = m := by
  have hmin : ∀ x, a ≤ x → x ≤ b → x ≠ m → g m < g x := by
    intro x hx hx' hne
    rcases lt_or_gt_of_ne hne with h | h
    · exact h1 ⟨hx, h.le⟩ ⟨ham, le_rfl⟩ h
    · exact h2 ⟨le_rfl, hmb⟩ ⟨h.le, hx'⟩ h
  refine ⟨⟨ham, hmb, fun x hx hx' => ?_⟩, fun m' hm' => ?_⟩
  · by_cases h : x = m
    · rw [h]
    · exact (hmin x hx hx' h).le
  · by_contra hne
    exact absurd (hm'.2.2 m ham hmb) (not_le.2 (hmin m' hm'.1 hm'.2.1 hne))

end Verif.Proof
