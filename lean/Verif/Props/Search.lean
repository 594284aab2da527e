import Verif.Proof.Golden
import Verif.Spec.Prevalence
import Mathlib.Tactic.FinCases

/-!
# Golden section search and global search (C30-C34)
-/

namespace Verif.Props

open Verif.Model Verif.Proof

/-! ## C30 -/

/-- **C30**. For every distance `f`, interval `a < b` and positive tolerance the search succeeds; the
prevalence returned is in the interval, it is the centre of a bracket `[u, v]` of the interval no wider
than the tolerance, and the distance is evaluated at `max 2 (1 + ⌈log(tol/(b-a))/log(1/φ)⌉)` points, all
of them inside the interval. -/
theorem C30_golden_section_bracket (f : ℝ → Fl) (tol a b : ℝ) (hab : a < b) (htol : 0 < tol) :
    (∃ loss p u v, goldenSectionSearch f tol a b = .ok (loss, p) ∧ a ≤ p ∧ p ≤ b ∧ p = (u + v) / 2 ∧ a ≤ u ∧ v ≤ b
      ∧ u < v ∧ v - u ≤ tol)
    ∧ ((goldenFinal f tol a b).evals.length : ℤ) =
        max 2 (1 + ⌈Real.log (tol / (b - a)) / Real.log ((Real.sqrt 5 - 1) / 2)⌉)
    ∧ ∀ p ∈ (goldenFinal f tol a b).evals, a ≤ p ∧ p ≤ b := by
  refine ⟨?_, ?_, ?_⟩
  · obtain ⟨loss, u, v, x, h1, h2, h3, h4, h5, h6, _⟩ := golden_result f tol a b hab htol
    exact ⟨loss, (u + v) / 2, u, v, h1, by linarith, by linarith, rfl, h2, h5, by linarith, h6⟩
  · have hi := ginv_iter f a b hab (goldenSteps tol (b - a) - 1).toNat
    have := hi.len
    rw [goldenFinal, this]
    change _ = max 2 (1 + goldenSteps tol (b - a))
    push_cast
    rcases le_total 1 (goldenSteps tol (b - a)) with h | h
    · rw [max_eq_right (by omega)]; omega
    · rw [max_eq_left (by omega)]; omega
  · exact (ginv_iter f a b hab (goldenSteps tol (b - a) - 1).toNat).mem

/-- The trace of a run depends on the distance only through its values at the recorded points. -/
theorem golden_iter_congr (f g : ℝ → Fl) (a b : ℝ) (k : ℕ)
    (h : ∀ p ∈ ((goldenStep f)^[k] (goldenInit f a b)).evals, f p = g p) :
    (goldenStep f)^[k] (goldenInit f a b) = (goldenStep g)^[k] (goldenInit g a b) := by
  induction k with
  | zero =>
    simp only [Function.iterate_zero, id_eq, goldenInit, List.mem_cons, List.not_mem_nil, or_false, forall_eq_or_imp,
      forall_eq] at h ⊢
    rw [h.1, h.2]
  | succ k ih =>
    rw [Function.iterate_succ_apply', Function.iterate_succ_apply']
    rw [Function.iterate_succ_apply'] at h
    set s := (goldenStep f)^[k] (goldenInit f a b) with hs
    have hsub : ∀ p ∈ s.evals, p ∈ (goldenStep f s).evals := by
      intro p hp
      unfold goldenStep
      split <;> simp [hp]
    rw [← ih fun p hp => h p (hsub p hp)]
    unfold goldenStep at h ⊢
    split
    · rename_i hlt
      rw [if_pos hlt] at h
      have : f (s.a + invphi2 * (invphi * s.h)) = g (s.a + invphi2 * (invphi * s.h)) := h _ (by simp)
      simp only [this]
    · rename_i hlt
      rw [if_neg hlt] at h
      have : f (s.c + invphi * (invphi * s.h)) = g (s.c + invphi * (invphi * s.h)) := h _ (by simp)
      simp only [this]

/-- **C30**, the number of evaluations without reference to a trace: some list of that many points of
the interval is all the search looks at. -/
theorem C30_golden_section_looks_at_few_points (f : ℝ → Fl) (tol a b : ℝ) (hab : a < b) (htol : 0 < tol) :
    ∃ pts : List ℝ, (pts.length : ℤ) = max 2 (1 + ⌈Real.log (tol / (b - a)) / Real.log ((Real.sqrt 5 - 1) / 2)⌉)
      ∧ (∀ p ∈ pts, a ≤ p ∧ p ≤ b)
      ∧ ∀ g : ℝ → Fl, (∀ p ∈ pts, f p = g p) → goldenSectionSearch g tol a b = goldenSectionSearch f tol a b := by
  have h := C30_golden_section_bracket f tol a b hab htol
  refine ⟨_, h.2.1, h.2.2, fun g hg => ?_⟩
  have := golden_iter_congr f g a b _ hg
  unfold goldenSectionSearch goldenFinal
  rw [this]

/-- **C30**, degenerate arguments: an empty interval is a ZeroDivisionError, a non-positive tolerance
a ValueError. -/
theorem C30_golden_section_errors (f : ℝ → Fl) (tol a b : ℝ) :
    (goldenSectionSearch f tol a a = .error .zeroDivisionError)
    ∧ (a < b → tol ≤ 0 → goldenSectionSearch f tol a b = .error .valueError) := by
  constructor
  · simp [goldenSectionSearch]
  · intro hab ht
    unfold goldenSectionSearch
    rw [if_neg (by linarith), if_pos (div_nonpos_of_nonpos_of_nonneg ht (by linarith))]

/-- A non-trivial instance: a distance with special values, interval `[0,1]`, the tolerance of the library. -/
example : ∃ (f : ℝ → Fl) (tol a b : ℝ), a < b ∧ 0 < tol ∧ f 0 = Fl.nan ∧ f 1 = Fl.pinf ∧ f (1/2) = Fl.fin (1/4) :=
  ⟨fun p => if p = 0 then Fl.nan else if p = 1 then Fl.pinf else Fl.fin (p ^ 2), 1/10000, 0, 1, by norm_num, by norm_num,
    by norm_num, by norm_num, by norm_num⟩

/-! ## C31 -/

/-- **C31**. If the distance strictly decreases up to `m` and strictly increases after it, the
prevalence returned is within half the tolerance of `m`, and the reported loss is that of a point
within the tolerance of `m`. -/
theorem C31_golden_section_unimodal (g : ℝ → ℝ) (tol a b m : ℝ) (hab : a < b) (htol : 0 < tol) (ham : a ≤ m) (hmb : m ≤ b)
    (h1 : StrictAntiOn g (Set.Icc a m)) (h2 : StrictMonoOn g (Set.Icc m b)) :
    ∃ p x, goldenSectionSearch (fun p => Fl.fin (g p)) tol a b = .ok (Fl.fin (g x), p) ∧ |p - m| ≤ tol / 2 ∧ |x - m| ≤ tol
      ∧ a ≤ x ∧ x ≤ b := by
  obtain ⟨hmin, huniq⟩ := minOn_of_unimodal ham hmb h1 h2
  obtain ⟨loss, u, v, x, m', e1, e2, e3, e4, e5, e6, e7, e8, e9, e10⟩ :=
    golden_min g tol a b m hab htol (valley_of_unimodal h1 h2) hmin
  rw [huniq m' e8] at e9 e10
  refine ⟨(u + v) / 2, x, by rw [e1, e7], ?_, ?_, by linarith, by linarith⟩ <;> rw [abs_le] <;> constructor <;> linarith

/-- **C31**, convex distances (they may be flat at the bottom): the prevalence returned is within half
the tolerance of a minimiser. -/
theorem C31_golden_section_convex (g : ℝ → ℝ) (tol a b : ℝ) (hab : a < b) (htol : 0 < tol) (hg : ConvexOn ℝ (Set.Icc a b) g)
    (hm : ∃ m ∈ Set.Icc a b, ∀ x ∈ Set.Icc a b, g m ≤ g x) :
    ∃ loss p m, goldenSectionSearch (fun p => Fl.fin (g p)) tol a b = .ok (loss, p) ∧ m ∈ Set.Icc a b
      ∧ (∀ x ∈ Set.Icc a b, g m ≤ g x) ∧ |p - m| ≤ tol / 2 := by
  obtain ⟨m, hmab, hm⟩ := hm
  obtain ⟨loss, u, v, x, m', e1, e2, e3, e4, e5, e6, e7, e8, e9, e10⟩ :=
    golden_min g tol a b m hab htol (valley_of_convex hg) ⟨hmab.1, hmab.2, fun x hx hx' => hm x ⟨hx, hx'⟩⟩
  refine ⟨loss, (u + v) / 2, m', e1, ⟨e8.1, e8.2.1⟩, fun x hx => e8.2.2 x hx.1 hx.2, ?_⟩
  rw [abs_le]; constructor <;> linarith

/-- A unimodal function that is neither convex nor symmetric. -/
example : ∃ g : ℝ → ℝ, StrictAntiOn g (Set.Icc 0 (3/10)) ∧ StrictMonoOn g (Set.Icc (3/10) 1) ∧ g 0 = 3/10 ∧ g 1 = 343 := by
  refine ⟨fun p => if p ≤ 3/10 then 3/10 - p else (10 * (p - 3/10)) ^ 3, ?_, ?_, by norm_num, by norm_num⟩
  · intro x hx y hy hxy
    simp only [if_pos hx.2, if_pos hy.2]; linarith
  · intro x hx y hy hxy
    have hy' : ¬ y ≤ 3/10 := by have := hx.1; linarith
    have : 0 < 10 * (y - 3/10) := by push Not at hy'; linarith
    by_cases h : x ≤ 3/10
    · have : x = 3/10 := le_antisymm h hx.1
      simp only [if_pos h, if_neg hy']; rw [this]; norm_num; positivity
    · simp only [if_neg h, if_neg hy']
      push Not at h
      have h0 : 0 ≤ 10 * (x - 3/10) := by linarith
      exact pow_lt_pow_left₀ (by linarith) h0 (by norm_num)

/-! ## C32 -/

/-- **C32 is false** of the code, and not only in corner cases: for every injective distance, every
interval and every tolerance, the reported loss is *not* the distance at the returned prevalence
(the loss belongs to a golden section point, the prevalence is the centre of the bracket). -/
theorem C32_reported_loss_refuted (g : ℝ → ℝ) (hg : Function.Injective g) (tol a b : ℝ) (hab : a < b) (htol : 0 < tol) :
    ∃ loss p, goldenSectionSearch (fun p => Fl.fin (g p)) tol a b = .ok (loss, p) ∧ loss ≠ Fl.fin (g p) := by
  have hh : 0 < b - a := by linarith
  set f : ℝ → Fl := fun p => Fl.fin (g p) with hf
  have hi := ginv_iter f a b hab (goldenSteps tol (b - a) - 1).toNat
  change GInv f a b _ (goldenFinal f tol a b) at hi
  have hok : goldenSectionSearch f tol a b = .ok (goldenResult (goldenFinal f tol a b)) := by
    unfold goldenSectionSearch
    rw [if_neg hh.ne', if_neg (not_le.2 (div_pos htol hh))]
  have hpos := hi.h_pos hab
  have e1 := hi.h_eq
  have e2 := hi.c_eq
  have e3 := hi.d_eq
  set s := goldenFinal f tol a b
  have hphi : invphi2 * s.h = s.h - invphi * s.h := by rw [invphi2_eq]; ring
  have h53 : invphi ≠ 2 / 3 := by
    intro h
    have h2 := invphi_sq
    rw [invphi2_eq, h] at h2
    norm_num at h2
  have hne : invphi * s.h ≠ 2 / 3 * s.h := fun h => h53 (mul_right_cancel₀ hpos.ne' h)
  rw [hok]
  by_cases hlt : s.fc < s.fd
  · refine ⟨s.fc, (s.a + s.d) / 2, by unfold goldenResult; rw [if_pos hlt], ?_⟩
    rw [hi.fc, hf]
    intro h
    have h1 := hg (Fl.fin.inj h)
    apply hne
    linarith
  · refine ⟨s.fd, (s.c + s.b) / 2, by unfold goldenResult; rw [if_neg hlt], ?_⟩
    rw [hi.fd, hf]
    intro h
    have h1 := hg (Fl.fin.inj h)
    apply hne
    linarith

/-- **C32, partial**: what does hold is that the reported loss is the distance at a point of the
interval closer than the tolerance to the returned prevalence. -/
theorem C32_reported_loss_partial (f : ℝ → Fl) (tol a b : ℝ) (hab : a < b) (htol : 0 < tol) :
    ∃ p x, goldenSectionSearch f tol a b = .ok (f x, p) ∧ a < x ∧ x < b ∧ |x - p| < tol / 2 := by
  obtain ⟨loss, u, v, x, h1, h2, h3, h4, h5, h6, h7⟩ := golden_result f tol a b hab htol
  refine ⟨(u + v) / 2, x, by rw [h1, h7], by linarith, by linarith, ?_⟩
  rw [abs_lt]; constructor <;> linarith

/-- The refutation applies to an ordinary distance. -/
example : Function.Injective (fun p : ℝ => (p + 1) / 2) := fun x y h => by
  simp only at h; linarith

/-! ## C33 -/

/-- The scan without increasing triples changes nothing. -/
theorem scan_none (losses : ℕ → Fl) (search : ℝ → ℝ → Except Err (Fl × ℝ)) (is : List ℕ) (st : ℕ × Fl × Option ℝ)
    (h : ∀ i ∈ is, ¬ (losses (i - 1) < losses i ∧ losses i < losses (i + 1))) : globalScan losses search is st = .ok st := by
  induction is generalizing st with
  | nil => rfl
  | cons i is ih =>
    obtain ⟨n, b, p⟩ := st
    rw [globalScan, if_neg (h i (by simp))]
    exact ih _ fun j hj => h j (by simp [hj])

/-- A rising triple of losses around the interior grid point `i`. -/
def Rising (losses : ℕ → Fl) (i : ℕ) : Prop :=
  1 ≤ i ∧ i ≤ 99 ∧ losses (i - 1) < losses i ∧ losses i < losses (i + 1)

/-- The window searched for the grid point `i`. -/
theorem window (i : ℕ) (h1 : 1 ≤ i) (h2 : i ≤ 99) :
    (((max ((i : ℤ) - 2) 0 : ℤ) : ℝ) / 100 < ((min (i + 2) 100 : ℕ) : ℝ) / 100)
      ∧ 0 ≤ ((max ((i : ℤ) - 2) 0 : ℤ) : ℝ) / 100 ∧ ((min (i + 2) 100 : ℕ) : ℝ) / 100 ≤ 1 := by
  refine ⟨?_, ?_, ?_⟩
  · have : max ((i : ℤ) - 2) 0 < ((min (i + 2) 100 : ℕ) : ℤ) := by omega
    have : ((max ((i : ℤ) - 2) 0 : ℤ) : ℝ) < ((min (i + 2) 100 : ℕ) : ℝ) := by exact_mod_cast this
    linarith
  · have : (0 : ℤ) ≤ max ((i : ℤ) - 2) 0 := le_max_right _ _
    have : (0 : ℝ) ≤ ((max ((i : ℤ) - 2) 0 : ℤ) : ℝ) := by exact_mod_cast this
    linarith
  · have : min (i + 2) 100 ≤ 100 := min_le_right _ _
    have : ((min (i + 2) 100 : ℕ) : ℝ) ≤ 100 := by exact_mod_cast this
    linarith

/-- What the scan returns for a finite distance: a point `p` of `[0,1]` with a nearby point `x` whose
distance is no greater than the loss reported for each of the windows. -/
theorem scan_some (g : ℝ → ℝ) (tol : ℝ) (htol : 0 < tol) (losses : ℕ → Fl) (is : List ℕ)
    (his : ∀ i ∈ is, 1 ≤ i ∧ i ≤ 99) (n : ℕ) (best : Fl) (p : Option ℝ)
    (hst : (n = 0 ∧ best = Fl.pinf ∧ p = none) ∨
      (0 < n ∧ ∃ x q, best = Fl.fin (g x) ∧ p = some q ∧ 0 ≤ x ∧ x ≤ 1 ∧ 0 ≤ q ∧ q ≤ 1 ∧ |x - q| ≤ tol)) :
    ∃ n' best' p', globalScan losses (goldenSectionSearch (fun p => Fl.fin (g p)) tol) is (n, best, p) = .ok (n', best', p')
      ∧ ((n' = 0 ∧ best' = Fl.pinf ∧ p' = none ∧ (∀ i ∈ is, ¬ Rising losses i) ∧ n = 0) ∨
        (0 < n' ∧ ∃ x q, best' = Fl.fin (g x) ∧ p' = some q ∧ 0 ≤ x ∧ x ≤ 1 ∧ 0 ≤ q ∧ q ≤ 1 ∧ |x - q| ≤ tol
          ∧ (∀ y, best = Fl.fin (g y) → g x ≤ g y)
          ∧ ∀ i ∈ is, Rising losses i → ∀ z q',
              goldenSectionSearch (fun p => Fl.fin (g p)) tol ((max ((i : ℤ) - 2) 0 : ℤ) / 100) ((min (i + 2) 100 : ℕ) / 100)
                = .ok (Fl.fin (g z), q') → g x ≤ g z)) := by
  induction is generalizing n best p with
  | nil =>
    refine ⟨n, best, p, rfl, ?_⟩
    rcases hst with ⟨h1, h2, h3⟩ | ⟨h1, x, q, h2, h3, h4, h5, h6, h7, h8⟩
    · exact Or.inl ⟨h1, h2, h3, by simp, h1⟩
    · refine Or.inr ⟨h1, x, q, h2, h3, h4, h5, h6, h7, h8, ?_, by simp⟩
      intro y hy
      rw [h2] at hy
      exact (Fl.fin.inj hy).le
  | cons i is ih =>
    have hi := his i (by simp)
    have his' : ∀ j ∈ is, 1 ≤ j ∧ j ≤ 99 := fun j hj => his j (by simp [hj])
    rw [globalScan]
    by_cases hc : losses (i - 1) < losses i ∧ losses i < losses (i + 1)
    · rw [if_pos hc]
      obtain ⟨w1, w2, w3⟩ := window i hi.1 hi.2
      obtain ⟨loss, u, v, x, e1, e2, e3, e4, e5, e6, e7⟩ := golden_result (fun p => Fl.fin (g p)) tol _ _ w1 htol
      rw [e1]
      have hx : |x - (u + v) / 2| ≤ tol := by rw [abs_le]; constructor <;> linarith
      by_cases hl : loss < best
      · simp only [hl, if_true]
        obtain ⟨n', b', p', r1, r2⟩ := ih his' (n + 1) loss (some ((u + v) / 2))
          (Or.inr ⟨by omega, x, _, e7, rfl, by linarith, by linarith, by linarith, by linarith, hx⟩)
        refine ⟨n', b', p', r1, ?_⟩
        rcases r2 with ⟨_, _, _, _, h⟩ | ⟨k1, x', q, k2, k3, k4, k5, k6, k7, k8, k9, k10⟩
        · omega
        · refine Or.inr ⟨k1, x', q, k2, k3, k4, k5, k6, k7, k8, ?_, ?_⟩
          · intro y hy
            rw [hy, e7, Fl.fin_lt_fin] at hl
            exact (k9 x e7).trans hl.le
          · intro j hj hr z q' hz
            rcases List.mem_cons.1 hj with rfl | hj
            · rw [e1] at hz
              have hz' := Except.ok.inj hz
              have : loss = Fl.fin (g z) := (Prod.mk.inj hz').1
              exact k9 z this
            · exact k10 j hj hr z q' hz
      · simp only [hl, if_false]
        rcases hst with ⟨_, h2, _⟩ | ⟨h1, y, q, h2, h3, h4, h5, h6, h7, h8⟩
        · exfalso; apply hl; rw [h2, e7]; trivial
        obtain ⟨n', b', p', r1, r2⟩ := ih his' (n + 1) best p (Or.inr ⟨by omega, y, q, h2, h3, h4, h5, h6, h7, h8⟩)
        refine ⟨n', b', p', r1, ?_⟩
        rcases r2 with ⟨_, _, _, _, h⟩ | ⟨k1, x', q, k2, k3, k4, k5, k6, k7, k8, k9, k10⟩
        · omega
        · refine Or.inr ⟨k1, x', q, k2, k3, k4, k5, k6, k7, k8, k9, ?_⟩
          intro j hj hr z q' hz
          rcases List.mem_cons.1 hj with rfl | hj
          · rw [e1] at hz
            have hz' := Except.ok.inj hz
            have hzz : loss = Fl.fin (g z) := (Prod.mk.inj hz').1
            rw [hzz, h2, Fl.fin_lt_fin] at hl
            exact (k9 y h2).trans (not_lt.1 hl)
          · exact k10 j hj hr z q' hz
    · rw [if_neg hc]
      obtain ⟨n', b', p', r1, r2⟩ := ih his' n best p hst
      refine ⟨n', b', p', r1, ?_⟩
      rcases r2 with ⟨k1, k2, k3, k4, k5⟩ | ⟨k1, x', q, k2, k3, k4, k5, k6, k7, k8, k9, k10⟩
      · refine Or.inl ⟨k1, k2, k3, ?_, k5⟩
        intro j hj hr
        rcases List.mem_cons.1 hj with rfl | hj
        · exact hc ⟨hr.2.2.1, hr.2.2.2⟩
        · exact k4 j hj hr
      · refine Or.inr ⟨k1, x', q, k2, k3, k4, k5, k6, k7, k8, k9, ?_⟩
        intro j hj hr
        rcases List.mem_cons.1 hj with rfl | hj
        · exact absurd ⟨hr.2.2.1, hr.2.2.2⟩ hc
        · exact k10 j hj hr

/-- The convex distance of the refutation: a slope of `-1` up to `0.99` and of `200` after it. -/
noncomputable def kink (p : ℝ) : ℝ := max (99/100 - p) (200 * (p - 99/100))

theorem kink_convex : ConvexOn ℝ Set.univ kink := by
  refine ⟨convex_univ, ?_⟩
  intro x _ y _ s t hs ht hst
  simp only [kink, smul_eq_mul]
  have hx1 := le_max_left (99/100 - x) (200 * (x - 99/100))
  have hx2 := le_max_right (99/100 - x) (200 * (x - 99/100))
  have hy1 := le_max_left (99/100 - y) (200 * (y - 99/100))
  have hy2 := le_max_right (99/100 - y) (200 * (y - 99/100))
  have h1 := mul_le_mul_of_nonneg_left hx1 hs
  have h2 := mul_le_mul_of_nonneg_left hx2 hs
  have h3 := mul_le_mul_of_nonneg_left hy1 ht
  have h4 := mul_le_mul_of_nonneg_left hy2 ht
  obtain rfl : s = 1 - t := by linarith
  apply max_le <;> nlinarith

/-- **C33 is false** of the code: for a convex distance whose only minimum is at the grid point 0.99,
`global_search` returns a prevalence below 0.02, whatever the tolerance. -/
theorem C33_global_search_refuted (tol : ℝ) (htol : 0 < tol) :
    ConvexOn ℝ Set.univ kink ∧ kink (99/100) = 0 ∧ (∀ q, q ≠ 99/100 → 0 < kink q) ∧
    ∃ p, globalSearch (fun (m : ℝ) (_ : Unit) => Fl.fin m) kink () tol none false = .ok (none, some p)
      ∧ 0 ≤ p ∧ p ≤ 2/100 ∧ 97/100 ≤ kink p := by
  refine ⟨kink_convex, by norm_num [kink], ?_, ?_⟩
  · intro q hq
    unfold kink
    rcases lt_or_gt_of_ne hq with h | h
    · exact lt_max_of_lt_left (by linarith)
    · exact lt_max_of_lt_right (by linarith)
  · obtain ⟨loss, u, v, x, e1, e2, e3, e4, e5, e6, e7⟩ :=
      golden_result (fun p => Fl.fin (kink p)) tol 0 (2/100) (by norm_num) htol
    refine ⟨(u + v) / 2, ?_, by linarith, by linarith, ?_⟩
    · unfold globalSearch globalCore
      simp only
      rw [scan_none]
      · simp only
        rw [if_pos trivial, if_neg, if_pos, e1]
        · rfl
        · rw [Fl.fin_lt_fin]; norm_num [kink]
        · norm_num [kink, Fl.eq]
      · intro i hi
        simp only [List.mem_map, List.mem_range] at hi
        obtain ⟨j, hj, rfl⟩ := hi
        intro hcon
        have h1 := hcon.1
        rw [Fl.fin_lt_fin] at h1
        simp only [Nat.add_sub_cancel] at h1
        have hj' : (j : ℝ) ≤ 98 := by exact_mod_cast (by omega : j ≤ 98)
        unfold kink at h1
        push_cast at h1
        rw [max_eq_left (by linarith), max_eq_left (by linarith)] at h1
        linarith
    · unfold kink
      exact le_max_of_le_left (by linarith)

/-- **C33, partial** (validity): for a finite distance `global_search` either returns a prevalence in
`[0,1]` or raises the ValueError "infinite minima", and the latter happens only if no interior grid
point sees a rise and the two ends have the same loss. -/
theorem C33_global_search_valid_partial (g : ℝ → ℝ) (tol : ℝ) (htol : 0 < tol) :
    (∃ p, globalSearch (fun (m : ℝ) (_ : Unit) => Fl.fin m) g () tol none false = .ok (none, some p) ∧ 0 ≤ p ∧ p ≤ 1)
    ∨ (globalSearch (fun (m : ℝ) (_ : Unit) => Fl.fin m) g () tol none false = .error .valueError ∧ g 0 = g 1 ∧
        ∀ i : ℕ, 1 ≤ i → i ≤ 99 → ¬ (g ((i - 1 : ℕ) / 100) < g (i / 100) ∧ g (i / 100) < g ((i + 1 : ℕ) / 100))) := by
  set losses : ℕ → Fl := fun i => Fl.fin (g ((i : ℝ) / 100)) with hl
  obtain ⟨n, best, p, h1, h2⟩ := scan_some g tol htol losses ((List.range 99).map (· + 1))
    (by simp only [List.mem_map, List.mem_range]; rintro i ⟨j, hj, rfl⟩; omega) 0 Fl.pinf none (Or.inl ⟨rfl, rfl, rfl⟩)
  unfold globalSearch globalCore
  simp only
  rw [h1]
  rcases h2 with ⟨k1, _, _, k2, _⟩ | ⟨k1, x, q, _, k2, _, _, k3, k4, _⟩
  · simp only [k1, if_true]
    by_cases heq : g 0 = g 1
    · right
      refine ⟨?_, heq, ?_⟩
      · rw [if_pos]
        · rfl
        · simpa [Fl.eq] using heq
      · intro i hi1 hi2 hcon
        refine k2 i ?_ ⟨hi1, hi2, ?_, ?_⟩
        · simp only [List.mem_map, List.mem_range]; exact ⟨i - 1, by omega, by omega⟩
        · exact hcon.1
        · exact hcon.2
    · left
      rw [if_neg (by simpa [Fl.eq] using heq)]
      by_cases hlt : g 0 < g 1
      · rw [if_pos (by simpa [Fl.fin_lt_fin] using hlt)]
        obtain ⟨loss, u, v, x, e1, e2, e3, e4, e5, _⟩ :=
          golden_result (fun p => Fl.fin (g p)) tol 0 (2/100) (by norm_num) htol
        exact ⟨(u + v) / 2, by rw [e1]; rfl, by linarith, by linarith⟩
      · rw [if_neg (by simpa [Fl.fin_lt_fin] using hlt)]
        obtain ⟨loss, u, v, x, e1, e2, e3, e4, e5, _⟩ :=
          golden_result (fun p => Fl.fin (g p)) tol (98/100) 1 (by norm_num) htol
        exact ⟨(u + v) / 2, by rw [e1]; rfl, by linarith, by linarith⟩
  · left
    refine ⟨q, ?_, k3, k4⟩
    simp only [k1.ne', if_false, k2]
    rfl

/-- The core of the positive result, for functions without interior bumps. -/
theorem global_valley (g : ℝ → ℝ) (tol m : ℝ) (htol : 0 < tol) (hv : Valley g 0 1) (hm : MinOn g 0 1 m)
    (hlast : ∀ q, m < q → q ≤ 1 → g m < g q) (hside : m ≤ 98/100 ∨ g 1 < g 0) :
    ∃ p x z m', globalSearch (fun (m : ℝ) (_ : Unit) => Fl.fin m) g () tol none false = .ok (none, some p) ∧ 0 ≤ p ∧ p ≤ 1
      ∧ 0 ≤ x ∧ x ≤ 1 ∧ 0 ≤ z ∧ z ≤ 1 ∧ 0 ≤ m' ∧ m' ≤ 1 ∧ |x - p| ≤ tol ∧ |z - m'| ≤ tol ∧ g m' ≤ g m ∧ g x ≤ g z := by
  have hsub : ∀ {a b : ℝ}, 0 ≤ a → b ≤ 1 → Valley g a b := fun ha hb x y z hx hxy hyz hz =>
    hv x y z (ha.trans hx) hxy hyz (hz.trans hb)
  have hmsub : ∀ {a b : ℝ}, 0 ≤ a → b ≤ 1 → a ≤ m → m ≤ b → MinOn g a b m := fun ha hb h1 h2 =>
    ⟨h1, h2, fun x hx hx' => hm.2.2 x (ha.trans hx) (hx'.trans hb)⟩
  have hinc : ∀ x y, m ≤ x → x < y → y ≤ 1 → g x < g y := by
    intro x y hx hxy hy
    rcases eq_or_lt_of_le hx with rfl | hx
    · exact hlast y hxy hy
    · have := hlast x hx (hxy.le.trans hy)
      rcases hv m x y hm.1 hx hxy hy with h | ⟨h, _⟩
      · rcases lt_max_iff.1 h with h | h
        · linarith
        · exact h
      · linarith
  set losses : ℕ → Fl := fun i => Fl.fin (g ((i : ℝ) / 100)) with hl
  obtain ⟨n, best, p, h1, h2⟩ := scan_some g tol htol losses ((List.range 99).map (· + 1))
    (by simp only [List.mem_map, List.mem_range]; rintro i ⟨j, hj, rfl⟩; omega) 0 Fl.pinf none (Or.inl ⟨rfl, rfl, rfl⟩)
  have hmem : ∀ i, 1 ≤ i → i ≤ 99 → i ∈ (List.range 99).map (· + 1) := by
    intro i hi1 hi2
    simp only [List.mem_map, List.mem_range]; exact ⟨i - 1, by omega, by omega⟩
  -- a rising triple whose window contains the minimiser
  have hrise : m ≤ 98/100 → ∃ i : ℕ, Rising losses i ∧ ((i : ℝ) - 2) / 100 ≤ m ∧ m ≤ ((i : ℝ) + 2) / 100 ∧ m ≤ 1 := by
    intro hm98
    have hm0 := hm.1
    set k := ⌈100 * m⌉₊ with hk
    have hk1 : 100 * m ≤ k := Nat.le_ceil _
    have hk2 : (k : ℝ) < 100 * m + 1 := Nat.ceil_lt_add_one (by linarith)
    have hk3 : k ≤ 98 := Nat.ceil_le.2 (by push_cast; linarith)
    have hk3' : (k : ℝ) ≤ 98 := by exact_mod_cast hk3
    refine ⟨k + 1, ⟨by omega, by omega, ?_, ?_⟩, ?_, ?_, by linarith⟩
    · rw [hl, Fl.fin_lt_fin]
      simp only [Nat.add_sub_cancel]
      push_cast
      exact hinc _ _ (by linarith) (by linarith) (by linarith)
    · rw [hl, Fl.fin_lt_fin]
      push_cast
      exact hinc _ _ (by linarith) (by linarith) (by linarith)
    · push_cast; linarith
    · push_cast; linarith
  unfold globalSearch globalCore
  simp only
  rw [h1]
  rcases h2 with ⟨k1, _, _, k2, _⟩ | ⟨k1, x, q, _, k2, k5, k6, k3, k4, k7, _, k8⟩
  · have hm98 : ¬ m ≤ 98/100 := by
      intro h
      obtain ⟨i, hi, _⟩ := hrise h
      exact k2 i (hmem i hi.1 hi.2.1) hi
    have hlt := hside.resolve_left hm98
    push Not at hm98
    simp only [k1, if_true]
    rw [if_neg (by simpa [Fl.eq] using hlt.ne'), if_neg (by simpa [Fl.fin_lt_fin] using hlt.le)]
    obtain ⟨loss, u, v, x, m', e1, e2, e3, e4, e5, e6, e7, e8, e9, e10⟩ :=
      golden_min g tol (98/100) 1 m (by norm_num) htol (hsub (by norm_num) le_rfl) (hmsub (by norm_num) le_rfl hm98.le hm.2.1)
    refine ⟨(u + v) / 2, x, x, m', by rw [e1]; rfl, by linarith, by linarith, by linarith, by linarith, by linarith, by linarith,
      by linarith, by linarith, ?_, ?_, e8.2.2 m hm98.le hm.2.1, le_rfl⟩
    · rw [abs_le]; constructor <;> linarith
    · rw [abs_le]; constructor <;> linarith
  · -- some window was searched; one of them contains the minimiser
    have hwin : ∃ i : ℕ, Rising losses i ∧ ((max ((i : ℤ) - 2) 0 : ℤ) : ℝ) / 100 ≤ m ∧ m ≤ ((min (i + 2) 100 : ℕ) : ℝ) / 100 := by
      have key : ∃ i : ℕ, Rising losses i ∧ ((i : ℝ) - 2) / 100 ≤ m ∧ m ≤ ((i : ℝ) + 2) / 100 := by
        by_cases hm98 : m ≤ 98/100
        · obtain ⟨i, a1, a2, a3, _⟩ := hrise hm98
          exact ⟨i, a1, a2, a3⟩
        · push Not at hm98
          -- some triple was rising, otherwise nothing would have been found
          by_contra hcon
          push Not at hcon
          have hnone : ∀ i ∈ (List.range 99).map (· + 1), ¬ Rising losses i := by
            intro i _ hr
            obtain ⟨r1, r2, r3, r4⟩ := id hr
            have hi2 : (i : ℝ) ≤ 99 := by exact_mod_cast r2
            have := hcon i hr (by linarith)
            by_cases h98 : i ≤ 98
            · -- before the minimiser the losses do not rise
              have h98' : (i : ℝ) ≤ 98 := by exact_mod_cast h98
              have h1' : ((i - 1 : ℕ) : ℝ) = (i : ℝ) - 1 := by rw [Nat.cast_sub r1]; norm_num
              have h1'' : (1 : ℝ) ≤ i := by exact_mod_cast r1
              rw [hl, Fl.fin_lt_fin, h1'] at r3
              have hmi := hm.2.2 ((i : ℝ) / 100) (by positivity) (by linarith)
              have hmi' := hm.2.2 (((i : ℝ) - 1) / 100) (by linarith) (by linarith)
              rcases hv (((i : ℝ) - 1) / 100) ((i : ℝ) / 100) m (by linarith) (by linarith) (by linarith) hm.2.1 with h | ⟨h, _⟩
              · rcases lt_max_iff.1 h with h | h <;> linarith
              · linarith
            · have h99 : i = 99 := by omega
              have hm1 := hm.2.1
              rw [h99] at this
              norm_num at this
              linarith
          have := scan_none losses (goldenSectionSearch (fun p => Fl.fin (g p)) tol) ((List.range 99).map (· + 1)) (0, Fl.pinf, none)
            (fun i hi hc => hnone i hi ⟨by simp only [List.mem_map, List.mem_range] at hi; omega,
              by simp only [List.mem_map, List.mem_range] at hi; omega, hc.1, hc.2⟩)
          rw [this] at h1
          have := (Prod.mk.inj (Except.ok.inj h1)).1
          omega
      obtain ⟨i, a1, a2, a3⟩ := key
      refine ⟨i, a1, ?_, ?_⟩
      · rcases le_total ((i : ℤ) - 2) 0 with h | h
        · rw [max_eq_right h]; push_cast; have := hm.1; linarith
        · rw [max_eq_left h]; push_cast; linarith
      · rcases le_total (i + 2) 100 with h | h
        · rw [min_eq_left h]; push_cast; linarith
        · rw [min_eq_right h]; have := hm.2.1; push_cast; linarith
    obtain ⟨i, a1, a2, a3⟩ := hwin
    obtain ⟨w1, w2, w3⟩ := window i a1.1 a1.2.1
    obtain ⟨loss, u, v, z, m', e1, e2, e3, e4, e5, e6, e7, e8, e9, e10⟩ :=
      golden_min g tol _ _ m w1 htol (hsub w2 w3) (hmsub w2 w3 a2 a3)
    refine ⟨q, x, z, m', ?_, k3, k4, k5, k6, by linarith, by linarith, by linarith, by linarith, k7, ?_, e8.2.2 m a2 a3, ?_⟩
    · simp only [k1.ne', if_false, k2]; rfl
    · rw [abs_le]; constructor <;> linarith
    · exact k8 i (hmem i a1.1 a1.2.1) a1 z _ (by rw [e1, e7])

/-- **C33, partial** (quality, convex distances): let `m` be the last minimiser of a convex distance.
If `m ≤ 0.98`, or if the distance at 1 is smaller than at 0, the prevalence returned is as good as every
other one, up to twice the variation `ε` of the distance over one tolerance. -/
theorem C33_global_search_convex_partial (g : ℝ → ℝ) (tol ε m : ℝ) (htol : 0 < tol) (hg : ConvexOn ℝ (Set.Icc 0 1) g)
    (hm : m ∈ Set.Icc (0:ℝ) 1) (hmin : ∀ q ∈ Set.Icc (0:ℝ) 1, g m ≤ g q) (hlast : ∀ q ∈ Set.Icc (0:ℝ) 1, m < q → g m < g q)
    (hside : m ≤ 98/100 ∨ g 1 < g 0)
    (hε : ∀ x ∈ Set.Icc (0:ℝ) 1, ∀ y ∈ Set.Icc (0:ℝ) 1, |x - y| ≤ tol → |g x - g y| ≤ ε) :
    ∃ p, globalSearch (fun (m : ℝ) (_ : Unit) => Fl.fin m) g () tol none false = .ok (none, some p) ∧ p ∈ Set.Icc (0:ℝ) 1
      ∧ ∀ q ∈ Set.Icc (0:ℝ) 1, g p ≤ g q + 2 * ε := by
  obtain ⟨p, x, z, m', h1, h2, h3, h4, h5, h6, h7, h8, h9, h10, h11, h12, h13⟩ :=
    global_valley g tol m htol (valley_of_convex hg) ⟨hm.1, hm.2, fun x hx hx' => hmin x ⟨hx, hx'⟩⟩
      (fun q hq hq' => hlast q ⟨hm.1.trans hq.le, hq'⟩ hq) hside
  refine ⟨p, h1, ⟨h2, h3⟩, fun q hq => ?_⟩
  have e1 := (abs_le.1 (hε x ⟨h4, h5⟩ p ⟨h2, h3⟩ h10)).1
  have e2 := (abs_le.1 (hε z ⟨h6, h7⟩ m' ⟨h8, h9⟩ h11)).2
  have := hmin q hq
  linarith

/-- **C33, partial** (quality, unimodal distances). -/
theorem C33_global_search_unimodal_partial (g : ℝ → ℝ) (tol ε m : ℝ) (htol : 0 < tol) (hm : m ∈ Set.Icc (0:ℝ) 1)
    (ha : StrictAntiOn g (Set.Icc 0 m)) (hi : StrictMonoOn g (Set.Icc m 1)) (hside : m ≤ 98/100 ∨ g 1 < g 0)
    (hε : ∀ x ∈ Set.Icc (0:ℝ) 1, ∀ y ∈ Set.Icc (0:ℝ) 1, |x - y| ≤ tol → |g x - g y| ≤ ε) :
    ∃ p, globalSearch (fun (m : ℝ) (_ : Unit) => Fl.fin m) g () tol none false = .ok (none, some p) ∧ p ∈ Set.Icc (0:ℝ) 1
      ∧ ∀ q ∈ Set.Icc (0:ℝ) 1, g p ≤ g q + 2 * ε := by
  obtain ⟨hmin, _⟩ := minOn_of_unimodal hm.1 hm.2 ha hi
  obtain ⟨p, x, z, m', h1, h2, h3, h4, h5, h6, h7, h8, h9, h10, h11, h12, h13⟩ :=
    global_valley g tol m htol (valley_of_unimodal ha hi) hmin
      (fun q hq hq' => hi ⟨le_rfl, hm.2⟩ ⟨hq.le, hq'⟩ hq) hside
  refine ⟨p, h1, ⟨h2, h3⟩, fun q hq => ?_⟩
  have e1 := (abs_le.1 (hε x ⟨h4, h5⟩ p ⟨h2, h3⟩ h10)).1
  have e2 := (abs_le.1 (hε z ⟨h6, h7⟩ m' ⟨h8, h9⟩ h11)).2
  have := hmin.2.2 q hq.1 hq.2
  linarith

/-- The hypotheses are met by an absolute value loss with its minimum at 0.3. -/
example : ConvexOn ℝ (Set.Icc (0:ℝ) 1) (fun p => |p - 3/10|) ∧ (∀ q ∈ Set.Icc (0:ℝ) 1, 3/10 < q → |(3/10:ℝ) - 3/10| < |q - 3/10|)
    ∧ ∀ x ∈ Set.Icc (0:ℝ) 1, ∀ y ∈ Set.Icc (0:ℝ) 1, |x - y| ≤ 1/10000 → |(|x - 3/10|) - (|y - 3/10|)| ≤ 1/10000 := by
  refine ⟨⟨convex_Icc _ _, ?_⟩, ?_, ?_⟩
  · intro x _ y _ s t hs ht hst
    simp only [smul_eq_mul]
    have : s * x + t * y - 3/10 = s * (x - 3/10) + t * (y - 3/10) := by
      obtain rfl : s = 1 - t := by linarith
      ring
    rw [this]
    calc _ ≤ |s * (x - 3/10)| + |t * (y - 3/10)| := abs_add_le _ _
      _ = _ := by rw [abs_mul, abs_mul, abs_of_nonneg hs, abs_of_nonneg ht]
  · intro q _ hq
    rw [sub_self, abs_zero]
    exact abs_pos.2 (by linarith)
  · intro x _ y _ h
    calc _ ≤ |(x - 3/10) - (y - 3/10)| := abs_abs_sub_abs_le_abs_sub _ _
      _ ≤ _ := by rwa [sub_sub_sub_cancel_right]

/-! ## Cached mixtures -/

/-- Handing back the mixtures computed in a previous call gives the answer of a call without them,
for every testing distribution. -/
theorem C29_cached_mixtures {M T : Type*} (dist : M → T → Fl) (mix : ℝ → M) (first now : T) (tol : ℝ) (cache : ℕ → M) (p : Option ℝ)
    (hfirst : globalSearch dist mix first tol none true = .ok (some cache, p)) :
    globalSearch dist mix now tol (some cache) true = globalSearch dist mix now tol none true := by
  have hc : cache = fun i : ℕ => mix ((i : ℝ) / 100) := by
    unfold globalSearch at hfirst
    simp only at hfirst
    cases h : globalCore (fun i => dist (mix ((i : ℝ) / 100)) first) (goldenSectionSearch (fun p => dist (mix p) first) tol) with
    | error e => rw [h] at hfirst; cases hfirst
    | ok r =>
      rw [h] at hfirst
      have := (Prod.mk.inj (Except.ok.inj hfirst)).1
      exact (Option.some.inj this).symm
  subst hc
  rfl

/-! ## C34 -/

/-- **C34**. A mixture of two distributions is a distribution, is affine in the prevalence and equals
the class distributions at the two ends. -/
theorem C34_mixture_of_pdfs {m : ℕ} (pos neg : Fin m → ℝ) (hpos : Spec.IsPrev pos) (hneg : Spec.IsPrev neg) (p : ℝ)
    (hp0 : 0 ≤ p) (hp1 : p ≤ 1) :
    Spec.IsPrev (mixtureOfPdfs p pos neg)
    ∧ (∀ q s i, mixtureOfPdfs (s * p + (1 - s) * q) pos neg i = s * mixtureOfPdfs p pos neg i + (1 - s) * mixtureOfPdfs q pos neg i)
    ∧ mixtureOfPdfs 1 pos neg = pos ∧ mixtureOfPdfs 0 pos neg = neg := by
  refine ⟨⟨fun i => ?_, ?_⟩, ?_, ?_, ?_⟩
  · unfold mixtureOfPdfs
    exact add_nonneg (mul_nonneg (hpos.1 i) hp0) (mul_nonneg (hneg.1 i) (by linarith))
  · unfold mixtureOfPdfs
    rw [Finset.sum_add_distrib, ← Finset.sum_mul, ← Finset.sum_mul, hpos.2, hneg.2]; ring
  · intro q s i; unfold mixtureOfPdfs; ring
  · funext i; simp [mixtureOfPdfs]
  · funext i; simp [mixtureOfPdfs]

example : Spec.IsPrev ![(1/4 : ℝ), 3/4] ∧ Spec.IsPrev ![(2/3 : ℝ), 1/3] := by
  constructor <;> constructor
  · intro i; fin_cases i <;> norm_num
  · norm_num [Fin.sum_univ_two]
  · intro i; fin_cases i <;> norm_num
  · norm_num [Fin.sum_univ_two]

end Verif.Props
