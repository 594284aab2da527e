import Verif.Props.EM
import Mathlib.Analysis.Convex.StdSimplex

/-!
# C152: how fast EM approaches the maximum likelihood
-/

namespace Verif.Props

open Verif.Model Verif.Spec

variable {α : Type*} {k : ℕ}

theorem sum_map_add' {β : Type*} (l : List β) (f g : β → ℝ) : (l.map fun x => f x + g x).sum = (l.map f).sum + (l.map g).sum := by
  induction l with
  | nil => simp
  | cons a l ih => simp only [List.map_cons, List.sum_cons, ih]; ring

theorem sum_map_sub' {β : Type*} (l : List β) (f g : β → ℝ) : (l.map fun x => f x - g x).sum = (l.map f).sum - (l.map g).sum := by
  induction l with
  | nil => simp
  | cons a l ih => simp only [List.map_cons, List.sum_cons, ih]; ring

/-- The sum of the posteriors of a class is the size of the bag times the new prevalence. -/
theorem sum_posterior {ptr p : Fin k → ℝ} {bag : List (Fin k → ℝ)} (hne : bag ≠ []) (c : Fin k) :
    (bag.map fun x => posterior ptr p x c).sum = bag.length * emMap ptr bag p c := by
  have hl : (bag.length : ℝ) ≠ 0 := by exact_mod_cast (List.length_pos_iff.2 hne).ne'
  unfold emMap
  field_simp

/-- What one iteration gains: the log-likelihood of any other prevalences exceeds that of `p` at most by what the iteration approaches them. -/
theorem em_gap {ptr p q : Fin k → ℝ} {bag : List (Fin k → ℝ)} (hne : bag ≠ []) (hptr : ∀ c, 0 < ptr c) (hrows : ∀ x ∈ bag, IsPrev x) (hp : Explained ptr p bag)
    (hq : Explained ptr q bag) (hpos : ∀ c, 0 < emMap ptr bag q c → 0 < p c) :
    logLik ptr bag q - logLik ptr bag p ≤ bag.length * ∑ c, emMap ptr bag q c * (Real.log (emMap ptr bag p c) - Real.log (p c))
      - bag.length * ∑ c, emMap ptr bag q c * (Real.log (emMap ptr bag q c) - Real.log (q c)) := by
  have hp' := emMap_isPrev hne hptr hrows hp
  have hq' := emMap_isPrev hne hptr hrows hq
  set q' := emMap ptr bag q with eq'
  set p' := emMap ptr bag p with ep'
  have hpp := fun x hx => posterior_isPrev hptr hp.1 (hrows x hx) (hp.2 x hx)
  have hqp := fun x hx => posterior_isPrev hptr hq.1 (hrows x hx) (hq.2 x hx)
  have hterm : ∀ x ∈ bag, ∀ c, posterior ptr q x c * (Real.log (mixDensity ptr q x) - Real.log (mixDensity ptr p x))
      ≤ posterior ptr q x c * (Real.log (q c) + Real.log (p' c) - Real.log (q' c) - Real.log (p c)) + (posterior ptr p x c * (q' c / p' c) - posterior ptr q x c) := by
    intro x hx c
    rcases ((hqp x hx).1 c).eq_or_lt with h0 | h0
    · rw [← h0]
      have := mul_nonneg ((hpp x hx).1 c) (div_nonneg (hq'.1 c) (hp'.1 c))
      linarith
    · have hfq := hq.2 x hx
      have hfp := hp.2 x hx
      have hq'c : 0 < q' c := emMap_pos hptr hrows hq hx h0
      have hpc := hpos c hq'c
      have hnum : 0 < q c * (x c / ptr c) := by
        by_contra hcon
        have : posterior ptr q x c ≤ 0 := div_nonpos_of_nonpos_of_nonneg (not_lt.1 hcon) hfq.le
        linarith
      have ha : 0 < x c / ptr c := pos_of_mul_pos_right hnum (hq.1.1 c)
      have hqc : 0 < q c := pos_of_mul_pos_left hnum ha.le
      have hp'c : 0 < p' c := emMap_pos hptr hrows hp hx (div_pos (mul_pos hpc ha) hfp)
      have hu : 0 < mixDensity ptr q x * q' c * p c / (mixDensity ptr p x * q c * p' c) := by positivity
      have h1 := Real.log_le_sub_one_of_pos hu
      rw [Real.log_div (by positivity) (by positivity), Real.log_mul (by positivity) hpc.ne', Real.log_mul hfq.ne' hq'c.ne', Real.log_mul (by positivity) hp'c.ne',
        Real.log_mul hfp.ne' hqc.ne'] at h1
      have h2 := mul_le_mul_of_nonneg_left h1 h0.le
      have h3 : posterior ptr q x c * (mixDensity ptr q x * q' c * p c / (mixDensity ptr p x * q c * p' c)) = posterior ptr p x c * (q' c / p' c) := by
        unfold posterior
        have := hfp.ne'
        have := hfq.ne'
        have := hqc.ne'
        have := hp'c.ne'
        field_simp
      rw [mul_sub _ _ (1:ℝ), h3] at h2
      linarith
  have hsum : ∀ x ∈ bag, Real.log (mixDensity ptr q x) - Real.log (mixDensity ptr p x)
      ≤ ∑ c, (posterior ptr q x c * (Real.log (q c) + Real.log (p' c) - Real.log (q' c) - Real.log (p c)) + (posterior ptr p x c * (q' c / p' c) - posterior ptr q x c)) := by
    intro x hx
    have := Finset.sum_le_sum fun c (_ : c ∈ Finset.univ) => hterm x hx c
    rwa [← Finset.sum_mul, (hqp x hx).2, one_mul] at this
  have htot := List.sum_le_sum hsum
  rw [sum_map_sub', ← sum_list_comm] at htot
  refine htot.trans ?_
  rw [Finset.mul_sum, Finset.mul_sum, ← Finset.sum_sub_distrib]
  have hl : (0:ℝ) ≤ bag.length := by positivity
  have hc : ∀ c, (bag.map fun x => posterior ptr q x c * (Real.log (q c) + Real.log (p' c) - Real.log (q' c) - Real.log (p c))
        + (posterior ptr p x c * (q' c / p' c) - posterior ptr q x c)).sum
      ≤ bag.length * (q' c * (Real.log (p' c) - Real.log (p c))) - bag.length * (q' c * (Real.log (q' c) - Real.log (q c))) := by
    intro c
    rw [sum_map_add', sum_map_sub', List.sum_map_mul_right, List.sum_map_mul_right, sum_posterior hne, sum_posterior hne, ← eq', ← ep']
    have : p' c * (q' c / p' c) ≤ q' c := by
      rcases (hp'.1 c).eq_or_lt with h0 | h0
      · rw [← h0, zero_mul]; exact hq'.1 c
      · rw [mul_div_cancel₀ _ h0.ne']
    have := mul_le_mul_of_nonneg_left this hl
    nlinarith
  exact Finset.sum_le_sum fun c _ => hc c

/-- Gibbs' inequality. -/
theorem gibbs {a b : Fin k → ℝ} (ha : IsPrev a) (hb : IsPrev b) (hpos : ∀ c, 0 < a c → 0 < b c) : 0 ≤ ∑ c, a c * (Real.log (a c) - Real.log (b c)) := by
  have : ∀ c, a c - b c ≤ a c * (Real.log (a c) - Real.log (b c)) := by
    intro c
    rcases (ha.1 c).eq_or_lt with h | h
    · rw [← h]; simpa using hb.1 c
    · have hbc := hpos c h
      have := Real.log_le_sub_one_of_pos (div_pos hbc h)
      rw [Real.log_div hbc.ne' h.ne'] at this
      have h2 := mul_le_mul_of_nonneg_left this h.le
      rw [mul_sub _ _ (1:ℝ), mul_div_cancel₀ _ h.ne'] at h2
      linarith
  have h := Finset.sum_le_sum fun c (_ : c ∈ Finset.univ) => this c
  rwa [Finset.sum_sub_distrib, ha.2, hb.2, sub_self] at h

/-- Gibbs' inequality, case of equality. -/
theorem gibbs_eq {a b : Fin k → ℝ} (ha : IsPrev a) (hb : IsPrev b) (hpos : ∀ c, 0 < a c → 0 < b c) (h0 : ∑ c, a c * (Real.log (a c) - Real.log (b c)) ≤ 0) : a = b := by
  by_contra hne
  obtain ⟨c0, hc0⟩ : ∃ c, a c ≠ b c := by
    by_contra hcon
    push Not at hcon
    exact hne (funext hcon)
  have hle : ∀ c, a c - b c ≤ a c * (Real.log (a c) - Real.log (b c)) ∧ (a c ≠ b c → 0 < a c → a c - b c < a c * (Real.log (a c) - Real.log (b c))) := by
    intro c
    rcases (ha.1 c).eq_or_lt with h | h
    · rw [← h]; exact ⟨by simpa using hb.1 c, fun _ h => absurd h (lt_irrefl _)⟩
    · have hbc := hpos c h
      have h1 := Real.log_le_sub_one_of_pos (div_pos hbc h)
      have h1' := fun hx => Real.log_lt_sub_one_of_pos (div_pos hbc h) hx
      rw [Real.log_div hbc.ne' h.ne'] at h1 h1'
      have e : a c * (b c / a c - 1) = b c - a c := by rw [mul_sub, mul_div_cancel₀ _ h.ne', mul_one]
      refine ⟨?_, fun hn _ => ?_⟩
      · have := mul_le_mul_of_nonneg_left h1 h.le
        rw [e] at this
        linarith
      · have := mul_lt_mul_of_pos_left (h1' fun h' => hn ((div_eq_one_iff_eq h.ne').1 h').symm) h
        rw [e] at this
        linarith
  -- some class has a positive `a` that differs
  obtain ⟨c1, h1, h2⟩ : ∃ c, a c ≠ b c ∧ 0 < a c := by
    by_contra hcon
    push Not at hcon
    have hab : ∀ c, a c ≤ b c := fun c => by
      by_cases hc : a c = b c
      · exact hc.le
      · exact (hcon c hc).trans (hb.1 c)
    have : ∑ c, a c < ∑ c, b c := Finset.sum_lt_sum (fun c _ => hab c) ⟨c0, Finset.mem_univ _, lt_of_le_of_ne (hab c0) hc0⟩
    rw [ha.2, hb.2] at this
    exact lt_irrefl _ this
  have h := Finset.sum_lt_sum (fun c (_ : c ∈ Finset.univ) => (hle c).1) ⟨c1, Finset.mem_univ _, (hle c1).2 h1 h2⟩
  rw [Finset.sum_sub_distrib, ha.2, hb.2, sub_self] at h
  linarith

/-- The iterates are positive in the classes that some example supports. -/
theorem emIterate_pos {ptr : Fin k → ℝ} {bag : List (Fin k → ℝ)} (hne : bag ≠ []) (hp : IsPrev ptr) (hptr : ∀ c, 0 < ptr c) (hrows : ∀ x ∈ bag, IsPrev x) {x : Fin k → ℝ}
    (hx : x ∈ bag) {c : Fin k} (hc : 0 < x c) (t : ℕ) : 0 < emIterate ptr bag t c := by
  induction t with
  | zero => exact hptr c
  | succ t ih =>
    have hex := emIterate_explained hne hp hptr hrows t
    rw [emIterate_succ]
    exact emMap_pos hptr hrows hex hx (div_pos (mul_pos ih (div_pos hc (hptr c))) (hex.2 x hx))

theorem emMap_support {ptr q : Fin k → ℝ} {bag : List (Fin k → ℝ)} (hptr : ∀ c, 0 < ptr c) (hrows : ∀ x ∈ bag, IsPrev x) (hq : Explained ptr q bag) {c : Fin k} (hc : 0 < emMap ptr bag q c) :
    0 < q c ∧ ∃ x ∈ bag, 0 < x c := by
  have : ∃ x ∈ bag, 0 < posterior ptr q x c := by
    by_contra hcon
    push Not at hcon
    have : (bag.map fun x => posterior ptr q x c).sum ≤ (bag.map fun _ => (0:ℝ)).sum := List.sum_le_sum hcon
    simp only [List.map_const', List.sum_replicate, smul_zero] at this
    have : emMap ptr bag q c ≤ 0 := div_nonpos_of_nonpos_of_nonneg this (by positivity)
    linarith
  obtain ⟨x, hx, h⟩ := this
  have hnum : 0 < q c * (x c / ptr c) := by
    by_contra hcon
    have : posterior ptr q x c ≤ 0 := div_nonpos_of_nonpos_of_nonneg (not_lt.1 hcon) (hq.2 x hx).le
    linarith
  have ha : 0 < x c / ptr c := pos_of_mul_pos_right hnum (hq.1.1 c)
  exact ⟨pos_of_mul_pos_left hnum ha.le, x, hx, by simpa [div_pos_iff, hptr c, (hptr c).le] using ha⟩

/-- The gaps of the first `T` iterates add up to a bounded number. -/
theorem em_sum_gaps {ptr q : Fin k → ℝ} {bag : List (Fin k → ℝ)} (hne : bag ≠ []) (hp : IsPrev ptr) (hptr : ∀ c, 0 < ptr c) (hrows : ∀ x ∈ bag, IsPrev x)
    (hq : Explained ptr q bag) (T : ℕ) :
    ∑ t ∈ Finset.range T, (logLik ptr bag q - logLik ptr bag (emIterate ptr bag t))
      ≤ bag.length * ∑ c, emMap ptr bag q c * (Real.log (emIterate ptr bag T c) - Real.log (ptr c))
      - T * (bag.length * ∑ c, emMap ptr bag q c * (Real.log (emMap ptr bag q c) - Real.log (q c))) := by
  induction T with
  | zero => simp [emIterate]
  | succ T ih =>
    rw [Finset.sum_range_succ]
    have h := em_gap hne hptr hrows (emIterate_explained hne hp hptr hrows T) hq fun c hc => by
      obtain ⟨-, x, hx, hxc⟩ := emMap_support hptr hrows hq hc
      exact emIterate_pos hne hp hptr hrows hx hxc T
    rw [← emIterate_succ] at h
    have e : ∑ c, emMap ptr bag q c * (Real.log (emIterate ptr bag (T + 1) c) - Real.log (ptr c))
        = ∑ c, emMap ptr bag q c * (Real.log (emIterate ptr bag T c) - Real.log (ptr c))
          + ∑ c, emMap ptr bag q c * (Real.log (emIterate ptr bag (T + 1) c) - Real.log (emIterate ptr bag T c)) := by
      rw [← Finset.sum_add_distrib]
      exact Finset.sum_congr rfl fun c _ => by ring
    rw [e]
    push_cast
    linarith

theorem em_monotone {ptr : Fin k → ℝ} {bag : List (Fin k → ℝ)} (hne : bag ≠ []) (hp : IsPrev ptr) (hptr : ∀ c, 0 < ptr c) (hrows : ∀ x ∈ bag, IsPrev x) :
    Monotone fun t => logLik ptr bag (emIterate ptr bag t) :=
  monotone_nat_of_le_succ fun t => by
    simp only [emIterate_succ]
    exact em_mono hne hptr hrows (emIterate_explained hne hp hptr hrows t)

/-- The rate, for the iterates. -/
theorem em_rate {ptr q : Fin k → ℝ} {bag : List (Fin k → ℝ)} (hne : bag ≠ []) (hp : IsPrev ptr) (hptr : ∀ c, 0 < ptr c) (hrows : ∀ x ∈ bag, IsPrev x)
    (hq : Explained ptr q bag) {m : ℝ} (hm : 0 < m) (hmin : ∀ c, m ≤ ptr c) (T : ℕ) :
    logLik ptr bag q - logLik ptr bag (emIterate ptr bag T) ≤ bag.length * Real.log (1 / m) / (T + 1) := by
  have h := em_sum_gaps hne hp hptr hrows hq (T + 1)
  have hq' := emMap_isPrev hne hptr hrows hq
  have hkl := gibbs hq' hq.1 fun c hc => (emMap_support hptr hrows hq hc).1
  have hl : (0:ℝ) ≤ bag.length := by positivity
  have h1 : (T + 1 : ℝ) * (logLik ptr bag q - logLik ptr bag (emIterate ptr bag T)) ≤ ∑ t ∈ Finset.range (T + 1), (logLik ptr bag q - logLik ptr bag (emIterate ptr bag t)) := by
    have := Finset.card_nsmul_le_sum (Finset.range (T + 1)) (fun t => logLik ptr bag q - logLik ptr bag (emIterate ptr bag t))
      (logLik ptr bag q - logLik ptr bag (emIterate ptr bag T)) fun t ht => sub_le_sub_left (em_monotone hne hp hptr hrows (Nat.lt_succ_iff.1 (Finset.mem_range.1 ht))) _
    rw [Finset.card_range, nsmul_eq_mul] at this
    push_cast at this
    exact this
  have h2 : ∑ c, emMap ptr bag q c * (Real.log (emIterate ptr bag (T + 1) c) - Real.log (ptr c)) ≤ Real.log (1 / m) := by
    have : ∀ c, emMap ptr bag q c * (Real.log (emIterate ptr bag (T + 1) c) - Real.log (ptr c)) ≤ emMap ptr bag q c * Real.log (1 / m) := by
      intro c
      apply mul_le_mul_of_nonneg_left _ (hq'.1 c)
      have hT := (emIterate_explained hne hp hptr hrows (T + 1)).1
      have h3 : Real.log (emIterate ptr bag (T + 1) c) ≤ 0 := Real.log_nonpos (hT.1 c) (by rw [← hT.2]; exact Finset.single_le_sum (fun j _ => hT.1 j) (Finset.mem_univ c))
      have h4 := Real.log_le_log hm (hmin c)
      rw [one_div, Real.log_inv]
      linarith
    refine (Finset.sum_le_sum fun c _ => this c).trans ?_
    rw [← Finset.sum_mul, hq'.2, one_mul]
  rw [le_div_iff₀ (by positivity)]
  have h3 := mul_le_mul_of_nonneg_left h2 hl
  have h4 : (0:ℝ) ≤ ((T + 1 : ℕ) : ℝ) * (bag.length * ∑ c, emMap ptr bag q c * (Real.log (emMap ptr bag q c) - Real.log (q c))) := by positivity
  linarith

/-! ## The iterates converge -/

theorem log_prod {β : Type*} (l : List β) (f : β → ℝ) (h : ∀ x ∈ l, 0 < f x) : 0 < (l.map f).prod ∧ Real.log (l.map f).prod = (l.map fun x => Real.log (f x)).sum := by
  induction l with
  | nil => simp
  | cons a l ih =>
    obtain ⟨h1, h2⟩ := ih fun x hx => h x (List.mem_cons_of_mem _ hx)
    have ha := h a List.mem_cons_self
    simp only [List.map_cons, List.prod_cons, List.sum_cons]
    exact ⟨mul_pos ha h1, by rw [Real.log_mul ha.ne' h1.ne', h2]⟩

theorem prod_pos {β : Type*} (l : List β) (f : β → ℝ) (h : ∀ x ∈ l, 0 ≤ f x) (h0 : (l.map f).prod ≠ 0) : ∀ x ∈ l, 0 < f x := by
  intro x hx
  refine lt_of_le_of_ne (h x hx) fun h1 => h0 ?_
  exact List.prod_eq_zero (List.mem_map.2 ⟨x, hx, h1.symm⟩)

open Filter Topology in
/-- The iterates of EM converge to prevalences of maximum likelihood. -/
theorem em_converges {ptr : Fin k → ℝ} {bag : List (Fin k → ℝ)} (hne : bag ≠ []) (hp : IsPrev ptr) (hptr : ∀ c, 0 < ptr c) (hrows : ∀ x ∈ bag, IsPrev x) :
    ∃ p, Explained ptr p bag ∧ (∀ q, Explained ptr q bag → logLik ptr bag q ≤ logLik ptr bag p) ∧ Tendsto (emIterate ptr bag) atTop (𝓝 p) := by
  have hl : (0:ℝ) < bag.length := by exact_mod_cast List.length_pos_iff.2 hne
  have hex := fun t => emIterate_explained hne hp hptr hrows t
  have hcomp : IsCompact (stdSimplex ℝ (Fin k)) := isCompact_stdSimplex ℝ (Fin k)
  have hmem : ∀ t, emIterate ptr bag t ∈ stdSimplex ℝ (Fin k) := fun t => ⟨(hex t).1.1, (hex t).1.2⟩
  have hcont : ∀ x, Continuous fun p => mixDensity ptr p x := fun x => by
    unfold mixDensity
    exact continuous_finsetSum _ fun c _ => (continuous_apply c).mul continuous_const
  obtain ⟨m, hm, hmin⟩ : ∃ m : ℝ, 0 < m ∧ ∀ c, m ≤ ptr c := by
    rcases isEmpty_or_nonempty (Fin k) with h | h
    · exact ⟨1, one_pos, fun c => (h.false c).elim⟩
    · obtain ⟨c0, hc0⟩ := Finite.exists_min ptr
      exact ⟨ptr c0, hptr c0, hc0⟩
  have h0 : logLik ptr bag (emIterate ptr bag 0) = 0 := by
    unfold logLik
    apply List.sum_eq_zero
    intro v hv
    obtain ⟨x, hx, rfl⟩ := List.mem_map.1 hv
    have : mixDensity ptr (emIterate ptr bag 0) x = 1 := by
      show ∑ c, ptr c * (x c / ptr c) = 1
      rw [← (hrows x hx).2]
      exact Finset.sum_congr rfl fun c _ => by have := (hptr c).ne'; field_simp
    rw [this, Real.log_one]
  have hmono := em_monotone hne hp hptr hrows
  -- a limit point explains the bag
  have hlim : ∀ (φ : ℕ → ℕ) (p : Fin k → ℝ), Tendsto (fun n => emIterate ptr bag (φ n)) atTop (𝓝 p) → p ∈ stdSimplex ℝ (Fin k) → Explained ptr p bag := by
    intro φ p hφ hpS
    refine ⟨⟨hpS.1, hpS.2⟩, prod_pos bag _ (fun x hx => Finset.sum_nonneg fun c _ => mul_nonneg (hpS.1 c) (div_nonneg ((hrows x hx).1 c) (hptr c).le)) ?_⟩
    have hc : Continuous fun p => (bag.map fun x => mixDensity ptr p x).prod := continuous_list_prod bag fun x _ => hcont x
    have h1 := (hc.tendsto p).comp hφ
    have h2 : ∀ n, (1:ℝ) ≤ (bag.map fun x => mixDensity ptr (emIterate ptr bag (φ n)) x).prod := by
      intro n
      obtain ⟨h3, h4⟩ := log_prod bag (fun x => mixDensity ptr (emIterate ptr bag (φ n)) x) (hex (φ n)).2
      rw [← Real.log_nonneg_iff h3, h4]
      have := hmono (Nat.zero_le (φ n))
      simp only [h0] at this
      exact this
    have := ge_of_tendsto' h1 h2
    linarith
  obtain ⟨p, hpS, φ, hφ, hφp⟩ := hcomp.tendsto_subseq hmem
  have hpe := hlim φ p hφp hpS
  have hopt : ∀ q, Explained ptr q bag → logLik ptr bag q ≤ logLik ptr bag p := by
    intro q hq
    have hL : Tendsto (fun n => logLik ptr bag (emIterate ptr bag (φ n))) atTop (𝓝 (logLik ptr bag p)) := by
      unfold logLik
      exact tendsto_list_sum bag fun x hx => ((Real.continuousAt_log (hpe.2 x hx).ne').tendsto.comp ((hcont x).tendsto p)).comp hφp
    have hR : Tendsto (fun n : ℕ => (bag.length * Real.log (1 / m)) / ((φ n : ℝ) + 1)) atTop (𝓝 0) :=
      (tendsto_const_div_atTop_nhds_zero_nat (𝕜 := ℝ) (bag.length * Real.log (1 / m))).comp ((tendsto_add_atTop_nat 1).comp hφ.tendsto_atTop) |>.congr fun n => by
        simp [Function.comp]
    have := le_of_tendsto_of_tendsto' (tendsto_const_nhds (x := logLik ptr bag q)) (hL.add hR) fun n => by
      have := em_rate hne hp hptr hrows hq hm hmin (φ n)
      linarith
    linarith
  have hgap : ∀ t, 0 ≤ logLik ptr bag p - logLik ptr bag (emIterate ptr bag t) := fun t => sub_nonneg.2 (hopt _ (hex t))
  have hp' := emMap_isPrev hne hptr hrows hpe
  -- the limit is a fixed point
  have hfix : emMap ptr bag p = p := by
    apply gibbs_eq hp' hpe.1 fun c hc => (emMap_support hptr hrows hpe hc).1
    by_contra hcon
    push Not at hcon
    set K := ∑ c, emMap ptr bag p c * (Real.log (emMap ptr bag p c) - Real.log (p c)) with hK
    obtain ⟨T, hT⟩ := exists_nat_gt (Real.log (1 / m) / K)
    have h1 := em_sum_gaps hne hp hptr hrows hpe T
    have h2 : 0 ≤ ∑ t ∈ Finset.range T, (logLik ptr bag p - logLik ptr bag (emIterate ptr bag t)) := Finset.sum_nonneg fun t _ => hgap t
    have h3 : ∑ c, emMap ptr bag p c * (Real.log (emIterate ptr bag T c) - Real.log (ptr c)) ≤ Real.log (1 / m) := by
      have : ∀ c, emMap ptr bag p c * (Real.log (emIterate ptr bag T c) - Real.log (ptr c)) ≤ emMap ptr bag p c * Real.log (1 / m) := by
        intro c
        apply mul_le_mul_of_nonneg_left _ (hp'.1 c)
        have hT := (hex T).1
        have h3 : Real.log (emIterate ptr bag T c) ≤ 0 := Real.log_nonpos (hT.1 c) (by rw [← hT.2]; exact Finset.single_le_sum (fun j _ => hT.1 j) (Finset.mem_univ c))
        have h4 := Real.log_le_log hm (hmin c)
        rw [one_div, Real.log_inv]
        linarith
      refine (Finset.sum_le_sum fun c _ => this c).trans ?_
      rw [← Finset.sum_mul, hp'.2, one_mul]
    rw [div_lt_iff₀ hcon] at hT
    rw [← hK] at h1
    have h4 := mul_le_mul_of_nonneg_left h3 hl.le
    have h5 := mul_lt_mul_of_pos_left hT hl
    nlinarith
  -- the divergence from the limit decreases
  set Φ : ℕ → ℝ := fun t => ∑ c, p c * Real.log (emIterate ptr bag t c) with hΦ
  have hppos : ∀ c, 0 < p c → ∀ t, 0 < emIterate ptr bag t c := by
    intro c hc t
    rw [← hfix] at hc
    obtain ⟨-, x, hx, hxc⟩ := emMap_support hptr hrows hpe hc
    exact emIterate_pos hne hp hptr hrows hx hxc t
  have hΦmono : Monotone Φ := by
    apply monotone_nat_of_le_succ
    intro t
    have h1 := em_gap hne hptr hrows (hex t) hpe fun c hc => hppos c (by rwa [hfix] at hc) t
    rw [← emIterate_succ, hfix] at h1
    simp only [sub_self, mul_zero, Finset.sum_const_zero, sub_zero] at h1
    have h2 := (hgap t).trans h1
    have h3 := nonneg_of_mul_nonneg_right h2 hl
    simp only [mul_sub, Finset.sum_sub_distrib] at h3
    simp only [hΦ]
    linarith
  have hΦlim : ∀ (ψ : ℕ → ℕ) (r : Fin k → ℝ), Tendsto (fun n => emIterate ptr bag (ψ n)) atTop (𝓝 r) →
      (∀ c, 0 < p c → 0 < r c) ∧ Tendsto (fun n => Φ (ψ n)) atTop (𝓝 (∑ c, p c * Real.log (r c))) := by
    intro ψ r hψ
    have hr : ∀ c, 0 < p c → 0 < r c := by
      intro c hc
      have hb : ∀ t, Real.exp (Φ 0 / p c) ≤ emIterate ptr bag t c := by
        intro t
        rw [← Real.le_log_iff_exp_le (hppos c hc t), div_le_iff₀ hc, mul_comm]
        refine (hΦmono (Nat.zero_le t)).trans ?_
        have hT := (hex t).1
        have hneg : ∀ j, p j * Real.log (emIterate ptr bag t j) ≤ 0 := fun j =>
          mul_nonpos_of_nonneg_of_nonpos (hpS.1 j) (Real.log_nonpos (hT.1 j) (by rw [← hT.2]; exact Finset.single_le_sum (fun j _ => hT.1 j) (Finset.mem_univ j)))
        have := Finset.single_le_sum (f := fun j => -(p j * Real.log (emIterate ptr bag t j))) (fun j _ => neg_nonneg.2 (hneg j)) (Finset.mem_univ c)
        simp only [Finset.sum_neg_distrib] at this
        simp only [hΦ]
        linarith
      have := ge_of_tendsto' (((continuous_apply c).tendsto r).comp hψ) fun n => hb (ψ n)
      exact lt_of_lt_of_le (Real.exp_pos _) this
    refine ⟨hr, ?_⟩
    apply tendsto_finsetSum
    intro c _
    rcases (hpS.1 c).eq_or_lt with hc | hc
    · simp only [← hc, zero_mul]; exact tendsto_const_nhds
    · exact ((Real.continuousAt_log (hr c hc).ne').tendsto.comp (((continuous_apply c).tendsto r).comp hψ)).const_mul _
  have hΦp : Tendsto Φ atTop (𝓝 (∑ c, p c * Real.log (p c))) := (tendsto_iff_tendsto_subseq_of_monotone hΦmono hφ.tendsto_atTop).2 (hΦlim φ p hφp).2
  refine ⟨p, hpe, hopt, ?_⟩
  apply tendsto_of_subseq_tendsto
  intro ns hns
  obtain ⟨r, hrS, ms, hms, hmr⟩ := hcomp.tendsto_subseq fun n => hmem (ns n)
  refine ⟨ms, ?_⟩
  obtain ⟨h1, h2⟩ := hΦlim (fun n => ns (ms n)) r hmr
  have h3 := tendsto_nhds_unique h2 (hΦp.comp (hns.comp hms.tendsto_atTop))
  have : p = r := gibbs_eq hpe.1 ⟨hrS.1, hrS.2⟩ h1 (by
    simp only [mul_sub, Finset.sum_sub_distrib]
    rw [h3]
    exact (sub_self _).le)
  rw [this]
  exact hmr

/-! ## C152 -/

/-- **C152**, rate: after `T` iterations no prevalence vector explains the bag better than the answer by more than `N log (1 / m) / (T + 1)`, where `N` is the size of the bag and `m` any positive
lower bound of the training prevalences. -/
theorem C152_em_rate [LinearOrder α] (y : List α) (hy : y ≠ []) (bag : List (Fin (labelsOf y).length → ℝ)) (hne : bag ≠ []) (hrows : ∀ x ∈ bag, IsPrev x) (eps : ℝ) (maxIter : ℕ) :
    ∃ r p, emPredict (emFit (labelsOf y) y) bag eps maxIter = .ok r ∧ r.prevalences = (fun c => Fl.fin (p c)) ∧ IsPrev p ∧ ∀ m, 0 < m → (∀ c, m ≤ freqs (labelsOf y) y c) →
      ∀ q, IsPrev q → (∀ x ∈ bag, 0 < mixDensity (freqs (labelsOf y) y) q x) →
        logLik (freqs (labelsOf y) y) bag q ≤ logLik (freqs (labelsOf y) y) bag p + bag.length * Real.log (1 / m) / (r.iterations + 1) := by
  obtain ⟨_, h2, h3⟩ := emFit_eq y hy
  obtain ⟨r, T, e0, rfl, e, -⟩ := C49_em_stops y hy bag hne hrows eps maxIter
  refine ⟨r, _, e0, e, (emIterate_explained hne h2 h3 hrows _).1, fun m hm hmin q hq hqd => ?_⟩
  have := em_rate hne h2 h3 hrows ⟨hq, hqd⟩ hm hmin r.iterations
  linarith

/-- **C152**, rate in terms of the sizes: the mean log-likelihood of an example is at most `log n / (T + 1)` below the maximum, where `n` is the size of the training set. -/
theorem C152_em_rate_size [LinearOrder α] (y : List α) (hy : y ≠ []) (bag : List (Fin (labelsOf y).length → ℝ)) (hne : bag ≠ []) (hrows : ∀ x ∈ bag, IsPrev x) (eps : ℝ) (maxIter : ℕ) :
    ∃ r p, emPredict (emFit (labelsOf y) y) bag eps maxIter = .ok r ∧ r.prevalences = (fun c => Fl.fin (p c)) ∧ IsPrev p ∧
      ∀ q, IsPrev q → (∀ x ∈ bag, 0 < mixDensity (freqs (labelsOf y) y) q x) →
        logLik (freqs (labelsOf y) y) bag q / bag.length ≤ logLik (freqs (labelsOf y) y) bag p / bag.length + Real.log y.length / (r.iterations + 1) := by
  obtain ⟨r, p, e0, e, hp, h⟩ := C152_em_rate y hy bag hne hrows eps maxIter
  refine ⟨r, p, e0, e, hp, fun q hq hqd => ?_⟩
  have hy' : (0:ℝ) < y.length := by exact_mod_cast List.length_pos_iff.2 hy
  have hl : (0:ℝ) < bag.length := by exact_mod_cast List.length_pos_iff.2 hne
  have := h (1 / y.length) (by positivity) (fun c => by
    unfold freqs freq
    have h1 : 1 ≤ y.count (labelsOf y)[c] := List.count_pos_iff.2 ((mem_labelsOf y _).1 (List.getElem_mem c.2))
    have h1' : (1:ℝ) ≤ y.count (labelsOf y)[c] := by exact_mod_cast h1
    exact div_le_div_of_nonneg_right h1' hy'.le) q hq hqd
  rw [one_div_one_div] at this
  rw [div_add' _ _ _ hl.ne', div_le_div_iff_of_pos_right hl]
  refine this.trans (le_of_eq ?_)
  ring

open Filter Topology in
/-- **C152**, limit: there are prevalences that explain the bag at least as well as any others and that the answers approach: with a small enough tolerance and enough iterations allowed, the
answer is as near to them as wanted. -/
theorem C152_em_limit [LinearOrder α] (y : List α) (hy : y ≠ []) (bag : List (Fin (labelsOf y).length → ℝ)) (hne : bag ≠ []) (hrows : ∀ x ∈ bag, IsPrev x) :
    ∃ p, IsPrev p ∧ (∀ x ∈ bag, 0 < mixDensity (freqs (labelsOf y) y) p x)
      ∧ (∀ q, IsPrev q → (∀ x ∈ bag, 0 < mixDensity (freqs (labelsOf y) y) q x) → logLik (freqs (labelsOf y) y) bag q ≤ logLik (freqs (labelsOf y) y) bag p)
      ∧ ∀ δ > 0, ∃ eps0 > 0, ∃ n0, ∀ eps ≤ eps0, ∀ maxIter ≥ n0, ∃ r, ∃ a : Fin (labelsOf y).length → ℝ, emPredict (emFit (labelsOf y) y) bag eps maxIter = .ok r ∧ r.prevalences = (fun c => Fl.fin (a c))
        ∧ ∀ c, |a c - p c| < δ := by
  obtain ⟨_, h2, h3⟩ := emFit_eq y hy
  have hk : 0 < (labelsOf y).length := Nat.pos_of_ne_zero fun h0 => by
    have := h2.2
    rw [Finset.sum_eq_zero fun c _ => absurd c.2 (by omega)] at this
    norm_num at this
  set ptr := freqs (labelsOf y) y with hptr
  obtain ⟨p, hpe, hopt, hlim⟩ := em_converges hne h2 h3 hrows
  refine ⟨p, hpe.1, hpe.2, fun q hq hqd => hopt q ⟨hq, hqd⟩, fun δ hδ => ?_⟩
  -- from some iterate on, all are near
  obtain ⟨t0, ht0⟩ : ∃ t0, ∀ t ≥ t0, ∀ c, |emIterate ptr bag t c - p c| < δ := by
    obtain ⟨t0, ht0⟩ := Metric.tendsto_atTop.1 hlim δ hδ
    refine ⟨t0, fun t ht c => ?_⟩
    have := lt_of_le_of_lt (dist_le_pi_dist (emIterate ptr bag t) p c) (ht0 t ht)
    rwa [Real.dist_eq] at this
  -- a tolerance smaller than the changes before it
  obtain ⟨eps0, heps, hsmall⟩ : ∃ eps0 > 0, ∀ s < t0, 0 < meanChange (emIterate ptr bag s) (emIterate ptr bag (s - 1)) → eps0 < meanChange (emIterate ptr bag s) (emIterate ptr bag (s - 1)) := by
    clear ht0
    induction t0 with
    | zero => exact ⟨1, one_pos, fun s hs => absurd hs (by omega)⟩
    | succ t ih =>
      obtain ⟨e, he, h⟩ := ih
      by_cases hc : 0 < meanChange (emIterate ptr bag t) (emIterate ptr bag (t - 1))
      · refine ⟨min e (meanChange (emIterate ptr bag t) (emIterate ptr bag (t - 1)) / 2), lt_min he (by positivity), fun s hs h0 => ?_⟩
        rcases Nat.lt_succ_iff_lt_or_eq.1 hs with hlt | rfl
        · exact lt_of_le_of_lt (min_le_left _ _) (h s hlt h0)
        · exact lt_of_le_of_lt (min_le_right _ _) (by linarith)
      · refine ⟨e, he, fun s hs h0 => ?_⟩
        rcases Nat.lt_succ_iff_lt_or_eq.1 hs with hlt | rfl
        · exact h s hlt h0
        · exact absurd h0 hc
  refine ⟨eps0, heps, t0, fun eps hle maxIter hmax => ?_⟩
  obtain ⟨r, T, e0, -, e, e1, e2, e3, -⟩ := C49_em_stops y hy bag hne hrows eps maxIter
  refine ⟨r, _, e0, e, ?_⟩
  by_cases hT : t0 ≤ T
  · exact ht0 T hT
  · -- the loop stopped at a fixed point
    push Not at hT
    have hch := e3 (by omega)
    have hzero : meanChange (emIterate ptr bag T) (emIterate ptr bag (T - 1)) ≤ 0 := by
      by_contra hcon
      have := hsmall T hT (not_le.1 hcon)
      linarith
    have hTpos : 0 < T := by omega
    have hk' : (0:ℝ) < (labelsOf y).length := by exact_mod_cast hk
    have hsum : ∑ j, |emIterate ptr bag T j - emIterate ptr bag (T - 1) j| ≤ 0 := by
      unfold meanChange at hzero
      by_contra hcon
      have := div_pos (not_le.1 hcon) hk'
      linarith
    have heq : emIterate ptr bag T = emIterate ptr bag (T - 1) := by
      funext c
      have h1 := Finset.single_le_sum (f := fun j => |emIterate ptr bag T j - emIterate ptr bag (T - 1) j|) (fun j _ => abs_nonneg _) (Finset.mem_univ c)
      have h4 : |emIterate ptr bag T c - emIterate ptr bag (T - 1) c| ≤ 0 := h1.trans hsum
      exact sub_eq_zero.1 (abs_nonpos_iff.1 h4)
    have hfix : emMap ptr bag (emIterate ptr bag (T - 1)) = emIterate ptr bag (T - 1) := by
      rw [← emIterate_succ, Nat.sub_add_cancel hTpos, heq]
    have hall : ∀ n, emIterate ptr bag (T - 1 + n) = emIterate ptr bag (T - 1) := by
      intro n
      induction n with
      | zero => rfl
      | succ n ih => rw [← add_assoc, emIterate_succ, ih, hfix]
    rw [heq, ← hall (t0 - (T - 1))]
    exact ht0 _ (by omega)

open Filter Topology in
/-- **C152**, termination by the tolerance: for every positive tolerance there is a number of iterations that the program never exceeds, whatever `max_iter` is. -/
theorem C152_em_terminates [LinearOrder α] (y : List α) (hy : y ≠ []) (bag : List (Fin (labelsOf y).length → ℝ)) (hne : bag ≠ []) (hrows : ∀ x ∈ bag, IsPrev x) (eps : ℝ) (heps : 0 < eps) :
    ∃ n0, ∀ maxIter, ∃ r, emPredict (emFit (labelsOf y) y) bag eps maxIter = .ok r ∧ r.iterations ≤ n0 := by
  obtain ⟨_, h2, h3⟩ := emFit_eq y hy
  have hk : 0 < (labelsOf y).length := Nat.pos_of_ne_zero fun h0 => by
    have := h2.2
    rw [Finset.sum_eq_zero fun c _ => absurd c.2 (by omega)] at this
    norm_num at this
  obtain ⟨p, hpe, hopt, hlim⟩ := em_converges hne h2 h3 hrows
  have hk' : (0:ℝ) < (labelsOf y).length := by exact_mod_cast hk
  obtain ⟨t0, ht0⟩ := Metric.tendsto_atTop.1 hlim (eps / 2) (by positivity)
  refine ⟨t0 + 11, fun maxIter => ?_⟩
  obtain ⟨r, T, e0, rfl, e, e1, e2, e3, e4⟩ := C49_em_stops y hy bag hne hrows eps maxIter
  refine ⟨r, e0, ?_⟩
  by_contra hcon
  push Not at hcon
  have h := e4 (t0 + 11) (by omega) hcon
  unfold meanChange at h
  rw [lt_div_iff₀ hk'] at h
  have : ∑ j, |emIterate (freqs (labelsOf y) y) bag (t0 + 11) j - emIterate (freqs (labelsOf y) y) bag (t0 + 11 - 1) j| ≤ ∑ _j : Fin (labelsOf y).length, eps := by
    apply Finset.sum_le_sum
    intro j _
    have h5 := lt_of_le_of_lt (dist_le_pi_dist _ p j) (ht0 (t0 + 11) (by omega))
    have h6 := lt_of_le_of_lt (dist_le_pi_dist _ p j) (ht0 (t0 + 11 - 1) (by omega))
    rw [Real.dist_eq] at h5 h6
    have := abs_sub_le (emIterate (freqs (labelsOf y) y) bag (t0 + 11) j) (p j) (emIterate (freqs (labelsOf y) y) bag (t0 + 11 - 1) j)
    rw [abs_sub_comm (p j)] at this
    linarith
  rw [Finset.sum_const, Finset.card_univ, Fintype.card_fin, nsmul_eq_mul] at this
  linarith

/-- A concrete case: labels of three examples, a bag of two posterior rows, one of which excludes a class, and prevalences other than the training ones that explain both. -/
example : ∃ (y : List ℕ) (bag : List (Fin (labelsOf y).length → ℝ)) (q : Fin (labelsOf y).length → ℝ), y ≠ [] ∧ bag ≠ [] ∧ (∀ x ∈ bag, IsPrev x) ∧ IsPrev q
    ∧ (∀ x ∈ bag, 0 < mixDensity (freqs (labelsOf y) y) q x) ∧ q ≠ freqs (labelsOf y) y := by
  have h : labelsOf [2, 1, 2] = [1, 2] := labelsOf_eq _ _ (by decide) (by decide)
  obtain ⟨-, hf, hpos⟩ := emFit_eq [2, 1, 2] (by simp)
  have hq : IsPrev (fun i : Fin (labelsOf [2, 1, 2]).length => if (i : ℕ) = 0 then (1/2 : ℝ) else 1/2) := by
    constructor
    · intro i; dsimp only; split_ifs <;> norm_num
    · clear hf hpos
      generalize labelsOf [2, 1, 2] = l at h
      subst h
      simp [Fin.sum_univ_succ]
  have hrows : ∀ x ∈ [fun i : Fin (labelsOf [2, 1, 2]).length => if (i : ℕ) = 0 then (1/10 : ℝ) else 9/10, fun i => if (i : ℕ) = 0 then 1 else 0], IsPrev x := by
    intro x hx
    simp only [List.mem_cons, List.not_mem_nil, or_false] at hx
    unfold IsPrev
    rcases hx with rfl | rfl
    · constructor
      · intro i; dsimp only; split_ifs <;> norm_num
      · clear hf hpos hq
        generalize labelsOf [2, 1, 2] = l at h
        subst h
        simp [Fin.sum_univ_succ]
        norm_num
    · constructor
      · intro i; dsimp only; split_ifs <;> norm_num
      · clear hf hpos hq
        generalize labelsOf [2, 1, 2] = l at h
        subst h
        simp [Fin.sum_univ_succ]
  refine ⟨[2, 1, 2], _, _, by simp, by simp, hrows, hq, fun x hx => ?_, fun he => ?_⟩
  · have hx' := hrows x hx
    obtain ⟨c, hc⟩ : ∃ c, 0 < x c := by
      by_contra hcon
      push Not at hcon
      have : ∑ c, x c ≤ 0 := Finset.sum_nonpos fun c _ => hcon c
      rw [hx'.2] at this
      linarith
    exact Finset.sum_pos' (fun j _ => mul_nonneg (hq.1 j) (div_nonneg (hx'.1 j) (hpos j).le)) ⟨c, Finset.mem_univ c, mul_pos (by dsimp only; split_ifs <;> norm_num) (div_pos hc (hpos c))⟩
  · have h2 := congrFun he ⟨0, by rw [h]; simp⟩
    simp only [freqs, freq] at h2
    have h3 : (labelsOf [2, 1, 2])[0]'(by rw [h]; simp) = 1 := by simp [h]
    rw [Fin.getElem_fin] at h2
    simp only [h3] at h2
    norm_num at h2

end Verif.Props
