import Verif.Props.Search

/-!
# C118: distances that raise during golden section search
-/

namespace Verif.Props

open Verif.Model Verif.Proof

/-- **C118**, what holds: when the distance does not raise in the interval, the search is the one of C30-C32. -/
theorem C118_no_exception_partial (f : ℝ → Except Err Fl) (g : ℝ → Fl) (tol a b : ℝ) (hab : a < b) (h : ∀ p, a ≤ p → p ≤ b → f p = .ok (g p)) : goldenSectionSearchX f tol a b = goldenSectionSearch g tol a b := by
  have hi := ginv_init g a b hab
  have h0 : goldenInitX f a b = .ok (goldenInit g a b) := by
    have hm := hi.mem
    simp only [goldenInit, List.mem_cons, List.not_mem_nil, or_false, forall_eq_or_imp, forall_eq] at hm
    unfold goldenInitX
    simp only [h _ hm.1.1 hm.1.2, h _ hm.2.1 hm.2.2]
    rfl
  have hk : ∀ k, (goldenStepX f)^[k] (goldenInit g a b) = (goldenStep g)^[k] (goldenInit g a b) := by
    intro k
    induction k with
    | zero => rfl
    | succ k ih =>
      rw [Function.iterate_succ_apply', Function.iterate_succ_apply', ih]
      have hm := (ginv_step hab (ginv_iter g a b hab k)).mem
      set s := (goldenStep g)^[k] (goldenInit g a b)
      unfold goldenStep at hm ⊢
      unfold goldenStepX
      split
      · rename_i hlt
        rw [if_pos hlt] at hm
        have := hm (s.a + invphi2 * (invphi * s.h)) (by simp)
        simp only [h _ this.1 this.2, tried]
      · rename_i hlt
        rw [if_neg hlt] at hm
        have := hm (s.c + invphi * (invphi * s.h)) (by simp)
        simp only [h _ this.1 this.2, tried]
  unfold goldenSectionSearchX goldenSectionSearch goldenFinalX goldenFinal
  rw [h0, ← hk]
  rfl

/-- **C118**, what holds: an exception at one of the first two points ends the search. -/
theorem C118_first_points_partial (f : ℝ → Except Err Fl) (tol a b : ℝ) (hab : a < b) (htol : 0 < tol) (e : Err)
    (h : f (a + (3 - Real.sqrt 5) / 2 * (b - a)) = .error e ∨ ((∃ v, f (a + (3 - Real.sqrt 5) / 2 * (b - a)) = .ok v) ∧ f (a + (Real.sqrt 5 - 1) / 2 * (b - a)) = .error e)) :
    goldenSectionSearchX f tol a b = .error e := by
  have hba : 0 < b - a := by linarith
  unfold goldenSectionSearchX goldenFinalX
  rw [if_neg hba.ne', if_neg (not_le.2 (div_pos htol hba))]
  have : goldenInitX f a b = .error e := by
    unfold goldenInitX
    simp only
    change f (a + invphi2 * (b - a)) = _ ∨ ((∃ v, f (a + invphi2 * (b - a)) = _) ∧ f (a + invphi * (b - a)) = _) at h
    rcases h with h | ⟨⟨v, h1⟩, h2⟩
    · rw [h]
    · rw [h1, h2]
  rw [this]
  rfl

/-- **C118**, what holds: a search that returns reports a loss that the distance gave at one of the points tried. -/
theorem C118_loss_computed_partial (f : ℝ → Except Err Fl) (tol a b : ℝ) (loss : Fl) (p : ℝ) (h : goldenSectionSearchX f tol a b = .ok (loss, p)) :
    ∃ s, goldenFinalX f tol a b = .ok s ∧ ∃ q ∈ s.evals, f q = .ok loss := by
  unfold goldenSectionSearchX at h
  split at h
  · cases h
  split at h
  · cases h
  unfold goldenFinalX at h ⊢
  cases h0 : goldenInitX f a b with
  | error e => rw [h0] at h; cases h
  | ok s0 =>
    rw [h0] at h
    have hinit : (∃ q ∈ s0.evals, f q = .ok s0.fc) ∧ ∃ q ∈ s0.evals, f q = .ok s0.fd := by
      unfold goldenInitX at h0
      simp only at h0
      split at h0
      · cases h0
      · rename_i fc hc
        split at h0
        · cases h0
        · rename_i fd hd
          cases h0
          exact ⟨⟨_, by simp, hc⟩, ⟨_, by simp, hd⟩⟩
    have hstep : ∀ s : Golden, ((∃ q ∈ s.evals, f q = .ok s.fc) ∧ ∃ q ∈ s.evals, f q = .ok s.fd) →
        (∃ q ∈ (goldenStepX f s).evals, f q = .ok (goldenStepX f s).fc) ∧ ∃ q ∈ (goldenStepX f s).evals, f q = .ok (goldenStepX f s).fd := by
      rintro s ⟨⟨q, hq, hfq⟩, ⟨r, hr, hfr⟩⟩
      unfold goldenStepX
      split
      · refine ⟨?_, ⟨q, by simp [hq], hfq⟩⟩
        simp only
        cases hx : f (s.a + invphi2 * (invphi * s.h)) with
        | error e => exact ⟨q, by simp [hq], by rw [hfq]; rfl⟩
        | ok v => exact ⟨s.a + invphi2 * (invphi * s.h), by simp, by rw [hx]; rfl⟩
      · refine ⟨⟨r, by simp [hr], hfr⟩, ?_⟩
        simp only
        cases hx : f (s.c + invphi * (invphi * s.h)) with
        | error e => exact ⟨r, by simp [hr], by rw [hfr]; rfl⟩
        | ok v => exact ⟨s.c + invphi * (invphi * s.h), by simp, by rw [hx]; rfl⟩
    have hall : ∀ n, (∃ q ∈ ((goldenStepX f)^[n] s0).evals, f q = .ok ((goldenStepX f)^[n] s0).fc) ∧ ∃ q ∈ ((goldenStepX f)^[n] s0).evals, f q = .ok ((goldenStepX f)^[n] s0).fd := by
      intro n
      induction n with
      | zero => exact hinit
      | succ n ih => rw [Function.iterate_succ_apply']; exact hstep _ ih
    refine ⟨_, rfl, ?_⟩
    have hres : (goldenResult ((goldenStepX f)^[(goldenSteps tol (b - a) - 1).toNat] s0)).1 = loss := congrArg Prod.fst (Except.ok.inj h)
    rw [← hres]
    unfold goldenResult
    split
    · exact (hall _).1
    · exact (hall _).2

/-- A distance that raises everywhere but at the first two points of the search in `[a, b]`. -/
noncomputable def onlyFirst (a b : ℝ) (p : ℝ) : Except Err Fl :=
  open Classical in
  if p = a + invphi2 * (b - a) then .ok (Fl.fin 1) else if p = a + invphi * (b - a) then .ok (Fl.fin 0) else .error .valueError

/-- The loop with `onlyFirst` after the first iteration. -/
structure Stuck (a0 b0 : ℝ) (k : ℕ) (s : Golden) : Prop where
  a_le : a0 ≤ s.a
  b_eq : s.b = b0
  h_eq : s.h = s.b - s.a
  h_pow : s.h = invphi ^ k * (b0 - a0)
  c_eq : s.c = s.a + invphi2 * s.h
  d_eq : s.d = s.a + invphi * s.h
  d_ge : a0 + invphi * (b0 - a0) ≤ s.d
  fd : s.fd = Fl.fin 0
  not_lt : ¬ s.fc < s.fd

theorem stuck_init (a b : ℝ) (hab : a < b) : ∃ s, goldenInitX (onlyFirst a b) a b = .ok s ∧ Stuck a b 0 s := by
  have hd : ¬ a + invphi * (b - a) = a + invphi2 * (b - a) := by
    have := mul_lt_mul_of_pos_right invphi2_lt (show 0 < b - a by linarith)
    intro h
    linarith
  refine ⟨⟨a, b, a + invphi2 * (b - a), a + invphi * (b - a), b - a, Fl.fin 1, Fl.fin 0, [a + invphi2 * (b - a), a + invphi * (b - a)]⟩, ?_, ?_⟩
  · simp [goldenInitX, onlyFirst, hd]
  · refine ⟨le_rfl, rfl, rfl, by simp, rfl, rfl, le_rfl, rfl, ?_⟩
    simp [Fl.fin_lt_fin]

theorem stuck_step (a b : ℝ) (hab : a < b) (k : ℕ) (s : Golden) (h : Stuck a b k s) : Stuck a b (k + 1) (goldenStepX (onlyFirst a b) s) ∧ ∃ p ∈ (goldenStepX (onlyFirst a b) s).evals, onlyFirst a b p = .error .valueError := by
  have hh : 0 < s.h := by rw [h.h_pow]; exact mul_pos (pow_pos invphi_pos _) (by linarith)
  have e1 := h.h_eq
  have e3 := h.c_eq
  have e4 := h.d_eq
  have l4 := h.a_le
  have l5 := h.d_ge
  have eb := h.b_eq
  have p1 := invphi_sq
  have p2 := invphi2_eq
  have hh' : 0 < invphi * s.h := mul_pos invphi_pos hh
  have q1 := mul_pos invphi2_pos hh'
  have q5 := mul_pos invphi2_pos hh
  have p3 : invphi2 * s.h = s.h - invphi * s.h := by rw [p2]; ring
  have p4 : invphi * (invphi * s.h) = invphi2 * s.h := by rw [← p1]; ring
  have p5 : invphi2 * (invphi * s.h) = invphi * s.h - invphi * (invphi * s.h) := by rw [p2]; ring
  have hlt := mul_lt_mul_of_pos_right invphi2_lt hh
  have hlt' := mul_lt_mul_of_pos_right invphi2_lt (show 0 < b - a by linarith)
  have h23 : invphi < 2 / 3 := by
    unfold invphi
    have : Real.sqrt 5 < 7 / 3 := by rw [Real.sqrt_lt'] <;> norm_num
    linarith
  have h23' := mul_lt_mul_of_pos_right h23 hh
  have hnew : s.d < s.c + invphi * (invphi * s.h) := by linarith
  have herr : onlyFirst a b (s.c + invphi * (invphi * s.h)) = .error .valueError := by
    unfold onlyFirst
    rw [if_neg (by linarith), if_neg (by linarith)]
  unfold goldenStepX
  rw [if_neg h.not_lt]
  refine ⟨⟨?_, eb, ?_, ?_, ?_, rfl, ?_, ?_, ?_⟩, s.c + invphi * (invphi * s.h), by simp, herr⟩
  · show a ≤ s.c; linarith
  · show invphi * s.h = s.b - s.c; linarith
  · show invphi * s.h = _; rw [h.h_pow]; ring
  · show s.d = s.c + invphi2 * (invphi * s.h); linarith
  · show _ ≤ s.c + invphi * (invphi * s.h); linarith
  · show tried _ _ = _; rw [herr]; exact h.fd
  · show ¬ s.fd < tried _ _
    rw [herr, tried, h.fd]
    simp [Fl.fin_lt_fin]

/-- **C118**, refuted: for every interval and every tolerance smaller than 61.8% of it there is a distance that raises at a point where it is evaluated, and the search returns. It has been evaluated at two points
only, and the answer is the right end of the interval, whatever the tolerance: the exceptions were taken for the last loss. -/
theorem C118_swallowed_refuted (tol a b : ℝ) (hab : a < b) (htol : 0 < tol) (hsmall : tol < (Real.sqrt 5 - 1) / 2 * (b - a)) :
    ∃ s loss p, goldenFinalX (onlyFirst a b) tol a b = .ok s ∧ (∃ q ∈ s.evals, onlyFirst a b q = .error .valueError) ∧ goldenSectionSearchX (onlyFirst a b) tol a b = .ok (loss, p) ∧ |p - b| ≤ tol := by
  have hba : 0 < b - a := by linarith
  obtain ⟨s0, hs0, h0⟩ := stuck_init a b hab
  have hk : ∀ k, Stuck a b k ((goldenStepX (onlyFirst a b))^[k] s0) := by
    intro k
    induction k with
    | zero => exact h0
    | succ k ih => rw [Function.iterate_succ_apply']; exact (stuck_step a b hab k _ ih).1
  have hn : 2 ≤ goldenSteps tol (b - a) := by
    unfold goldenSteps
    have hl : Real.log invphi < 0 := Real.log_neg invphi_pos invphi_lt_one
    have : (1:ℝ) < Real.log (tol / (b - a)) / Real.log invphi := by
      rw [lt_div_iff_of_neg hl, one_mul]
      exact Real.log_lt_log (div_pos htol hba) (by rw [div_lt_iff₀ hba]; exact hsmall)
    have h2 : (1:ℤ) < ⌈Real.log (tol / (b - a)) / Real.log invphi⌉ := Int.lt_ceil.2 (by exact_mod_cast this)
    omega
  obtain ⟨m, hm⟩ : ∃ m, (goldenSteps tol (b - a) - 1).toNat = m + 1 := ⟨(goldenSteps tol (b - a) - 2).toNat, by omega⟩
  have hw := golden_width tol a b hab htol
  have hfin : goldenFinalX (onlyFirst a b) tol a b = .ok ((goldenStepX (onlyFirst a b))^[m + 1] s0) := by
    unfold goldenFinalX
    rw [hs0, hm]
    rfl
  have hst := hk (m + 1)
  refine ⟨_, (goldenResult ((goldenStepX (onlyFirst a b))^[m + 1] s0)).1, (goldenResult ((goldenStepX (onlyFirst a b))^[m + 1] s0)).2, hfin, ?_, ?_, ?_⟩
  · rw [Function.iterate_succ_apply']
    exact (stuck_step a b hab m _ (hk m)).2
  · unfold goldenSectionSearchX
    rw [if_neg hba.ne', if_neg (not_le.2 (div_pos htol hba)), hfin]
    rfl
  · rw [hm] at hw
    unfold goldenResult
    rw [if_neg hst.not_lt]
    generalize (goldenStepX (onlyFirst a b))^[m + 1] s0 = s at hst
    have e1 := hst.h_eq
    have e2 := hst.h_pow
    have e3 := hst.c_eq
    have eb := hst.b_eq
    have p2 := invphi2_eq
    have hpos : 0 < invphi ^ (m + 1) * (b - a) := mul_pos (pow_pos invphi_pos _) hba
    have hle : invphi ^ (m + 1 + 1) * (b - a) = invphi * s.h := by rw [e2]; ring
    have hp : invphi2 * s.h = s.h - invphi * s.h := by rw [p2]; ring
    have : 0 < invphi * s.h := by rw [e2]; exact mul_pos invphi_pos hpos
    show |(s.c + s.b) / 2 - b| ≤ tol
    rw [abs_le]
    constructor <;> linarith

/-- Non-vacuity of C118: the tolerance of the library in the unit interval, and a distance that does not raise. -/
example : (1e-4 : ℝ) < (Real.sqrt 5 - 1) / 2 * (1 - 0) ∧ ∀ p : ℝ, 0 ≤ p → p ≤ 1 → (fun p => (.ok (Fl.fin p) : Except Err Fl)) p = .ok (Fl.fin p) := by
  have : (2:ℝ) < Real.sqrt 5 := by rw [Real.lt_sqrt] <;> norm_num
  exact ⟨by norm_num; linarith, fun _ _ _ => rfl⟩

end Verif.Props
