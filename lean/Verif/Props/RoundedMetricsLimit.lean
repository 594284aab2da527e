import Verif.Props.RoundedMetrics
import Verif.Props.RoundingLimit
import Verif.Props.MetricsOrdinal

/-!
# C147: the error measures computed with small rounding errors tend to the exact ones
-/

namespace Verif.Props

open Verif.Model Verif.Spec Verif.Proof Filter Topology

section
variable {n : ℕ} {A : ℕ → Arith} {u w : ℕ → ℝ} {L : ℕ → ℝ → ℝ}

theorem tendsto_log (hL : ∀ m, LogOk (w m) (L m)) (hw : Tendsto w atTop (𝓝 0)) {f : ℕ → ℝ} {a : ℝ} (hf : Tendsto f atTop (𝓝 a)) (ha : a ≠ 0) :
    Tendsto (fun m => L m (f m)) atTop (𝓝 (Real.log a)) := by
  have hl := hf.log ha
  have h0 : Tendsto (fun m => L m (f m) - Real.log (f m)) atTop (𝓝 0) := by
    refine squeeze_zero_norm (fun m => ?_) (?_ : Tendsto (fun m => w m * |Real.log (f m)|) atTop (𝓝 0))
    · exact hL m (f m)
    · simpa using hw.mul hl.abs
  simpa using h0.add hl

theorem tendsto_log2 (hL : ∀ m, Log2Ok (w m) (L m)) (hw : Tendsto w atTop (𝓝 0)) {f : ℕ → ℝ} {a : ℝ} (hf : Tendsto f atTop (𝓝 a)) (ha : a ≠ 0) :
    Tendsto (fun m => L m (f m)) atTop (𝓝 (Real.logb 2 a)) := by
  have hl : Tendsto (fun m => Real.logb 2 (f m)) atTop (𝓝 (Real.logb 2 a)) := (hf.log ha).div_const _
  have h0 : Tendsto (fun m => L m (f m) - Real.logb 2 (f m)) atTop (𝓝 0) := by
    refine squeeze_zero_norm (fun m => ?_) (?_ : Tendsto (fun m => w m * |Real.logb 2 (f m)|) atTop (𝓝 0))
    · exact hL m (f m)
    · simpa using hw.mul hl.abs
  simpa using h0.add hl

/-- **C147** (`hd`, limit): with smaller and smaller rounding errors the computed value tends to the exact one. -/
theorem C147_hd_limit (hA : ∀ m, (A m).Ok (u m)) (hu : Tendsto u atTop (𝓝 0)) (p q : Fin n → ℝ) (hp : IsPrev p) (hq : IsPrev q) :
    ∃ a, hd p q = Fl.fin a ∧ Tendsto (fun m => hdA (A m) p q) atTop (𝓝 a) := by
  refine ⟨_, hd_eq p q hp.1 hq.1, tendsto_rnd hA hu (Tendsto.sqrt (tendsto_ofFn_sum hA hu fun j => ?_))⟩
  rw [sub_sq_comm]
  exact tendsto_rnd hA hu ((tendsto_rnd hA hu ((tendsto_rnd hA hu tendsto_const_nhds).sub (tendsto_rnd hA hu tendsto_const_nhds))).pow 2)

/-- **C147** (`topsoe`, limit). -/
theorem C147_topsoe_limit (hA : ∀ m, (A m).Ok (u m)) (hu : Tendsto u atTop (𝓝 0)) (hL : ∀ m, LogOk (w m) (L m)) (hw : Tendsto w atTop (𝓝 0)) (eps : ℝ) (he : 0 < eps) (p q : Fin n → ℝ) (hp : IsPrev p)
    (hq : IsPrev q) : ∃ a, topsoe eps p q = Fl.fin a ∧ Tendsto (fun m => topsoeA (A m) (L m) eps p q) atTop (𝓝 a) := by
  refine ⟨_, topsoe_eq eps he p q hp.1 hq.1, tendsto_ofFn_sum hA hu fun j => ?_⟩
  have h0 := hp.1 j
  have h1 := hq.1 j
  have hs : Tendsto (fun m => (A m).rnd ((A m).rnd (p j + q j) + eps)) atTop (𝓝 (p j + q j + eps)) := tendsto_rnd hA hu ((tendsto_rnd hA hu tendsto_const_nhds).add tendsto_const_nhds)
  have hn : ∀ x, Tendsto (fun m => (A m).rnd ((A m).rnd (2 * x) + eps)) atTop (𝓝 (2 * x + eps)) := fun x => tendsto_rnd hA hu ((tendsto_rnd hA hu tendsto_const_nhds).add tendsto_const_nhds)
  have hpos : p j + q j + eps ≠ 0 := by linarith
  have ht : ∀ x, 0 ≤ x → Tendsto (fun m => (A m).rnd (x * L m ((A m).rnd ((A m).rnd ((A m).rnd (2 * x) + eps) / (A m).rnd ((A m).rnd (p j + q j) + eps))))) atTop
      (𝓝 (x * Real.log ((2 * x + eps) / (p j + q j + eps)))) := fun x hx =>
    tendsto_rnd hA hu ((tendsto_log hL hw (tendsto_rnd hA hu ((hn x).div hs hpos)) (div_ne_zero (by linarith) hpos)).const_mul x)
  exact tendsto_rnd hA hu ((ht _ h0).add (ht _ h1))

/-- **C147** (`jensenshannon`, limit). -/
theorem C147_jensenshannon_limit (hA : ∀ m, (A m).Ok (u m)) (hu : Tendsto u atTop (𝓝 0)) (hL : ∀ m, LogOk (w m) (L m)) (hw : Tendsto w atTop (𝓝 0)) (eps : ℝ) (he : 0 < eps) (p q : Fin n → ℝ)
    (hp : IsPrev p) (hq : IsPrev q) : ∃ a, jensenshannon eps p q = Fl.fin a ∧ Tendsto (fun m => jensenshannonA (A m) (L m) eps p q) atTop (𝓝 a) := by
  refine ⟨_, js_eq eps he p q hp.1 hq.1, tendsto_rnd hA hu ((tendsto_ofFn_sum hA hu fun j => ?_).div_const 2)⟩
  have h0 := hp.1 j
  have h1 := hq.1 j
  have ht : ∀ x, 0 ≤ x → Tendsto (fun m => (A m).rnd (x * L m ((A m).rnd (x + eps)))) atTop (𝓝 (x * Real.log (x + eps))) := fun x hx =>
    tendsto_rnd hA hu ((tendsto_log hL hw (tendsto_rnd hA hu tendsto_const_nhds) (by linarith)).const_mul x)
  have hs : Tendsto (fun m => (A m).rnd (p j + q j)) atTop (𝓝 (p j + q j)) := tendsto_rnd hA hu tendsto_const_nhds
  exact tendsto_rnd hA hu ((tendsto_rnd hA hu ((ht _ h0).add (ht _ h1))).sub
    (tendsto_rnd hA hu (hs.mul (tendsto_log hL hw (tendsto_rnd hA hu ((tendsto_rnd hA hu (hs.add tendsto_const_nhds)).div_const 2)) (by linarith)))))

/-- **C147** (`kld`, limit). -/
theorem C147_kld_limit (hA : ∀ m, (A m).Ok (u m)) (hu : Tendsto u atTop (𝓝 0)) (hL : ∀ m, Log2Ok (w m) (L m)) (hw : Tendsto w atTop (𝓝 0)) (eps : ℝ) (he : 0 < eps) (p q : Fin n → ℝ) (hp : IsPrev p)
    (hpos : ∀ j, 0 < p j) (hq : IsPrev q) : ∃ a, kld eps p q = Fl.fin a ∧ Tendsto (fun m => kldA (A m) (L m) eps p q) atTop (𝓝 a) := by
  refine ⟨_, kld_eq eps he p q hpos hq.1, ?_⟩
  rw [Finset.sum_div]
  refine tendsto_ofFn_sum hA hu fun j => ?_
  have h0 := hpos j
  have h1 := hq.1 j
  rw [mul_div_assoc]
  exact tendsto_rnd hA hu ((tendsto_log2 hL hw (tendsto_rnd hA hu (tendsto_const_nhds.div (tendsto_rnd hA hu tendsto_const_nhds) (by linarith))) (div_ne_zero h0.ne' (by linarith))).const_mul _)

/-! ### `emd` and `emd_score` -/

theorem listTendsTo_ofFn {k : ℕ} {g : ℕ → Fin k → ℝ} {a : Fin k → ℝ} (hg : ∀ i, Tendsto (fun m => g m i) atTop (𝓝 (a i))) : ListTendsTo (fun m => List.ofFn (g m)) (List.ofFn a) := by
  induction k with
  | zero => simpa using ListTendsTo.nil
  | succ k ih =>
    simp only [List.ofFn_succ]
    exact .cons (hg 0) (ih fun i => hg i.succ)

theorem cumsumFromA_tendsTo (hA : ∀ m, (A m).Ok (u m)) (hu : Tendsto u atTop (𝓝 0)) {D : ℕ → List ℝ} {d : List ℝ} (hd : ListTendsTo D d) {x : ℕ → ℝ} {a : ℝ} (hx : Tendsto x atTop (𝓝 a)) :
    ListTendsTo (fun m => cumsumFromA (A m) (x m) (D m)) (cumsumFromA Arith.exact a d) := by
  induction hd generalizing x a with
  | nil => exact .nil
  | cons hy _ ih =>
    have := tendsto_rnd hA hu (hx.add hy)
    exact .cons this (ih this)

theorem cumsumA_tendsTo (hA : ∀ m, (A m).Ok (u m)) (hu : Tendsto u atTop (𝓝 0)) {D : ℕ → List ℝ} {d : List ℝ} (hd : ListTendsTo D d) :
    ListTendsTo (fun m => cumsumA (A m) (D m)) (cumsumA Arith.exact d) := by
  cases hd with
  | nil => exact .nil
  | cons hy hl => exact .cons hy (cumsumFromA_tendsTo hA hu hl hy)

theorem cumsumFrom_exact {k : ℕ} (v : Fin k → ℝ) (s : ℝ) : cumsumFromA Arith.exact s (List.ofFn v) = List.ofFn fun i => s + cumsum v i := by
  induction k generalizing s with
  | zero => rfl
  | succ k ih =>
    rw [List.ofFn_succ, List.ofFn_succ]
    simp only [cumsumFromA, Arith.exact, id]
    congr 1
    · simp [cumsum, Fin.sum_univ_succ]
    · have := ih (fun i => v i.succ) (s + v 0)
      simp only [Arith.exact] at this
      rw [this]
      congr 1
      funext i
      simp [cumsum, Fin.sum_univ_succ, Fin.succ_le_succ_iff, add_assoc]

theorem cumsum_exact {k : ℕ} (v : Fin k → ℝ) : cumsumA Arith.exact (List.ofFn v) = List.ofFn (cumsum v) := by
  have := cumsumFrom_exact v 0
  simp only [zero_add] at this
  rw [← this]
  cases k with
  | zero => rfl
  | succ k => simp [List.ofFn_succ, cumsumA, cumsumFromA, Arith.exact]

/-- **C147** (`emd`, limit). -/
theorem C147_emd_limit (hA : ∀ m, (A m).Ok (u m)) (hu : Tendsto u atTop (𝓝 0)) (p q : Fin n → ℝ) : Tendsto (fun m => emdA (A m) p q) atTop (𝓝 (emd p q)) := by
  have h1 := listTendsTo_ofFn (g := fun m j => (A m).rnd (p j - q j)) (a := fun j => p j - q j) fun j => tendsto_rnd hA hu tendsto_const_nhds
  have h2 := listTendsTo_rsum hA hu (listTendsTo_abs (cumsumA_tendsTo hA hu h1))
  rw [cumsum_exact, List.map_ofFn, List.sum_ofFn] at h2
  exact h2

/-- **C147** (`emd_score`, limit). -/
theorem C147_emd_score_limit (hA : ∀ m, (A m).Ok (u m)) (hu : Tendsto u atTop (𝓝 0)) (hn : 1 ≤ n) (p q : Fin (n + 1) → ℝ) (hp : IsPrev p) :
    ∃ a, emdScore p q = Fl.fin a ∧ Tendsto (fun m => emdScoreA (A m) p q) atTop (𝓝 a) := by
  refine ⟨_, emdScore_eq hn p q hp, ?_⟩
  have hm : ∀ k : Fin (n + 1), (fun j => if j = k then (1:ℝ) else 0) = Pi.single k 1 := fun k => by
    funext j
    simp [Pi.single_apply]
  have hmax : Tendsto (fun m => max (emdA (A m) p fun j => if j = 0 then 1 else 0) (emdA (A m) p fun j => if j = Fin.last n then 1 else 0)) atTop
      (𝓝 (max (emd p (Pi.single 0 1)) (emd p (Pi.single (Fin.last n) 1)))) := by
    rw [hm, hm]
    exact (C147_emd_limit hA hu _ _).max (C147_emd_limit hA hu _ _)
  exact tendsto_rnd hA hu ((tendsto_rnd hA hu (hmax.sub (C147_emd_limit hA hu _ _))).div hmax (maxEmd_pos hn p hp).ne')

end

/-! ### Non-vacuity -/

theorem tendsto_bits : Tendsto (fun m : ℕ => (1:ℝ) / 2 ^ (m + 1)) atTop (𝓝 0) := by
  have := (tendsto_pow_atTop_nhds_zero_of_lt_one (r := (1:ℝ)/2) (by norm_num) (by norm_num)).comp (tendsto_add_atTop_nat 1)
  refine this.congr fun m => ?_
  simp

/-- With more and more bits the score of (1/4, 3/4), for the true prevalences (1/2, 1/2), tends to 1/2. -/
example : Tendsto (fun m => emdScoreA ⟨rndBits (m + 1), pairwiseSum (rndBits (m + 1))⟩ ![1/2, 1/2] ![1/4, 3/4]) atTop (𝓝 (1/2)) := by
  have hp : IsPrev ![(1:ℝ)/2, 1/2] := ⟨by intro i; fin_cases i <;> norm_num, by norm_num [Fin.sum_univ_two]⟩
  obtain ⟨a, ha, ht⟩ := C147_emd_score_limit (n := 1) (fun m => bits_ok (m + 1) (Nat.succ_pos m)) tendsto_bits le_rfl ![(1:ℝ)/2, 1/2] ![1/4, 3/4] hp
  have : a = 1/2 := by
    rw [emdScore_eq le_rfl _ _ hp, Fl.fin.injEq] at ha
    rw [← ha]
    simp [emd, cumsum, Fin.sum_univ_two]
    norm_num
  rwa [this] at ht

/-- The hypotheses on the logarithms hold for exact logarithms. -/
example : LogOk 0 Real.log ∧ Log2Ok 0 (Real.logb 2) := ⟨fun x => by simp, fun x => by simp⟩

end Verif.Props
