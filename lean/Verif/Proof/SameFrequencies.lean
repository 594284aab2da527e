import Verif.Spec.SameFrequencies
import Mathlib.Data.List.Perm.Basic
import Mathlib.Algebra.BigOperators.Group.List.Lemmas

/-!
# Samples with the same distribution: order and repetition
-/

namespace Verif.Spec

variable {β γ : Type*}

theorem SameFrequencies.symm {l l' : List β} (h : SameFrequencies l l') : SameFrequencies l' l := ⟨h.2.1, h.1, fun a => (h.2.2 a).symm⟩

theorem count_flatten_replicate [DecidableEq β] (r : ℕ) (l : List β) (a : β) : ((List.replicate r l).flatten).count a = r * l.count a := by
  induction r with
  | zero => simp
  | succ r ih => rw [List.replicate_succ, List.flatten_cons, List.count_append, ih]; ring

theorem length_flatten_replicate (r : ℕ) (l : List β) : ((List.replicate r l).flatten).length = r * l.length := by
  induction r with
  | zero => simp
  | succ r ih => rw [List.replicate_succ, List.flatten_cons, List.length_append, ih]; ring

theorem map_flatten_replicate (f : β → γ) (r : ℕ) (l : List β) : ((List.replicate r l).flatten).map f = (List.replicate r (l.map f)).flatten := by
  induction r with
  | zero => simp
  | succ r ih => simp [List.replicate_succ, ih]

theorem sum_flatten_replicate [AddCommMonoid γ] (r : ℕ) (l : List γ) : ((List.replicate r l).flatten).sum = r • l.sum := by
  induction r with
  | zero => simp
  | succ r ih => rw [List.replicate_succ, List.flatten_cons, List.sum_append, ih, succ_nsmul']

/-- Two samples have the same distribution when some number of copies of one is a rearrangement of some number of copies of the other. -/
theorem sameFrequencies_iff {l l' : List β} :
    SameFrequencies l l' ↔ l ≠ [] ∧ l' ≠ [] ∧ ∃ r r' : ℕ, r ≠ 0 ∧ r' ≠ 0 ∧ ((List.replicate r l).flatten).Perm (List.replicate r' l').flatten := by
  classical
  constructor
  · rintro ⟨h1, h2, h3⟩
    refine ⟨h1, h2, l'.length, l.length, by simpa using h2, by simpa using h1, ?_⟩
    rw [List.perm_iff_count]
    intro a
    rw [count_flatten_replicate, count_flatten_replicate]
    have h := h3 a
    unfold freq at h
    have e1 : (l.length : ℝ) ≠ 0 := by simpa using h1
    have e2 : (l'.length : ℝ) ≠ 0 := by simpa using h2
    rw [div_eq_div_iff e1 e2] at h
    have h : l.count a * l'.length = l'.count a * l.length := by
      have h' : ((l.count a * l'.length : ℕ) : ℝ) = ((l'.count a * l.length : ℕ) : ℝ) := by
        push_cast
        convert h
      exact_mod_cast h'
    rw [mul_comm, h, mul_comm]
  · rintro ⟨h1, h2, r, r', hr, hr', hp⟩
    refine ⟨h1, h2, fun a => ?_⟩
    unfold freq
    have e1 : (l.length : ℝ) ≠ 0 := by simpa using h1
    have e2 : (l'.length : ℝ) ≠ 0 := by simpa using h2
    have hc := List.perm_iff_count.1 hp a
    have hl := hp.length_eq
    rw [count_flatten_replicate, count_flatten_replicate] at hc
    rw [length_flatten_replicate, length_flatten_replicate] at hl
    have hr0 : (r : ℝ) ≠ 0 := by exact_mod_cast hr
    have hr0' : (r' : ℝ) ≠ 0 := by exact_mod_cast hr'
    have hc' : (r : ℝ) * (l.count a : ℝ) = r' * (l'.count a : ℝ) := by exact_mod_cast hc
    have hl' : (r : ℝ) * (l.length : ℝ) = r' * (l'.length : ℝ) := by exact_mod_cast hl
    have : (l.count a : ℝ) / (l.length : ℝ) = (l'.count a : ℝ) / (l'.length : ℝ) := by
      rw [← mul_div_mul_left _ _ hr0, hc', hl', mul_div_mul_left _ _ hr0']
    convert this

theorem SameFrequencies.of_perm {l l' : List β} (h : l.Perm l') (hl : l ≠ []) : SameFrequencies l l' := by
  refine sameFrequencies_iff.2 ⟨hl, ?_, 1, 1, one_ne_zero, one_ne_zero, by simpa using h⟩
  rintro rfl
  exact hl h.eq_nil

theorem SameFrequencies.replicate {l : List β} (hl : l ≠ []) {r : ℕ} (hr : r ≠ 0) : SameFrequencies (List.replicate r l).flatten l := by
  refine sameFrequencies_iff.2 ⟨?_, hl, 1, r, one_ne_zero, hr, by simp⟩
  intro h
  have := congrArg List.length h
  rw [length_flatten_replicate] at this
  simp [hr, hl] at this

theorem SameFrequencies.map {l l' : List β} (h : SameFrequencies l l') (f : β → γ) : SameFrequencies (l.map f) (l'.map f) := by
  obtain ⟨h1, h2, r, r', hr, hr', hp⟩ := sameFrequencies_iff.1 h
  refine sameFrequencies_iff.2 ⟨by simpa using h1, by simpa using h2, r, r', hr, hr', ?_⟩
  rw [← map_flatten_replicate, ← map_flatten_replicate]
  exact hp.map f

theorem SameFrequencies.of_map {l l' : List β} {f : β → γ} (hf : Function.Injective f) (h : SameFrequencies (l.map f) (l'.map f)) : SameFrequencies l l' := by
  classical
  refine ⟨by simpa using h.1, by simpa using h.2.1, fun a => ?_⟩
  have := h.2.2 (f a)
  unfold freq at *
  simp only [List.length_map] at this
  rw [List.count_map_of_injective l f hf, List.count_map_of_injective l' f hf] at this
  convert this

/-- Whatever does not depend on order or repetition depends on the frequencies only. -/
theorem SameFrequencies.ind {l l' : List β} (h : SameFrequencies l l') (F : List β → γ) (hperm : ∀ m m' : List β, m ≠ [] → m.Perm m' → F m = F m')
    (hrep : ∀ (m : List β) (r : ℕ), m ≠ [] → r ≠ 0 → F (List.replicate r m).flatten = F m) : F l = F l' := by
  obtain ⟨h1, h2, r, r', hr, hr', hp⟩ := sameFrequencies_iff.1 h
  rw [← hrep l r h1 hr, ← hrep l' r' h2 hr']
  refine hperm _ _ (SameFrequencies.replicate h1 hr).1 hp

theorem SameFrequencies.mem_iff {l l' : List β} (h : SameFrequencies l l') (a : β) : a ∈ l ↔ a ∈ l' := by
  obtain ⟨h1, h2, r, r', hr, hr', hp⟩ := sameFrequencies_iff.1 h
  have := hp.mem_iff (a := a)
  simpa [hr, hr'] using this

/-- Averages depend on the frequencies only. -/
theorem SameFrequencies.average {l l' : List β} (h : SameFrequencies l l') (f : β → ℝ) : (l.map f).sum / l.length = (l'.map f).sum / l'.length := by
  refine h.ind (fun m => (m.map f).sum / (m.length : ℝ)) (fun m m' _ hp => by rw [(hp.map f).sum_eq, hp.length_eq]) fun m r hm hr => ?_
  have hr0 : (r : ℝ) ≠ 0 := by exact_mod_cast hr
  rw [map_flatten_replicate, sum_flatten_replicate, length_flatten_replicate, nsmul_eq_mul]
  push_cast
  rw [mul_div_mul_left _ _ hr0]

/-- The same for averages of arrays that may hold special values. -/
theorem SameFrequencies.average_fl {l l' : List β} (h : SameFrequencies l l') (f : β → Fl) : (l.map f).sum / Fl.fin (l.length : ℝ) = (l'.map f).sum / Fl.fin (l'.length : ℝ) := by
  refine h.ind (fun m => (m.map f).sum / Fl.fin (m.length : ℝ)) (fun m m' _ hp => by rw [(hp.map f).sum_eq, hp.length_eq]) fun m r hm hr => ?_
  have hr0 : (0 : ℝ) < r := by exact_mod_cast Nat.pos_of_ne_zero hr
  have hm0 : (0 : ℝ) < m.length := by exact_mod_cast List.length_pos_iff.2 hm
  rw [map_flatten_replicate, sum_flatten_replicate, length_flatten_replicate]
  have hsm : ∀ (s : Fl) (n : ℕ), (∃ x, s = Fl.fin x ∧ (n + 1) • s = Fl.fin ((n + 1 : ℕ) * x)) ∨ (n + 1) • s = s ∧ ∀ x, s ≠ Fl.fin x := by
    intro s n
    induction n with
    | zero =>
      cases s with
      | fin x => exact Or.inl ⟨x, rfl, by simp⟩
      | _ => exact Or.inr ⟨by simp, fun x hx => by cases hx⟩
    | succ n ih =>
      rcases ih with ⟨x, rfl, e⟩ | ⟨e, hs⟩
      · refine Or.inl ⟨x, rfl, ?_⟩
        rw [succ_nsmul, e, Fl.fin_add]
        congr 1
        push_cast
        ring
      · refine Or.inr ⟨?_, hs⟩
        rw [succ_nsmul, e]
        cases s with
        | fin x => exact absurd rfl (hs x)
        | _ => rfl
  obtain ⟨n, rfl⟩ := Nat.exists_eq_succ_of_ne_zero hr
  rcases hsm (m.map f).sum n with ⟨x, e1, e2⟩ | ⟨e, hs⟩
  · rw [Nat.succ_eq_add_one, e2, e1, Fl.fin_div _ (Nat.cast_ne_zero.2 (Nat.mul_ne_zero n.succ_ne_zero (by simpa using hm))), Fl.fin_div _ hm0.ne']
    congr 1
    push_cast
    rw [mul_div_mul_left]
    exact (by positivity : (0 : ℝ) < (n : ℝ) + 1).ne'
  · rw [Nat.succ_eq_add_one, e]
    push_cast
    have hp : (0 : ℝ) < ((n : ℝ) + 1) * m.length := by positivity
    generalize (m.map f).sum = s at *
    cases s with
    | fin x => exact absurd rfl (hs x)
    | nan => simp
    | pinf => show Fl.div _ _ = Fl.div _ _; simp [Fl.div, hp, hm0, hp.le, hm0.le]
    | ninf => show Fl.div _ _ = Fl.div _ _; simp [Fl.div, hp, hm0, hp.le, hm0.le]

end Verif.Spec
