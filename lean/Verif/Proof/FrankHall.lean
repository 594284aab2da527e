import Verif.Spec.FrankHall
import Verif.Proof.Decomp

/-!
# Proofs for the Frank and Hall classifiers
-/

namespace Verif.Proof

open Verif.Model Verif.Spec

/-! ## Monotone -/

theorem clipUnit_add {s p : ℝ} (hs : 0 ≤ s) (hp : 0 ≤ p) (hp1 : p ≤ 1) : s + clipUnit (p - s) = max s p := by
  unfold clipUnit
  rcases le_total p s with h | h
  · rw [max_eq_right (by linarith : p - s ≤ 0), max_eq_left h, min_eq_left (by norm_num)]
    ring
  · rw [max_eq_left (by linarith : (0 : ℝ) ≤ p - s), max_eq_right h, min_eq_left (by linarith)]
    ring

theorem clipUnit_nonneg (x : ℝ) : 0 ≤ clipUnit x := le_min (le_max_right _ _) zero_le_one

theorem fhmLoop_length (done l : List ℝ) : (fhmLoop done l).length = done.length + l.length := by
  induction l generalizing done with
  | nil => rfl
  | cons p l ih => unfold fhmLoop; rw [ih]; simp; omega

theorem fhmLoop_take (done l : List ℝ) : (fhmLoop done l).take done.length = done := by
  induction l generalizing done with
  | nil => simp [fhmLoop]
  | cons p l ih =>
    unfold fhmLoop
    have := congrArg (List.take done.length) (ih (done ++ [clipUnit (p - done.sum)]))
    rw [List.take_take] at this
    simpa using this

theorem fhmLoop_nonneg (done l : List ℝ) (h : ∀ v ∈ done, 0 ≤ v) : ∀ v ∈ fhmLoop done l, 0 ≤ v := by
  induction l generalizing done with
  | nil => exact h
  | cons p l ih =>
    refine ih _ fun v hv => ?_
    rcases List.mem_append.1 hv with hv | hv
    · exact h v hv
    · rw [List.mem_singleton.1 hv]
      exact clipUnit_nonneg _

theorem fhmLoop_cum (done l : List ℝ) (hd : 0 ≤ done.sum) (h0 : ∀ v ∈ l, 0 ≤ v) (h1 : ∀ v ∈ l, v ≤ 1) (i : ℕ) (hi : i ≤ l.length) :
    IsGreatest {a | a = done.sum ∨ ∃ j < i, l[j]? = some a} ((fhmLoop done l).take (done.length + i)).sum := by
  induction l generalizing done i with
  | nil =>
    have : i = 0 := by simpa using hi
    subst this
    simp only [fhmLoop, Nat.add_zero, List.take_length]
    exact ⟨Or.inl rfl, fun a ha => by rcases ha with rfl | ⟨j, hj, -⟩; exacts [le_rfl, absurd hj (by omega)]⟩
  | cons p l ih =>
    cases i with
    | zero =>
      rw [Nat.add_zero, fhmLoop_take]
      exact ⟨Or.inl rfl, fun a ha => by rcases ha with rfl | ⟨j, hj, -⟩; exacts [le_rfl, absurd hj (by omega)]⟩
    | succ i =>
      have hsum : (done ++ [clipUnit (p - done.sum)]).sum = max done.sum p := by
        rw [List.sum_append, List.sum_singleton, clipUnit_add hd (h0 p (by simp)) (h1 p (by simp))]
      have := ih (done ++ [clipUnit (p - done.sum)]) (by rw [hsum]; exact le_max_of_le_left hd) (fun v hv => h0 v (List.mem_cons_of_mem _ hv)) (fun v hv => h1 v (List.mem_cons_of_mem _ hv)) i (by simpa using hi)
      rw [hsum, List.length_append, List.length_singleton, show done.length + 1 + i = done.length + (i + 1) by omega] at this
      refine ⟨?_, fun a ha => ?_⟩
      · rcases this.1 with h | ⟨j, hj, h⟩
        · rcases max_choice done.sum p with hm | hm
          · exact Or.inl (h.trans hm)
          · exact Or.inr ⟨0, by omega, by show _ = some ((fhmLoop _ l).take _).sum; rw [h, hm]; rfl⟩
        · exact Or.inr ⟨j + 1, by omega, h⟩
      · rcases ha with rfl | ⟨j, hj, h⟩
        · exact le_trans (le_max_left _ _) (this.2 (Or.inl rfl))
        · cases j with
          | zero =>
            cases h
            exact le_trans (le_max_right _ _) (this.2 (Or.inl rfl))
          | succ j => exact this.2 (Or.inr ⟨j, by omega, h⟩)

theorem fhmRow_length (l : List ℝ) (hne : l ≠ []) : (fhmRow l).length = l.length + 1 := by
  cases l with
  | nil => exact absurd rfl hne
  | cons p l => simp [fhmRow, fhmLoop_length]; omega

/-- The cumulative sums of a row are the running maxima of the probabilities of the left groups. -/
theorem fhmRow_cum (l : List ℝ) (h0 : ∀ v ∈ l, 0 ≤ v) (h1 : ∀ v ∈ l, v ≤ 1) (i : ℕ) (hi : i < l.length) : IsGreatest {a | ∃ j ≤ i, l[j]? = some a} ((fhmRow l).take (i + 1)).sum := by
  cases l with
  | nil => simp at hi
  | cons p l =>
    have := fhmLoop_cum [p] l (by simpa using h0 p (by simp)) (fun v hv => h0 v (List.mem_cons_of_mem _ hv)) (fun v hv => h1 v (List.mem_cons_of_mem _ hv)) i (by simpa [Nat.lt_succ_iff] using hi)
    have hl : [p].length + i ≤ (fhmLoop [p] l).length := by
      rw [fhmLoop_length]
      simp at hi ⊢
      omega
    rw [List.length_singleton, Nat.add_comm] at this hl
    unfold fhmRow
    rw [List.take_append_of_le_length hl]
    refine ⟨?_, fun a ha => ?_⟩
    · rcases this.1 with h | ⟨j, hj, h⟩
      · exact ⟨0, by omega, by rw [h]; simp⟩
      · exact ⟨j + 1, by omega, h⟩
    · obtain ⟨j, hj, h⟩ := ha
      refine this.2 ?_
      cases j with
      | zero => cases h; exact Or.inl (by simp)
      | succ j => exact Or.inr ⟨j, by omega, h⟩

theorem fhmRow_prev (l : List ℝ) (hne : l ≠ []) (h0 : ∀ v ∈ l, 0 ≤ v) (h1 : ∀ v ∈ l, v ≤ 1) : IsPrevList (l.length + 1) (fhmRow l) := by
  refine ⟨fhmRow_length l hne, ?_, ?_⟩
  · have hc := fhmRow_cum l h0 h1 (l.length - 1) (by have := List.length_pos_of_ne_nil hne; omega)
    cases l with
    | nil => exact absurd rfl hne
    | cons p l =>
      unfold fhmRow at hc ⊢
      intro v hv
      rcases List.mem_append.1 hv with hv | hv
      · exact fhmLoop_nonneg [p] l (fun v hv => by rw [List.mem_singleton.1 hv]; exact h0 p (by simp)) v hv
      · rw [List.mem_singleton.1 hv]
        have hl : (p :: l).length - 1 + 1 = (fhmLoop [p] l).length := by rw [fhmLoop_length]; simp; omega
        rw [hl, List.take_left'  rfl] at hc
        obtain ⟨j, -, hj⟩ := hc.1
        have := h1 _ (List.mem_of_getElem? hj)
        linarith
  · cases l with
    | nil => exact absurd rfl hne
    | cons p l => simp [fhmRow]

/-! ## argmin -/

theorem argminLoop_fin (i p : ℕ) (b : ℝ) (xs : List ℝ) (h : p < i) (s : ℕ → ℝ) (hs : ∀ j v, xs[j]? = some v → s (i + j) = v) (hb : s p = b) (hmin : ∀ j < i, b ≤ s j) (hfirst : ∀ j < p, b < s j) :
    ∃ q, argminLoop i p (Fl.fin b) (xs.map Fl.fin) = q ∧ q < i + xs.length ∧ (∀ j < i + xs.length, s q ≤ s j) ∧ ∀ j < q, s q < s j := by
  induction xs generalizing i p b with
  | nil => exact ⟨p, rfl, by simpa using h, fun j hj => by rw [hb]; exact hmin j (by simpa using hj), fun j hj => by rw [hb]; exact hfirst j hj⟩
  | cons x xs ih =>
    rw [List.map_cons]
    unfold argminLoop
    rw [if_neg (by simp)]
    have hx : s i = x := hs 0 x rfl
    have hs' : ∀ j v, xs[j]? = some v → s (i + 1 + j) = v := fun j v hv => by
      rw [show i + 1 + j = i + (j + 1) by omega]
      exact hs (j + 1) v hv
    rw [List.length_cons, show i + (xs.length + 1) = i + 1 + xs.length by omega]
    split_ifs with hle
    · rw [Fl.fin_le_fin] at hle
      exact ih (i + 1) p b (by omega) hs' hb (fun j hj => by rcases Nat.lt_succ_iff_lt_or_eq.1 hj with h | rfl; exacts [hmin j h, by rw [hx]; exact hle]) hfirst
    · rw [Fl.fin_le_fin, not_le] at hle
      exact ih (i + 1) i x (by omega) hs' hx (fun j hj => by rcases Nat.lt_succ_iff_lt_or_eq.1 hj with h | rfl; exacts [hle.le.trans (hmin j h), hx.ge]) fun j hj => hle.trans_le (hmin j hj)

theorem npArgmin_fin (s : ℕ → ℝ) (first count : ℕ) (hc : count ≠ 0) :
    ∃ q, npArgmin ((List.range' first count).map fun i => Fl.fin (s i)) = q ∧ q < count ∧ (∀ j < count, s (first + q) ≤ s (first + j)) ∧ ∀ j < q, s (first + q) < s (first + j) := by
  obtain ⟨m, rfl⟩ := Nat.exists_eq_succ_of_ne_zero hc
  rw [List.range'_succ, List.map_cons]
  obtain ⟨q, h1, h2, h3, h4⟩ := argminLoop_fin 1 0 (s first) ((List.range' (first + 1) m).map s) (by omega) (fun j => s (first + j)) (by
    intro j v hv
    rw [List.getElem?_map, Option.map_eq_some_iff] at hv
    obtain ⟨w, hw, rfl⟩ := hv
    have hj := (List.getElem?_eq_some_iff.1 hw).1
    rw [List.length_range'] at hj
    rw [List.getElem?_range' hj] at hw
    cases hw
    congr 1
    omega) rfl (fun j hj => by
      have : j = 0 := by omega
      subst this
      exact le_rfl) (fun j hj => absurd hj (by omega))
  rw [List.length_map, List.length_range', Nat.add_comm] at h2 h3
  refine ⟨q, ?_, h2, h3, h4⟩
  rw [List.map_map] at h1
  exact h1

/-! ## The tree -/

theorem qtBuild_best (s : ℕ → ℝ) (count first : ℕ) : BestTree s (qtBuild (fun i => Fl.fin (s i)) first count) first count := by
  induction count using Nat.strong_induction_on generalizing first with
  | _ count ih =>
    unfold qtBuild
    by_cases hc : count = 0
    · rw [dif_pos hc]; exact hc
    · rw [dif_neg hc]
      obtain ⟨q, h1, h2, h3, h4⟩ := npArgmin_fin s first count hc
      simp only [h1]
      refine ⟨by omega, by omega, fun j hj1 hj2 => ?_, fun j hj1 hj2 => ?_, ?_, ?_⟩
      · have := h3 (j - first) (by omega)
        rwa [show first + (j - first) = j by omega] at this
      · have := h4 (j - first) (by omega)
        rwa [show first + (j - first) = j by omega] at this
      · rw [show first + q - first = q by omega]
        exact ih q h2 first
      · rw [show first + count - (first + q) - 1 = count - q - 1 by omega]
        exact ih (count - q - 1) (by omega) (first + q + 1)

/-- Whatever the scores, also NaN, every model is in the tree exactly once. -/
theorem qtBuild_inorder (s : ℕ → Fl) (count first : ℕ) : inorder (qtBuild s first count) = List.range' first count := by
  induction count using Nat.strong_induction_on generalizing first with
  | _ count ih =>
    unfold qtBuild
    by_cases hc : count = 0
    · rw [dif_pos hc, hc]; rfl
    · rw [dif_neg hc]
      have hk : npArgmin ((List.range' first count).map s) < count := by
        have := npArgmin_lt ((List.range' first count).map s) (by simpa using hc)
        simpa using this
      simp only
      generalize npArgmin ((List.range' first count).map s) = q at hk ⊢
      show inorder (qtBuild s first q) ++ (first + q) :: inorder (qtBuild s (first + q + 1) (count - q - 1)) = _
      rw [ih q hk, ih (count - q - 1) (by omega), ← List.range'_succ, show first + q = first + 1 * q by omega, List.range'_append, show q + (count - q - 1 + 1) = count by omega]

theorem qtBuild_congr (s t : ℕ → Fl) (count first : ℕ) (h : ∀ i, first ≤ i → i < first + count → s i = t i) : qtBuild s first count = qtBuild t first count := by
  induction count using Nat.strong_induction_on generalizing first with
  | _ count ih =>
    unfold qtBuild
    by_cases hc : count = 0
    · rw [dif_pos hc, dif_pos hc]
    · rw [dif_neg hc, dif_neg hc]
      have hm : (List.range' first count).map s = (List.range' first count).map t := List.map_congr_left fun i hi => by
        rw [List.mem_range'_1] at hi
        exact h i hi.1 hi.2
      have hk : npArgmin ((List.range' first count).map t) < count := by
        have := npArgmin_lt ((List.range' first count).map t) (by simpa using hc)
        simpa using this
      simp only [hm]
      rw [ih _ hk first fun i h1 h2 => h i h1 (by omega), ih _ (by omega) _ fun i h1 h2 => h i (by omega) (by omega)]

theorem inorder_node {p first count : ℕ} {l r : QTree} (h : inorder (.node p l r) = List.range' first count) :
    first ≤ p ∧ p < first + count ∧ inorder l = List.range' first (p - first) ∧ inorder r = List.range' (p + 1) (first + count - p - 1) := by
  unfold inorder at h
  have hlen := congrArg List.length h
  simp only [List.length_append, List.length_cons, List.length_range'] at hlen
  have hq : (inorder l ++ p :: inorder r)[(inorder l).length]? = some p := by simp
  rw [h, List.getElem?_range' (by omega)] at hq
  have hp : first + 1 * (inorder l).length = p := Option.some.inj hq
  have hsplit : List.range' first count = List.range' first (p - first) ++ p :: List.range' (p + 1) (first + count - p - 1) := by
    rw [← List.range'_succ, show List.range' p (first + count - p - 1 + 1) = List.range' (first + 1 * (p - first)) (first + count - p - 1 + 1) by congr 1; omega, List.range'_append]
    congr 1
    omega
  rw [hsplit] at h
  obtain ⟨hl, hr⟩ := List.append_inj h (by rw [List.length_range']; omega)
  have hr := (List.cons.inj hr).2
  exact ⟨by omega, by omega, hl, hr⟩

theorem pathProb_sum (left right : ℕ → ℝ) (t : QTree) (first count : ℕ) (ht : inorder t = List.range' first count) (h : ∀ p ∈ inorder t, left p + right p = 1) :
    ((List.range' first (count + 1)).map (pathProb left right t)).sum = 1 := by
  induction t generalizing first count with
  | leaf =>
    have : count = 0 := by
      have := congrArg List.length ht
      simpa [inorder] using this.symm
    subst this
    simp [pathProb]
  | node p l r ihl ihr =>
    obtain ⟨h1, h2, h3, h4⟩ := inorder_node ht
    have hL := ihl first (p - first) h3 fun q hq => h q (by simp [inorder, hq])
    have hR := ihr (p + 1) (first + count - p - 1) h4 fun q hq => h q (by simp [inorder, hq])
    have hsplit : List.range' first (count + 1) = List.range' first (p - first + 1) ++ List.range' (p + 1) (first + count - p - 1 + 1) := by
      rw [show p + 1 = first + 1 * (p - first + 1) by omega, List.range'_append]
      congr 1
      omega
    rw [hsplit, List.map_append, List.sum_append]
    have e1 : (List.range' first (p - first + 1)).map (pathProb left right (.node p l r)) = (List.range' first (p - first + 1)).map fun c => left p * pathProb left right l c := by
      apply List.map_congr_left
      intro c hc
      rw [List.mem_range'_1] at hc
      unfold pathProb
      rw [if_pos (by omega)]
      cases l <;> rfl
    have e2 : (List.range' (p + 1) (first + count - p - 1 + 1)).map (pathProb left right (.node p l r)) = (List.range' (p + 1) (first + count - p - 1 + 1)).map fun c => right p * pathProb left right r c := by
      apply List.map_congr_left
      intro c hc
      rw [List.mem_range'_1] at hc
      unfold pathProb
      rw [if_neg (by omega)]
      cases r <;> rfl
    rw [e1, e2, List.sum_map_mul_left, List.sum_map_mul_left, hL, hR, mul_one, mul_one]
    exact h p (by simp [inorder])

theorem pathProb_nonneg (left right : ℕ → ℝ) (t : QTree) (h : ∀ p ∈ inorder t, 0 ≤ left p ∧ 0 ≤ right p) (c : ℕ) : 0 ≤ pathProb left right t c := by
  induction t with
  | leaf => simp [pathProb]
  | node p l r ihl ihr =>
    unfold pathProb
    have hp := h p (by simp [inorder])
    split_ifs
    · exact mul_nonneg hp.1 (ihl fun q hq => h q (by simp [inorder, hq]))
    · exact mul_nonneg hp.2 (ihr fun q hq => h q (by simp [inorder, hq]))

end Verif.Proof
