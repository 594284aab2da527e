import Verif.Spec.Eoq
import Verif.Proof.Df
import Verif.Proof.Bags
import Verif.Proof.Decomp
import Mathlib.Data.List.Forall2

/-!
# Lemmas on ensembles of quantifiers
-/

namespace Verif.Proof

open Verif.Model Verif.Spec

/-- The results of a loop. -/
theorem mapM_iff {β γ : Type} (l : List β) (f : β → Except Err γ) (r : List γ) : l.mapM f = .ok r ↔ List.Forall₂ (fun x y => f x = .ok y) l r := by
  induction l generalizing r with
  | nil =>
    rw [List.mapM_nil]
    constructor
    · intro h; cases h; exact .nil
    · intro h; cases h; rfl
  | cons a l ih =>
    rw [List.mapM_cons]
    constructor
    · intro h
      cases hf : f a with
      | error e => rw [hf] at h; cases h
      | ok b =>
        cases hl : l.mapM f with
        | error e => rw [hf, hl] at h; cases h
        | ok t =>
          rw [hf, hl] at h
          cases h
          exact .cons hf ((ih t).1 hl)
    · intro h
      cases h with
      | cons h1 h2 =>
        rw [h1, (ih _).2 h2]
        rfl

theorem forall2_get {β γ : Type} {R : β → γ → Prop} {l : List β} {r : List γ} (h : List.Forall₂ R l r) (i : ℕ) (x : β) (hx : l[i]? = some x) : ∃ y, r[i]? = some y ∧ R x y := by
  induction h generalizing i with
  | nil => simp at hx
  | cons h1 _ ih =>
    cases i with
    | zero =>
      rw [List.getElem?_cons_zero] at hx
      cases hx
      exact ⟨_, List.getElem?_cons_zero, h1⟩
    | succ i =>
      rw [List.getElem?_cons_succ] at hx
      obtain ⟨y, hy, hr⟩ := ih i hx
      exact ⟨y, by rw [List.getElem?_cons_succ]; exact hy, hr⟩

theorem mapM_range {γ : Type} {n : ℕ} {f : ℕ → Except Err γ} {r : List γ} (h : (List.range n).mapM f = .ok r) : r.length = n ∧ ∀ i < n, ∃ y, r[i]? = some y ∧ f i = .ok y := by
  rw [mapM_iff] at h
  refine ⟨by rw [← h.length_eq, List.length_range], fun i hi => forall2_get h i i (by simp [hi])⟩

theorem mapM_range_of {γ : Type} {n : ℕ} {f : ℕ → Except Err γ} {r : List γ} (hl : r.length = n) (h : ∀ i < n, ∀ y, r[i]? = some y → f i = .ok y) : (List.range n).mapM f = .ok r := by
  rw [mapM_iff, List.forall₂_iff_get]
  refine ⟨by simp [hl], fun i h1 h2 => ?_⟩
  simp only [List.length_range] at h1
  simp only [List.get_eq_getElem, List.getElem_range]
  exact h i h1 _ (List.getElem?_eq_getElem h2)

theorem item_ok {β : Type} {m : List β} {i : ℕ} {x : β} : item m i = .ok x ↔ m[i]? = some x := by
  unfold item
  cases m[i]? with
  | none => simp
  | some c => simp

/-! ## Normalisation, mean and median -/

theorem normalise_fin {nc : ℕ} (v : Fin nc → ℝ) (h : ∑ i, v i ≠ 0) : normalise (fun j => Fl.fin (v j)) = fun j => Fl.fin (v j / ∑ i, v i) := by
  funext j
  unfold normalise
  rw [Fl.sum_fin, Fl.fin_div _ h]

theorem normalise_isPrev {nc : ℕ} (v : Fin nc → ℝ) (h0 : ∀ i, 0 ≤ v i) (h : 0 < ∑ i, v i) : IsPrevFl (normalise fun j => Fl.fin (v j)) := by
  rw [normalise_fin v h.ne']
  exact ⟨_, ⟨fun i => div_nonneg (h0 i) h.le, by rw [← Finset.sum_div, div_self h.ne']⟩, rfl⟩

theorem normalise_of_isPrev {nc : ℕ} {v : Fin nc → ℝ} (h : IsPrev v) : normalise (fun j => Fl.fin (v j)) = fun j => Fl.fin (v j) := by
  rw [normalise_fin v (by rw [h.2]; exact one_ne_zero), h.2]
  simp

theorem normalise_zero {nc : ℕ} : normalise (fun _ : Fin nc => Fl.fin 0) = fun _ => Fl.nan := by
  funext j
  unfold normalise
  rw [Fl.sum_fin]
  simp [Fl.zero_div_zero]

theorem normalise_nan {nc : ℕ} : normalise (fun _ : Fin nc => Fl.nan) = fun _ => Fl.nan := by
  funext j
  simp [normalise]

/-- The mean of valid vectors is valid. -/
theorem meanRows_isPrev {nc : ℕ} (rows : List (Fin nc → ℝ)) (hne : rows ≠ []) (h : ∀ r ∈ rows, IsPrev r) : IsPrev (meanRows rows) := by
  have hlen : (0 : ℝ) < rows.length := by exact_mod_cast List.length_pos_iff.2 hne
  constructor
  · intro i
    exact div_nonneg (list_sum_map_nonneg rows _ fun r hr => (h r hr).1 i) hlen.le
  · unfold meanRows
    rw [← Finset.sum_div, sum_list_map_comm, list_sum_const rows _ 1 fun r hr => (h r hr).2]
    rw [mul_one, div_self hlen.ne']

theorem eoqMean_eq {nc : ℕ} (rows : List (Fin nc → ℝ)) (hne : rows ≠ []) (h : ∀ r ∈ rows, IsPrev r) : eoqMean rows = fun j => Fl.fin (meanRows rows j) := by
  have hlen : (rows.length : ℝ) ≠ 0 := by exact_mod_cast (List.length_pos_iff.2 hne).ne'
  unfold eoqMean
  rw [show (fun j => Fl.fin (rows.map fun r => r j).sum / Fl.fin (rows.length : ℝ)) = fun j => Fl.fin (meanRows rows j) from funext fun j => by rw [Fl.fin_div _ hlen]; rfl]
  exact normalise_of_isPrev (meanRows_isPrev rows hne h)

theorem eoqMean_nil {nc : ℕ} : eoqMean ([] : List (Fin nc → ℝ)) = fun _ => Fl.nan := by
  unfold eoqMean
  simp only [List.map_nil, List.sum_nil, List.length_nil, Nat.cast_zero, Fl.zero_div_zero]
  exact normalise_nan

theorem meanRows_const {nc : ℕ} (rows : List (Fin nc → ℝ)) (hne : rows ≠ []) (p : Fin nc → ℝ) (h : ∀ r ∈ rows, r = p) : meanRows rows = p := by
  have hlen : (rows.length : ℝ) ≠ 0 := by exact_mod_cast (List.length_pos_iff.2 hne).ne'
  funext j
  unfold meanRows
  rw [list_sum_const rows _ (p j) fun r hr => by rw [h r hr]]
  field_simp

theorem countP_take_le {l : List ℝ} (p : ℝ → Bool) (k : ℕ) (h : ∀ i (hi : i < l.length), k ≤ i → ¬ p l[i]) : l.countP p ≤ k := by
  have h1 : l.countP p = (l.take k).countP p + (l.drop k).countP p := by rw [← List.countP_append, List.take_append_drop]
  have h2 : (l.drop k).countP p = 0 := by
    rw [List.countP_eq_zero]
    intro x hx
    obtain ⟨i, hi, rfl⟩ := List.mem_iff_getElem.1 hx
    rw [List.getElem_drop]
    rw [List.length_drop] at hi
    exact h (k + i) (by omega) (by omega)
  rw [h1, h2, Nat.add_zero]
  exact (List.countP_le_length).trans (by rw [List.length_take]; exact min_le_left _ _)

theorem countP_drop_le {l : List ℝ} (p : ℝ → Bool) (k : ℕ) (h : ∀ i (hi : i < l.length), i < k → ¬ p l[i]) : l.countP p ≤ l.length - k := by
  have h1 : l.countP p = (l.take k).countP p + (l.drop k).countP p := by rw [← List.countP_append, List.take_append_drop]
  have h2 : (l.take k).countP p = 0 := by
    rw [List.countP_eq_zero]
    intro x hx
    obtain ⟨i, hi, rfl⟩ := List.mem_iff_getElem.1 hx
    rw [List.getElem_take]
    rw [List.length_take] at hi
    exact h i (by omega) (by omega)
  rw [h1, h2, Nat.zero_add]
  exact (List.countP_le_length).trans (by rw [List.length_drop])

/-- The middle of the sorted values: `np.median`. -/
theorem npMedian_spec (l : List ℝ) (hne : l ≠ []) : ∃ m, npMedian l = .fin m ∧ IsMedian m l ∧ ((∀ x ∈ l, 0 ≤ x) → 0 ≤ m ∧ (0 < m ↔ l.length ≤ 2 * l.countP fun x => decide (0 < x))) := by
  have hlen : 0 < l.length := List.length_pos_iff.2 hne
  set s := l.mergeSort (· ≤ ·) with hs
  have hperm : s.Perm l := List.mergeSort_perm l _
  have hsl : s.length = l.length := hperm.length_eq
  have hsort : s.Pairwise (· ≤ ·) := by
    have := List.pairwise_mergeSort (le := fun a b : ℝ => decide (a ≤ b)) (fun a b c h1 h2 => by simp only [decide_eq_true_eq] at *; exact h1.trans h2)
      (fun a b => by simpa using le_total a b) l
    simpa using this
  have hmono : ∀ i j (hi : i < s.length) (hj : j < s.length), i ≤ j → s[i] ≤ s[j] := by
    intro i j hi hj hij
    rcases hij.lt_or_eq with h | rfl
    · exact List.pairwise_iff_getElem.1 hsort i j hi hj h
    · exact le_rfl
  have hmem : ∀ i (hi : i < s.length), s[i] ∈ l := fun i hi => hperm.mem_iff.1 (List.getElem_mem hi)
  unfold npMedian
  simp only [← hs]
  rw [if_neg (by omega)]
  by_cases hodd : l.length % 2 = 1
  · rw [if_pos hodd]
    have hk : l.length / 2 < s.length := by omega
    rw [List.getD_eq_getElem _ _ hk]
    refine ⟨_, rfl, ⟨?_, ?_⟩, fun h0 => ⟨h0 _ (hmem _ hk), ?_⟩⟩
    · rw [← hperm.countP_eq]
      have := countP_take_le (l := s) (fun x => decide (x < s[l.length / 2])) (l.length / 2) fun i hi hki => by simpa using hmono _ _ hk hi hki
      omega
    · rw [← hperm.countP_eq]
      have := countP_drop_le (l := s) (fun x => decide (s[l.length / 2] < x)) (l.length / 2 + 1) fun i hi hki => by simpa using hmono _ _ hi hk (by omega)
      omega
    · rw [← hperm.countP_eq]
      constructor
      · intro hpos
        have := countP_take_le (l := s) (fun x => !decide (0 < x)) (l.length / 2) fun i hi hki => by simpa using hpos.trans_le (hmono _ _ hk hi hki)
        have h2 := List.length_eq_countP_add_countP (fun x : ℝ => decide (0 < x)) (l := s)
        have h3 : s.countP (fun a => decide ¬ (decide (0 < a)) = true) = s.countP fun x => !decide (0 < x) := by
          congr 1; funext a; rw [Bool.eq_iff_iff]; simp
        omega
      · intro hc
        by_contra hn
        have := countP_drop_le (l := s) (fun x => decide (0 < x)) (l.length / 2 + 1) fun i hi hki => by simpa using (hmono _ _ hi hk (by omega)).trans (not_lt.1 hn)
        omega
  · rw [if_neg hodd]
    have hk : l.length / 2 < s.length := by omega
    have hk' : l.length / 2 - 1 < s.length := by omega
    rw [List.getD_eq_getElem _ _ hk, List.getD_eq_getElem _ _ hk']
    have hle := hmono _ _ hk' hk (by omega)
    refine ⟨_, rfl, ⟨?_, ?_⟩, fun h0 => ⟨?_, ?_⟩⟩
    · rw [← hperm.countP_eq]
      have := countP_take_le (l := s) (fun x => decide (x < (s[l.length / 2 - 1] + s[l.length / 2]) / 2)) (l.length / 2) fun i hi hki => by
        have := hmono _ _ hk hi hki
        simp only [decide_eq_true_eq, not_lt]
        linarith
      omega
    · rw [← hperm.countP_eq]
      have := countP_drop_le (l := s) (fun x => decide ((s[l.length / 2 - 1] + s[l.length / 2]) / 2 < x)) (l.length / 2) fun i hi hki => by
        have := hmono _ _ hi hk' (by omega)
        simp only [decide_eq_true_eq, not_lt]
        linarith
      omega
    · have := h0 _ (hmem _ hk); have := h0 _ (hmem _ hk'); linarith
    · rw [← hperm.countP_eq]
      have a0 := h0 _ (hmem _ hk)
      have b0 := h0 _ (hmem _ hk')
      constructor
      · intro hpos
        have hp : 0 < s[l.length / 2] := by linarith
        have := countP_take_le (l := s) (fun x => !decide (0 < x)) (l.length / 2) fun i hi hki => by simpa using hp.trans_le (hmono _ _ hk hi hki)
        have h2 := List.length_eq_countP_add_countP (fun x : ℝ => decide (0 < x)) (l := s)
        have h3 : s.countP (fun a => decide ¬ (decide (0 < a)) = true) = s.countP fun x => !decide (0 < x) := by
          congr 1; funext a; rw [Bool.eq_iff_iff]; simp
        omega
      · intro hc
        by_contra hn
        have hz : s[l.length / 2] ≤ 0 := by linarith
        have := countP_drop_le (l := s) (fun x => decide (0 < x)) (l.length / 2 + 1) fun i hi hki => by simpa using (hmono _ _ hi hk (by omega)).trans hz
        omega

theorem npMedian_const (l : List ℝ) (hne : l ≠ []) (c : ℝ) (h : ∀ x ∈ l, x = c) : npMedian l = .fin c := by
  have hl : l = List.replicate l.length c := List.eq_replicate_iff.2 ⟨rfl, h⟩
  have hs : ∀ x ∈ l.mergeSort (· ≤ ·), x = c := fun x hx => h x (List.mem_mergeSort.1 hx)
  have hlen : 0 < l.length := List.length_pos_iff.2 hne
  have hsl : (l.mergeSort (· ≤ ·)).length = l.length := List.length_mergeSort l
  have hget : ∀ k < l.length, (l.mergeSort (· ≤ ·)).getD k 0 = c := fun k hk => by
    rw [List.getD_eq_getElem _ _ (by omega)]
    exact hs _ (List.getElem_mem _)
  unfold npMedian
  simp only
  rw [if_neg (by omega), hget _ (by omega), hget _ (by omega)]
  split_ifs
  · rfl
  · rw [show (c + c) / 2 = c by ring]

end Verif.Proof
