import Verif.Spec.Merge
import Verif.Props.PriorShift
import Verif.Props.MetricsMulti
import Verif.Props.MetricsOrdinal

/-!
# C170: merging classes
-/

namespace Verif.Props

open Verif.Model Verif.Spec Verif.Proof

/-! ## The quantifiers -/

section
variable {σ σ' D α β : Type} [LinearOrder α] [LinearOrder β] {k k' : ℕ} (enc : Bool → α) (enc' : Bool → β) (w : World σ D α) (w' : World σ' D β) (et et' eu eu' : Option ℕ) (X Xt X' Xt' : List D)
  (g : α → β) (y : List α) (hy : y ≠ []) (r : ℕ)

/-- As many examples are predicted as one of the merged classes as are predicted as one of its parts. -/
theorem count_map_merged (g : α → β) (cs : List α) (hcs : cs.Nodup) (Q : List α) (hQ : ∀ a ∈ Q, a ∈ cs) (b : β) :
    ((Q.map g).count b : ℝ) = ∑ i : Fin cs.length, if g cs[i] = b then (Q.count cs[i] : ℝ) else 0 := by
  induction Q with
  | nil => simp
  | cons a Q ih =>
    rw [List.map_cons, List.count_cons, Nat.cast_add, ih fun c hc => hQ c (List.mem_cons_of_mem _ hc)]
    obtain ⟨i, hi, rfl⟩ := List.getElem_of_mem (hQ a List.mem_cons_self)
    have h1 : (((if (g cs[i] == b) = true then 1 else 0 : ℕ) : ℝ)) = ∑ j : Fin cs.length, if g cs[j] = b then (if j = (⟨i, hi⟩ : Fin cs.length) then (1:ℝ) else 0) else 0 := by
      rw [Finset.sum_eq_single (⟨i, hi⟩ : Fin cs.length) (fun j _ hj => by simp [hj]) (by simp)]
      by_cases h : g cs[i] = b <;> simp [h]
    rw [h1, ← Finset.sum_add_distrib]
    refine Finset.sum_congr rfl fun j _ => ?_
    by_cases h : g cs[j] = b
    · rw [if_pos h, if_pos h, if_pos h, List.count_cons, Nat.cast_add]
      congr 1
      by_cases hj : j = (⟨i, hi⟩ : Fin cs.length)
      · subst hj; simp
      · have : ¬ cs[i] = cs[j] := fun h => hj (Fin.ext (hcs.getElem_inj_iff.1 h).symm)
        rw [if_neg hj, if_neg (by simpa using this)]
        simp
    · rw [if_neg h, if_neg h, if_neg h, add_zero]

include hy

/-- **C170** for CC: the prevalence of a merged class is the sum of the prevalences of its parts. -/
theorem C170_cc_partial (ops : EstOps σ D α k) (ops' : EstOps σ' D β k') (P : List α) (hP : P.length = r * y.length) (Q : List α) (hQ : Q ≠ []) (hQy : ∀ a ∈ Q, a ∈ y) :
    ∃ x x', ucRun ops enc w ⟨ccClass, et, et'⟩ X y (some (.crisp P)) Xt (some (.crisp Q)) = .ok (some (realList x))
      ∧ ucRun ops' enc' w' ⟨ccClass, eu, eu'⟩ X' (y.map g) (some (.crisp (P.map g))) Xt' (some (.crisp (Q.map g))) = .ok (some (realList x')) ∧ MergedByClass g y x x' := by
  rw [ucRun_given_crisp ops enc w X Xt y ccClass rfl rfl et et' hy r P _ hP,
    ucRun_given_crisp ops' enc' w' X' Xt' (y.map g) ccClass rfl rfl eu eu' (by simpa using hy) r (P.map g) _ (by simpa using hP)]
  refine ⟨freqs (labelsOf y) Q, freqs (labelsOf (y.map g)) (Q.map g), ?_, ?_, fun j => ?_⟩
  · change Except.ok (some (vecList (classFreqs (labelsOf y) Q))) = _
    rw [classFreqs_eq _ _ hQ]
    rfl
  · change Except.ok (some (vecList (classFreqs (labelsOf (y.map g)) (Q.map g)))) = _
    rw [classFreqs_eq _ _ (by simpa using hQ)]
    rfl
  · unfold freqs freq
    rw [count_map_merged g (labelsOf y) (labelsOf_nodup y) Q (fun a ha => (mem_labelsOf y a).2 (hQy a ha)), List.length_map, Finset.sum_div]
    refine Finset.sum_congr rfl fun i _ => ?_
    split <;> simp

/-- **C170** for PCC, when the probability of a merged class is the sum of the probabilities of its parts. -/
theorem C170_pcc_partial (ops : EstOps σ D α (labelsOf y).length) (ops' : EstOps σ' D β (labelsOf (y.map g)).length) (P Q : List (Fin (labelsOf y).length → ℝ)) (hP : P.length = r * y.length) (hQ : Q ≠ [])
    (P' Q' : List (Fin (labelsOf (y.map g)).length → ℝ)) (hP' : P'.length = P.length) (hQ' : List.Forall₂ (MergedByClass g y) Q Q') :
    ∃ x x', ucRun ops enc w ⟨pccClass, et, et'⟩ X y (some (.probs P)) Xt (some (.probs Q)) = .ok (some (realList x))
      ∧ ucRun ops' enc' w' ⟨pccClass, eu, eu'⟩ X' (y.map g) (some (.probs P')) Xt' (some (.probs Q')) = .ok (some (realList x')) ∧ MergedByClass g y x x' := by
  rw [ucRun_given_probs ops enc w X Xt y pccClass rfl rfl et et' hy r P _ hP,
    ucRun_given_probs ops' enc' w' X' Xt' (y.map g) pccClass rfl rfl eu eu' (by simpa using hy) r P' _ (by rw [hP', hP, List.length_map])]
  have hQne' : Q' ≠ [] := by
    rintro rfl
    exact hQ (List.length_eq_zero_iff.1 hQ'.length_eq)
  refine ⟨fun i => meanOf Q fun row => row i, fun i => meanOf Q' fun row => row i, ?_, ?_, fun j => ?_⟩
  · change Except.ok (some (vecList (colMeans Q))) = _
    rw [colMeans_eq _ hQ]
    rfl
  · change Except.ok (some (vecList (colMeans Q'))) = _
    rw [colMeans_eq _ hQne']
    rfl
  · have hs : (Q'.map fun row => row j).sum = ∑ i, if g (labelsOf y)[i] = (labelsOf (y.map g))[j] then (Q.map fun row => row i).sum else 0 := by
      clear hQ hQne'
      induction hQ' with
      | nil => simp
      | cons h _ ih =>
        rw [List.map_cons, List.sum_cons, ih, h j, ← Finset.sum_add_distrib]
        refine Finset.sum_congr rfl fun i _ => ?_
        split <;> simp
    simp only [meanOf]
    rw [hs, Finset.sum_div, ← hQ'.length_eq]
    refine Finset.sum_congr rfl fun i _ => ?_
    split <;> simp

end

/-! ## AC does not commute with merging -/

theorem det_three {n : ℕ} (h : n = 3) (M : Matrix (Fin n) (Fin n) ℝ) (h00 : ∀ i j : Fin n, M i j = if i.1 = 0 then (if j.1 = 0 then 1 else 0) else if i.1 = 1 then (if j.1 = 1 then 1 else 0) else if j.1 = 1 then 0 else 1/2) : n ≠ 2 ∧ M.det ≠ 0 := by
  subst h
  refine ⟨by norm_num, ?_⟩
  rw [Matrix.det_fin_three]
  simp [h00]

/-- Which classes are taken as one. -/
def oneAndTwo : ℕ → ℕ := fun a => if a = 0 then 0 else 1

/-- All the examples of the bag are of class 2, half of them are predicted as 0, as in the training set. AC says so with three classes; when classes 1 and 2 are merged it gives the merged class 2/3 instead of 1. -/
theorem C170_ac_refuted (ops : EstOps Unit Unit ℕ 2) (enc : Bool → ℕ) (w : World Unit Unit ℕ) (sol : Solvers) (dist : Dist) :
    ucRun ops enc w ⟨acClass sol dist, none, none⟩ [] [0, 0, 1, 1, 2, 2] (some (.crisp [0, 0, 1, 1, 0, 2])) [] (some (.crisp [0, 2, 0, 2, 0, 2])) = .ok (some [Fl.fin 0, Fl.fin 0, Fl.fin 1])
    ∧ ucRun ops enc w ⟨acClass sol dist, none, none⟩ [] ([0, 0, 1, 1, 2, 2].map oneAndTwo) (some (.crisp ([0, 0, 1, 1, 0, 2].map oneAndTwo))) [] (some (.crisp ([0, 2, 0, 2, 0, 2].map oneAndTwo))) = .ok (some [Fl.fin (1/3), Fl.fin (2/3)]) := by
  constructor
  · have hl : labelsOf [0, 0, 1, 1, 2, 2] = [0, 1, 2] := labelsOf_eq _ _ (by decide) (by decide)
    have hi : ∀ i : Fin (labelsOf [0, 0, 1, 1, 2, 2]).length, (labelsOf [0, 0, 1, 1, 2, 2])[i] = i.1 ∧ i.1 < 3 := by
      intro i
      have h3 : i.1 < 3 := lt_of_lt_of_eq i.2 (by rw [hl]; rfl)
      refine ⟨?_, h3⟩
      have : (labelsOf [0, 0, 1, 1, 2, 2])[i] = [0, 1, 2][i.1]'h3 := by
        simp only [Fin.getElem_fin]
        congr 1
      rw [this]
      rcases i with ⟨i, hi⟩
      dsimp only at h3 ⊢
      obtain rfl | rfl | rfl : i = 0 ∨ i = 1 ∨ i = 2 := by omega
      all_goals rfl
    have hs : PriorShift ((stacked [0, 0, 1, 1, 2, 2] 1).zip [0, 0, 1, 1, 0, 2]) [(2, 0), (2, 2), (2, 0), (2, 2), (2, 0), (2, 2)] := {
      nonempty := by simp
      same := by
        intro c hc
        have : c = 2 := by simpa using hc
        subst this
        exact SameFrequencies.replicate (l := [0, 2]) (by simp) (r := 3) (by decide) }
    have h := C128_ac enc w none none [] [] [0, 0, 1, 1, 2, 2] (by simp) 1 one_pos ops sol dist [0, 0, 1, 1, 0, 2] rfl (by simp) (.inl (det_three (by rw [hl]; rfl) _ fun i j => by
      simp only [(hi _).1]
      have h1 := (hi i).2
      have h2 := (hi j).2
      generalize i.1 = a at *
      generalize j.1 = b at *
      obtain rfl | rfl | rfl : a = 0 ∨ a = 1 ∨ a = 2 := by omega
      all_goals
        obtain rfl | rfl | rfl : b = 0 ∨ b = 1 ∨ b = 2 := by omega
        all_goals norm_num [condFreq, stacked, List.countP_cons, List.count_cons])) _ hs
    refine h.trans ?_
    unfold rightAnswer
    rw [hl]
    norm_num [freq, List.count_cons]
  · have e1 : [0, 0, 1, 1, 2, 2].map oneAndTwo = [0, 0, 1, 1, 1, 1] := rfl
    have e2 : [0, 0, 1, 1, 0, 2].map oneAndTwo = [0, 0, 1, 1, 0, 1] := rfl
    have e3 : [0, 2, 0, 2, 0, 2].map oneAndTwo = [0, 1, 0, 1, 0, 1] := rfl
    rw [e1, e2, e3]
    have hl : labelsOf [0, 0, 1, 1, 1, 1] = [0, 1] := labelsOf_eq _ _ (by decide) (by decide)
    have hs : PriorShift ((stacked [0, 0, 1, 1, 1, 1] 1).zip [0, 0, 1, 1, 0, 1]) [(0, 0), (1, 1), (0, 0), (1, 1), (1, 0), (1, 1)] := {
      nonempty := by simp
      same := by
        intro c hc
        have : c = 0 ∨ c = 1 := by simp at hc; omega
        rcases this with rfl | rfl
        · exact SameFrequencies.of_perm (List.Perm.refl [0, 0]) (by decide)
        · exact SameFrequencies.of_perm (List.Perm.refl [1, 1, 0, 1]) (by decide) }
    have h := C128_ac enc w none none [] [] [0, 0, 1, 1, 1, 1] (by simp) 1 one_pos ops sol dist [0, 0, 1, 1, 0, 1] rfl (by simp) (.inr ⟨by rw [hl]; rfl, by
      simp only [(label_index hl).1]
      simp only [condFreq, stacked, Fin.val_cast]
      norm_num [abs_of_pos]⟩) _ hs
    refine h.trans ?_
    unfold rightAnswer
    rw [hl]
    simp [freq, List.count_cons]
    norm_num

/-! ## The metrics -/

section
variable {n m : ℕ}

theorem sum_merged (f : Fin n → Fin m) (v : Fin n → ℝ) : ∑ j, merged f v j = ∑ i, v i := by
  unfold merged
  rw [Finset.sum_comm]
  refine Finset.sum_congr rfl fun i _ => ?_
  simp

theorem merged_nonneg (f : Fin n → Fin m) (v : Fin n → ℝ) (hv : ∀ i, 0 ≤ v i) (j : Fin m) : 0 ≤ merged f v j :=
  Finset.sum_nonneg fun i _ => by split <;> simp [hv]

/-- A merged prevalence vector is a prevalence vector. -/
theorem C170_prevalences (f : Fin n → Fin m) (p : Fin n → ℝ) (hp : IsPrev p) : IsPrev (merged f p) :=
  ⟨merged_nonneg f p hp.1, by rw [sum_merged, hp.2]⟩

theorem l1_merged_le (f : Fin n → Fin m) (p q : Fin n → ℝ) : ∑ j, |merged f p j - merged f q j| ≤ ∑ i, |p i - q i| := by
  rw [← sum_merged f fun i => |p i - q i|]
  refine Finset.sum_le_sum fun j _ => ?_
  unfold merged
  rw [← Finset.sum_sub_distrib]
  refine (Finset.abs_sum_le_sum_abs _ _).trans (le_of_eq (Finset.sum_congr rfl fun i _ => ?_))
  split <;> simp

/-- **C170** for `l1`: merging classes does not make an error larger. -/
theorem C170_l1 (f : Fin n → Fin m) (p q : Fin n → ℝ) : ∃ a b, l1 p q = Fl.fin a ∧ l1 (merged f p) (merged f q) = Fl.fin b ∧ b ≤ a :=
  ⟨_, _, l1_eq p q, l1_eq _ _, l1_merged_le f p q⟩

/-- **C170** for `bray_curtis`. -/
theorem C170_bray_curtis (f : Fin n → Fin m) (p q : Fin n → ℝ) (hp : IsPrev p) (hq : IsPrev q) :
    ∃ a b, brayCurtis p q = Fl.fin a ∧ brayCurtis (merged f p) (merged f q) = Fl.fin b ∧ b ≤ a := by
  have key : ∀ {n : ℕ} (p q : Fin n → ℝ), IsPrev p → IsPrev q → brayCurtis p q = Fl.fin ((∑ i, |p i - q i|) / 2) := by
    intro n p q hp hq
    unfold brayCurtis
    simp only [Fl.fin_sub, Fl.fin_add, Fl.abs_fin, Fl.sum_fin]
    rw [Finset.sum_add_distrib, hp.2, hq.2, Fl.fin_div _ (by norm_num)]
    norm_num
  exact ⟨_, _, key p q hp hq, key _ _ (C170_prevalences f p hp) (C170_prevalences f q hq), by have := l1_merged_le f p q; linarith⟩

theorem sqrt_merged_le (f : Fin n → Fin m) (p q : Fin n → ℝ) (hp : ∀ i, 0 ≤ p i) (hq : ∀ i, 0 ≤ q i) :
    ∑ j, (√(merged f p j) - √(merged f q j))^2 ≤ ∑ i, (√(p i) - √(q i))^2 := by
  rw [← sum_merged f fun i => (√(p i) - √(q i))^2]
  refine Finset.sum_le_sum fun j _ => ?_
  have hP := merged_nonneg f p hp j
  have hQ := merged_nonneg f q hq j
  have e : ∀ a b : ℝ, 0 ≤ a → 0 ≤ b → (√a - √b)^2 = a + b - 2 * (√a * √b) := fun a b ha hb => by
    have h1 := Real.sq_sqrt ha
    have h2 := Real.sq_sqrt hb
    nlinarith
  have hcs : merged f (fun i => √(p i) * √(q i)) j ≤ √(merged f p j) * √(merged f q j) := by
    have := Real.sum_sqrt_mul_sqrt_le Finset.univ (f := fun i => if f i = j then p i else 0) (g := fun i => if f i = j then q i else 0) (fun i => by split <;> simp [hp]) (fun i => by split <;> simp [hq])
    refine le_trans (le_of_eq ?_) this
    unfold merged
    refine Finset.sum_congr rfl fun i _ => ?_
    split <;> simp
  have hsplit : merged f (fun i => (√(p i) - √(q i))^2) j = merged f p j + merged f q j - 2 * merged f (fun i => √(p i) * √(q i)) j := by
    unfold merged
    rw [Finset.mul_sum, ← Finset.sum_add_distrib, ← Finset.sum_sub_distrib]
    refine Finset.sum_congr rfl fun i _ => ?_
    split
    · exact e _ _ (hp i) (hq i)
    · simp
  rw [e _ _ hP hQ, hsplit]
  linarith

/-- **C170** for `hd`. -/
theorem C170_hd (f : Fin n → Fin m) (p q : Fin n → ℝ) (hp : IsPrev p) (hq : IsPrev q) : ∃ a b, hd p q = Fl.fin a ∧ hd (merged f p) (merged f q) = Fl.fin b ∧ b ≤ a :=
  ⟨_, _, hd_eq p q hp.1 hq.1, hd_eq _ _ (merged_nonneg f p hp.1) (merged_nonneg f q hq.1), Real.sqrt_le_sqrt (sqrt_merged_le f p q hp.1 hq.1)⟩

/-- **C170** for `emd`: merging classes that are next to each other. -/
theorem C170_emd (f : Fin n → Fin m) (hf : Monotone f) (hs : Function.Surjective f) (p q : Fin n → ℝ) : emd (merged f p) (merged f q) ≤ emd p q := by
  have hlast : ∀ j : Fin m, ∃ k : Fin n, f k = j ∧ ∀ i, f i ≤ j ↔ i ≤ k := by
    intro j
    obtain ⟨k, hk, hmax⟩ := (Finset.univ.filter fun i => f i = j).exists_max_image id (by obtain ⟨i, hi⟩ := hs j; exact ⟨i, by simpa using hi⟩)
    have hk' : f k = j := by simpa using hk
    refine ⟨k, hk', fun i => ⟨fun h => ?_, fun h => hk' ▸ hf h⟩⟩
    by_contra hlt
    have h1 : f i = j := le_antisymm h (hk' ▸ hf (le_of_lt (not_le.1 hlt)))
    exact hlt (hmax i (by simpa using h1))
  choose last hlf hle using hlast
  have hinj : Function.Injective last := fun a b h => by rw [← hlf a, ← hlf b, h]
  have hc : ∀ (v : Fin n → ℝ) j, cumsum (merged f v) j = cumsum v (last j) := by
    intro v j
    unfold cumsum merged
    have : ∀ x : Fin m, (if x ≤ j then ∑ i, if f i = x then v i else 0 else 0) = ∑ i, if f i = x then (if i ≤ last j then v i else 0) else 0 := by
      intro x
      split
      · next h =>
        refine Finset.sum_congr rfl fun i _ => ?_
        split
        · next h' => rw [if_pos ((hle j i).1 (h'.symm ▸ h))]
        · rfl
      · next h =>
        refine (Finset.sum_eq_zero fun i _ => ?_).symm
        split
        · next h' => rw [if_neg fun h2 => h (h' ▸ (hle j i).2 h2)]
        · rfl
    rw [Finset.sum_congr rfl fun x _ => this x, Finset.sum_comm]
    refine Finset.sum_congr rfl fun i _ => ?_
    simp
  rw [emd_eq, emd_eq]
  simp only [hc]
  rw [← Finset.sum_image (f := fun k => |cumsum p k - cumsum q k|) (s := Finset.univ) (g := last) (fun a _ b _ h => hinj h)]
  exact Finset.sum_le_sum_of_subset_of_nonneg (Finset.subset_univ _) fun _ _ _ => abs_nonneg _

end

/-- The metrics that divide by the number of classes, and `l2`, can say that the same estimate is worse when two classes are merged. -/
theorem C170_mean_errors_refuted : ∃ (f : Fin 3 → Fin 2) (p q : Fin 3 → ℝ), IsPrev p ∧ IsPrev q
    ∧ (∃ a b, meanAbsoluteError p q = Fl.fin a ∧ meanAbsoluteError (merged f p) (merged f q) = Fl.fin b ∧ a < b)
    ∧ (∃ a b, meanSquaredError p q = Fl.fin a ∧ meanSquaredError (merged f p) (merged f q) = Fl.fin b ∧ a < b)
    ∧ (∃ a b, l2 p q = Fl.fin a ∧ l2 (merged f p) (merged f q) = Fl.fin b ∧ a < b) := by
  refine ⟨![0, 1, 1], ![1, 0, 0], ![0, 1/2, 1/2], ⟨fun i => by fin_cases i <;> simp, by simp [Fin.sum_univ_three]⟩, ⟨fun i => by fin_cases i <;> simp, by rw [Fin.sum_univ_three]; change (0:ℝ) + 1/2 + 1/2 = 1; norm_num⟩,
    ⟨_, _, mae_eq (by norm_num) _ _, mae_eq (by norm_num) _ _, ?_⟩, ⟨_, _, mse_eq (by norm_num) _ _, mse_eq (by norm_num) _ _, ?_⟩, ⟨_, _, l2_eq _ _, l2_eq _ _, Real.sqrt_lt_sqrt (Finset.sum_nonneg fun _ _ => sq_nonneg _) ?_⟩⟩
  all_goals simp [merged, Fin.sum_univ_three]
  all_goals norm_num [abs_of_pos]

/-- Two of three ordinal classes are merged: the distance goes from 2 to 1. -/
example : emd (![1, 0, 0] : Fin 3 → ℝ) ![0, 0, 1] = 2 ∧ emd (merged (![0, 0, 1] : Fin 3 → Fin 2) ![1, 0, 0]) (merged (![0, 0, 1] : Fin 3 → Fin 2) ![0, 0, 1]) = 1 := by
  constructor
  · simp [emd, cumsum, Fin.sum_univ_three]
    norm_num
  · simp [emd, cumsum, merged, Fin.sum_univ_three]

/-- CC: three classes, the last two taken as one. -/
example (ops : EstOps Unit Unit ℕ 3) (enc : Bool → ℕ) (w : World Unit Unit ℕ) :
    ∃ x x', ucRun ops enc w ⟨ccClass, none, none⟩ [] [0, 1, 2] (some (.crisp [0, 1, 2])) [] (some (.crisp [0, 2, 2, 1])) = .ok (some (realList x))
      ∧ ucRun ops enc w ⟨ccClass, none, none⟩ [] ([0, 1, 2].map oneAndTwo) (some (.crisp ([0, 1, 2].map oneAndTwo))) [] (some (.crisp ([0, 2, 2, 1].map oneAndTwo))) = .ok (some (realList x'))
      ∧ MergedByClass oneAndTwo [0, 1, 2] x x' :=
  C170_cc_partial enc enc w w none none none none [] [] [] [] oneAndTwo [0, 1, 2] (by simp) 1 ops ops _ rfl _ (by simp) (by simp)

end Verif.Props
