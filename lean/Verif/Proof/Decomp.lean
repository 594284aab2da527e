import Verif.Model.Decomp
import Verif.Spec.Decomp
import Verif.Num.ListAux

/-!
# Helper lemmas for the decompositions
-/

namespace Verif.Proof

open Verif.Model Verif.Spec

theorem mapM_ok {β γ : Type} (l : List β) (f : β → Except Err γ) (g : β → γ) (h : ∀ x ∈ l, f x = .ok (g x)) : l.mapM f = .ok (l.map g) := by
  induction l with
  | nil => rfl
  | cons a l ih =>
    rw [List.mapM_cons, h a (by simp), ih fun x hx => h x (by simp [hx])]
    rfl

theorem mapM_inv {β γ : Type} (l : List β) (f : β → Except Err γ) (r : List γ) (h : l.mapM f = .ok r) : ∀ x ∈ l, ∃ b, f x = .ok b := by
  induction l generalizing r with
  | nil => simp
  | cons a l ih =>
    rw [List.mapM_cons] at h
    cases ha : f a with
    | error e => rw [ha] at h; cases h
    | ok b =>
      rw [ha] at h
      cases hl : l.mapM f with
      | error e => rw [hl] at h; cases h
      | ok bs =>
        intro x hx
        rcases List.mem_cons.1 hx with rfl | hx
        · exact ⟨b, ha⟩
        · exact ih bs hl x hx

/-- `mapM` over `range n` when all entries succeed. -/
theorem mapM_range_ok {γ : Type} (n : ℕ) (f : ℕ → Except Err γ) (g : Fin n → γ) (h : ∀ i : Fin n, f i = .ok (g i)) : (List.range n).mapM f = .ok (List.ofFn g) := by
  cases n with
  | zero => rfl
  | succ n =>
    rw [mapM_ok _ f (fun i => if hi : i < n + 1 then g ⟨i, hi⟩ else g 0) fun x hx => by
      have hx' := List.mem_range.1 hx
      simp only [hx', dif_pos]
      exact h ⟨x, hx'⟩]
    congr 1
    apply List.ext_getElem
    · simp
    · intro i h1 h2
      rw [List.length_map, List.length_range] at h1
      rw [List.getElem_map, List.getElem_range, dif_pos h1, List.getElem_ofFn]

/-! ## Monotone envelopes -/

theorem raiseFrom_length (prev : ℝ) (l : List ℝ) [DecidableRel ((· < ·) : ℝ → ℝ → Prop)] : (raiseFrom prev l).length = l.length := by
  induction l generalizing prev with
  | nil => rfl
  | cons x l ih => simp [raiseFrom, ih]

theorem raiseFrom_greatest (prev : ℝ) (l : List ℝ) [DecidableRel ((· < ·) : ℝ → ℝ → Prop)] (i : ℕ) (v : ℝ) (h : (raiseFrom prev l)[i]? = some v) :
    IsGreatest (insert prev {a | ∃ j ≤ i, l[j]? = some a}) v := by
  induction l generalizing prev i with
  | nil => simp [raiseFrom] at h
  | cons x l ih =>
    simp only [raiseFrom] at h
    have hw : ∀ w, w = (if x < prev then prev else x) → prev ≤ w ∧ x ≤ w ∧ (w = prev ∨ w = x) := by
      rintro w rfl
      split_ifs with hx
      · exact ⟨le_rfl, hx.le, .inl rfl⟩
      · exact ⟨not_lt.1 hx, le_rfl, .inr rfl⟩
    obtain ⟨w1, w2, w3⟩ := hw _ rfl
    cases i with
    | zero =>
      simp only [List.getElem?_cons_zero, Option.some.injEq] at h
      rw [h] at w1 w2 w3
      refine ⟨?_, ?_⟩
      · rcases w3 with rfl | rfl
        · exact .inl rfl
        · exact .inr ⟨0, le_rfl, rfl⟩
      · rintro a (rfl | ⟨j, hj, ha⟩)
        · exact w1
        · obtain rfl : j = 0 := by omega
          simp only [List.getElem?_cons_zero, Option.some.injEq] at ha
          exact ha ▸ w2
    | succ i =>
      simp only [List.getElem?_cons_succ] at h
      obtain ⟨hm, hu⟩ := ih _ i h
      refine ⟨?_, ?_⟩
      · rcases hm with hm | ⟨j, hj, hm⟩
        · rw [hm]
          rcases w3 with h3 | h3
          · exact .inl h3
          · exact .inr ⟨0, Nat.zero_le _, by rw [h3]; rfl⟩
        · exact .inr ⟨j + 1, by omega, by simpa using hm⟩
      · have hwv := hu (Set.mem_insert _ _)
        rintro a (rfl | ⟨j, hj, ha⟩)
        · exact w1.trans hwv
        · cases j with
          | zero =>
            simp only [List.getElem?_cons_zero, Option.some.injEq] at ha
            rw [← ha]
            exact w2.trans hwv
          | succ j => exact hu (.inr ⟨j, by omega, by simpa using ha⟩)

theorem raiseAll_length (l : List ℝ) [DecidableRel ((· < ·) : ℝ → ℝ → Prop)] : (raiseAll l).length = l.length := by
  cases l with
  | nil => rfl
  | cons x l => simp [raiseAll, raiseFrom_length]

theorem raiseAll_greatest (l : List ℝ) [DecidableRel ((· < ·) : ℝ → ℝ → Prop)] (i : ℕ) (v : ℝ) (h : (raiseAll l)[i]? = some v) :
    IsGreatest {a | ∃ j ≤ i, l[j]? = some a} v := by
  cases l with
  | nil => simp [raiseAll] at h
  | cons x l =>
    simp only [raiseAll] at h
    cases i with
    | zero =>
      simp only [List.getElem?_cons_zero, Option.some.injEq] at h
      subst h
      refine ⟨⟨0, le_rfl, rfl⟩, ?_⟩
      rintro a ⟨j, hj, ha⟩
      obtain rfl : j = 0 := by omega
      simp only [List.getElem?_cons_zero, Option.some.injEq] at ha
      exact ha.ge
    | succ i =>
      simp only [List.getElem?_cons_succ] at h
      obtain ⟨hm, hu⟩ := raiseFrom_greatest x l i v h
      refine ⟨?_, ?_⟩
      · rcases hm with rfl | ⟨j, hj, hm⟩
        · exact ⟨0, Nat.zero_le _, rfl⟩
        · exact ⟨j + 1, by omega, by simpa using hm⟩
      · rintro a ⟨j, hj, ha⟩
        cases j with
        | zero =>
          simp only [List.getElem?_cons_zero, Option.some.injEq] at ha
          exact hu (.inl ha.symm)
        | succ j => exact hu (.inr ⟨j, by omega, by simpa using ha⟩)

theorem lowerAll_length (l : List ℝ) [DecidableRel ((· < ·) : ℝ → ℝ → Prop)] : (lowerAll l).length = l.length := by
  induction l with
  | nil => rfl
  | cons x l ih =>
    unfold lowerAll
    split
    · rename_i h
      rw [h] at ih
      simp at ih
      simp [← ih]
    · rename_i z zs h
      rw [h] at ih
      simp at ih
      simp [← ih]

theorem lowerAll_least (l : List ℝ) [DecidableRel ((· < ·) : ℝ → ℝ → Prop)] (i : ℕ) (v : ℝ) (h : (lowerAll l)[i]? = some v) :
    IsLeast {a | ∃ j, i ≤ j ∧ l[j]? = some a} v := by
  induction l generalizing i v with
  | nil => simp [lowerAll] at h
  | cons x l ih =>
    unfold lowerAll at h
    split at h
    · rename_i h0
      have hl : l = [] := by
        have := lowerAll_length l
        rw [h0] at this
        exact List.length_eq_zero_iff.1 this.symm
      subst hl
      cases i with
      | zero =>
        simp only [List.getElem?_cons_zero, Option.some.injEq] at h
        subst h
        refine ⟨⟨0, le_rfl, rfl⟩, ?_⟩
        rintro a ⟨j, hj, ha⟩
        cases j with
        | zero =>
          simp only [List.getElem?_cons_zero, Option.some.injEq] at ha
          exact ha.le
        | succ j => simp at ha
      | succ i => simp at h
    · rename_i z zs h0
      cases i with
      | zero =>
        simp only [List.getElem?_cons_zero, Option.some.injEq] at h
        have hz := ih 0 z (by rw [h0]; rfl)
        have hw : v ≤ x ∧ v ≤ z ∧ (v = x ∨ v = z) := by
          rw [← h]
          split_ifs with hx
          · exact ⟨hx.le, le_rfl, .inr rfl⟩
          · exact ⟨le_rfl, not_lt.1 hx, .inl rfl⟩
        refine ⟨?_, ?_⟩
        · rcases hw.2.2 with rfl | hv
          · exact ⟨0, le_rfl, rfl⟩
          · obtain ⟨j, hj, hm⟩ := hz.1
            exact ⟨j + 1, by omega, by rw [hv]; simpa using hm⟩
        · rintro a ⟨j, hj, ha⟩
          cases j with
          | zero =>
            simp only [List.getElem?_cons_zero, Option.some.injEq] at ha
            exact ha ▸ hw.1
          | succ j => exact hw.2.1.trans (hz.2 ⟨j, Nat.zero_le _, by simpa using ha⟩)
      | succ i =>
        simp only [List.getElem?_cons_succ] at h
        obtain ⟨⟨j, hj, hm⟩, hu⟩ := ih i v (by rw [h0]; exact h)
        refine ⟨⟨j + 1, by omega, by simpa using hm⟩, ?_⟩
        rintro a ⟨j', hj', ha⟩
        cases j' with
        | zero => omega
        | succ j' => exact hu ⟨j', by omega, by simpa using ha⟩

/-! ## The same passes on NumPy floats -/

section
open Classical

theorem raiseFrom_fin (prev : ℝ) (l : List ℝ) : raiseFrom (Fl.fin prev) (l.map Fl.fin) = (raiseFrom prev l).map Fl.fin := by
  induction l generalizing prev with
  | nil => rfl
  | cons x l ih =>
    simp only [raiseFrom, List.map_cons, Fl.fin_lt_fin]
    by_cases h : x < prev
    · rw [if_pos h, if_pos h, ih]
    · rw [if_neg h, if_neg h, ih]

theorem raiseAll_fin (l : List ℝ) : raiseAll (l.map Fl.fin) = (raiseAll l).map Fl.fin := by
  cases l with
  | nil => rfl
  | cons x l => simp only [raiseAll, List.map_cons, raiseFrom_fin]

theorem lowerAll_fin (l : List ℝ) : lowerAll (l.map Fl.fin) = (lowerAll l).map Fl.fin := by
  induction l with
  | nil => rfl
  | cons x l ih =>
    rw [List.map_cons]
    unfold lowerAll
    rw [ih]
    cases h : lowerAll l with
    | nil => rfl
    | cons z zs =>
      simp only [List.map_cons, Fl.fin_lt_fin]
      by_cases hz : z < x
      · rw [if_pos hz, if_pos hz]
      · rw [if_neg hz, if_neg hz]

theorem isAsc_fin (l : List ℝ) : isAsc (l.map Fl.fin) ↔ isAsc l := by
  induction l with
  | nil => exact Iff.rfl
  | cons x l ih =>
    cases l with
    | nil => exact Iff.rfl
    | cons z l =>
      simp only [List.map_cons] at ih ⊢
      unfold isAsc
      rw [ih, Fl.fin_le_fin]

theorem isAsc_iff (l : List ℝ) : isAsc l ↔ ∀ (i j : ℕ) (a b : ℝ), i ≤ j → l[i]? = some a → l[j]? = some b → a ≤ b := by
  induction l with
  | nil => simp [isAsc]
  | cons x l ih =>
    cases l with
    | nil =>
      simp only [isAsc, true_iff]
      intro i j a b hij ha hb
      cases i <;> cases j <;> simp_all
    | cons z l =>
      unfold isAsc
      rw [ih]
      constructor
      · rintro ⟨h1, h2⟩ i j a b hij ha hb
        cases j with
        | zero =>
          obtain rfl : i = 0 := by omega
          simp_all
        | succ j =>
          cases i with
          | zero =>
            simp only [List.getElem?_cons_zero, Option.some.injEq] at ha
            subst ha
            exact h1.trans (h2 0 j z b (Nat.zero_le _) rfl (by simpa using hb))
          | succ i => exact h2 i j a b (by omega) (by simpa using ha) (by simpa using hb)
      · intro h
        exact ⟨h 0 1 x z (by omega) rfl rfl, fun i j a b hij ha hb => h (i + 1) (j + 1) a b (by omega) (by simpa using ha) (by simpa using hb)⟩

/-- What the correction computes. -/
theorem correctAsc_fin (x : List ℝ) : ∃ c : List ℝ, correctAsc (x.map Fl.fin) = c.map Fl.fin ∧ c.length = x.length ∧ ∀ i v, c[i]? = some v → EnvelopeMean x i v := by
  unfold correctAsc
  rw [isAsc_fin]
  split_ifs with h
  · refine ⟨x, rfl, rfl, fun i v hv => ⟨v, v, ⟨⟨i, le_rfl, hv⟩, ?_⟩, ⟨⟨i, le_rfl, hv⟩, ?_⟩, by ring⟩⟩
    · rintro a ⟨j, hj, ha⟩
      exact (isAsc_iff x).1 h j i a v hj ha hv
    · rintro a ⟨j, hj, ha⟩
      exact (isAsc_iff x).1 h i j v a hj hv ha
  · refine ⟨List.zipWith (fun a b => (a + b) / 2) (raiseAll x) (lowerAll x), ?_, ?_, ?_⟩
    · rw [raiseAll_fin, lowerAll_fin, List.zipWith_map, List.map_zipWith]
      congr 1
      funext a b
      rw [Fl.fin_add, Fl.fin_div _ two_ne_zero]
    · rw [List.length_zipWith, raiseAll_length, lowerAll_length, min_self]
    · intro i v hv
      rw [List.getElem?_zipWith_eq_some] at hv
      obtain ⟨u, l, hu, hl, rfl⟩ := hv
      exact ⟨u, l, raiseAll_greatest x i u hu, lowerAll_least x i l hl, rfl⟩

end

theorem envelope_mono {x : List ℝ} {i j : ℕ} {v w : ℝ} (hij : i ≤ j) (hv : EnvelopeMean x i v) (hw : EnvelopeMean x j w) : v ≤ w := by
  obtain ⟨u, l, hu, hl, rfl⟩ := hv
  obtain ⟨u', l', hu', hl', rfl⟩ := hw
  have h1 : u ≤ u' := by
    obtain ⟨k, hk, hx⟩ := hu.1
    exact hu'.2 ⟨k, hk.trans hij, hx⟩
  have h2 : l ≤ l' := by
    obtain ⟨k, hk, hx⟩ := hl'.1
    exact hl.2 ⟨k, hij.trans hk, hx⟩
  linarith

theorem envelope_bounds {x : List ℝ} {i : ℕ} {v a b : ℝ} (hv : EnvelopeMean x i v) (ha : ∀ t ∈ x, a ≤ t) (hb : ∀ t ∈ x, t ≤ b) : a ≤ v ∧ v ≤ b := by
  obtain ⟨u, l, ⟨⟨j, _, hj⟩, _⟩, ⟨⟨k, _, hk⟩, _⟩, rfl⟩ := hv
  have h1 := List.mem_of_getElem? hj
  have h2 := List.mem_of_getElem? hk
  constructor
  · linarith [ha u h1, ha l h2]
  · linarith [hb u h1, hb l h2]

/-! ## From cumulative to class prevalences -/

/-- Successive differences. -/
def diffsFrom (s : ℝ) : List ℝ → List ℝ
  | [] => []
  | x :: xs => (x - s) :: diffsFrom x xs

theorem diffsFrom_length (s : ℝ) (l : List ℝ) : (diffsFrom s l).length = l.length := by
  induction l generalizing s with
  | nil => rfl
  | cons x l ih => simp [diffsFrom, ih]

theorem diffsFrom_take (s : ℝ) (l : List ℝ) (i : ℕ) (v : ℝ) (h : l[i]? = some v) : s + ((diffsFrom s l).take (i + 1)).sum = v := by
  induction l generalizing s i with
  | nil => simp at h
  | cons x l ih =>
    cases i with
    | zero =>
      simp only [List.getElem?_cons_zero, Option.some.injEq] at h
      simp [diffsFrom, h]
    | succ i =>
      simp only [List.getElem?_cons_succ] at h
      have := ih x i h
      simp only [diffsFrom, List.take_succ_cons, List.sum_cons] at this ⊢
      linarith

theorem fhqLoop_fin (done l : List ℝ) (hpos : ∀ v ∈ l, v ≤ 1) (h0 : 0 ≤ done.sum) (hasc : isAsc (done.sum :: l)) :
    fhqLoop (done.map Fl.fin) (l.map Fl.fin) = (done ++ diffsFrom done.sum l).map Fl.fin := by
  induction l generalizing done with
  | nil => simp [fhqLoop, diffsFrom]
  | cons x l ih =>
    rw [isAsc] at hasc
    have hx1 := hpos x (by simp)
    have hclip : (Fl.fin x - (done.map Fl.fin).sum).clip01 = Fl.fin (x - done.sum) := by
      rw [Fl.list_sum_fin, Fl.fin_sub, Fl.clip01_fin, min_eq_left (by linarith), max_eq_right (by linarith [hasc.1])]
    rw [List.map_cons]
    unfold fhqLoop
    rw [hclip]
    have hsum : (done ++ [x - done.sum]).sum = x := by simp
    have := ih (done ++ [x - done.sum]) (fun v hv => hpos v (by simp [hv])) (by rw [hsum]; linarith [hasc.1]) (by rw [hsum]; exact hasc.2)
    rw [hsum] at this
    rw [show done.map Fl.fin ++ [Fl.fin (x - done.sum)] = (done ++ [x - done.sum]).map Fl.fin by simp, this]
    simp [diffsFrom]

theorem diffsFrom_nonneg (s : ℝ) (l : List ℝ) (h : isAsc (s :: l)) : ∀ v ∈ diffsFrom s l, 0 ≤ v := by
  induction l generalizing s with
  | nil => simp [diffsFrom]
  | cons x l ih =>
    rw [isAsc] at h
    intro v hv
    rcases List.mem_cons.1 hv with rfl | hv
    · linarith [h.1]
    · exact ih x h.2 v hv

/-- What the loop over the classes computes from nondecreasing group prevalences in [0,1]. -/
theorem fhqClasses_fin (c : List ℝ) (hne : c ≠ []) (h0 : ∀ v ∈ c, 0 ≤ v) (h1 : ∀ v ∈ c, v ≤ 1) (hasc : isAsc c) :
    ∃ p : List ℝ, fhqClasses (c.map Fl.fin) = .ok (p.map Fl.fin) ∧ p.length = c.length + 1 ∧ (∀ v ∈ p, 0 ≤ v) ∧ p.sum = 1
      ∧ ∀ i v, c[i]? = some v → (p.take (i + 1)).sum = v := by
  cases c with
  | nil => exact absurd rfl hne
  | cons x l =>
    have hloop := fhqLoop_fin [x] l (fun v hv => h1 v (by simp [hv])) (by simpa using h0 x (by simp)) (by simpa using hasc)
    simp only [List.map_cons, List.map_nil, List.sum_singleton] at hloop
    have htotal : ∀ v, (x :: l)[l.length]? = some v → ([x] ++ diffsFrom x l).sum = v := by
      intro v hv
      cases hl : l.length with
      | zero =>
        have : l = [] := List.length_eq_zero_iff.1 hl
        subst this
        simpa [diffsFrom] using hv
      | succ m =>
        rw [hl] at hv
        simp only [List.getElem?_cons_succ] at hv
        have := diffsFrom_take x l m v hv
        rw [List.take_of_length_le (by rw [diffsFrom_length, hl])] at this
        simpa using this
    obtain ⟨v, hv⟩ : ∃ v, (x :: l)[l.length]? = some v := ⟨_, List.getElem?_eq_getElem (by simp)⟩
    have hvm := List.mem_of_getElem? hv
    refine ⟨([x] ++ diffsFrom x l) ++ [1 - ([x] ++ diffsFrom x l).sum], ?_, ?_, ?_, ?_, ?_⟩
    · rw [List.map_cons, fhqClasses]
      simp only
      rw [hloop, Fl.list_sum_fin, Fl.one_def, Fl.fin_sub]
      simp
    · simp [diffsFrom_length]
    · intro w hw
      rcases List.mem_append.1 hw with hw | hw
      · rcases List.mem_append.1 hw with hw | hw
        · rw [List.mem_singleton.1 hw]; exact h0 x (by simp)
        · exact diffsFrom_nonneg x l hasc w hw
      · rw [List.mem_singleton.1 hw, htotal v hv]
        linarith [h1 v hvm]
    · rw [List.sum_append]
      simp
    · intro i w hw
      have hi : i < (x :: l).length := by
        by_contra hcon
        rw [List.getElem?_eq_none (by omega)] at hw
        cases hw
      simp only [List.length_cons] at hi
      rw [List.take_append_of_le_length (by simp [diffsFrom_length]; omega)]
      cases i with
      | zero => simpa using hw
      | succ i =>
        simp only [List.getElem?_cons_succ] at hw
        have := diffsFrom_take x l i w hw
        simpa using this

end Verif.Proof
