import Verif.Model.Ordinal
import Verif.Spec.Ordinal
import Verif.Spec.Cvx
import Verif.Proof.Df
import Verif.Props.MetricsOrdinal

/-!
# Lemmas about accumulation, scores and histograms of ordinal quantifiers
-/

namespace Verif.Proof

open Verif.Model Verif.Spec Verif.Props

/-- The running total of a sequence. -/
def running {β : Type*} [Add β] (v : ℕ → β) : ℕ → β
  | 0 => v 0
  | k + 1 => running v k + v (k + 1)

theorem accum_fold {β : Type*} [Add β] (v : ℕ → β) (n : ℕ) (i : ℕ) :
    (List.range' 1 n).foldl (fun v i => Function.update v i (v (i - 1) + v i)) v i = if i ≤ n then running v i else v i := by
  induction n generalizing i with
  | zero =>
    by_cases h : i ≤ 0
    · have : i = 0 := by omega
      subst this
      simp [running]
    · simp [h]
  | succ n ih =>
    rw [List.range'_concat, List.foldl_append]
    simp only [List.foldl_cons, List.foldl_nil, Nat.one_mul]
    rw [Function.update_apply]
    by_cases h : i = 1 + n
    · subst h
      rw [if_pos rfl, ih, ih, if_pos (by omega), if_neg (by omega), if_pos (by omega)]
      rw [show 1 + n - 1 = n by omega, show 1 + n = n + 1 by omega]
      rfl
    · rw [if_neg h, ih]
      by_cases h' : i ≤ n
      · rw [if_pos h', if_pos (by omega)]
      · rw [if_neg h', if_neg (by omega)]

theorem accumLoop_eq {β : Type*} [Add β] (n : ℕ) (v : ℕ → β) (i : ℕ) (hi : i < n) : accumLoop n v i = running v i := by
  unfold accumLoop
  rw [accum_fold, if_pos (by omega)]

theorem running_eq_cumsum {m : ℕ} (v : Fin m → ℝ) (i : ℕ) (hi : i < m) :
    running (fun j => if h : j < m then v ⟨j, h⟩ else default) i = cumsum v ⟨i, hi⟩ := by
  rw [cumsum_eq_pre]
  induction i with
  | zero =>
    have := pre_succ v ⟨0, hi⟩
    simp only [running, dif_pos hi]
    rw [this]
    simp [pre_zero]
  | succ i ih =>
    simp only [running]
    rw [ih (by omega), dif_pos hi]
    exact (pre_succ v ⟨i + 1, hi⟩).symm

theorem accumArr_eq {m : ℕ} (v : Fin m → ℝ) : accumArr v = cumsum v := by
  funext i
  unfold accumArr
  rw [accumLoop_eq _ _ _ i.2, running_eq_cumsum v i i.2]

theorem running_fin {m : ℕ} (v : Fin m → ℝ) (i : ℕ) (hi : i < m) :
    running (fun j => if h : j < m then Fl.fin (v ⟨j, h⟩) else default) i = Fl.fin (running (fun j => if h : j < m then v ⟨j, h⟩ else default) i) := by
  induction i with
  | zero => simp [running, hi]
  | succ i ih =>
    simp only [running]
    rw [ih (by omega), dif_pos hi, dif_pos hi, Fl.fin_add]

theorem accumArr_fin {m : ℕ} (v : Fin m → ℝ) : accumArr (fun i => Fl.fin (v i)) = fun i => Fl.fin (cumsum v i) := by
  funext i
  unfold accumArr
  rw [accumLoop_eq _ _ _ i.2, running_fin v i i.2, running_eq_cumsum v i i.2]

theorem cumsum_mulVec {m n : ℕ} (T : Fin m → Fin n → ℝ) (p : Fin n → ℝ) (k : Fin m) :
    ∑ j, cumsum (fun b => T b j) k * p j = cumsum (mixtureOf T p) k := by
  unfold cumsum mixtureOf
  simp only [Finset.sum_mul]
  rw [Finset.sum_comm]
  refine Finset.sum_congr rfl fun b _ => ?_
  by_cases h : b ≤ k
  · simp [h]
  · simp [h]

/-! ## Scores -/

theorem fullScore_eq {n : ℕ} (row : Fin n → ℝ) : fullScore row = expectedPosition row := by
  unfold fullScore expectedPosition
  refine Finset.sum_congr rfl fun c _ => ?_
  push_cast
  rfl

theorem expectedPosition_mem {n : ℕ} (row : Fin n → ℝ) (h : IsPrev row) : 1 ≤ expectedPosition row ∧ expectedPosition row ≤ n := by
  unfold expectedPosition
  constructor
  · calc (1:ℝ) = ∑ c, row c := h.2.symm
      _ ≤ _ := Finset.sum_le_sum fun c _ => by
        have := h.1 c
        have h2 : (0:ℝ) ≤ (c : ℕ) := Nat.cast_nonneg _
        nlinarith
  · calc ∑ c : Fin n, row c * ((c : ℕ) + 1 : ℝ) ≤ ∑ c : Fin n, row c * n := Finset.sum_le_sum fun c _ => by
          have := h.1 c
          have h2 : (((c : ℕ) + 1 : ℕ) : ℝ) ≤ n := Nat.cast_le.2 c.2
          push_cast at h2
          exact mul_le_mul_of_nonneg_left h2 this
      _ = n := by rw [← Finset.sum_mul, h.2, one_mul]

theorem winnerScore_ok {n : ℕ} (hn : 2 ≤ n) (row : Fin n → ℝ) : ∃ col : Fin n, 0 < (col : ℕ) ∧ winnerScore row = .ok ((col : ℕ) + row col) := by
  unfold winnerScore
  simp only
  set first := (((List.finRange n).find? fun c => decide (0 < row c)).map Fin.val).getD 0 with hf
  have hlt : first < n := by
    rw [hf]
    cases (List.finRange n).find? fun c => decide (0 < row c) with
    | none => simp; omega
    | some c => simp
  clear_value first
  have hcol : (if first = n - 1 then n - 2 else first) + 1 < n := by split_ifs <;> omega
  exact ⟨⟨_, hcol⟩, Nat.succ_pos _, dif_pos hcol⟩

theorem winnerScore_mem {n : ℕ} (hn : 2 ≤ n) (row : Fin n → ℝ) (h : IsPrev row) : ∃ v, winnerScore row = .ok v ∧ 1 ≤ v ∧ v ≤ n := by
  obtain ⟨col, hc, he⟩ := winnerScore_ok hn row
  refine ⟨_, he, ?_, ?_⟩
  · have h1 : (1:ℝ) ≤ (col : ℕ) := by exact_mod_cast hc
    have := h.1 col
    linarith
  · have h1 : (((col : ℕ) + 1 : ℕ) : ℝ) ≤ n := Nat.cast_le.2 col.2
    have := h.le_one col
    push_cast at h1
    linarith

theorem winnerScore_expected {n : ℕ} (hn : 2 ≤ n) (row : Fin n → ℝ) (h : IsPrev row) (h2 : TwoConsecutive row) : winnerScore row = .ok (expectedPosition row) := by
  classical
  -- the first positive entry
  obtain ⟨c0, hc0⟩ : ∃ c, 0 < row c := by
    by_contra hne
    push Not at hne
    have : ∑ c, row c = 0 := Finset.sum_eq_zero fun c _ => le_antisymm (hne c) (h.1 c)
    rw [h.2] at this
    norm_num at this
  obtain ⟨f, hf⟩ : ∃ f, (List.finRange n).find? (fun c => decide (0 < row c)) = some f := by
    cases hc : (List.finRange n).find? fun c => decide (0 < row c) with
    | some f => exact ⟨f, rfl⟩
    | none =>
      have := List.find?_eq_none.1 hc c0 (List.mem_finRange _)
      simp [hc0] at this
  have hfpos : 0 < row f := by simpa using List.find?_some hf
  have hfmin : ∀ c, c < f → row c = 0 := by
    intro c hc
    obtain ⟨_, as, bs, hab, hbef⟩ := List.find?_eq_some_iff_append.1 hf
    have hc' : c ∈ as := by
      have hmem : c ∈ as ++ f :: bs := hab ▸ List.mem_finRange c
      rcases List.mem_append.1 hmem with hm | hm
      · exact hm
      · exfalso
        have hs : (as ++ f :: bs).Pairwise (· < ·) := by rw [← hab]; exact List.pairwise_lt_finRange n
        have hs' := (List.pairwise_append.1 hs).2.1
        rcases List.mem_cons.1 hm with e | e
        · exact absurd e hc.ne
        · exact absurd ((List.pairwise_cons.1 hs').1 c e) (not_lt.2 hc.le)
    have := hbef c hc'
    simp only [decide_eq_false_iff_not, not_lt, Bool.not_eq_true', Bool.not_eq_eq_eq_not, Bool.not_true, decide_eq_false_iff_not] at this
    exact le_antisymm this (h.1 c)
  -- support within f and f + 1
  have hsup : ∀ c : Fin n, (c : ℕ) ≠ f → (c : ℕ) ≠ f + 1 → row c = 0 := by
    obtain ⟨j, hj⟩ := h2
    intro c h1 h3
    by_cases hfj : (f : ℕ) = j
    · exact hj c (by omega) (by omega)
    · have hfj' : (f : ℕ) = j + 1 := by
        by_contra hh
        exact hfpos.ne' (hj f hfj hh)
      rcases lt_or_ge (c : ℕ) (f : ℕ) with hlt | hge
      · exact hfmin c hlt
      · exact hj c (by omega) (by omega)
  unfold winnerScore
  simp only [hf, Option.map_some, Option.getD_some]
  by_cases hlast : (f : ℕ) = n - 1
  · -- a single class, the last one
    have hone : ∀ c, c ≠ f → row c = 0 := fun c hc => hsup c (fun e => hc (Fin.ext e)) (by have := c.2; omega)
    have hrow : row f = 1 := by
      rw [← h.2]
      exact (Finset.sum_eq_single f (fun c _ hc => hone c hc) (by simp)).symm
    have hcol : (if (f : ℕ) = n - 1 then n - 2 else (f : ℕ)) + 1 = f := by rw [if_pos hlast]; omega
    have hE : expectedPosition row = (f : ℕ) + 1 := by
      unfold expectedPosition
      rw [Finset.sum_eq_single f (fun c _ hc => by rw [hone c hc, zero_mul]) (by simp), hrow, one_mul]
    rw [dif_pos (by rw [hcol]; exact f.2), hE]
    congr 1
    have : (⟨(if (f : ℕ) = n - 1 then n - 2 else (f : ℕ)) + 1, by rw [hcol]; exact f.2⟩ : Fin n) = f := Fin.ext hcol
    rw [this, hrow, hcol]
  · have hlt : (f : ℕ) + 1 < n := by have := f.2; omega
    set g : Fin n := ⟨f + 1, hlt⟩ with hg
    have hfg : f ≠ g := by intro e; have := congrArg Fin.val e; simp [hg] at this
    have hsum : ∀ w : Fin n → ℝ, ∑ c, row c * w c = row f * w f + row g * w g := by
      intro w
      rw [← Finset.sum_subset (Finset.subset_univ {f, g}), Finset.sum_pair hfg]
      intro c _ hc
      simp only [Finset.mem_insert, Finset.mem_singleton, not_or] at hc
      rw [hsup c (fun e => hc.1 (Fin.ext e)) (fun e => hc.2 (Fin.ext e)), zero_mul]
    have htot : row f + row g = 1 := by
      have := hsum fun _ => 1
      simp only [mul_one] at this
      rw [← this, h.2]
    have hcol : (if (f : ℕ) = n - 1 then n - 2 else (f : ℕ)) + 1 = f + 1 := by rw [if_neg hlast]
    have hE : expectedPosition row = row f * ((f : ℕ) + 1) + row g * (((f : ℕ) + 1 : ℕ) + 1) := hsum fun c => ((c : ℕ) : ℝ) + 1
    rw [dif_pos (by rw [hcol]; exact hlt), hE]
    congr 1
    have : (⟨(if (f : ℕ) = n - 1 then n - 2 else (f : ℕ)) + 1, by rw [hcol]; exact hlt⟩ : Fin n) = g := Fin.ext hcol
    rw [this, hcol]
    push_cast
    have : row f = 1 - row g := by linarith
    rw [this]
    ring

/-! ## Histograms -/

theorem countP_diff {β : Type*} (l : List β) (p q : β → Prop) [DecidablePred p] [DecidablePred q] (h : ∀ x, p x → q x) :
    ((l.countP fun x => decide (q x) : ℕ) : ℝ) - (l.countP fun x => decide (p x) : ℕ) = (l.countP fun x => decide (q x ∧ ¬p x) : ℕ) := by
  induction l with
  | nil => simp
  | cons x l ih =>
    simp only [List.countP_cons]
    push_cast
    by_cases hp : p x
    · have hq := h x hp
      simp [hp, hq] at ih ⊢
      linarith
    · by_cases hq : q x
      · simp [hp, hq] at ih ⊢
        linarith
      · simp [hp, hq] at ih ⊢
        linarith

theorem even_edges_mono (nb nc : ℕ) (hn : 1 ≤ nc) : Monotone fun i : Fin (nb + 1) => ((linspace 1 nc nb i : ℝ) : EReal) := by
  intro i j hij
  exact EReal.coe_le_coe_iff.2 (linspace_mono (by exact_mod_cast hn) nb hij)

theorem npHistogram_even (eff nc : ℕ) (heff : 0 < eff) (hc : 2 ≤ nc) (scores : List ℝ) :
    ∃ h, npHistogram scores (fun i : Fin (eff + 1) => ((linspace 1 nc eff i : ℝ) : EReal)) = .ok h ∧ ∀ b, h b / (scores.length : ℝ) = evenBinShare 1 nc eff scores b := by
  classical
  have hlt : ¬((nc : ℝ) < 1) := by
    have : (2:ℝ) ≤ nc := by exact_mod_cast hc
    linarith
  unfold npHistogram
  have hm := even_edges_mono eff nc (by omega)
  rw [if_pos fun i => hm (Fin.castSucc_lt_succ).le]
  refine ⟨_, rfl, fun b => ?_⟩
  unfold evenBinShare
  congr 1
  have hw : 0 < ((nc : ℝ) - 1) / eff := by
    have h1 : (2:ℝ) ≤ nc := by exact_mod_cast hc
    have h2 : (0:ℝ) < eff := by exact_mod_cast heff
    exact div_pos (by linarith) h2
  have hlo : (b.castSucc : Fin (eff + 1)) ≠ Fin.last eff := (Fin.castSucc_lt_last b).ne
  unfold histCum
  rw [if_neg hlo]
  by_cases hl : b.succ = Fin.last eff
  · rw [if_pos hl]
    have hbe : (b : ℕ) + 1 = eff := by have := congrArg Fin.val hl; simpa using this
    have e2 : linspace 1 nc eff (b.succ : Fin (eff + 1)) = nc := by
      unfold linspace
      have h2 : (0:ℝ) < eff := by exact_mod_cast heff
      rw [Fin.val_succ, hbe]
      field_simp
      ring
    have e3 : 1 + ((b : ℕ) + 1) * (((nc : ℝ) - 1) / eff) = nc := by
      refine Eq.trans ?_ e2
      unfold linspace
      rw [Fin.val_succ]
      push_cast
      ring
    simp only [e2, EReal.coe_le_coe_iff, EReal.coe_lt_coe_iff]
    rw [countP_diff scores (fun v => v < linspace 1 nc eff (b.castSucc : Fin (eff + 1))) (fun v => v ≤ nc) (by
      intro v hv
      refine hv.le.trans ?_
      refine le_of_le_of_eq ?_ e2
      exact linspace_mono (by linarith [not_lt.1 hlt]) eff (by simp))]
    congr 2
    funext v
    rw [Bool.eq_iff_iff]
    simp only [decide_eq_true_eq, not_lt, linspace, Fin.val_castSucc]
    rw [e3]
    constructor
    · rintro ⟨h1, h2⟩
      exact ⟨h2, Or.inr ⟨hbe, h1⟩⟩
    · rintro ⟨h1, h2 | h2⟩
      · exact ⟨h2.le, h1⟩
      · exact ⟨h2.2, h1⟩
  · rw [if_neg hl]
    have hbe : (b : ℕ) + 1 ≠ eff := by
      intro e
      exact hl (Fin.ext (by simpa using e))
    simp only [EReal.coe_lt_coe_iff]
    rw [countP_diff scores (fun v => v < linspace 1 nc eff (b.castSucc : Fin (eff + 1))) (fun v => v < linspace 1 nc eff (b.succ : Fin (eff + 1))) (by
      intro v hv
      refine hv.trans_le ?_
      exact linspace_mono (by linarith [not_lt.1 hlt]) eff (by simp))]
    congr 2
    funext v
    rw [Bool.eq_iff_iff]
    simp only [decide_eq_true_eq, not_lt, linspace, Fin.val_castSucc, Fin.val_succ]
    push_cast
    constructor
    · rintro ⟨h1, h2⟩
      exact ⟨h2, Or.inl h1⟩
    · rintro ⟨h1, h2 | h2⟩
      · exact ⟨h2, h1⟩
      · exact absurd h2.1 hbe

theorem ordHistogram_eq (nBins nc : ℕ) (hb : 0 < nBins) (hc : 2 ≤ nc) (scores : List ℝ) :
    ∃ h, ordHistogram nBins nc scores = .ok h ∧ ∀ b, h b / (scores.length : ℝ) = evenBinShare 1 nc (effBins nBins nc) scores b := by
  have heff : 0 < effBins nBins nc := by unfold effBins; exact Nat.mul_pos hb (by omega)
  have hne : (1:ℝ) ≠ nc := by
    intro e
    have : (1:ℕ) = nc := by exact_mod_cast e
    omega
  have hlt : ¬((nc : ℝ) < 1) := by
    have : (2:ℝ) ≤ nc := by exact_mod_cast hc
    linarith
  unfold ordHistogram binEdges
  rw [if_neg heff.ne', if_neg hlt, if_neg hne]
  exact npHistogram_even _ nc heff hc scores

theorem evenBinShare_isPrev (nb : ℕ) (hb : 0 < nb) (lo hi : ℝ) (hlt : lo < hi) (xs : List ℝ) (hx : xs ≠ []) (hr : ∀ v ∈ xs, lo ≤ v ∧ v ≤ hi) :
    IsPrev (evenBinShare lo hi nb xs) := by
  classical
  refine ⟨fun b => by unfold evenBinShare; positivity, ?_⟩
  have hlen : (0:ℝ) < xs.length := by exact_mod_cast List.length_pos_of_ne_nil hx
  have hnb : (0:ℝ) < nb := by exact_mod_cast hb
  unfold evenBinShare
  rw [← Finset.sum_div, div_eq_one_iff_eq hlen.ne']
  set w := (hi - lo) / nb with hw
  have hwpos : 0 < w := div_pos (by linarith) hnb
  have htop : lo + nb * w = hi := by rw [hw]; field_simp; ring
  clear hx hlen
  induction xs with
  | nil => simp
  | cons v l ih =>
    simp only [List.countP_cons, List.length_cons]
    push_cast
    rw [Finset.sum_add_distrib, ih fun u hu => hr u (List.mem_cons_of_mem _ hu)]
    congr 1
    obtain ⟨h1, h2⟩ := hr v (List.mem_cons_self)
    -- the bin of v
    obtain ⟨b, hbv⟩ : ∃ b : Fin nb, ∀ c : Fin nb, (lo + (c : ℕ) * w ≤ v ∧ (v < lo + ((c : ℕ) + 1) * w ∨ ((c : ℕ) + 1 = nb ∧ v ≤ hi))) ↔ c = b := by
      by_cases hv : v = hi
      · refine ⟨⟨nb - 1, by omega⟩, fun c => ⟨?_, ?_⟩⟩
        · rintro ⟨_, h | h⟩
          · exfalso
            have : (((c : ℕ) + 1 : ℕ) : ℝ) ≤ nb := Nat.cast_le.2 c.2
            push_cast at this
            have := mul_le_mul_of_nonneg_right this hwpos.le
            linarith
          · exact Fin.ext (by simp; omega)
        · rintro rfl
          refine ⟨?_, Or.inr ⟨by simp; omega, hv.le⟩⟩
          have : (((nb - 1 : ℕ)) : ℝ) ≤ nb := by exact_mod_cast Nat.sub_le _ _
          have := mul_le_mul_of_nonneg_right this hwpos.le
          simp only
          linarith
      · have hvlt : v < hi := lt_of_le_of_ne h2 hv
        have hfl0 : 0 ≤ (v - lo) / w := div_nonneg (by linarith) hwpos.le
        set m := ⌊(v - lo) / w⌋₊ with hm
        have hm1 : (m : ℝ) ≤ (v - lo) / w := Nat.floor_le hfl0
        have hm2 : (v - lo) / w < m + 1 := Nat.lt_floor_add_one _
        have hm1' : m * w ≤ v - lo := (le_div_iff₀ hwpos).1 hm1
        have hm2' : v - lo < (m + 1) * w := (div_lt_iff₀ hwpos).1 hm2
        have hmn : m < nb := by
          by_contra hge
          push Not at hge
          have : (nb : ℝ) ≤ m := by exact_mod_cast hge
          have := mul_le_mul_of_nonneg_right this hwpos.le
          linarith
        refine ⟨⟨m, hmn⟩, fun c => ⟨?_, ?_⟩⟩
        · rintro ⟨g1, g2⟩
          have g2' : v < lo + ((c : ℕ) + 1) * w := by
            rcases g2 with g2 | ⟨g2, _⟩
            · exact g2
            · have : ((c : ℕ) : ℝ) + 1 = nb := by exact_mod_cast g2
              rw [this, htop]; exact hvlt
          have hcm : ((c : ℕ) : ℝ) < m + 1 := by
            by_contra hge
            push Not at hge
            have := mul_le_mul_of_nonneg_right hge hwpos.le
            linarith
          have hmc : (m : ℝ) < (c : ℕ) + 1 := by
            by_contra hge
            push Not at hge
            have := mul_le_mul_of_nonneg_right hge hwpos.le
            linarith
          have a1 : (c : ℕ) < m + 1 := by exact_mod_cast hcm
          have a2 : m < (c : ℕ) + 1 := by exact_mod_cast hmc
          exact Fin.ext (by simp; omega)
        · rintro rfl
          exact ⟨by simp only; linarith, Or.inl (by simp only; linarith)⟩
    simp only [hbv]
    simp

end Verif.Proof
