import Verif.Spec.Df
import Verif.Proof.Bags
import Mathlib.Data.List.GetD
import Mathlib.Algebra.BigOperators.Fin
import Mathlib.Order.Fin.Basic

/-!
# Lemmas about bin cuts, histograms and averages
-/

namespace Verif.Proof

open Verif.Model Verif.Spec

theorem seqFin_ok {β : Type*} {n : ℕ} (f : Fin n → Except Err β) (v : Fin n → β) : seqFin f = .ok v ↔ ∀ i, f i = .ok (v i) := by
  induction n with
  | zero =>
    simp only [seqFin, Except.ok.injEq]
    exact ⟨fun _ i => i.elim0, fun _ => funext fun i => i.elim0⟩
  | succ n ih =>
    simp only [seqFin]
    cases h0 : f 0 with
    | error e => simp only [reduceCtorEq, false_iff]; intro h; rw [h 0] at h0; cases h0
    | ok a =>
      simp only
      cases hr : seqFin fun i => f i.succ with
      | error e =>
        simp only [reduceCtorEq, false_iff]
        intro h
        have := (ih (fun i => f i.succ) (fun i => v i.succ)).2 fun i => h i.succ
        rw [hr] at this
        cases this
      | ok r =>
        have hr' := (ih _ _).1 hr
        simp only [Except.ok.injEq]
        constructor
        · rintro rfl i
          refine Fin.cases ?_ (fun i => ?_) i
          · rw [h0]; rfl
          · rw [hr' i]; rfl
        · intro h
          funext i
          refine Fin.cases ?_ (fun i => ?_) i
          · have := h 0; rw [h0] at this; simpa using this
          · have := h i.succ; rw [hr' i] at this; simpa using this

theorem seqFin_error {β : Type*} {n : ℕ} (f : Fin n → Except Err β) (hn : 0 < n) (e : Err) (h : f ⟨0, hn⟩ = .error e) : seqFin f = .error e := by
  cases n with
  | zero => omega
  | succ n =>
    simp only [seqFin]
    have : f 0 = .error e := h
    rw [this]

theorem cutsOk_of_step {n : ℕ} {cuts : Fin (n + 1) → EReal} (h : Monotone cuts) (i : Fin n) : cuts i.castSucc ≤ cuts i.succ :=
  h (Fin.castSucc_lt_succ).le

/-! ## Bin cuts -/

theorem linspace_mono {a b : ℝ} (hab : a ≤ b) (n : ℕ) {i j : ℕ} (h : i ≤ j) : linspace a b n i ≤ linspace a b n j := by
  unfold linspace
  have h1 : (i : ℝ) ≤ j := by exact_mod_cast h
  have h2 : 0 ≤ (b - a) / n := div_nonneg (by linarith) (Nat.cast_nonneg _)
  nlinarith

theorem binEdges_mono {n : ℕ} (hn : 0 < n) {a b : ℝ} (hab : a ≤ b) : ∃ e, binEdges n a b = .ok e ∧ ∀ i j : ℕ, i ≤ j → e i ≤ e j := by
  unfold binEdges
  rw [if_neg hn.ne', if_neg (by linarith)]
  split_ifs with h
  · exact ⟨_, rfl, fun i j hij => linspace_mono (by linarith) n hij⟩
  · exact ⟨_, rfl, fun i j hij => linspace_mono hab n hij⟩

/-- Inner cut points in order, between -inf and +inf. -/
theorem cutsOk_of_inner {n : ℕ} (hn : 0 < n) (e : Fin (n + 1) → ℝ) (he : ∀ i j : Fin (n + 1), 0 < i → i ≤ j → j < Fin.last n → e i ≤ e j) :
    CutsOk fun i : Fin (n + 1) => if i = Fin.last n then (⊤ : EReal) else if i = 0 then ⊥ else (e i : EReal) := by
  have h0 : (0 : Fin (n + 1)) ≠ Fin.last n := by
    intro h
    have := congrArg Fin.val h
    simp at this
    omega
  refine ⟨by simp [h0], by simp, ?_⟩
  intro i j hij
  simp only
  by_cases hj : j = Fin.last n
  · rw [if_pos hj]; exact le_top
  · have hi : i ≠ Fin.last n := fun h => hj (le_antisymm (Fin.le_last j) (h ▸ hij))
    rw [if_neg hj, if_neg hi]
    by_cases hi0 : i = 0
    · rw [if_pos hi0]; exact bot_le
    · have hj0 : j ≠ 0 := fun h => hi0 (le_antisymm (h ▸ hij) (Fin.zero_le i))
      rw [if_neg hi0, if_neg hj0]
      exact_mod_cast he i j (Fin.pos_iff_ne_zero.2 hi0) hij (lt_of_le_of_ne (Fin.le_last j) hj)

theorem pyIndex_nonneg (l : List ℝ) (i : ℕ) (h : i < l.length) : pyIndex l i = .ok l[i] := by
  unfold pyIndex
  have h1 : ¬ ((i : ℤ) < 0) := by omega
  simp only [h1, if_false, Int.toNat_natCast, List.getElem?_eq_getElem h]
  rw [if_pos (by omega)]

theorem normalCuts_ok {ppf : ℝ → EReal} (hp : NormPpf ppf) {n : ℕ} (hn : 0 < n) (p : ℝ × ℝ) (hstd : 0 < p.2) :
    ∃ cuts, normalCuts ppf n p = .ok cuts ∧ CutsOk cuts := by
  unfold normalCuts
  rw [if_pos hstd, if_neg hn.ne']
  refine ⟨_, rfl, ?_, ?_, ?_⟩
  · simp only [Fin.val_zero, Nat.cast_zero, zero_div]
    rw [hp.zero, EReal.coe_mul_bot_of_pos hstd, EReal.bot_add]
  · simp only [Fin.val_last]
    rw [div_self (by exact_mod_cast hn.ne'), hp.one, EReal.coe_mul_top_of_pos hstd, EReal.top_add_coe]
  · intro i j hij
    have hnr : (0:ℝ) < n := by exact_mod_cast hn
    have hij' : ((i : ℕ) : ℝ) ≤ (j : ℕ) := by exact_mod_cast hij
    have hjn : ((j : ℕ) : ℝ) ≤ n := by exact_mod_cast Nat.lt_succ_iff.1 j.2
    have := hp.mono ((i : ℕ) / n) ((j : ℕ) / n) (by positivity) (by gcongr) (by rw [div_le_one hnr]; exact hjn)
    simp only
    gcongr

/-! ## Histograms -/

open Classical in
/-- The contribution of a value to a cumulative count. -/
noncomputable def cumInd {n : ℕ} (edges : Fin (n + 1) → EReal) (i : Fin (n + 1)) (v : ℝ) : ℝ :=
  if i = Fin.last n then (if (v : EReal) ≤ edges i then 1 else 0) else (if (v : EReal) < edges i then 1 else 0)

/-- The contribution of a value to a bin. -/
noncomputable def binInd {n : ℕ} (edges : Fin (n + 1) → EReal) (b : Fin n) (v : ℝ) : ℝ :=
  cumInd edges b.succ v - cumInd edges b.castSucc v

theorem histCum_eq (x : List ℝ) {n : ℕ} (edges : Fin (n + 1) → EReal) (i : Fin (n + 1)) : histCum x edges i = (x.map (cumInd edges i)).sum := by
  unfold histCum cumInd
  by_cases h : i = Fin.last n
  · simp only [h, if_true]
    induction x with
    | nil => simp
    | cons a x ih =>
      simp only [List.countP_cons, List.map_cons, List.sum_cons, ← ih]
      split_ifs <;> simp_all [add_comm]
  · simp only [h, if_false]
    induction x with
    | nil => simp
    | cons a x ih =>
      simp only [List.countP_cons, List.map_cons, List.sum_cons, ← ih]
      split_ifs <;> simp_all [add_comm]

theorem list_sum_map_sub {D : Type*} (l : List D) (f g : D → ℝ) : (l.map fun v => f v - g v).sum = (l.map f).sum - (l.map g).sum := by
  induction l with
  | nil => simp
  | cons a l ih => simp only [List.map_cons, List.sum_cons, ih]; ring

theorem npHistogram_eq (x : List ℝ) {n : ℕ} (edges : Fin (n + 1) → EReal) (h : Monotone edges) :
    npHistogram x edges = .ok fun b => (x.map (binInd edges b)).sum := by
  unfold npHistogram
  rw [if_pos fun i => cutsOk_of_step h i]
  congr 1
  funext b
  rw [histCum_eq, histCum_eq, ← list_sum_map_sub]
  rfl

theorem binInd_nonneg {n : ℕ} (edges : Fin (n + 1) → EReal) (h : Monotone edges) (b : Fin n) (v : ℝ) : 0 ≤ binInd edges b v := by
  unfold binInd cumInd
  have hb : b.castSucc ≠ Fin.last n := (Fin.castSucc_lt_last b).ne
  have hle := cutsOk_of_step h b
  rw [if_neg hb]
  split_ifs with h1 h2 h3 h3 h2 h3 h3 <;> try norm_num
  · exact absurd (h3.le.trans hle) h2
  · exact absurd (lt_of_lt_of_le h3 hle) h2

theorem sum_binInd {n : ℕ} (edges : Fin (n + 1) → EReal) (h : CutsOk edges) (hn : 0 < n) (v : ℝ) : ∑ b, binInd edges b v = 1 := by
  unfold binInd
  have := Fin.sum_univ_succ (fun i => cumInd edges i v)
  have h2 := Fin.sum_univ_castSucc (fun i => cumInd edges i v)
  rw [Finset.sum_sub_distrib]
  have e0 : cumInd edges 0 v = 0 := by
    unfold cumInd
    have : (0 : Fin (n + 1)) ≠ Fin.last n := by
      intro h
      have := congrArg Fin.val h
      simp at this
      omega
    rw [if_neg this, h.first, if_neg (by simp)]
  have e1 : cumInd edges (Fin.last n) v = 1 := by
    unfold cumInd
    rw [if_pos rfl, h.last, if_pos le_top]
  linarith

theorem histBlocks_eq {D : Type*} {nd nb : ℕ} (att : Fin nd → D → ℝ) (cuts : Fin nd → Fin (nb + 1) → EReal) (h : ∀ d, Monotone (cuts d)) (rows : List D) :
    histBlocks att cuts rows = .ok fun d b => (rows.map fun r => binInd (cuts d) b (att d r)).sum / rows.length := by
  unfold histBlocks
  rw [seqFin_ok]
  intro d
  rw [npHistogram_eq _ _ (h d)]
  simp only [Except.map, List.map_map]
  rfl

theorem block_isPrev {D : Type*} {nb : ℕ} (hnb : 0 < nb) (edges : Fin (nb + 1) → EReal) (h : CutsOk edges) (rows : List D) (hr : rows ≠ []) (f : D → ℝ) :
    IsPrev fun b => (rows.map fun r => binInd edges b (f r)).sum / rows.length := by
  have hpos : (0:ℝ) < rows.length := by exact_mod_cast List.length_pos_iff.2 hr
  refine ⟨fun b => div_nonneg (List.sum_nonneg ?_) hpos.le, ?_⟩
  · intro x hx
    obtain ⟨r, _, rfl⟩ := List.mem_map.1 hx
    exact binInd_nonneg _ h.mono _ _
  · rw [← Finset.sum_div, div_eq_one_iff_eq hpos.ne']
    clear hr hpos
    induction rows with
    | nil => simp
    | cons a rows ih =>
      simp only [List.map_cons, List.sum_cons, Finset.sum_add_distrib, ih, List.length_cons]
      rw [sum_binInd edges h hnb]
      push_cast
      ring

theorem binInd_share {n : ℕ} (edges : Fin (n + 1) → EReal) (h : CutsOk edges) (b : Fin n) (xs : List ℝ) :
    (xs.map (binInd edges b)).sum / xs.length = binShare edges xs b := by
  have hval : ∀ v : ℝ, cumInd edges b.succ v = if (v : EReal) < edges b.succ then 1 else 0 := by
    intro v
    unfold cumInd
    split_ifs with h1 h2 h3 h3 h3
    · rfl
    · rw [h1, h.last] at h3; exact absurd (EReal.coe_lt_top v) h3
    · exact absurd h3.le h2
    all_goals rfl
  have hb : b.castSucc ≠ Fin.last n := (Fin.castSucc_lt_last b).ne
  have hle := cutsOk_of_step h.mono b
  have : ∀ v : ℝ, binInd edges b v = if edges b.castSucc ≤ (v : EReal) ∧ (v : EReal) < edges b.succ then 1 else 0 := by
    intro v
    unfold binInd
    rw [hval]
    unfold cumInd
    rw [if_neg hb]
    by_cases h1 : (v : EReal) < edges b.castSucc
    · rw [if_pos h1, if_pos (h1.trans_le hle), if_neg fun h2 => absurd h1 (not_lt.2 h2.1), sub_self]
    · rw [if_neg h1, sub_zero]
      simp only [not_lt.1 h1, true_and]
  unfold binShare
  congr 1
  induction xs with
  | nil => simp
  | cons a xs ih =>
    rw [List.map_cons, List.sum_cons, ih, this, List.countP_cons]
    by_cases hc : edges b.castSucc ≤ (a : EReal) ∧ (a : EReal) < edges b.succ
    · rw [if_pos hc, if_pos (decide_eq_true hc)]; push_cast; ring
    · rw [if_neg hc, if_neg (by rwa [decide_eq_true_eq])]; push_cast; ring

theorem cumInd_share {n : ℕ} (edges : Fin (n + 1) → EReal) (h : CutsOk edges) (b : Fin n) (xs : List ℝ) :
    (xs.map (cumInd edges b.succ)).sum / xs.length = cdfShare edges xs b := by
  have hval : ∀ v : ℝ, cumInd edges b.succ v = if (v : EReal) < edges b.succ then 1 else 0 := by
    intro v
    unfold cumInd
    split_ifs with h1 h2 h3 h3 h3
    · rfl
    · rw [h1, h.last] at h3; exact absurd (EReal.coe_lt_top v) h3
    · exact absurd h3.le h2
    all_goals rfl
  unfold cdfShare
  congr 1
  induction xs with
  | nil => simp
  | cons a xs ih =>
    rw [List.map_cons, List.sum_cons, ih, hval, List.countP_cons]
    by_cases hc : (a : EReal) < edges b.succ
    · rw [if_pos hc, if_pos (decide_eq_true hc)]; push_cast; ring
    · rw [if_neg hc, if_neg (by rwa [decide_eq_true_eq])]; push_cast; ring

theorem cumsum_castSucc {n : ℕ} (v : Fin (n + 1) → ℝ) (b : Fin n) : cumsum v b.succ = cumsum v b.castSucc + v b.succ := by
  unfold cumsum
  have : ∀ j : Fin (n + 1), (if j ≤ b.succ then v j else 0) = (if j ≤ b.castSucc then v j else 0) + if j = b.succ then v j else 0 := by
    intro j
    by_cases h1 : j ≤ b.castSucc
    · have h2 : j ≤ b.succ := h1.trans Fin.castSucc_lt_succ.le
      have h3 : j ≠ b.succ := fun h => absurd (h ▸ h1) (not_le.2 Fin.castSucc_lt_succ)
      simp [h1, h2, h3]
    · by_cases h3 : j = b.succ
      · subst h3; simp
      · have h2 : ¬ j ≤ b.succ := fun h => by
          rw [Fin.le_def] at h h1
          have := Fin.val_ne_of_ne h3
          simp at *
          omega
        simp [h1, h2, h3]
  simp only [this, Finset.sum_add_distrib, Finset.sum_ite_eq', Finset.mem_univ, if_true]

theorem cumsum_zero {n : ℕ} (v : Fin (n + 1) → ℝ) : cumsum v 0 = v 0 := by
  unfold cumsum
  simp [Fin.le_zero_iff]

/-- Accumulating the shares of the bins gives the shares below the cut points. -/
theorem cumsum_binShare {n : ℕ} (edges : Fin (n + 1) → EReal) (h : CutsOk edges) (xs : List ℝ) : cumsum (binShare edges xs) = cdfShare edges xs := by
  cases n with
  | zero => funext b; exact b.elim0
  | succ n =>
    have e : ∀ b, binShare edges xs b = (xs.map (cumInd edges b.succ)).sum / xs.length - (xs.map (cumInd edges b.castSucc)).sum / xs.length := by
      intro b
      rw [← binInd_share edges h, ← sub_div, ← list_sum_map_sub]
      rfl
    funext b
    rw [← cumInd_share edges h]
    induction b using Fin.induction with
    | zero =>
      rw [cumsum_zero, e]
      have : (xs.map (cumInd edges (Fin.castSucc 0))).sum = 0 := by
        apply List.sum_eq_zero
        intro x hx
        obtain ⟨v, _, rfl⟩ := List.mem_map.1 hx
        unfold cumInd
        rw [if_neg (Fin.castSucc_lt_last 0).ne]
        have : edges (Fin.castSucc 0) = ⊥ := h.first
        rw [this, if_neg not_lt_bot]
      rw [this, zero_div, sub_zero]
    | succ i ih =>
      rw [cumsum_castSucc, ih, e]
      have : (i.succ).castSucc = i.castSucc.succ := by rfl
      rw [this]
      ring

theorem blockOf_stack {nd nb : ℕ} (v : Fin nd → Fin nb → ℝ) (d : Fin nd) : blockOf (stackBlocks v) d = v d := by
  funext b
  simp [blockOf, stackBlocks]

theorem cumsum_isCdf {n : ℕ} {v : Fin n → ℝ} (hv : IsPrev v) : IsCdf (cumsum v) where
  nonneg i := Finset.sum_nonneg fun j _ => by split_ifs; exacts [hv.1 j, le_rfl]
  mono i j hij := by
    unfold cumsum
    apply Finset.sum_le_sum
    intro k _
    by_cases h : k ≤ i
    · rw [if_pos h, if_pos (h.trans hij)]
    · rw [if_neg h]
      split_ifs
      exacts [hv.1 k, le_rfl]
  last i hi := by
    rw [← hv.2]
    unfold cumsum
    apply Finset.sum_congr rfl
    intro k _
    rw [if_pos (by rw [Fin.le_def]; omega)]

/-- The value of a cumulative sum over the whole column at the position `b` of block `d`: all the previous blocks, and the block so
far. -/
theorem cumsum_stack {nd nb : ℕ} (v : Fin nd → Fin nb → ℝ) (d : Fin nd) (b : Fin nb) :
    blockOf (cumsum (stackBlocks v)) d b = (∑ d', if d' < d then ∑ b', v d' b' else 0) + cumsum (v d) b := by
  unfold blockOf cumsum
  rw [← finProdFinEquiv.sum_comp, Fintype.sum_prod_type]
  have key : ∀ (d' : Fin nd) (b' : Fin nb), finProdFinEquiv (d', b') ≤ finProdFinEquiv (d, b) ↔ d' < d ∨ (d' = d ∧ b' ≤ b) := by
    intro d' b'
    rw [Fin.le_def]
    simp only [finProdFinEquiv_apply_val, Fin.lt_def, Fin.le_def, Fin.ext_iff]
    have h1 := b.2
    have h2 := b'.2
    constructor
    · intro h
      rcases lt_trichotomy (d' : ℕ) d with hlt | heq | hgt
      · exact Or.inl hlt
      · rw [heq] at h
        exact Or.inr ⟨heq, by omega⟩
      · exfalso
        have : nb * ((d : ℕ) + 1) ≤ nb * d' := Nat.mul_le_mul_left _ hgt
        rw [Nat.mul_add, Nat.mul_one] at this
        omega
    · rintro (hlt | ⟨heq, hle⟩)
      · have : nb * ((d' : ℕ) + 1) ≤ nb * d := Nat.mul_le_mul_left _ hlt
        rw [Nat.mul_add, Nat.mul_one] at this
        omega
      · rw [heq]; omega
  have hst : ∀ (d' : Fin nd) (b' : Fin nb), stackBlocks v (finProdFinEquiv (d', b')) = v d' b' := by
    intro d' b'
    simp [stackBlocks]
  simp only [key, hst]
  have hrow : ∀ d' : Fin nd, (∑ b', if d' < d ∨ (d' = d ∧ b' ≤ b) then v d' b' else 0) =
      (if d' < d then ∑ b', v d' b' else 0) + if d' = d then ∑ b', (if b' ≤ b then v d b' else 0) else 0 := by
    intro d'
    by_cases h1 : d' < d
    · have h2 : d' ≠ d := h1.ne
      simp [h1, h2]
    · by_cases h2 : d' = d
      · subst h2
        simp
      · simp [h1, h2]
  simp only [hrow, Finset.sum_add_distrib, Finset.sum_ite_eq', Finset.mem_univ, if_true]

/-! ## Averages over classes -/

theorem selectRows_length {α P : Type*} [DecidableEq α] (y : List α) (rows : List P) (h : y.length = rows.length) (c : α) :
    (selectRows y rows c).length = y.count c := by
  unfold selectRows
  rw [List.length_map, List.count_eq_countP, ← List.countP_eq_length_filter]
  induction y generalizing rows with
  | nil => simp
  | cons a y ih =>
    cases rows with
    | nil => simp at h
    | cons r rows =>
      simp only [List.zip_cons_cons, List.countP_cons]
      rw [ih rows (by simpa using h)]
      simp

theorem selectRows_sum {α P : Type*} [DecidableEq α] {k : ℕ} (y : List α) (rows : List P) (h : y.length = rows.length) (cls : Fin k → α) (hinj : Function.Injective cls)
    (hall : ∀ a ∈ y, ∃ c, cls c = a) (f : P → ℝ) : ∑ c, ((selectRows y rows (cls c)).map f).sum = (rows.map f).sum := by
  unfold selectRows
  induction y generalizing rows with
  | nil =>
    cases rows with
    | nil => simp
    | cons r rows => simp at h
  | cons a y ih =>
    cases rows with
    | nil => simp at h
    | cons r rows =>
      have ih' := ih rows (by simpa using h) fun b hb => hall b (List.mem_cons_of_mem _ hb)
      rw [List.map_cons, List.sum_cons, ← ih']
      obtain ⟨j, hja⟩ := hall a (by simp)
      have : ∀ c, ((((a :: y).zip (r :: rows)).filter fun t => decide (t.1 = cls c)).map Prod.snd |>.map f).sum =
          (if c = j then f r else 0) + (((y.zip rows).filter fun t => decide (t.1 = cls c)).map Prod.snd |>.map f).sum := by
        intro c
        by_cases hc : c = j
        · subst hc
          rw [if_pos rfl]
          simp [hja]
        · rw [if_neg hc]
          have : a ≠ cls c := fun he => hc (hinj (hja.trans he).symm)
          rw [zero_add, List.zip_cons_cons, List.filter_cons_of_neg (by simpa using this)]
      simp only [this, Finset.sum_add_distrib, Finset.sum_ite_eq', Finset.mem_univ, if_true]

/-- The mean over a sample is the mixture of the means over its classes, with the frequencies of the classes as weights. -/
theorem mean_mixture {α P : Type*} [DecidableEq α] {k : ℕ} (y : List α) (rows : List P) (h : y.length = rows.length) (cls : Fin k → α) (hinj : Function.Injective cls)
    (hall : ∀ a ∈ y, ∃ c, cls c = a) (hne : ∀ c, cls c ∈ y) (f : P → ℝ) :
    ∑ c, ((selectRows y rows (cls c)).map f).sum / (selectRows y rows (cls c)).length * freq y (cls c) = (rows.map f).sum / rows.length := by
  rw [← selectRows_sum y rows h cls hinj hall f, Finset.sum_div]
  apply Finset.sum_congr rfl
  intro c _
  rw [selectRows_length y rows h, freq, ← h]
  have : (0:ℝ) < y.count (cls c) := by exact_mod_cast List.count_pos_iff.2 (hne c)
  field_simp

theorem getElem_inj_of_nodup {α : Type*} {l : List α} (h : l.Nodup) : Function.Injective fun c : Fin l.length => l[c] := by
  intro a b hab
  exact Fin.ext ((List.Nodup.getElem_inj_iff h (hi := a.2) (hj := b.2)).1 hab)

theorem exists_getElem_of_mem {α : Type*} {l : List α} {a : α} (h : a ∈ l) : ∃ c : Fin l.length, l[c] = a := by
  obtain ⟨i, hi, e⟩ := List.getElem_of_mem h
  exact ⟨⟨i, hi⟩, e⟩

theorem cumsum_mixture {n m : ℕ} (v : Fin m → Fin n → ℝ) (w : Fin m → ℝ) (k : Fin n) :
    cumsum (fun j => ∑ c, v c j * w c) k = ∑ c, cumsum (v c) k * w c := by
  unfold cumsum
  have : ∀ j, (if j ≤ k then ∑ c, v c j * w c else 0) = ∑ c, (if j ≤ k then v c j else 0) * w c := by
    intro j
    split_ifs <;> simp
  simp only [this]
  rw [Finset.sum_comm]
  simp only [Finset.sum_mul]

theorem accumulate_mixture (kind : CumKind) (f : DistFun) {nd nb m : ℕ} (v : Fin m → Fin nd → Fin nb → ℝ) (w : Fin m → ℝ) (i : Fin (nd * nb)) :
    accumulate kind f (fun d b => ∑ c, v c d b * w c) i = ∑ c, accumulate kind f (v c) i * w c := by
  unfold accumulate
  cases f with
  | pdf => simp only [stackBlocks]
  | cdf =>
    cases kind with
    | whole =>
      simp only
      rw [← cumsum_mixture]
      rfl
    | perBlock =>
      simp only [stackBlocks]
      exact cumsum_mixture _ _ _

end Verif.Proof
