import Verif.Model.Quanty
import Mathlib.Data.List.GetD
import Verif.Spec.Quanty
import Verif.Props.Quantiles
import Verif.Props.Solve
import Verif.Props.AC
import Verif.Props.MetricsMulti

/-!
# C108, C109: QUANTy
-/

namespace Verif.Props

open Verif.Model Verif.Spec Verif.Proof

/-- `global_search` only sees the losses. -/
theorem globalSearch_of_loss {M T : Type*} (dist : M → T → Fl) (mix : ℝ → M) (t : T) (tol : ℝ) (g : ℝ → ℝ) (hg : ∀ p, dist (mix p) t = Fl.fin (g p)) :
    globalSearch dist mix t tol none true = (globalSearch (fun (m : ℝ) (_ : Unit) => Fl.fin m) g () tol none false).map fun r => (some fun i : ℕ => mix ((i : ℝ) / 100), r.2) := by
  unfold globalSearch
  simp only [hg]
  cases globalCore (fun i => Fl.fin (g (i / 100))) (goldenSectionSearch (fun p => Fl.fin (g p)) tol) <;> rfl

theorem sum_range_getD {β : Type*} (d : β) (f : β → ℝ) (l : List β) : ∑ i ∈ Finset.range l.length, f (l.getD i d) = (l.map f).sum := by
  induction l with
  | nil => simp
  | cons a l ih =>
    rw [List.length_cons, Finset.sum_range_succ']
    simp only [List.getD_cons_succ, List.getD_cons_zero, List.map_cons, List.sum_cons]
    rw [ih, add_comm]

theorem card_range_getD {β : Type*} (d : β) (P : β → Prop) [DecidablePred P] (l : List β) : ((Finset.range l.length).filter fun i => P (l.getD i d)).card = l.countP fun b => decide (P b) := by
  rw [Finset.card_filter]
  induction l with
  | nil => simp
  | cons a l ih =>
    rw [List.length_cons, Finset.sum_range_succ', List.countP_cons]
    simp only [List.getD_cons_succ, List.getD_cons_zero]
    rw [ih]
    simp

section
variable {L : Type*}

/-- The quantiles of a nonempty sample are finite numbers. -/
theorem quantiles_fin [DecidableEq L] (pr : Option ℝ) (N : ℕ) (hN : 0 < N) (x : ℕ → ℝ) (n : ℕ) (hn : 0 < n) (y : ℕ → L) (c0 c1 : L) :
    ∃ q : Fin n → ℝ, computeQuantiles pr N x n y c0 c1 = .ok fun j => Fl.fin (q j) := by
  have hc : cutpoint n N 0 ≠ 0 := by
    unfold cutpoint
    have h1 : (0:ℝ) < n := by exact_mod_cast hn
    have h2 : (0:ℝ) < N := by exact_mod_cast hN
    push_cast
    positivity
  refine ⟨fun j => (quantLoop (cutpoint n N) n x (quantileWeight pr N y c0 c1) N).q j / cutpoint n N 0, ?_⟩
  unfold computeQuantiles
  rw [if_neg hn.ne']
  congr 1
  funext j
  rw [Fl.fin_div _ hc]

theorem l2Quantiles_fin {n : ℕ} (a b : Fin n → ℝ) : l2Quantiles (fun j => Fl.fin (a j)) (fun j => Fl.fin (b j)) = Fl.fin (Real.sqrt (∑ j, (a j - b j) ^ 2)) := l2_eq a b

/-- The loss that `predict` minimises is a finite number for every prevalence. -/
theorem quanty_loss_fin [DecidableEq L] (n : ℕ) (hn : 0 < n) (c0 c1 : L) (train : List (ℝ × L)) (ht : train ≠ []) (q : Fin n → ℝ) :
    ∃ m : ℝ → Fin n → ℝ, (∀ p, quantyMixture n c0 c1 train p = fun j => Fl.fin (m p j))
      ∧ ∀ p, l2Quantiles (quantyMixture n c0 c1 train p) (fun j => Fl.fin (q j)) = Fl.fin (Real.sqrt (∑ j, (m p j - q j) ^ 2)) := by
  choose m hm using fun p : ℝ => quantiles_fin (some p) train.length (List.length_pos_of_ne_nil ht) (fun i => (train.map Prod.fst).getD i 0) n hn (fun i => (train.map Prod.snd).getD i c0) c0 c1
  have h : ∀ p, quantyMixture n c0 c1 train p = fun j => Fl.fin (m p j) := fun p => by unfold quantyMixture; rw [hm p]
  exact ⟨m, h, fun p => by rw [h p]; exact l2Quantiles_fin _ _⟩

/-- The mean of the scores of the class `c` in a list of scores and labels. -/
noncomputable def pairMean [DecidableEq L] (train : List (ℝ × L)) (c : L) : ℝ := sampleMean ((train.filter fun t => decide (t.2 = c)).map Prod.fst)

theorem pairMean_perm [DecidableEq L] {a b : List (ℝ × L)} (h : a.Perm b) (c : L) : pairMean a c = pairMean b c := by
  have := (h.filter fun t => decide (t.2 = c)).map Prod.fst
  unfold pairMean sampleMean
  rw [this.sum_eq, this.length_eq]

theorem sum_two_classes [DecidableEq L] (train : List (ℝ × L)) (c0 c1 : L) (hne : c0 ≠ c1) (hl : ∀ t ∈ train, t.2 = c0 ∨ t.2 = c1) (a b : ℝ) :
    (train.map fun t => (if t.2 = c1 then a else if t.2 = c0 then b else 1) * t.1).sum
      = a * ((train.filter fun t => decide (t.2 = c1)).map Prod.fst).sum + b * ((train.filter fun t => decide (t.2 = c0)).map Prod.fst).sum := by
  induction train with
  | nil => simp
  | cons t train ih =>
    rw [List.map_cons, List.sum_cons, ih fun t h => hl t (List.mem_cons_of_mem _ h), List.filter_cons, List.filter_cons]
    rcases hl t List.mem_cons_self with h | h
    · simp [h, hne]; ring
    · simp [h, hne.symm]; ring

/-- With a single quantile the mixture is the mean of the scores of the mixture of the two classes. -/
theorem single_quantile [DecidableEq L] (c0 c1 : L) (hne : c0 ≠ c1) (train : List (ℝ × L)) (hl : ∀ t ∈ train, t.2 = c0 ∨ t.2 = c1) (h0 : ∃ t ∈ train, t.2 = c0) (h1 : ∃ t ∈ train, t.2 = c1)
    (p : ℝ) (hp0 : 0 ≤ p) (hp1 : p ≤ 1) : quantyMixture 1 c0 c1 train p = fun _ => Fl.fin (p * pairMean train c1 + (1 - p) * pairMean train c0) := by
  set N := train.length with hN
  set x : ℕ → ℝ := fun i => (train.map Prod.fst).getD i 0 with hx
  set y : ℕ → L := fun i => (train.map Prod.snd).getD i c0 with hy
  have ey : ∀ i, y i = (train.getD i (0, c0)).2 := fun i => by simp only [hy]; exact List.getD_map (n := i) (f := Prod.snd) (l := train) (d := ((0:ℝ), c0))
  have ex : ∀ i, x i = (train.getD i (0, c0)).1 := fun i => by simp only [hx]; exact List.getD_map (n := i) (f := Prod.fst) (l := train) (d := ((0:ℝ), c0))
  have hyl : ∀ i, i < N → y i = c0 ∨ y i = c1 := fun i hi => by
    rw [ey i, List.getD_eq_getElem _ _ hi]; exact hl _ (List.getElem_mem _)
  have hex : ∀ c, (∃ t ∈ train, t.2 = c) → ∃ i, i < N ∧ y i = c := fun c ⟨t, ht, hc⟩ => by
    obtain ⟨i, hi, rfl⟩ := List.getElem_of_mem ht
    exact ⟨i, hi, by rw [ey i, List.getD_eq_getElem _ _ hi]; exact hc⟩
  have hcard : ∀ c, ((Finset.range N).filter fun k => y k = c).card = (train.filter fun t => decide (t.2 = c)).length := fun c => by
    rw [← List.countP_eq_length_filter, ← card_range_getD ((0:ℝ), c0) (fun t : ℝ × L => t.2 = c) train]
    simp only [ey]
    rfl
  have hpos : ∀ c, (∃ t ∈ train, t.2 = c) → ((train.filter fun t => decide (t.2 = c)).length : ℝ) ≠ 0 := fun c ⟨t, ht, hc⟩ => by
    have : 0 < (train.filter fun t => decide (t.2 = c)).length := List.length_pos_of_mem (List.mem_filter.2 ⟨ht, by simpa using hc⟩)
    exact_mod_cast this.ne'
  set w : ℕ → ℝ := fun i => if y i = c1 then p * N / ((Finset.range N).filter fun k => y k = c1).card
      else if y i = c0 then (1 - p) * N / ((Finset.range N).filter fun k => y k = c0).card else 1 with hw
  have hw' : w = quantileWeight (some p) N y c0 c1 := rfl
  have hwn : ∀ i, 0 ≤ w i := fun i => by
    simp only [hw]
    split_ifs
    · positivity
    · exact div_nonneg (mul_nonneg (by linarith) (Nat.cast_nonneg _)) (Nat.cast_nonneg _)
    · exact zero_le_one
  have hsum : ∑ i ∈ Finset.range N, w i = N := by rw [hw']; exact sum_quantileWeight p N y c0 c1 hne hyl (hex c0 h0) (hex c1 h1)
  have hgap : NoSmallRemainder N 1 w := by
    rintro i hi j hj1 hj2 ⟨hlt, -⟩
    obtain rfl : j = 1 := by omega
    have : ∑ k ∈ Finset.range i, w k ≤ ∑ k ∈ Finset.range N, w k := Finset.sum_le_sum_of_subset_of_nonneg (Finset.range_mono hi) fun k _ _ => hwn k
    rw [hsum] at this
    norm_num at hlt
    linarith
  obtain ⟨A, q, hq, -, -, hmean, -, -⟩ := C35_quantiles_of_mixture_partial p hp0 hp1 N x 1 one_pos y c0 c1 hne hyl (hex c0 h0) (hex c1 h1) w (fun i => rfl) hgap
  unfold quantyMixture
  rw [hq]
  funext j
  have hj : (j : ℕ) = 0 := by omega
  simp only [hj]
  congr 1
  rw [Finset.sum_range_one, Nat.cast_one, div_one] at hmean
  rw [hmean]
  have e : ∑ i ∈ Finset.range N, w i * x i = (train.map fun t => (if t.2 = c1 then p * N / ((train.filter fun t => decide (t.2 = c1)).length : ℕ)
      else if t.2 = c0 then (1 - p) * N / ((train.filter fun t => decide (t.2 = c0)).length : ℕ) else 1) * t.1).sum := by
    rw [← sum_range_getD ((0:ℝ), c0)]
    refine Finset.sum_congr rfl fun i _ => ?_
    simp only [hw, hcard]
    simp only [ey, ex]
  have hN0 : (N : ℝ) ≠ 0 := by
    obtain ⟨t, ht, -⟩ := h0
    have := List.length_pos_of_mem ht
    exact_mod_cast this.ne'
  rw [e, sum_two_classes train c0 c1 hne hl]
  unfold pairMean sampleMean
  rw [List.length_map, List.length_map]
  have p0 := hpos c0 h0
  have p1 := hpos c1 h1
  field_simp

/-- With a single quantile the quantiles of a bag are its mean. -/
theorem single_quantile_test [DecidableEq L] (bag : List ℝ) (hb : bag ≠ []) (d : L) :
    computeQuantiles none bag.length (fun i => (bag.mergeSort fun a b => decide (a ≤ b)).getD i 0) 1 (fun _ => d) d d = .ok fun _ => Fl.fin (sampleMean bag) := by
  obtain ⟨A, q, hq, -, -, hmean, -, -⟩ := C35_quantiles_of_test_sample bag.length (List.length_pos_of_ne_nil hb) (fun i => (bag.mergeSort fun a b => decide (a ≤ b)).getD i 0) 1 one_pos (by norm_num) (fun _ => d) d d
  rw [hq]
  congr 1
  funext j
  have hj : (j : ℕ) = 0 := by omega
  rw [hj]
  congr 1
  rw [Finset.sum_range_one, Nat.cast_one, div_one] at hmean
  have hperm := List.mergeSort_perm bag fun a b => decide (a ≤ b)
  rw [hmean, ← hperm.length_eq, sum_range_getD 0 fun v => v]
  unfold sampleMean
  rw [List.map_id', hperm.sum_eq, hperm.length_eq]

/-- The search on the distance to a point. -/
theorem search_vshape (g : ℝ → ℝ) (k c tol : ℝ) (hk : 0 < k) (htol : 0 < tol) (hg : ∀ p, 0 ≤ p → p ≤ 1 → g p = k * |p - c|) :
    ∃ p, globalSearch (fun (m : ℝ) (_ : Unit) => Fl.fin m) g () tol none false = .ok (none, some p) ∧ 0 ≤ p ∧ p ≤ 1 ∧ |p - min (max c 0) 1| ≤ 2 * tol := by
  set m := min (max c 0) 1 with hm
  have hm0 : 0 ≤ m := le_min (le_max_right _ _) zero_le_one
  have hm1 : m ≤ 1 := min_le_right _ _
  have hcases : (0 ≤ c ∧ c ≤ 1 ∧ m = c) ∨ (c < 0 ∧ m = 0) ∨ (1 < c ∧ m = 1) := by
    rcases lt_or_ge c 0 with h | h
    · exact .inr (.inl ⟨h, by rw [hm, max_eq_right h.le, min_eq_left zero_le_one]⟩)
    · rcases le_or_gt c 1 with h1 | h1
      · exact .inl ⟨h, h1, by rw [hm, max_eq_left h, min_eq_left h1]⟩
      · exact .inr (.inr ⟨h1, by rw [hm, max_eq_left h, min_eq_right h1.le]⟩)
  have hconv : ConvexOn ℝ (Set.Icc 0 1) g := by
    refine ⟨convex_Icc _ _, fun x hx y hy s t hs ht hst => ?_⟩
    simp only [smul_eq_mul]
    have hmem := convex_Icc (0:ℝ) 1 hx hy hs ht hst
    simp only [smul_eq_mul] at hmem
    rw [hg _ hmem.1 hmem.2, hg x hx.1 hx.2, hg y hy.1 hy.2]
    have e : s * x + t * y - c = s * (x - c) + t * (y - c) := by
      obtain rfl : s = 1 - t := by linarith
      ring
    rw [e]
    calc k * |s * (x - c) + t * (y - c)| ≤ k * (|s * (x - c)| + |t * (y - c)|) := mul_le_mul_of_nonneg_left (abs_add_le _ _) hk.le
      _ = _ := by rw [abs_mul, abs_mul, abs_of_nonneg hs, abs_of_nonneg ht]; ring
  have hmin : ∀ x, 0 ≤ x → x ≤ 1 → g m ≤ g x := fun x h0 h1 => by
    rw [hg m hm0 hm1, hg x h0 h1]
    refine mul_le_mul_of_nonneg_left ?_ hk.le
    rcases hcases with ⟨_, _, h⟩ | ⟨h, h'⟩ | ⟨h, h'⟩
    · rw [h, sub_self, abs_zero]; exact abs_nonneg _
    · rw [h', abs_of_pos (by linarith), abs_of_pos (by linarith)]; linarith
    · rw [h', abs_of_neg (by linarith), abs_of_neg (by linarith)]; linarith
  obtain ⟨p, x, z, m', h1, h2, h3, h4, h5, h6, h7, h8, h9, h10, h11, h12, h13⟩ := global_valley g tol m htol (valley_of_convex hconv) ⟨hm0, hm1, hmin⟩
    (fun q hq hq1 => by
      rw [hg m hm0 hm1, hg q (by linarith) hq1]
      refine mul_lt_mul_of_pos_left ?_ hk
      rcases hcases with ⟨_, _, h⟩ | ⟨h, h'⟩ | ⟨h, h'⟩
      · rw [h, sub_self, abs_zero]; exact abs_pos.2 (by linarith)
      · rw [h', abs_of_pos (by linarith), abs_of_pos (by linarith)]; linarith
      · linarith)
    (by
      rcases le_or_gt m (98/100) with h | h
      · exact .inl h
      · right
        rw [hg 1 zero_le_one le_rfl, hg 0 le_rfl zero_le_one]
        refine mul_lt_mul_of_pos_left ?_ hk
        have hc : 98/100 < c := by
          rcases hcases with ⟨_, _, h'⟩ | ⟨h', h''⟩ | ⟨h', h''⟩ <;> linarith
        rw [abs_of_neg (show 0 - c < 0 by linarith), abs_lt]
        constructor <;> linarith)
  refine ⟨p, h1, h2, h3, ?_⟩
  rw [hg m' h8 h9, hg m hm0 hm1] at h12
  rw [hg x h4 h5, hg z h6 h7] at h13
  have e12 := le_of_mul_le_mul_left h12 hk
  have e13 := le_of_mul_le_mul_left h13 hk
  have hm' : m' = m := by
    rcases hcases with ⟨_, _, h⟩ | ⟨h, h'⟩ | ⟨h, h'⟩
    · rw [h, sub_self, abs_zero] at e12
      rw [h]
      have := abs_eq_zero.1 (le_antisymm e12 (abs_nonneg _))
      linarith
    · rw [h', abs_of_pos (by linarith), abs_of_pos (by linarith)] at e12
      linarith
    · rw [h', abs_of_neg (by linarith), abs_of_neg (by linarith)] at e12
      linarith
  rw [hm', abs_le] at h11
  rw [abs_le] at h10 ⊢
  have hx : |x - m| ≤ tol := by
    rw [abs_le]
    rcases hcases with ⟨_, _, h⟩ | ⟨h, h'⟩ | ⟨h, h'⟩
    · rw [← h] at e13
      have : |z - m| ≤ tol := abs_le.2 h11
      exact abs_le.1 (e13.trans this)
    · rw [abs_of_pos (by linarith), abs_of_pos (by linarith)] at e13
      constructor <;> linarith
    · rw [abs_of_neg (by linarith), abs_of_neg (by linarith)] at e13
      constructor <;> linarith
  rw [abs_le] at hx
  constructor <;> linarith

theorem zip_labels [LinearOrder L] (y : List L) (probs : List ℝ) (hlen : probs.length = y.length) (c0 c1 : L) (hc : labelsOf y = [c0, c1]) :
    (∀ t ∈ probs.zip y, t.2 = c0 ∨ t.2 = c1) ∧ (∃ t ∈ probs.zip y, t.2 = c0) ∧ (∃ t ∈ probs.zip y, t.2 = c1) := by
  have hmem : ∀ a, a ∈ y ↔ a = c0 ∨ a = c1 := fun a => by rw [← mem_labelsOf y a, hc]; simp
  have hsnd : (probs.zip y).map Prod.snd = y := List.map_snd_zip hlen.ge
  have hex : ∀ a ∈ y, ∃ t ∈ probs.zip y, t.2 = a := fun a ha => by rw [← hsnd] at ha; exact List.mem_map.1 ha
  exact ⟨fun t ht => (hmem _).1 (List.of_mem_zip ht).2, hex c0 ((hmem _).2 (.inl rfl)), hex c1 ((hmem _).2 (.inr rfl))⟩

/-- **C108**: with a single quantile and the L2 distance, after any history of calls, QUANTy returns the adjusted probabilistic count (the answer of PAC) up to twice the tolerance of the search. -/
theorem C108_single_quantile [LinearOrder L] (sort : List (ℝ × L) → List (ℝ × L)) (hsort : ∀ l, (sort l).Perm l) (y : List L) (probs : List ℝ) (hlen : probs.length = y.length) (c0 c1 : L)
    (hc : labelsOf y = [c0, c1]) (hdiff : classMean y probs c0 ≠ classMean y probs c1) (tol : ℝ) (htol : 0 < tol) (d : L) (f0 f : QuantyFit L) (hfit : quantyFit sort y probs = .ok f)
    (hist : List (WarmCall (QuantyFit L) (List ℝ))) (hlast : lastFit f0 hist = f) (bag : List ℝ) (hbag : bag ≠ []) :
    ∃ p, (quantyPredict 1 l2Quantiles tol d (mixRun (quantyQ 1 l2Quantiles tol d) ⟨f0, none⟩ hist) bag).2 = .ok (some ![1 - p, p]) ∧ 0 ≤ p ∧ p ≤ 1
      ∧ |p - adjustedProbCount (classMean y probs c0) (classMean y probs c1) (sampleMean bag)| ≤ 2 * tol := by
  have hf : f = ⟨[c0, c1], sort (probs.zip y)⟩ := by
    unfold quantyFit at hfit
    rw [show npUnique y = [c0, c1] from hc] at hfit
    exact (Except.ok.inj hfit).symm
  have hne : c0 ≠ c1 := by
    have := labelsOf_nodup y
    rw [hc] at this
    simpa using this
  obtain ⟨hl, h0, h1⟩ := zip_labels y probs hlen c0 c1 hc
  have hp := hsort (probs.zip y)
  set train := sort (probs.zip y) with ht
  have hl' : ∀ t ∈ train, t.2 = c0 ∨ t.2 = c1 := fun t h => hl t (hp.mem_iff.1 h)
  have h0' : ∃ t ∈ train, t.2 = c0 := by obtain ⟨t, a, b⟩ := h0; exact ⟨t, hp.mem_iff.2 a, b⟩
  have h1' : ∃ t ∈ train, t.2 = c1 := by obtain ⟨t, a, b⟩ := h1; exact ⟨t, hp.mem_iff.2 a, b⟩
  have htr : train ≠ [] := by obtain ⟨t, a, -⟩ := h0'; exact List.ne_nil_of_mem a
  have em : ∀ c, pairMean train c = classMean y probs c := fun c => pairMean_perm hp c
  obtain ⟨m, hm, hloss⟩ := quanty_loss_fin 1 one_pos c0 c1 train htr fun _ => sampleMean bag
  set g : ℝ → ℝ := fun p => Real.sqrt (∑ j : Fin 1, (m p j - sampleMean bag) ^ 2) with hgdef
  have hD : classMean y probs c1 - classMean y probs c0 ≠ 0 := sub_ne_zero.2 hdiff.symm
  have hg : ∀ p, 0 ≤ p → p ≤ 1 → g p = |classMean y probs c1 - classMean y probs c0| * |p - (sampleMean bag - classMean y probs c0) / (classMean y probs c1 - classMean y probs c0)| := fun p hp0 hp1 => by
    have e := single_quantile c0 c1 hne train hl' h0' h1' p hp0 hp1
    rw [hm p] at e
    have e0 := Fl.fin.inj (congrFun e 0)
    simp only [hgdef, Fin.sum_univ_one]
    rw [e0, Real.sqrt_sq_eq_abs, ← abs_mul, em, em]
    congr 1
    field_simp
    ring
  obtain ⟨p, hs, hp0, hp1, hclose⟩ := search_vshape g _ _ tol (abs_pos.2 hD) htol hg
  refine ⟨p, ?_, hp0, hp1, hclose⟩
  unfold quantyPredict
  simp only
  rw [C29_cached_mixtures_not_stale, hlast]
  have htest : (quantyQ 1 l2Quantiles tol d).test f bag = .ok fun _ => Fl.fin (sampleMean bag) := by
    simp only [quantyQ]
    rw [single_quantile_test bag hbag d, hf]
    simp [hbag]
  unfold mixPredict
  simp only [htest]
  have hmix : (quantyQ 1 l2Quantiles tol d).mix f = quantyMixture 1 c0 c1 train := by rw [hf]; rfl
  rw [hmix, show (quantyQ 1 l2Quantiles tol d).dist = l2Quantiles from rfl, show (quantyQ 1 l2Quantiles tol d).tol = tol from rfl, globalSearch_of_loss _ _ _ tol g hloss, hs]
  rfl

/-- **C109**: QUANTy rejects more than two classes. -/
theorem C109_multiclass [LinearOrder L] (sort : List (ℝ × L) → List (ℝ × L)) (y : List L) (probs : List ℝ) (h : 2 < (labelsOf y).length) : quantyFit sort y probs = .error .typeError := by
  unfold quantyFit
  rw [if_pos (show 2 < (npUnique y).length from h)]

/-- The answer of `predict` in terms of a real loss. -/
theorem quanty_search [LinearOrder L] (sort : List (ℝ × L) → List (ℝ × L)) (hsort : ∀ l, (sort l).Perm l) (y : List L) (probs : List ℝ) (hlen : probs.length = y.length) (c0 c1 : L)
    (hc : labelsOf y = [c0, c1]) (n : ℕ) (hn : 0 < n) (tol : ℝ) (d : L) (f0 f : QuantyFit L) (hfit : quantyFit sort y probs = .ok f)
    (hist : List (WarmCall (QuantyFit L) (List ℝ))) (hlast : lastFit f0 hist = f) (bag : List ℝ) (hbag : bag ≠ []) :
    ∃ (m : ℝ → Fin n → ℝ) (q : Fin n → ℝ), (∀ p, quantyMixture n c0 c1 (sort (probs.zip y)) p = fun j => Fl.fin (m p j))
      ∧ computeQuantiles none bag.length (fun i => (bag.mergeSort fun a b => decide (a ≤ b)).getD i 0) n (fun _ => d) d d = .ok (fun j => Fl.fin (q j))
      ∧ (quantyPredict n l2Quantiles tol d (mixRun (quantyQ n l2Quantiles tol d) ⟨f0, none⟩ hist) bag).2
        = (globalSearch (fun (m : ℝ) (_ : Unit) => Fl.fin m) (fun p => Real.sqrt (∑ j, (m p j - q j) ^ 2)) () tol none false).map fun r => r.2.map fun p => ![1 - p, p] := by
  have hf : f = ⟨[c0, c1], sort (probs.zip y)⟩ := by
    unfold quantyFit at hfit
    rw [show npUnique y = [c0, c1] from hc] at hfit
    exact (Except.ok.inj hfit).symm
  obtain ⟨-, ⟨t, h0, -⟩, -⟩ := zip_labels y probs hlen c0 c1 hc
  have htr : sort (probs.zip y) ≠ [] := List.ne_nil_of_mem ((hsort _).mem_iff.2 h0)
  obtain ⟨q, hq⟩ := quantiles_fin none bag.length (List.length_pos_of_ne_nil hbag) (fun i => (bag.mergeSort fun a b => decide (a ≤ b)).getD i 0) n hn (fun _ => d) d d
  obtain ⟨m, hm, hloss⟩ := quanty_loss_fin n hn c0 c1 _ htr q
  refine ⟨m, q, hm, hq, ?_⟩
  unfold quantyPredict
  simp only
  rw [C29_cached_mixtures_not_stale, hlast]
  have htest : (quantyQ n l2Quantiles tol d).test f bag = .ok fun j => Fl.fin (q j) := by
    simp only [quantyQ]
    rw [hq, hf]
    simp [hbag]
  unfold mixPredict
  simp only [htest]
  have hmix : (quantyQ n l2Quantiles tol d).mix f = quantyMixture n c0 c1 (sort (probs.zip y)) := by rw [hf]; rfl
  rw [hmix, show (quantyQ n l2Quantiles tol d).dist = l2Quantiles from rfl, show (quantyQ n l2Quantiles tol d).tol = tol from rfl, globalSearch_of_loss _ _ _ tol _ hloss]
  cases globalSearch (fun (m : ℝ) (_ : Unit) => Fl.fin m) (fun p => Real.sqrt (∑ j, (m p j - q j) ^ 2)) () tol none false <;> rfl

/-- **C109**: for every number of quantiles, after any history of calls, QUANTy with L2 returns valid prevalences or raises the ValueError of `global_search`; the latter only happens when the distance is the same for
prevalences 0 and 1. -/
theorem C109_valid [LinearOrder L] (sort : List (ℝ × L) → List (ℝ × L)) (hsort : ∀ l, (sort l).Perm l) (y : List L) (probs : List ℝ) (hlen : probs.length = y.length) (c0 c1 : L)
    (hc : labelsOf y = [c0, c1]) (n : ℕ) (hn : 0 < n) (tol : ℝ) (htol : 0 < tol) (d : L) (f0 f : QuantyFit L) (hfit : quantyFit sort y probs = .ok f)
    (hist : List (WarmCall (QuantyFit L) (List ℝ))) (hlast : lastFit f0 hist = f) (bag : List ℝ) (hbag : bag ≠ []) :
    (∃ x : Fin 2 → ℝ, (quantyPredict n l2Quantiles tol d (mixRun (quantyQ n l2Quantiles tol d) ⟨f0, none⟩ hist) bag).2 = .ok (some x) ∧ IsPrev x)
    ∨ ((quantyPredict n l2Quantiles tol d (mixRun (quantyQ n l2Quantiles tol d) ⟨f0, none⟩ hist) bag).2 = .error .valueError
      ∧ ∃ (m0 m1 q : Fin n → ℝ), quantyMixture n c0 c1 f.train 0 = (fun j => Fl.fin (m0 j)) ∧ quantyMixture n c0 c1 f.train 1 = (fun j => Fl.fin (m1 j)) ∧ ∑ j, (m0 j - q j) ^ 2 = ∑ j, (m1 j - q j) ^ 2) := by
  have hf : f.train = sort (probs.zip y) := by
    unfold quantyFit at hfit
    rw [show npUnique y = [c0, c1] from hc] at hfit
    rw [← Except.ok.inj hfit]
  obtain ⟨m, q, hm, -, hpred⟩ := quanty_search sort hsort y probs hlen c0 c1 hc n hn tol d f0 f hfit hist hlast bag hbag
  rw [hpred, hf]
  rcases C33_global_search_valid_partial (fun p => Real.sqrt (∑ j, (m p j - q j) ^ 2)) tol htol with ⟨p, hs, hp0, hp1⟩ | ⟨hs, heq, -⟩
  · refine .inl ⟨![1 - p, p], by rw [hs]; rfl, fun i => ?_, by simp⟩
    fin_cases i
    · simpa using hp1
    · simpa using hp0
  · refine .inr ⟨by rw [hs]; rfl, m 0, m 1, q, hm 0, hm 1, ?_⟩
    rwa [Real.sqrt_inj (Finset.sum_nonneg fun _ _ => sq_nonneg _) (Finset.sum_nonneg fun _ _ => sq_nonneg _)] at heq

private theorem mixRun_fitted {F B M T : Type*} (Q : MixQuantifier F B M T) (hist : List (WarmCall F B)) (s : MixState F M) : (mixRun Q s hist).fitted = lastFit s.fitted hist := by
  induction hist generalizing s with
  | nil => rfl
  | cons c cs ih =>
    cases c with
    | fit f => exact ih _
    | predict b =>
      have h : (mixPredict Q s b).1.fitted = s.fitted := by
        unfold mixPredict
        cases Q.test s.fitted b with
        | error e => rfl
        | ok t =>
          simp only
          cases globalSearch Q.dist (Q.mix s.fitted) t Q.tol s.mixtures true with
          | error e => rfl
          | ok r => rfl
      show (mixRun Q (mixPredict Q s b).1 cs).fitted = lastFit s.fitted cs
      rw [ih, h]

/-- **C109**: an empty bag is rejected with a ValueError, and the object is left as it was. -/
theorem C109_empty_bag [LinearOrder L] (sort : List (ℝ × L) → List (ℝ × L)) (y : List L) (probs : List ℝ) (c0 c1 : L) (hc : labelsOf y = [c0, c1]) (n : ℕ) (hn : 0 < n)
    (dist : (Fin n → Fl) → (Fin n → Fl) → Fl) (tol : ℝ) (d : L) (f0 f : QuantyFit L) (hfit : quantyFit sort y probs = .ok f) (hist : List (WarmCall (QuantyFit L) (List ℝ))) (hlast : lastFit f0 hist = f) :
    quantyPredict n dist tol d (mixRun (quantyQ n dist tol d) ⟨f0, none⟩ hist) [] = (mixRun (quantyQ n dist tol d) ⟨f0, none⟩ hist, .error .valueError) := by
  have hf : f = ⟨[c0, c1], sort (probs.zip y)⟩ := by
    unfold quantyFit at hfit
    rw [show npUnique y = [c0, c1] from hc] at hfit
    exact (Except.ok.inj hfit).symm
  have hs : (mixRun (quantyQ n dist tol d) ⟨f0, none⟩ hist).fitted = f := by rw [mixRun_fitted]; exact hlast
  have hn' : n ≠ 0 := by omega
  unfold quantyPredict mixPredict
  simp only [hs]
  simp [quantyQ, computeQuantiles, hn', hf, Except.map]

/-- **C109**: the order of the examples of the bag does not matter. -/
theorem C109_bag_order [DecidableEq L] (n : ℕ) (dist : (Fin n → Fl) → (Fin n → Fl) → Fl) (tol : ℝ) (d : L) (s : MixState (QuantyFit L) (Fin n → Fl)) (bag bag' : List ℝ) (h : bag.Perm bag') :
    quantyPredict n dist tol d s bag = quantyPredict n dist tol d s bag' := by
  have hs : (bag.mergeSort fun a b => decide (a ≤ b)) = bag'.mergeSort fun a b => decide (a ≤ b) := by
    refine List.Perm.eq_of_pairwise (le := fun a b => a ≤ b) (fun a b _ _ h1 h2 => le_antisymm h1 h2) ?_ ?_
      ((List.mergeSort_perm _ _).trans (h.trans (List.mergeSort_perm _ _).symm))
    · simpa using List.pairwise_mergeSort (le := fun a b : ℝ => decide (a ≤ b)) (by simpa using fun a b c => le_trans) (by simpa using le_total) bag
    · simpa using List.pairwise_mergeSort (le := fun a b : ℝ => decide (a ≤ b)) (by simpa using fun a b c => le_trans) (by simpa using le_total) bag'
  have hnil : (bag = []) = (bag' = []) := propext ⟨fun e => by subst e; exact h.nil_eq.symm, fun e => by subst e; exact h.eq_nil⟩
  unfold quantyPredict mixPredict
  simp only [quantyQ]
  rw [hs, h.length_eq]
  simp only [hnil]

/-- **C109**: when no two training examples have the same score, the order of the training examples does not matter. -/
theorem C109_train_order [LinearOrder L] (sort : List (ℝ × L) → List (ℝ × L)) (hsort : ∀ l, (sort l).Perm l) (hord : ∀ l, (sort l).Pairwise fun s t => s.1 ≤ t.1)
    (y y' : List L) (probs probs' : List ℝ) (hperm : (probs.zip y).Perm (probs'.zip y')) (hlen : probs.length = y.length) (hlen' : probs'.length = y'.length) (hnd : probs.Nodup) :
    quantyFit sort y probs = quantyFit sort y' probs' := by
  have hy : y.Perm y' := by
    have := hperm.map Prod.snd
    rwa [List.map_snd_zip hlen.ge, List.map_snd_zip hlen'.ge] at this
  have hu : npUnique y = npUnique y' := by
    show labelsOf y = labelsOf y'
    unfold labelsOf
    rw [List.toFinset_eq_of_perm _ _ hy]
  have hs : sort (probs.zip y) = sort (probs'.zip y') := by
    refine List.Perm.eq_of_pairwise (le := fun s t : ℝ × L => s.1 ≤ t.1) (fun s t hs ht h1 h2 => ?_) (hord _) (hord _) ((hsort _).trans (hperm.trans (hsort _).symm))
    have hs' := (hsort _).mem_iff.1 hs
    have ht' := hperm.mem_iff.2 ((hsort _).mem_iff.1 ht)
    have hnd' : ((probs.zip y).map Prod.fst).Nodup := by rwa [List.map_fst_zip hlen.le]
    exact List.inj_on_of_nodup_map hnd' hs' ht' (le_antisymm h1 h2)
  unfold quantyFit
  rw [hu, hs]

end

/-! ## Non-vacuity -/

/-- C108, C109: two examples of each class; the class means are 1/4 and 5/8, the mean of the bag is 7/16: the adjusted count is 1/2. -/
example : labelsOf [(0:ℤ), 0, 1, 1] = [0, 1] ∧ classMean [(0:ℤ), 0, 1, 1] [1/4, 1/4, 1/2, 3/4] 0 = 1/4 ∧ classMean [(0:ℤ), 0, 1, 1] [1/4, 1/4, 1/2, 3/4] 1 = 5/8
    ∧ adjustedProbCount (1/4) (5/8) (sampleMean [3/8, 1/2]) = 1/2
    ∧ (∃ f, quantyFit (fun l => l) [(0:ℤ), 0, 1, 1] [1/4, 1/4, 1/2, 3/4] = .ok f) := by
  have hl : labelsOf [(0:ℤ), 0, 1, 1] = [0, 1] := labelsOf_eq _ _ (by decide) (by decide)
  refine ⟨hl, by norm_num [classMean, sampleMean], by norm_num [classMean, sampleMean], by norm_num [adjustedProbCount, sampleMean], ⟨⟨[0, 1], [1/4, 1/4, 1/2, 3/4].zip [0, 0, 1, 1]⟩, ?_⟩⟩
  unfold quantyFit
  rw [show npUnique [(0:ℤ), 0, 1, 1] = [0, 1] from hl]
  rfl

end Verif.Props
