import Verif.Proof.Sord
import Verif.Proof.Golden
import Verif.Spec.Ecdf
import Verif.Spec.Prevalence
import Mathlib.Topology.Order.Compact

/-!
# The SORD distance and the quantifier SORDy (C36, C80)
-/

namespace Verif.Props

open Verif.Model Verif.Proof Verif.Spec MeasureTheory

/-- The three kinds of examples of a union: label `c0` (negatives), `c1` (positives) and a larger label
`T` (testing examples), each of them present. -/
structure IsUnion (union : List (ℝ × ℤ)) (c0 c1 T : ℤ) : Prop where
  lt : c0 < c1
  ltT : c1 < T
  labels : ∀ ul ∈ union, ul.2 = c0 ∨ ul.2 = c1 ∨ ul.2 = T
  neg : scoresOf union c0 ≠ []
  pos : scoresOf union c1 ≠ []
  test : scoresOf union T ≠ []

theorem count_labels (union : List (ℝ × ℤ)) (c : ℤ) : (union.map Prod.snd).count c = (scoresOf union c).length := by
  unfold scoresOf
  rw [List.length_map, List.count, List.countP_map, List.countP_eq_length_filter]
  congr 1

theorem max_labels {union : List (ℝ × ℤ)} {c0 c1 T : ℤ} (h : IsUnion union c0 c1 T) : (union.map Prod.snd).max? = some T := by
  rw [List.max?_eq_some_iff]
  constructor
  · obtain ⟨u, hu⟩ := List.exists_mem_of_ne_nil _ h.test
    unfold scoresOf at hu
    rw [List.mem_map] at hu
    obtain ⟨ul, hul, _⟩ := hu
    rw [List.mem_filter] at hul
    exact List.mem_map.2 ⟨ul, hul.1, by simpa using hul.2⟩
  · intro b hb
    obtain ⟨ul, hul, rfl⟩ := List.mem_map.1 hb
    have := h.lt
    have := h.ltT
    rcases h.labels ul hul with e | e | e <;> omega

theorem sordWeight_eval {union : List (ℝ × ℤ)} {c0 c1 T : ℤ} (h : IsUnion union c0 c1 T) (p : ℝ) :
    sordWeight p [c0, c1] (union.map Prod.snd) c0 = (1 - p) / (scoresOf union c0).length
    ∧ sordWeight p [c0, c1] (union.map Prod.snd) c1 = p / (scoresOf union c1).length
    ∧ sordWeight p [c0, c1] (union.map Prod.snd) T = -1 / (scoresOf union T).length := by
  have h1 := h.lt
  have h2 := h.ltT
  have e1 : ¬ T = c0 := by omega
  have e2 : ¬ T = c1 := by omega
  have e3 : ¬ c0 = c1 := by omega
  have e4 : ¬ c1 = c0 := by omega
  unfold sordWeight
  simp only [max_labels h, count_labels, Option.some.injEq, e1, e2, if_false, List.zipIdx_cons, List.zipIdx_nil, List.foldl_cons,
    List.foldl_nil, e3, e4, if_true]
  norm_num

/-- Adding up weights that depend on the label only. -/
theorem wcdf_labels (φ : ℤ → ℝ) (c0 c1 T : ℤ) (h1 : c0 < c1) (h2 : c1 < T) (union : List (ℝ × ℤ))
    (hl : ∀ ul ∈ union, ul.2 = c0 ∨ ul.2 = c1 ∨ ul.2 = T) (t : ℝ) :
    wcdf (union.map fun ul => (ul.1, φ ul.2)) t =
      φ c0 * ((scoresOf union c0).countP fun u => @decide (u ≤ t) (Classical.dec _))
      + φ c1 * ((scoresOf union c1).countP fun u => @decide (u ≤ t) (Classical.dec _))
      + φ T * ((scoresOf union T).countP fun u => @decide (u ≤ t) (Classical.dec _)) := by
  have e1 : ¬ T = c0 := by omega
  have e2 : ¬ T = c1 := by omega
  have e3 : ¬ c0 = c1 := by omega
  have e4 : ¬ c1 = c0 := by omega
  have e5 : ¬ c0 = T := by omega
  have e6 : ¬ c1 = T := by omega
  induction union with
  | nil => simp [wcdf, scoresOf]
  | cons p l ih =>
    obtain ⟨u, c⟩ := p
    have ih := ih fun ul hul => hl ul (by simp [hul])
    rw [List.map_cons, wcdf_cons, ih]
    rcases hl (u, c) (by simp) with e | e | e <;> simp only at e <;> subst e <;>
      simp only [scoresOf, List.filter_cons, decide_true, if_true, e1, e2, e3, e4, e5, e6, decide_false, if_false,
        List.map_cons, List.countP_cons, Bool.false_eq_true] <;> by_cases hu : u ≤ t <;> simp [hu] <;> ring

theorem wcdf_ecdf {union : List (ℝ × ℤ)} {c0 c1 T : ℤ} (h : IsUnion union c0 c1 T) (p t : ℝ) :
    wcdf (union.map fun ul => (ul.1, sordWeight p [c0, c1] (union.map Prod.snd) ul.2)) t =
      (1 - p) * ecdf (scoresOf union c0) t + p * ecdf (scoresOf union c1) t - ecdf (scoresOf union T) t := by
  obtain ⟨w0, w1, w2⟩ := sordWeight_eval h p
  rw [wcdf_labels _ c0 c1 T h.lt h.ltT union h.labels, w0, w1, w2]
  unfold ecdf
  ring

theorem sum_weights {union : List (ℝ × ℤ)} {c0 c1 T : ℤ} (h : IsUnion union c0 c1 T) (p : ℝ) :
    (union.map fun ul => sordWeight p [c0, c1] (union.map Prod.snd) ul.2).sum = 0 := by
  -- far to the right the distribution functions are 1
  obtain ⟨t, ht⟩ : ∃ t, ∀ ul ∈ union, ul.1 ≤ t := by
    clear h
    induction union with
    | nil => exact ⟨0, by simp⟩
    | cons p l ih =>
      obtain ⟨t, ht⟩ := ih
      refine ⟨max t p.1, fun q hq => ?_⟩
      rcases List.mem_cons.1 hq with rfl | hq
      · exact le_max_right _ _
      · exact (ht q hq).trans (le_max_left _ _)
  have h1 := wcdf_ecdf h p t
  rw [wcdf_above] at h1
  · rw [List.map_map] at h1
    have e : ∀ c, scoresOf union c ≠ [] → ecdf (scoresOf union c) t = 1 := by
      intro c hc
      unfold ecdf
      rw [List.countP_eq_length.2]
      · exact div_self (by have := List.length_pos_of_ne_nil hc; positivity)
      · intro u hu
        unfold scoresOf at hu
        obtain ⟨ul, hul, rfl⟩ := List.mem_map.1 hu
        simpa using ht ul (List.mem_filter.1 hul).1
    rw [e _ h.neg, e _ h.pos, e _ h.test] at h1
    have : (fun ul : ℝ × ℤ => sordWeight p [c0, c1] (union.map Prod.snd) ul.2) =
      Prod.snd ∘ fun ul : ℝ × ℤ => (ul.1, sordWeight p [c0, c1] (union.map Prod.snd) ul.2) := rfl
    rw [this, h1]; ring
  · intro q hq
    obtain ⟨ul, hul, rfl⟩ := List.mem_map.1 hq
    exact ht ul hul

/-- **C36**. For a union of examples sorted by score, the weights of `compute_sord_weights` add up to zero
and `sord` is the area between the cumulative distribution function of the mixture with prevalence `p` and
that of the testing sample (the 1-Wasserstein distance). It is nonnegative, and zero when the two
distribution functions coincide. -/
theorem C36_sord_is_wasserstein (union : List (ℝ × ℤ)) (c0 c1 T : ℤ) (h : IsUnion union c0 c1 T)
    (hs : union.Pairwise fun a b => a.1 ≤ b.1) (p : ℝ) :
    (union.map fun ul => sordWeight p [c0, c1] (union.map Prod.snd) ul.2).sum = 0
    ∧ ∃ v, sord (union.map fun ul => (ul.1, sordWeight p [c0, c1] (union.map Prod.snd) ul.2)) = .ok v
      ∧ v = ∫ t, |(1 - p) * ecdf (scoresOf union c0) t + p * ecdf (scoresOf union c1) t - ecdf (scoresOf union T) t|
      ∧ 0 ≤ v
      ∧ ((∀ t, (1 - p) * ecdf (scoresOf union c0) t + p * ecdf (scoresOf union c1) t = ecdf (scoresOf union T) t) ↔ v = 0) := by
  refine ⟨sum_weights h p, ?_⟩
  have hsum := sum_weights h p
  have hw := wcdf_ecdf h p
  set l := union.map fun ul => (ul.1, sordWeight p [c0, c1] (union.map Prod.snd) ul.2) with hl
  have hls : l.Pairwise fun a b => a.1 ≤ b.1 := by rw [hl, List.pairwise_map]; exact hs
  have hl0 : (l.map Prod.snd).sum = 0 := by
    rw [hl, List.map_map]; exact hsum
  have hne : l ≠ [] := by
    intro he
    have : union = [] := List.map_eq_nil_iff.1 he
    apply h.neg
    rw [this]; rfl
  obtain ⟨⟨u, w⟩, r, hr⟩ := List.exists_cons_of_ne_nil hne
  refine ⟨sordLoop 0 w u r, by rw [hr]; rfl, ?_, ?_, ?_⟩
  · rw [sord_eq_integral u w r (hr ▸ hls) (hr ▸ hl0), ← hr]
    exact integral_congr_ae (Filter.Eventually.of_forall fun t => by simp only; rw [hw t])
  · rw [sord_eq_integral u w r (hr ▸ hls) (hr ▸ hl0)]
    exact integral_nonneg fun _ => abs_nonneg _
  · rw [sord_eq_integral u w r (hr ▸ hls) (hr ▸ hl0), ← hr]
    constructor
    · intro hall
      have : (fun t => |wcdf l t|) = fun _ => 0 := by
        funext t; rw [hw t, hall t, sub_self, abs_zero]
      rw [this, integral_zero]
    · intro hz t
      by_contra hcon
      have := integral_abs_wcdf_pos l hl0 t (by rw [hw t]; exact sub_ne_zero.2 hcon)
      linarith

example : IsUnion [(1/10, 0), (2/10, 2), (3/10, 1), (3/10, 0), (7/10, 2), (9/10, 1)] 0 1 2
    ∧ ([(1/10, 0), (2/10, 2), (3/10, 1), (3/10, 0), (7/10, 2), (9/10, 1)] : List (ℝ × ℤ)).Pairwise fun a b => a.1 ≤ b.1 := by
  refine ⟨⟨by norm_num, by norm_num, ?_, ?_, ?_, ?_⟩, ?_⟩
  · simp
  · simp [scoresOf]
  · simp [scoresOf]
  · simp [scoresOf]
  · norm_num

/-! ## SORDy -/

/-- What is assumed of `np.argsort`: the result is the same collection, ordered by score. -/
def IsSort (sort : List (ℝ × ℤ) → List (ℝ × ℤ)) : Prop :=
  ∀ l, (sort l).Perm l ∧ (sort l).Pairwise fun a b => a.1 ≤ b.1

theorem scoresOf_perm {l l' : List (ℝ × ℤ)} (h : l.Perm l') (c : ℤ) : (scoresOf l c).Perm (scoresOf l' c) :=
  (h.filter _).map _

theorem ecdf_perm {l l' : List ℝ} (h : l.Perm l') (t : ℝ) : ecdf l t = ecdf l' t := by
  unfold ecdf
  rw [h.countP_eq, h.length_eq]

/-- The training and testing data of a fitted SORDy form a union. -/
theorem sordy_union (sort : List (ℝ × ℤ) → List (ℝ × ℤ)) (hsort : IsSort sort) (y : List ℤ) (probs : List ℝ)
    (hlen : probs.length = y.length) (c0 c1 : ℤ) (hcls : labelsOf y = [c0, c1]) (test : List ℝ) (htest : test ≠ []) :
    IsUnion (sordyUnion sort ⟨[c0, c1], sort (probs.zip y)⟩ test) c0 c1 (c1 + 1)
    ∧ (∀ t, ecdf (scoresOf (sordyUnion sort ⟨[c0, c1], sort (probs.zip y)⟩ test) c0) t = ecdf (scoresOf (probs.zip y) c0) t)
    ∧ (∀ t, ecdf (scoresOf (sordyUnion sort ⟨[c0, c1], sort (probs.zip y)⟩ test) c1) t = ecdf (scoresOf (probs.zip y) c1) t)
    ∧ (∀ t, ecdf (scoresOf (sordyUnion sort ⟨[c0, c1], sort (probs.zip y)⟩ test) (c1 + 1)) t = ecdf test t) := by
  have hlt : c0 < c1 := by
    have : (labelsOf y).Pairwise (· < ·) := Finset.sortedLT_sort _ |>.pairwise
    rw [hcls] at this
    simpa using this
  have hmem : ∀ c, c ∈ y ↔ c = c0 ∨ c = c1 := by
    intro c
    have : c ∈ labelsOf y ↔ c ∈ y := by unfold labelsOf; simp
    rw [← this, hcls]; simp
  have hmax : ([c0, c1] : List ℤ).max?.getD 0 = c1 := by
    simp [List.max?_cons, max_eq_right hlt.le]
  have hperm : (sordyUnion sort ⟨[c0, c1], sort (probs.zip y)⟩ test).Perm (probs.zip y ++ test.map fun u => (u, c1 + 1)) := by
    unfold sordyUnion
    rw [hmax]
    exact (hsort _).1.trans ((hsort _).1.append_right _)
  have hsnd : ∀ ul ∈ probs.zip y, ul.2 = c0 ∨ ul.2 = c1 := fun ul hul => (hmem ul.2).1 (List.of_mem_zip hul).2
  have hmap : (probs.zip y).map Prod.snd = y := by
    rw [List.map_snd_zip]; omega
  have htr : ∀ c, c = c0 ∨ c = c1 → scoresOf (test.map fun u => (u, c1 + 1)) c = [] := by
    intro c hc
    unfold scoresOf
    rw [List.map_eq_nil_iff, List.filter_eq_nil_iff]
    intro ul hul
    obtain ⟨u, _, rfl⟩ := List.mem_map.1 hul
    rcases hc with rfl | rfl <;> simp <;> omega
  have happ : ∀ a b : List (ℝ × ℤ), ∀ c, scoresOf (a ++ b) c = scoresOf a c ++ scoresOf b c := by
    intro a b c; simp [scoresOf]
  have e0 := scoresOf_perm hperm c0
  have e1 := scoresOf_perm hperm c1
  have e2 := scoresOf_perm hperm (c1 + 1)
  rw [happ, htr c0 (Or.inl rfl), List.append_nil] at e0
  rw [happ, htr c1 (Or.inr rfl), List.append_nil] at e1
  have ht1 : scoresOf (probs.zip y) (c1 + 1) = [] := by
    unfold scoresOf
    rw [List.map_eq_nil_iff, List.filter_eq_nil_iff]
    intro ul hul
    rcases hsnd ul hul with h | h <;> simp [h] <;> omega
  have ht2 : scoresOf (test.map fun u => (u, c1 + 1)) (c1 + 1) = test := by
    unfold scoresOf
    rw [List.filter_eq_self.2, List.map_map]
    · simp [Function.comp_def]
    · intro ul hul
      obtain ⟨u, _, rfl⟩ := List.mem_map.1 hul
      simp
  rw [happ, ht1, ht2, List.nil_append] at e2
  have hpres : ∀ c, c ∈ y → scoresOf (probs.zip y) c ≠ [] := by
    intro c hc
    rw [← hmap] at hc
    obtain ⟨ul, hul, rfl⟩ := List.mem_map.1 hc
    apply List.ne_nil_of_mem (a := ul.1)
    unfold scoresOf
    exact List.mem_map.2 ⟨ul, List.mem_filter.2 ⟨hul, by simp⟩, rfl⟩
  refine ⟨⟨hlt, by omega, ?_, ?_, ?_, ?_⟩, fun t => ecdf_perm e0 t, fun t => ecdf_perm e1 t, fun t => ecdf_perm e2 t⟩
  · intro ul hul
    rw [hperm.mem_iff, List.mem_append] at hul
    rcases hul with hul | hul
    · rcases hsnd ul hul with h | h
      · exact Or.inl h
      · exact Or.inr (Or.inl h)
    · obtain ⟨u, _, rfl⟩ := List.mem_map.1 hul
      exact Or.inr (Or.inr rfl)
  · intro h; rw [h] at e0; exact hpres c0 ((hmem c0).2 (Or.inl rfl)) e0.nil_eq.symm
  · intro h; rw [h] at e1; exact hpres c1 ((hmem c1).2 (Or.inr rfl)) e1.nil_eq.symm
  · intro h; rw [h] at e2; exact htest e2.nil_eq.symm

/-- The weights are affine in the prevalence. -/
theorem sordWeight_affine (c0 c1 : ℤ) (labels : List ℤ) (l : ℤ) (hne : c0 ≠ c1) (hl : l = c0 ∨ l = c1 ∨ labels.max? = some l)
    (s t x y : ℝ) (hst : s + t = 1) :
    sordWeight (s * x + t * y) [c0, c1] labels l = s * sordWeight x [c0, c1] labels l + t * sordWeight y [c0, c1] labels l := by
  unfold sordWeight
  obtain rfl : s = 1 - t := by linarith
  by_cases hm : labels.max? = some l
  · simp only [hm, if_true]; ring
  · have hl' : l = c0 ∨ l = c1 := by tauto
    simp only [hm, if_false, List.zipIdx_cons, List.zipIdx_nil, List.foldl_cons, List.foldl_nil]
    rcases hl' with rfl | rfl
    · simp only [hne, if_false, if_true]; norm_num; ring
    · simp only [if_true]; norm_num; ring

/-- **C80**. `SORDy`: after fitting on two classes, for every testing bag and every tolerance the predicted
vector is a valid pair `[1 - p, p]`, and `p` is within half the tolerance of a prevalence that minimises, over
all of `[0,1]`, the 1-Wasserstein distance between the mixture of the two training score distributions and
the score distribution of the bag. -/
theorem C80_sordy_minimises_wasserstein (sort : List (ℝ × ℤ) → List (ℝ × ℤ)) (hsort : IsSort sort) (tol : ℝ) (htol : 0 < tol)
    (y : List ℤ) (probs : List ℝ) (hlen : probs.length = y.length) (c0 c1 : ℤ) (hcls : labelsOf y = [c0, c1])
    (test : List ℝ) (htest : test ≠ []) (W : ℝ → ℝ)
    (hW : ∀ q, W q = ∫ t, |(1 - q) * ecdf (scoresOf (probs.zip y) c0) t + q * ecdf (scoresOf (probs.zip y) c1) t - ecdf test t|) :
    ∃ f v, sordyFit sort y probs = .ok f ∧ sordyPredict sort tol f test = .ok v ∧ IsPrev v ∧ v 0 = 1 - v 1
      ∧ ∃ m ∈ Set.Icc (0:ℝ) 1, |v 1 - m| ≤ tol / 2 ∧ ∀ q ∈ Set.Icc (0:ℝ) 1, W m ≤ W q := by
  have hcls' : npUnique y = [c0, c1] := hcls
  obtain ⟨hU, u0, u1, u2⟩ := sordy_union sort hsort y probs hlen c0 c1 hcls test htest
  refine ⟨⟨[c0, c1], sort (probs.zip y)⟩, ?_⟩
  set union := sordyUnion sort ⟨[c0, c1], sort (probs.zip y)⟩ test with hun
  have hs : union.Pairwise fun a b => a.1 ≤ b.1 := (hsort _).2
  have hval : ∀ p, sordyLoss [c0, c1] union p = Fl.fin (W p) := by
    intro p
    obtain ⟨_, v, h1, h2, _⟩ := C36_sord_is_wasserstein union c0 c1 (c1 + 1) hU hs p
    unfold sordyLoss
    rw [h1, hW p, h2]
    simp only [u0, u1, u2]
  have hneU : union ≠ [] := by
    intro he; apply hU.neg; rw [he]; rfl
  have hne : c0 ≠ c1 := hU.lt.ne
  -- the distance as a loop
  obtain ⟨⟨x0, l0⟩, r, hr⟩ := List.exists_cons_of_ne_nil hneU
  have hmem : ∀ ul ∈ union, ul.2 = c0 ∨ ul.2 = c1 ∨ (union.map Prod.snd).max? = some ul.2 := by
    intro ul hul
    rcases hU.labels ul hul with h | h | h
    · exact Or.inl h
    · exact Or.inr (Or.inl h)
    · exact Or.inr (Or.inr (by rw [max_labels hU, h]))
  -- weights as functions on positions with an admissible label
  let ι := {l : ℤ // l = c0 ∨ l = c1 ∨ (union.map Prod.snd).max? = some l}
  let Wt : ℝ → ι → ℝ := fun p i => sordWeight p [c0, c1] (union.map Prod.snd) i.1
  have hWt : ∀ i s t x y, s + t = 1 → Wt (s * x + t * y) i = s * Wt x i + t * Wt y i := fun i s t x y hst =>
    sordWeight_affine c0 c1 _ i.1 hne i.2 s t x y hst
  have hlist : ∀ l : List (ℝ × ℤ), (∀ ul ∈ l, ul.2 = c0 ∨ ul.2 = c1 ∨ (union.map Prod.snd).max? = some ul.2) →
      ∃ l' : List (ℝ × ι), ∀ p, (l.map fun ul => (ul.1, sordWeight p [c0, c1] (union.map Prod.snd) ul.2)) =
        l'.map fun ui => (ui.1, Wt p ui.2) := by
    intro l hl
    refine ⟨l.attach.map fun ul => (ul.1.1, ⟨ul.1.2, hl ul.1 ul.2⟩), fun p => ?_⟩
    rw [List.map_map]
    conv_lhs => rw [← List.attach_map_subtype_val l, List.map_map]
    rfl
  obtain ⟨r', hr'⟩ := hlist r fun ul hul => hmem ul (by rw [hr]; simp [hul])
  let i0 : ι := ⟨l0, hmem (x0, l0) (by rw [hr]; simp)⟩
  have hWloop : ∀ p, W p = sordLoop 0 (Wt p i0) x0 (r'.map fun ui => (ui.1, Wt p ui.2)) := by
    intro p
    have h1 := hval p
    unfold sordyLoss at h1
    have h2 : (union.map fun ul => (ul.1, sordWeight p [c0, c1] (union.map Prod.snd) ul.2)) =
        (x0, Wt p i0) :: r'.map fun ui => (ui.1, Wt p ui.2) := by
      rw [← hr' p]
      conv_lhs => rw [show (union.map fun ul => (ul.1, sordWeight p [c0, c1] (union.map Prod.snd) ul.2)) =
        (((x0, l0) :: r).map fun ul => (ul.1, sordWeight p [c0, c1] (union.map Prod.snd) ul.2)) by rw [← hr]]
      rfl
    rw [h2] at h1
    exact (Fl.fin.inj h1).symm
  have hconv : ConvexOn ℝ (Set.Icc 0 1) W := by
    refine ⟨convex_Icc _ _, ?_⟩
    intro x _ y _ s t hs ht hst
    simp only [smul_eq_mul, hWloop]
    exact sordLoop_convex Wt hWt s t x y hs ht hst r' x0 0 0 0 _ _ _ (by simp) (hWt i0 s t x y hst)
  have hWtc : ∀ i, Continuous fun p => Wt p i := by
    intro i
    have : (fun p => Wt p i) = fun p => (1 - p) * Wt 0 i + p * Wt 1 i := by
      funext p
      have := hWt i (1 - p) p 0 1 (by ring)
      rw [← this]; congr 1; ring
    rw [this]; fun_prop
  have hcont : Continuous W := by
    have : W = fun p => sordLoop 0 (Wt p i0) x0 (r'.map fun ui => (ui.1, Wt p ui.2)) := funext hWloop
    rw [this]
    exact sordLoop_continuous Wt hWtc r' x0 (fun _ => 0) (fun p => Wt p i0) continuous_const (hWtc i0)
  obtain ⟨m, hm, hmin⟩ := isCompact_Icc.exists_isMinOn (Set.nonempty_Icc.2 zero_le_one) hcont.continuousOn (s := Set.Icc (0:ℝ) 1)
  obtain ⟨loss, u, v, x, m', e1, e2, e3, e4, e5, e6, e7, e8, e9, e10⟩ :=
    golden_min W tol 0 1 m zero_lt_one htol (valley_of_convex hconv) ⟨hm.1, hm.2, fun x hx hx' => hmin ⟨hx, hx'⟩⟩
  refine ⟨![1 - (u + v) / 2, (u + v) / 2], ?_, ?_, ⟨?_, ?_⟩, ?_, m', ⟨e8.1, e8.2.1⟩, ?_, fun q hq => e8.2.2 q hq.1 hq.2⟩
  · unfold sordyFit; rw [hcls']; rfl
  · unfold sordyPredict
    simp only
    rw [← hun, if_neg hneU]
    have : sordyLoss [c0, c1] union = fun p => Fl.fin (W p) := funext hval
    rw [this, e1]
    rfl
  · intro i; fin_cases i
    · show 0 ≤ 1 - (u + v) / 2; linarith
    · show 0 ≤ (u + v) / 2; linarith
  · simp
  · simp
  · show |(u + v) / 2 - m'| ≤ tol / 2
    rw [abs_le]; constructor <;> linarith

/-- **C80**, consistency: if the score distribution of the bag is exactly the mixture with prevalence `q` of the
two (different) training score distributions, SORDy returns `q` up to half the tolerance. -/
theorem C80_sordy_consistent (sort : List (ℝ × ℤ) → List (ℝ × ℤ)) (hsort : IsSort sort) (tol : ℝ) (htol : 0 < tol)
    (y : List ℤ) (probs : List ℝ) (hlen : probs.length = y.length) (c0 c1 : ℤ) (hcls : labelsOf y = [c0, c1])
    (test : List ℝ) (htest : test ≠ []) (q : ℝ) (hq : q ∈ Set.Icc (0:ℝ) 1)
    (hmix : ∀ t, ecdf test t = (1 - q) * ecdf (scoresOf (probs.zip y) c0) t + q * ecdf (scoresOf (probs.zip y) c1) t)
    (hdiff : ∃ t, ecdf (scoresOf (probs.zip y) c0) t ≠ ecdf (scoresOf (probs.zip y) c1) t) :
    ∃ f v, sordyFit sort y probs = .ok f ∧ sordyPredict sort tol f test = .ok v ∧ |v 1 - q| ≤ tol / 2 := by
  obtain ⟨f, v, h1, h2, _, _, m, hm, h3, h4⟩ :=
    C80_sordy_minimises_wasserstein sort hsort tol htol y probs hlen c0 c1 hcls test htest _ (fun _ => rfl)
  refine ⟨f, v, h1, h2, ?_⟩
  suffices m = q by rwa [← this]
  obtain ⟨hU, u0, u1, u2⟩ := sordy_union sort hsort y probs hlen c0 c1 hcls test htest
  have hs : (sordyUnion sort ⟨[c0, c1], sort (probs.zip y)⟩ test).Pairwise fun a b => a.1 ≤ b.1 := (hsort _).2
  obtain ⟨_, w, k1, k2, k3, k4⟩ := C36_sord_is_wasserstein _ c0 c1 (c1 + 1) hU hs m
  have hle := h4 q hq
  simp only [u0, u1, u2] at k2 k4
  have hz : (∫ t, |(1 - q) * ecdf (scoresOf (probs.zip y) c0) t + q * ecdf (scoresOf (probs.zip y) c1) t - ecdf test t|) = 0 := by
    have : (fun t => |(1 - q) * ecdf (scoresOf (probs.zip y) c0) t + q * ecdf (scoresOf (probs.zip y) c1) t - ecdf test t|)
        = fun _ => 0 := by
      funext t; rw [hmix t, sub_self, abs_zero]
    rw [this, integral_zero]
  rw [hz, ← k2] at hle
  have hall := k4.2 (le_antisymm hle k3)
  obtain ⟨t, ht⟩ := hdiff
  have e1 := hall t
  rw [hmix t] at e1
  have : (m - q) * (ecdf (scoresOf (probs.zip y) c1) t - ecdf (scoresOf (probs.zip y) c0) t) = 0 := by linarith
  rcases mul_eq_zero.1 this with h | h
  · linarith
  · exact absurd (sub_eq_zero.1 h).symm ht

open Classical in
/-- Sorting with the required properties exists. -/
theorem isSort_exists : ∃ sort, IsSort sort := by
  refine ⟨fun l => l.mergeSort fun a b => decide (a.1 ≤ b.1), fun l => ⟨List.mergeSort_perm _ _, ?_⟩⟩
  have := List.pairwise_mergeSort (le := fun a b : ℝ × ℤ => decide (a.1 ≤ b.1))
    (fun a b c h1 h2 => by simp only [decide_eq_true_eq] at *; exact h1.trans h2)
    (fun a b => by simp only [Bool.or_eq_true, decide_eq_true_eq]; exact le_total _ _) l
  exact this.imp fun h => by simpa using h

/-- The bag `[1/10, 8/10]` is the mixture with prevalence 1/2 of the training scores below. -/
example (t : ℝ) : ecdf [1/10, 8/10] t = (1 - 1/2) * ecdf (scoresOf ([1/10, 8/10, 1/10, 8/10].zip ([0, 1, 0, 1] : List ℤ)) 0) t
      + 1/2 * ecdf (scoresOf ([1/10, 8/10, 1/10, 8/10].zip ([0, 1, 0, 1] : List ℤ)) 1) t := by
  have e0 : scoresOf ([(1/10 : ℝ), 8/10, 1/10, 8/10].zip ([0, 1, 0, 1] : List ℤ)) 0 = [1/10, 1/10] := by simp [scoresOf]
  have e1 : scoresOf ([(1/10 : ℝ), 8/10, 1/10, 8/10].zip ([0, 1, 0, 1] : List ℤ)) 1 = [8/10, 8/10] := by simp [scoresOf]
  rw [e0, e1]
  by_cases h1 : (1/10 : ℝ) ≤ t <;> by_cases h2 : (8/10 : ℝ) ≤ t <;>
    simp only [ecdf, List.countP_cons, List.countP_nil, h1, h2, decide_true, decide_false] <;> norm_num

/-- A concrete case: two classes, the bag holds one example of each kind. -/
example : labelsOf ([0, 1, 0, 1] : List ℤ) = [0, 1] ∧ ∃ t, ecdf (scoresOf ([1/10, 8/10, 1/10, 8/10].zip ([0, 1, 0, 1] : List ℤ)) 0) t
      ≠ ecdf (scoresOf ([1/10, 8/10, 1/10, 8/10].zip ([0, 1, 0, 1] : List ℤ)) 1) t := by
  refine ⟨labelsOf_eq _ _ (by decide) (by decide), 1/2, ?_⟩
  norm_num [ecdf, scoresOf]

end Verif.Props
