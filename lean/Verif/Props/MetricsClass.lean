import Verif.Props.MetricsMulti
import Mathlib.Analysis.SpecialFunctions.Pow.Real

/-!
# C21-C22: geometric_mean and brier_multi
-/

namespace Verif.Props

open Verif.Model Verif.Spec

/-! ## C21 -/

/-- The recall of class `c`: the fraction of its examples that are predicted as `c` (0 when the class
has no example, as Lean's division by zero yields). -/
noncomputable def recallOf {α : Type*} [DecidableEq α] (yTrue yPred : List α) (c : α) : ℝ :=
  ((yTrue.zip yPred).countP fun t => decide (t.1 = c ∧ t.2 = c) : ℝ) / (yTrue.count c : ℝ)

/-- The correction of `geometric_mean`: a zero recall is replaced. -/
noncomputable def correctedWith (corr r : ℝ) : ℝ := if r = 0 then corr else r

/-- Geometric mean of a list of nonnegative reals. -/
noncomputable def geoMean (l : List ℝ) : ℝ := l.prod ^ ((l.length : ℝ)⁻¹)

theorem sum_log_pos (l : List ℝ) (h : ∀ x ∈ l, 0 < x) :
    (l.map fun x => (Fl.fin x).log).sum = Fl.fin (Real.log l.prod) ∧ 0 < l.prod := by
  induction l with
  | nil => simp
  | cons a t ih =>
    have ha : 0 < a := h a (by simp)
    obtain ⟨h1, h2⟩ := ih fun x hx => h x (by simp [hx])
    constructor
    · rw [List.map_cons, List.sum_cons, h1, Fl.log_fin ha, Fl.fin_add, List.prod_cons,
        Real.log_mul ha.ne' h2.ne']
    · rw [List.prod_cons]; positivity

theorem sum_log_zero (l : List ℝ) (h : ∀ x ∈ l, 0 ≤ x) (h0 : (0:ℝ) ∈ l) :
    (l.map fun x => (Fl.fin x).log).sum = Fl.ninf := by
  induction l with
  | nil => simp at h0
  | cons a t ih =>
    rw [List.map_cons, List.sum_cons]
    by_cases ht : (0:ℝ) ∈ t
    · rw [ih (fun x hx => h x (by simp [hx])) ht]
      rcases (h a (by simp)).eq_or_lt with ha | ha
      · rw [← ha, Fl.log_zero]; rfl
      · rw [Fl.log_fin ha]; rfl
    · have ha : a = 0 := by
        rcases List.mem_cons.1 h0 with h | h
        · exact h.symm
        · exact absurd h ht
      have hpos : ∀ x ∈ t, 0 < x := fun x hx => lt_of_le_of_ne (h x (by simp [hx])) (by rintro rfl; exact ht hx)
      rw [(sum_log_pos t hpos).1, ha, Fl.log_zero]
      rfl

theorem gmean_eq (l : List ℝ) (hl : l ≠ []) (h : ∀ x ∈ l, 0 ≤ x) : gmean l = Fl.fin (geoMean l) := by
  have hlen : (0:ℝ) < l.length := by
    have := List.length_pos_iff.2 hl
    exact_mod_cast this
  unfold gmean geoMean
  by_cases h0 : (0:ℝ) ∈ l
  · rw [sum_log_zero l h h0, List.prod_eq_zero h0, Real.zero_rpow (inv_pos.2 hlen).ne']
    show (Fl.ninf / Fl.fin (l.length : ℝ)).exp = _
    have : Fl.ninf / Fl.fin (l.length : ℝ) = Fl.ninf := by
      simp [HDiv.hDiv, Div.div, Fl.div]
    rw [this]
    rfl
  · have hpos : ∀ x ∈ l, 0 < x := fun x hx => lt_of_le_of_ne (h x hx) (by rintro rfl; exact h0 hx)
    obtain ⟨h1, h2⟩ := sum_log_pos l hpos
    rw [h1, Fl.fin_div _ hlen.ne', Real.rpow_def_of_pos h2]
    rfl

theorem correctedRecalls_eq {α : Type*} [LinearOrder α] (corr : ℝ) (yTrue yPred : List α) :
    correctedRecalls corr yTrue yPred
      = (labelsOf (yTrue ++ yPred)).map fun c => correctedWith corr (recallOf yTrue yPred c) := by
  unfold correctedRecalls
  refine List.map_congr_left fun c _ => ?_
  have htp : (((yTrue.zip yPred).filter fun t => decide (t.1 = t.2)).map Prod.fst).count c
      = (yTrue.zip yPred).countP fun t => decide (t.1 = c ∧ t.2 = c) := by
    rw [List.count, List.countP_map, List.countP_filter]
    refine List.countP_congr fun t _ => ?_
    simp only [Function.comp_apply, beq_iff_eq, Bool.and_eq_true, decide_eq_true_eq]
    constructor
    · rintro ⟨h1, h2⟩; exact ⟨h1, h2 ▸ h1⟩
    · rintro ⟨h1, h2⟩; exact ⟨h1, h1.trans h2.symm⟩
  have hr : (if (yTrue.count c : ℝ) = 0 then (0:ℝ)
      else (((yTrue.zip yPred).countP fun t => decide (t.1 = c ∧ t.2 = c) : ℕ) : ℝ) / (yTrue.count c : ℝ))
      = recallOf yTrue yPred c := by
    unfold recallOf
    by_cases h : (yTrue.count c : ℝ) = 0
    · rw [if_pos h, h, div_zero]
    · rw [if_neg h]
  simp only [htp, hr]
  rfl

theorem labels_ne_nil {α : Type*} [LinearOrder α] (y z : List α) (h : y ≠ []) : labelsOf (y ++ z) ≠ [] := by
  obtain ⟨a, t, rfl⟩ := List.exists_cons_of_ne_nil h
  have : a ∈ labelsOf (a :: t ++ z) := by simp [labelsOf]
  exact List.ne_nil_of_mem this

theorem countP_zip_le {α : Type*} [DecidableEq α] (y z : List α) (h : y.length = z.length) (c : α) :
    (y.zip z).countP (fun t => decide (t.1 = c ∧ t.2 = c)) ≤ y.count c := by
  have : y.count c = (y.zip z).countP fun t => decide (t.1 = c) := by
    conv_lhs => rw [← List.map_fst_zip (l₁ := y) (l₂ := z) h.le]
    rw [List.count, List.countP_map]
    refine List.countP_congr fun t _ => ?_
    simp
  rw [this]
  refine List.countP_mono_left fun t _ ht => ?_
  simp only [decide_eq_true_eq] at *
  exact ht.1

theorem recallOf_mem {α : Type*} [DecidableEq α] (y z : List α) (h : y.length = z.length) (c : α) :
    recallOf y z c ∈ Set.Icc (0:ℝ) 1 := by
  refine ⟨by unfold recallOf; positivity, ?_⟩
  unfold recallOf
  refine div_le_one_of_le₀ ?_ (Nat.cast_nonneg _)
  exact_mod_cast countP_zip_le y z h c

theorem corrected_mem {corr r : ℝ} (hc : corr ∈ Set.Icc (0:ℝ) 1) (hr : r ∈ Set.Icc (0:ℝ) 1) :
    correctedWith corr r ∈ Set.Icc (0:ℝ) 1 := by
  unfold correctedWith
  split
  · exact hc
  · exact hr

/-- **C21** (value): geometric_mean is the geometric mean of the corrected recalls of the classes
present in either list. -/
theorem C21_value {α : Type*} [LinearOrder α] (corr : ℝ) (hc : 0 ≤ corr) (yTrue yPred : List α)
    (hne : yTrue ≠ []) (hlen : yTrue.length = yPred.length) :
    geometricMean corr yTrue yPred = Fl.fin (geoMean
      ((labelsOf (yTrue ++ yPred)).map fun c => correctedWith corr (recallOf yTrue yPred c))) := by
  unfold geometricMean
  rw [correctedRecalls_eq]
  refine gmean_eq _ (by simpa using labels_ne_nil yTrue yPred hne) fun x hx => ?_
  obtain ⟨c, _, rfl⟩ := List.mem_map.1 hx
  unfold correctedWith
  split
  · exact hc
  · exact (recallOf_mem yTrue yPred hlen c).1

theorem prod_mem_unit (l : List ℝ) (h : ∀ x ∈ l, x ∈ Set.Icc (0:ℝ) 1) :
    l.prod ∈ Set.Icc (0:ℝ) 1 ∧ (l.prod = 1 → ∀ x ∈ l, x = 1) := by
  induction l with
  | nil => simp
  | cons a t ih =>
    obtain ⟨⟨h1, h2⟩, h3⟩ := ih fun x hx => h x (by simp [hx])
    obtain ⟨a0, a1⟩ := h a (by simp)
    rw [List.prod_cons]
    refine ⟨⟨mul_nonneg a0 h1, mul_le_one₀ a1 h1 h2⟩, fun hp => ?_⟩
    have ha : a = 1 := by nlinarith
    have ht : t.prod = 1 := by rw [ha, one_mul] at hp; exact hp
    intro x hx
    rcases List.mem_cons.1 hx with rfl | hx
    · exact ha
    · exact h3 ht x hx

/-- **C21** (range). -/
theorem C21_range {α : Type*} [LinearOrder α] (corr : ℝ) (hc : corr ∈ Set.Icc (0:ℝ) 1) (yTrue yPred : List α)
    (hne : yTrue ≠ []) (hlen : yTrue.length = yPred.length) :
    ∃ g, geometricMean corr yTrue yPred = Fl.fin g ∧ g ∈ Set.Icc (0:ℝ) 1 := by
  refine ⟨_, C21_value corr hc.1 yTrue yPred hne hlen, ?_⟩
  have := (prod_mem_unit ((labelsOf (yTrue ++ yPred)).map fun c => correctedWith corr (recallOf yTrue yPred c))
    (by
      intro x hx
      obtain ⟨c, _, rfl⟩ := List.mem_map.1 hx
      exact corrected_mem hc (recallOf_mem yTrue yPred hlen c))).1
  exact ⟨Real.rpow_nonneg this.1 _, Real.rpow_le_one this.1 this.2 (by positivity)⟩

theorem correctedWith_zero (r : ℝ) : correctedWith 0 r = r := by
  unfold correctedWith
  split
  · rename_i h; exact h.symm
  · rfl

/-- **C21** (zero): without correction the value is 0 exactly when some class present in either list is
never recognised. -/
theorem C21_zero_iff {α : Type*} [LinearOrder α] (yTrue yPred : List α)
    (hne : yTrue ≠ []) (hlen : yTrue.length = yPred.length) :
    geometricMean 0 yTrue yPred = Fl.fin 0
      ↔ ∃ c, (c ∈ yTrue ∨ c ∈ yPred) ∧ (c, c) ∉ yTrue.zip yPred := by
  rw [C21_value 0 le_rfl yTrue yPred hne hlen, Fl.fin_inj]
  simp only [correctedWith_zero]
  unfold geoMean
  have hpos : ((((labelsOf (yTrue ++ yPred)).map fun c => recallOf yTrue yPred c).length : ℝ)⁻¹) ≠ 0 := by
    have := labels_ne_nil yTrue yPred hne
    rw [List.length_map]
    have h := List.length_pos_iff.2 this
    positivity
  have hnn := (prod_mem_unit ((labelsOf (yTrue ++ yPred)).map fun c => recallOf yTrue yPred c)
    (by
      intro x hx
      obtain ⟨c, _, rfl⟩ := List.mem_map.1 hx
      exact recallOf_mem yTrue yPred hlen c)).1.1
  rw [Real.rpow_eq_zero hnn hpos, List.prod_eq_zero_iff, List.mem_map]
  refine exists_congr fun c => ?_
  have hm : c ∈ labelsOf (yTrue ++ yPred) ↔ c ∈ yTrue ∨ c ∈ yPred := by simp [labelsOf]
  rw [hm]
  refine and_congr_right fun _ => ?_
  unfold recallOf
  rw [div_eq_zero_iff, Nat.cast_eq_zero, Nat.cast_eq_zero]
  have hcp : (yTrue.zip yPred).countP (fun t => decide (t.1 = c ∧ t.2 = c)) = 0 ↔ (c, c) ∉ yTrue.zip yPred := by
    rw [List.countP_eq_zero]
    constructor
    · intro h hmem
      exact h _ hmem (by simp)
    · rintro h ⟨a, b⟩ hmem hab
      simp only [decide_eq_true_eq] at hab
      obtain ⟨rfl, rfl⟩ := hab
      exact h hmem
  constructor
  · rintro (h | h)
    · exact hcp.1 h
    · refine hcp.1 (Nat.le_zero.1 ?_)
      rw [← h]
      exact countP_zip_le yTrue yPred hlen c
  · intro h
    exact Or.inl (hcp.2 h)

theorem countP_eq_imp {β : Type*} (l : List β) (p q : β → Bool) (hle : ∀ t, p t = true → q t = true)
    (h : l.countP p = l.countP q) : ∀ t ∈ l, q t = true → p t = true := by
  induction l with
  | nil => simp
  | cons a l ih =>
    have hmono : l.countP p ≤ l.countP q := List.countP_mono_left fun t _ ht => hle t ht
    intro t ht hq
    by_cases hpa : p a = true
    · have hqa := hle a hpa
      rw [List.countP_cons_of_pos hpa, List.countP_cons_of_pos hqa] at h
      rcases List.mem_cons.1 ht with rfl | ht
      · exact hpa
      · exact ih (by omega) t ht hq
    · by_cases hqa : q a = true
      · rw [List.countP_cons_of_neg hpa, List.countP_cons_of_pos hqa] at h
        omega
      · rw [List.countP_cons_of_neg hpa, List.countP_cons_of_neg hqa] at h
        rcases List.mem_cons.1 ht with rfl | ht
        · exact absurd hq hqa
        · exact ih h t ht hq

theorem eq_of_zip_eq {α : Type*} (y z : List α) (hlen : y.length = z.length)
    (h : ∀ t ∈ y.zip z, t.1 = t.2) : y = z := by
  induction y generalizing z with
  | nil => cases z <;> simp_all
  | cons a y ih =>
    cases z with
    | nil => simp at hlen
    | cons b z =>
      have hab : a = b := h (a, b) (by simp)
      have := ih z (by simpa using hlen) fun t ht => h t (by simp [ht])
      rw [hab, this]

/-- **C21** (one): without correction the value is 1 exactly for the perfect classifier. -/
theorem C21_one_iff {α : Type*} [LinearOrder α] (yTrue yPred : List α)
    (hne : yTrue ≠ []) (hlen : yTrue.length = yPred.length) :
    geometricMean 0 yTrue yPred = Fl.fin 1 ↔ yTrue = yPred := by
  rw [C21_value 0 le_rfl yTrue yPred hne hlen, Fl.fin_inj]
  simp only [correctedWith_zero]
  set l := (labelsOf (yTrue ++ yPred)).map fun c => recallOf yTrue yPred c with hl
  have hmem : ∀ x ∈ l, x ∈ Set.Icc (0:ℝ) 1 := by
    intro x hx
    obtain ⟨c, _, rfl⟩ := List.mem_map.1 hx
    exact recallOf_mem yTrue yPred hlen c
  have hlen0 : l.length ≠ 0 := by
    rw [hl, List.length_map]
    have := List.length_pos_iff.2 (labels_ne_nil yTrue yPred hne)
    omega
  constructor
  · intro h
    have hprod : l.prod = 1 := by
      have h1 := Real.rpow_inv_natCast_pow (prod_mem_unit l hmem).1.1 hlen0
      unfold geoMean at h
      rw [h, one_pow] at h1
      exact h1.symm
    have hall := (prod_mem_unit l hmem).2 hprod
    refine eq_of_zip_eq yTrue yPred hlen fun t ht => ?_
    obtain ⟨a, b⟩ := t
    have ha : a ∈ yTrue := (List.of_mem_zip ht).1
    have hrec : recallOf yTrue yPred a = 1 := by
      refine hall _ (List.mem_map.2 ⟨a, ?_, rfl⟩)
      simp [labelsOf, ha]
    have hcnt : (yTrue.count a : ℝ) ≠ 0 := by
      have := List.count_pos_iff.2 ha
      positivity
    unfold recallOf at hrec
    rw [div_eq_one_iff_eq hcnt] at hrec
    have hrec' := Nat.cast_injective hrec
    have hcz : yTrue.count a = (yTrue.zip yPred).countP fun t => decide (t.1 = a) := by
      conv_lhs => rw [← List.map_fst_zip (l₁ := yTrue) (l₂ := yPred) hlen.le]
      rw [List.count, List.countP_map]
      refine List.countP_congr fun t _ => ?_
      simp
    rw [hcz] at hrec'
    have := countP_eq_imp _ _ _ (fun t ht => by simp only [decide_eq_true_eq] at *; exact ht.1) hrec' (a, b) ht (by simp)
    simp only [decide_eq_true_eq] at this
    exact this.2.symm
  · rintro rfl
    have hone : ∀ x ∈ l, x = 1 := by
      intro x hx
      obtain ⟨c, hc, rfl⟩ := List.mem_map.1 hx
      have hc' : c ∈ yTrue := by simpa [labelsOf] using hc
      have hcnt : (yTrue.count c : ℝ) ≠ 0 := by
        have := List.count_pos_iff.2 hc'
        positivity
      unfold recallOf
      rw [div_eq_one_iff_eq hcnt]
      congr 1
      have hz : ∀ l : List α, l.zip l = l.map fun a => (a, a) := by
        intro l
        induction l with
        | nil => rfl
        | cons a l ih => simp [ih]
      rw [hz]
      rw [List.countP_map, List.count]
      refine List.countP_congr fun t _ => ?_
      simp
    unfold geoMean
    rw [List.prod_eq_one hone, Real.one_rpow]

example : ([0, 1, 1] : List ℕ) ≠ [] ∧ [0, 1, 1].length = [0, 1, 0].length := by simp

/-! ## C22 -/

/-- **C22**: brier_multi of probability rows is in [0,2]; it is 0 exactly when all rows coincide. -/
theorem C22_brier_multi {n : ℕ} (t p : List (Fin n → ℝ)) (hne : t ≠ []) (hlen : t.length = p.length)
    (ht : ∀ r ∈ t, IsPrev r) (hp : ∀ r ∈ p, IsPrev r) :
    ∃ b, brierMulti t p = Fl.fin b ∧ b ∈ Set.Icc (0:ℝ) 2 ∧ (b = 0 ↔ t = p) := by
  have hN : (0:ℝ) < t.length := by
    have := List.length_pos_iff.2 hne
    exact_mod_cast this
  set f : (Fin n → ℝ) → (Fin n → ℝ) → ℝ := fun a b => ∑ j, (a j - b j)^2 with hf
  have hval : (List.zipWith (fun a b : Fin n → ℝ => ∑ j, (Fl.fin (b j) - Fl.fin (a j)).sq) t p).sum
      = Fl.fin (List.zipWith f t p).sum := by
    have h1 : List.zipWith (fun a b : Fin n → ℝ => ∑ j, (Fl.fin (b j) - Fl.fin (a j)).sq) t p
        = (List.zipWith f t p).map Fl.fin := by
      rw [List.map_zipWith]
      congr 1
      funext a b
      simp only [Fl.fin_sub, Fl.sq_fin, Fl.sum_fin, hf]
      congr 1
      exact Finset.sum_congr rfl fun j _ => by ring
    rw [h1]
    exact Fl.list_sum_fin _
  refine ⟨(List.zipWith f t p).sum / t.length, ?_, ?_, ?_⟩
  · unfold brierMulti
    rw [hval, Fl.fin_div _ hN.ne']
  · clear hval
    have hb : 0 ≤ (List.zipWith f t p).sum ∧ (List.zipWith f t p).sum ≤ 2 * t.length := by
      clear hne hN
      induction t generalizing p with
      | nil => simp
      | cons a t ih =>
        cases p with
        | nil => simp at hlen
        | cons b p =>
          obtain ⟨h1, h2⟩ := ih p (by simpa using hlen) (fun r hr => ht r (by simp [hr])) (fun r hr => hp r (by simp [hr]))
          have ha := ht a (by simp)
          have hb := hp b (by simp)
          have hab0 : 0 ≤ f a b := Finset.sum_nonneg fun j _ => sq_nonneg _
          have hab2 : f a b ≤ 2 := by
            calc f a b ≤ ∑ j, ((a j)^2 + (b j)^2) := Finset.sum_le_sum fun j _ => by
                  nlinarith [mul_nonneg (ha.1 j) (hb.1 j)]
              _ ≤ 2 := by
                rw [Finset.sum_add_distrib]
                linarith [sum_sq_le_one a ha, sum_sq_le_one b hb]
          rw [List.zipWith_cons_cons, List.sum_cons, List.length_cons]
          push_cast
          constructor <;> linarith
    refine ⟨div_nonneg hb.1 hN.le, ?_⟩
    rw [div_le_iff₀ hN]
    exact hb.2
  · rw [div_eq_zero_iff, or_iff_left hN.ne']
    clear hval hne hN
    induction t generalizing p with
    | nil => cases p <;> simp_all
    | cons a t ih =>
      cases p with
      | nil => simp at hlen
      | cons b p =>
        have ih' := ih p (by simpa using hlen) (fun r hr => ht r (by simp [hr])) (fun r hr => hp r (by simp [hr]))
        have hab0 : 0 ≤ f a b := Finset.sum_nonneg fun j _ => sq_nonneg _
        have hs0 : 0 ≤ (List.zipWith f t p).sum := by
          refine List.sum_nonneg fun x hx => ?_
          rw [List.zipWith_eq_zipWith_take_min] at hx
          obtain ⟨i, hi, rfl⟩ := List.mem_iff_getElem.1 hx
          rw [List.getElem_zipWith]
          exact Finset.sum_nonneg fun j _ => sq_nonneg _
        rw [List.zipWith_cons_cons, List.sum_cons, List.cons.injEq, ← ih', ← sum_sq_eq_zero a b]
        constructor
        · intro h
          exact ⟨by linarith, by linarith⟩
        · rintro ⟨h1, h2⟩
          rw [h2]
          linarith

example : (∀ r ∈ [![(1:ℝ), 0]], IsPrev r) ∧ (∀ r ∈ [![(1:ℝ)/4, 3/4]], IsPrev r) := by
  constructor
  · intro r hr
    rw [List.mem_singleton.1 hr]
    refine ⟨fun i => ?_, ?_⟩
    · fin_cases i <;> norm_num
    · rw [Fin.sum_univ_two]; norm_num
  · intro r hr
    rw [List.mem_singleton.1 hr]
    exact prev_ex.1

end Verif.Props
