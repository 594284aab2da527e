import Verif.Model.EM
import Verif.Spec.EM
import Verif.Props.Baselines
import Mathlib.Analysis.Convex.SpecificFunctions.Basic
import Mathlib.Analysis.Convex.Jensen

/-!
# C47 - C49, C86, C130: the EM quantifier
-/

namespace Verif.Props

open Verif.Model Verif.Spec

variable {α : Type*} {k : ℕ}

/-- A bag that the current prevalences can explain: every example has positive density. -/
def Explained (ptr p : Fin k → ℝ) (bag : List (Fin k → ℝ)) : Prop := IsPrev p ∧ ∀ x ∈ bag, 0 < mixDensity ptr p x

theorem posterior_isPrev {ptr p x : Fin k → ℝ} (hptr : ∀ c, 0 < ptr c) (hp : IsPrev p) (hx : IsPrev x) (hd : 0 < mixDensity ptr p x) : IsPrev (posterior ptr p x) := by
  refine ⟨fun c => div_nonneg (mul_nonneg (hp.1 c) (div_nonneg (hx.1 c) (hptr c).le)) hd.le, ?_⟩
  unfold posterior
  rw [← Finset.sum_div]
  exact div_self hd.ne'

theorem sum_list_comm {β : Type*} (l : List β) (f : β → Fin k → ℝ) : ∑ c, (l.map fun x => f x c).sum = (l.map fun x => ∑ c, f x c).sum := by
  induction l with
  | nil => simp
  | cons a l ih => simp only [List.map_cons, List.sum_cons, Finset.sum_add_distrib, ih]

theorem emMap_isPrev {ptr p : Fin k → ℝ} {bag : List (Fin k → ℝ)} (hne : bag ≠ []) (hptr : ∀ c, 0 < ptr c) (hrows : ∀ x ∈ bag, IsPrev x) (h : Explained ptr p bag) :
    IsPrev (emMap ptr bag p) := by
  have hl : (0:ℝ) < bag.length := by exact_mod_cast List.length_pos_iff.2 hne
  refine ⟨fun c => div_nonneg (List.sum_nonneg ?_) hl.le, ?_⟩
  · intro v hv
    obtain ⟨x, hx, rfl⟩ := List.mem_map.1 hv
    exact (posterior_isPrev hptr h.1 (hrows x hx) (h.2 x hx)).1 c
  · unfold emMap
    rw [← Finset.sum_div, sum_list_comm, div_eq_one_iff_eq hl.ne']
    have : bag.map (fun x => ∑ c, posterior ptr p x c) = bag.map fun _ => (1:ℝ) :=
      List.map_congr_left fun x hx => (posterior_isPrev hptr h.1 (hrows x hx) (h.2 x hx)).2
    rw [this]
    simp

theorem emMap_pos {ptr p : Fin k → ℝ} {bag : List (Fin k → ℝ)} (hptr : ∀ c, 0 < ptr c) (hrows : ∀ x ∈ bag, IsPrev x) (h : Explained ptr p bag) {x : Fin k → ℝ}
    (hx : x ∈ bag) {c : Fin k} (hc : 0 < posterior ptr p x c) : 0 < emMap ptr bag p c := by
  have hl : (0:ℝ) < bag.length := by exact_mod_cast List.length_pos_iff.2 (List.ne_nil_of_mem hx)
  refine div_pos ?_ hl
  refine lt_of_lt_of_le hc ?_
  apply List.single_le_sum
  · intro v hv
    obtain ⟨x, hx, rfl⟩ := List.mem_map.1 hv
    exact (posterior_isPrev hptr h.1 (hrows x hx) (h.2 x hx)).1 c
  · exact List.mem_map.2 ⟨x, hx, rfl⟩

theorem emMap_explained {ptr p : Fin k → ℝ} {bag : List (Fin k → ℝ)} (hne : bag ≠ []) (hptr : ∀ c, 0 < ptr c) (hrows : ∀ x ∈ bag, IsPrev x) (h : Explained ptr p bag) :
    Explained ptr (emMap ptr bag p) bag := by
  have hp' := emMap_isPrev hne hptr hrows h
  refine ⟨hp', fun x hx => ?_⟩
  have hpost := posterior_isPrev hptr h.1 (hrows x hx) (h.2 x hx)
  obtain ⟨c, hc⟩ : ∃ c, 0 < posterior ptr p x c := by
    by_contra hcon
    push Not at hcon
    have : ∑ c, posterior ptr p x c ≤ 0 := Finset.sum_nonpos fun c _ => hcon c
    rw [hpost.2] at this
    linarith
  have hxc : 0 < x c / ptr c := by
    refine lt_of_le_of_ne (div_nonneg ((hrows x hx).1 c) (hptr c).le) fun h0 => ?_
    unfold posterior at hc
    rw [← h0] at hc
    simp at hc
  unfold mixDensity
  refine Finset.sum_pos' (fun j _ => mul_nonneg (hp'.1 j) (div_nonneg ((hrows x hx).1 j) (hptr j).le)) ⟨c, Finset.mem_univ c, ?_⟩
  exact mul_pos (emMap_pos hptr hrows h hx hc) hxc

theorem start_explained {ptr : Fin k → ℝ} {bag : List (Fin k → ℝ)} (hp : IsPrev ptr) (hptr : ∀ c, 0 < ptr c) (hrows : ∀ x ∈ bag, IsPrev x) : Explained ptr ptr bag := by
  refine ⟨hp, fun x hx => ?_⟩
  have : mixDensity ptr ptr x = 1 := by
    unfold mixDensity
    rw [← (hrows x hx).2]
    exact Finset.sum_congr rfl fun c _ => by have := (hptr c).ne'; field_simp
  rw [this]
  exact one_pos

theorem emIterate_succ (ptr : Fin k → ℝ) (bag : List (Fin k → ℝ)) (t : ℕ) : emIterate ptr bag (t + 1) = emMap ptr bag (emIterate ptr bag t) :=
  Function.iterate_succ_apply' _ _ _

theorem emIterate_explained {ptr : Fin k → ℝ} {bag : List (Fin k → ℝ)} (hne : bag ≠ []) (hp : IsPrev ptr) (hptr : ∀ c, 0 < ptr c) (hrows : ∀ x ∈ bag, IsPrev x) (t : ℕ) :
    Explained ptr (emIterate ptr bag t) bag := by
  induction t with
  | zero => exact start_explained hp hptr hrows
  | succ t ih =>
    rw [emIterate_succ]
    exact emMap_explained hne hptr hrows ih

/-! ## The program computes the iterates -/

theorem emStep_fin {ptr p : Fin k → ℝ} {bag : List (Fin k → ℝ)} (hne : bag ≠ []) (hptr : ∀ c, 0 < ptr c) (h : Explained ptr p bag) :
    emStep (fun c => Fl.fin (ptr c)) bag (fun c => Fl.fin (p c)) = fun c => Fl.fin (emMap ptr bag p c) := by
  have hl : (bag.length : ℝ) ≠ 0 := by exact_mod_cast (List.length_pos_iff.2 hne).ne'
  funext c
  unfold emStep emMap
  have hpost : ∀ x ∈ bag, emPosterior (fun c => Fl.fin (ptr c)) (fun c => Fl.fin (p c)) x c = Fl.fin (posterior ptr p x c) := by
    intro x hx
    unfold emPosterior
    have e : ∀ j, Fl.fin (x j) * (Fl.fin (p j) / Fl.fin (ptr j)) = Fl.fin (p j * (x j / ptr j)) := by
      intro j
      rw [Fl.fin_div _ (hptr j).ne', Fl.fin_mul]
      congr 1
      ring
    simp only [e]
    rw [Fl.sum_fin]
    exact Fl.fin_div _ (h.2 x hx).ne'
  rw [List.map_congr_left hpost]
  have : bag.map (fun x => Fl.fin (posterior ptr p x c)) = (bag.map fun x => posterior ptr p x c).map Fl.fin := by rw [List.map_map]; rfl
  rw [this, Fl.list_sum_fin, Fl.fin_div _ hl]

theorem emChange_fin [NeZero k] (p q : Fin k → ℝ) : emChange (fun c => Fl.fin (p c)) (fun c => Fl.fin (q c)) = .ok (Fl.fin (meanChange p q)) := by
  unfold emChange meanChange
  rw [if_pos ⟨⟨p, rfl⟩, q, rfl⟩]
  simp only [Fl.fin_sub, Fl.abs_fin]
  rw [Fl.sum_fin, Fl.fin_div _ (by exact_mod_cast NeZero.ne k)]
  simp only [abs_sub_comm]

/-- What the loop computes: the iterates, until the first one that satisfies the stopping rule or the last allowed one. -/
theorem emLoop_spec [NeZero k] {ptr : Fin k → ℝ} {bag : List (Fin k → ℝ)} (hne : bag ≠ []) (hp : IsPrev ptr) (hptr : ∀ c, 0 < ptr c) (hrows : ∀ x ∈ bag, IsPrev x) (eps : ℝ)
    (n t : ℕ) (prev : Fin k → ℝ) (hprev : 0 < t → prev = emIterate ptr bag (t - 1)) :
    ∃ T prev', emLoop (fun c => Fl.fin (ptr c)) bag eps n ⟨fun c => Fl.fin (emIterate ptr bag t c), fun c => Fl.fin (prev c), t⟩ = .ok ⟨fun c => Fl.fin (emIterate ptr bag T c), prev', T⟩
      ∧ t ≤ T ∧ T ≤ t + n ∧ (T < t + n → 10 ≤ T) ∧ (T < t + n → 0 < T → meanChange (emIterate ptr bag T) (emIterate ptr bag (T - 1)) ≤ eps)
      ∧ ∀ s, t ≤ s → s < T → 10 ≤ s → eps < meanChange (emIterate ptr bag s) (emIterate ptr bag (s - 1)) := by
  induction n generalizing t prev with
  | zero => exact ⟨t, _, rfl, le_rfl, le_rfl, fun h => absurd h (lt_irrefl _), fun h => absurd h (lt_irrefl _), fun s h1 h2 => absurd h2 (by omega)⟩
  | succ n ih =>
    unfold emLoop
    simp only [emChange_fin, Fl.fin_lt_fin]
    split_ifs with hc
    · rw [emStep_fin hne hptr (emIterate_explained hne hp hptr hrows t), ← emIterate_succ]
      obtain ⟨T, prev', h1, h2, h3, h4, h5, h6⟩ := ih (t + 1) (emIterate ptr bag t) (fun _ => rfl)
      refine ⟨T, prev', h1, by omega, by omega, fun h => h4 (by omega), fun h => h5 (by omega), fun s hs1 hs2 hs3 => ?_⟩
      rcases hs1.eq_or_lt with rfl | hlt
      · rcases hc with hc | hc
        · rw [hprev (by omega)] at hc
          exact hc
        · omega
      · exact h6 s hlt hs2 hs3
    · push Not at hc
      refine ⟨t, _, rfl, le_rfl, by omega, fun _ => hc.2, fun _ h0 => ?_, fun s h1 h2 => absurd h2 (by omega)⟩
      rw [← hprev h0]
      exact hc.1

/-- The training prevalences computed by `fit` are positive and valid. -/
theorem emFit_eq [LinearOrder α] (y : List α) (hy : y ≠ []) :
    emFit (labelsOf y) y = (fun c => Fl.fin (freqs (labelsOf y) y c)) ∧ IsPrev (freqs (labelsOf y) y) ∧ ∀ c, 0 < freqs (labelsOf y) y c := by
  refine ⟨classFreqs_eq _ _ hy, freqs_isPrev _ (labelsOf_nodup y) y hy fun a ha => (mem_labelsOf y a).2 ha, fun c => ?_⟩
  unfold freqs freq
  have h1 : 0 < y.count (labelsOf y)[c] := List.count_pos_iff.2 ((mem_labelsOf y _).1 (List.getElem_mem c.2))
  have h2 : 0 < y.length := List.length_pos_iff.2 hy
  have h1' : (0:ℝ) < y.count (labelsOf y)[c] := by exact_mod_cast h1
  have h2' : (0:ℝ) < y.length := by exact_mod_cast h2
  exact div_pos h1' h2'

/-! ## C47 -/

/-- **C47**: fitted on any nonempty label vector, for every nonempty bag of posterior rows that are distributions, every tolerance and every number of iterations, `EM.predict` returns a
valid prevalence vector (it does not raise). -/
theorem C47_em_valid [LinearOrder α] (y : List α) (hy : y ≠ []) (bag : List (Fin (labelsOf y).length → ℝ)) (hne : bag ≠ []) (hrows : ∀ x ∈ bag, IsPrev x) (eps : ℝ) (maxIter : ℕ) :
    ∃ r, emPredict (emFit (labelsOf y) y) bag eps maxIter = .ok r ∧ IsPrevFl r.prevalences := by
  obtain ⟨h1, h2, h3⟩ := emFit_eq y hy
  have hk : NeZero (labelsOf y).length := ⟨fun h0 => by
    have := h2.2
    rw [Finset.sum_eq_zero fun c _ => absurd c.2 (by omega)] at this
    norm_num at this⟩
  rw [h1]
  obtain ⟨T, prev', e, -⟩ := emLoop_spec hne h2 h3 hrows eps maxIter 0 (fun _ => 1) (fun h => absurd h (lt_irrefl _))
  exact ⟨_, e, emIterate (freqs (labelsOf y) y) bag T, (emIterate_explained hne h2 h3 hrows T).1, rfl⟩

/-- **C47**, every iterate: the training prevalences are valid and one iteration of the program takes the iterate `t` to the iterate `t + 1`, which is valid. -/
theorem C47_em_iterates [LinearOrder α] (y : List α) (hy : y ≠ []) (bag : List (Fin (labelsOf y).length → ℝ)) (hne : bag ≠ []) (hrows : ∀ x ∈ bag, IsPrev x) (t : ℕ) :
    (emStep (emFit (labelsOf y) y) bag)^[t] (emFit (labelsOf y) y) = (fun c => Fl.fin (emIterate (freqs (labelsOf y) y) bag t c))
    ∧ IsPrev (emIterate (freqs (labelsOf y) y) bag t) := by
  obtain ⟨h1, h2, h3⟩ := emFit_eq y hy
  have hex := fun t => emIterate_explained hne h2 h3 hrows t
  refine ⟨?_, (hex t).1⟩
  rw [h1]
  induction t with
  | zero => rfl
  | succ t ih => rw [Function.iterate_succ_apply', ih, emStep_fin hne h3 (hex t), ← emIterate_succ]

/-! ## C48 -/

theorem em_mono {ptr p : Fin k → ℝ} {bag : List (Fin k → ℝ)} (hne : bag ≠ []) (hptr : ∀ c, 0 < ptr c) (hrows : ∀ x ∈ bag, IsPrev x) (h : Explained ptr p bag) :
    logLik ptr bag p ≤ logLik ptr bag (emMap ptr bag p) := by
  set p' := emMap ptr bag p with hp'
  have hl : (0:ℝ) < bag.length := by exact_mod_cast List.length_pos_iff.2 hne
  have hex' : Explained ptr p' bag := emMap_explained hne hptr hrows h
  have hpost := fun x hx => posterior_isPrev hptr h.1 (hrows x hx) (h.2 x hx)
  classical
  set z : Fin k → ℝ := fun c => if 0 < p' c ∧ 0 < p c then p' c / p c else 1 with hz
  have hzpos : ∀ c, 0 < z c := by
    intro c
    simp only [hz]
    split_ifs with hc
    · exact div_pos hc.1 hc.2
    · exact one_pos
  -- the ratio of the densities is the posterior mean of z
  have hratio : ∀ x ∈ bag, mixDensity ptr p' x / mixDensity ptr p x = ∑ c, posterior ptr p x c * z c := by
    intro x hx
    unfold mixDensity
    rw [Finset.sum_div]
    apply Finset.sum_congr rfl
    intro c _
    by_cases hc : 0 < p' c ∧ 0 < p c
    · simp only [hz, if_pos hc, posterior]
      unfold mixDensity
      have := hc.2.ne'
      field_simp
    · -- then both sides are zero
      have hzero : posterior ptr p x c = 0 := by
        by_contra hne0
        have hpos : 0 < posterior ptr p x c := lt_of_le_of_ne ((hpost x hx).1 c) (Ne.symm hne0)
        apply hc
        refine ⟨emMap_pos hptr hrows h hx hpos, lt_of_le_of_ne (h.1.1 c) fun h0 => ?_⟩
        unfold posterior at hpos
        rw [← h0] at hpos
        simp at hpos
      rw [hzero, zero_mul]
      unfold posterior at hzero
      have hd := (h.2 x hx).ne'
      rw [div_eq_zero_iff, or_iff_left hd, mul_eq_zero] at hzero
      rcases hzero with h0 | h0
      · have : p' c = 0 := by
          rw [hp']
          unfold emMap
          rw [div_eq_zero_iff]
          left
          apply List.sum_eq_zero
          intro v hv
          obtain ⟨x', _, rfl⟩ := List.mem_map.1 hv
          unfold posterior
          rw [h0]
          simp
        rw [this]
        simp
      · rw [h0]
        simp
  -- Jensen for every example
  have hjensen : ∀ x ∈ bag, ∑ c, posterior ptr p x c * Real.log (z c) ≤ Real.log (mixDensity ptr p' x) - Real.log (mixDensity ptr p x) := by
    intro x hx
    rw [← Real.log_div (hex'.2 x hx).ne' (h.2 x hx).ne', hratio x hx]
    have := strictConcaveOn_log_Ioi.concaveOn.le_map_sum (t := Finset.univ) (w := posterior ptr p x) (p := z) (fun c _ => (hpost x hx).1 c) (hpost x hx).2 (fun c _ => hzpos c)
    simpa [smul_eq_mul] using this
  -- the sum over the bag
  have hsum : (bag.map fun x => ∑ c, posterior ptr p x c * Real.log (z c)).sum ≤ (bag.map fun x => Real.log (mixDensity ptr p' x) - Real.log (mixDensity ptr p x)).sum :=
    List.sum_le_sum hjensen
  have hleft : (bag.map fun x => ∑ c, posterior ptr p x c * Real.log (z c)).sum = bag.length * ∑ c, p' c * Real.log (z c) := by
    rw [← sum_list_comm bag fun x c => posterior ptr p x c * Real.log (z c), Finset.mul_sum]
    apply Finset.sum_congr rfl
    intro c _
    rw [List.sum_map_mul_right, hp']
    unfold emMap
    field_simp
  have hright : (bag.map fun x => Real.log (mixDensity ptr p' x) - Real.log (mixDensity ptr p x)).sum = logLik ptr bag p' - logLik ptr bag p := by
    unfold logLik
    generalize bag = l
    induction l with
    | nil => simp
    | cons a l ih => simp only [List.map_cons, List.sum_cons, ih]; ring
  -- Gibbs
  have hgibbs : 0 ≤ ∑ c, p' c * Real.log (z c) := by
    have : ∀ c, p' c - p c ≤ p' c * Real.log (z c) := by
      intro c
      by_cases hc : 0 < p' c ∧ 0 < p c
      · simp only [hz, if_pos hc]
        have h1 := Real.log_le_sub_one_of_pos (div_pos hc.2 hc.1)
        have h2 : Real.log (p' c / p c) = -Real.log (p c / p' c) := by rw [← Real.log_inv, inv_div]
        rw [h2]
        have h3 : p' c * Real.log (p c / p' c) ≤ p' c * (p c / p' c - 1) := mul_le_mul_of_nonneg_left h1 hc.1.le
        have h4 : p' c * (p c / p' c - 1) = p c - p' c := by have := hc.1.ne'; field_simp
        linarith
      · simp only [hz, if_neg hc, Real.log_one, mul_zero]
        rcases (hex'.1.1 c).eq_or_lt with h0 | h0
        · rw [← h0]; linarith [h.1.1 c]
        · exfalso
          apply hc
          refine ⟨h0, lt_of_le_of_ne (h.1.1 c) fun hp0 => ?_⟩
          have : p' c = 0 := by
            rw [hp']
            unfold emMap
            rw [div_eq_zero_iff]
            left
            apply List.sum_eq_zero
            intro v hv
            obtain ⟨x', _, rfl⟩ := List.mem_map.1 hv
            unfold posterior
            rw [← hp0]
            simp
          linarith
    have h2 : ∑ c, (p' c - p c) ≤ ∑ c, p' c * Real.log (z c) := Finset.sum_le_sum fun c _ => this c
    rw [Finset.sum_sub_distrib, hex'.1.2, h.1.2, sub_self] at h2
    exact h2
  rw [hleft, hright] at hsum
  have := mul_nonneg hl.le hgibbs
  linarith

/-- **C48**: no iteration decreases the log-likelihood of the bag. -/
theorem C48_em_likelihood [LinearOrder α] (y : List α) (hy : y ≠ []) (bag : List (Fin (labelsOf y).length → ℝ)) (hne : bag ≠ []) (hrows : ∀ x ∈ bag, IsPrev x) (t : ℕ) :
    (∀ x ∈ bag, 0 < mixDensity (freqs (labelsOf y) y) (emIterate (freqs (labelsOf y) y) bag t) x)
    ∧ logLik (freqs (labelsOf y) y) bag (emIterate (freqs (labelsOf y) y) bag t) ≤ logLik (freqs (labelsOf y) y) bag (emIterate (freqs (labelsOf y) y) bag (t + 1)) := by
  obtain ⟨_, h2, h3⟩ := emFit_eq y hy
  have hex := emIterate_explained hne h2 h3 hrows t
  refine ⟨hex.2, ?_⟩
  rw [emIterate_succ]
  exact em_mono hne h3 hrows hex

/-- **C48**, consequence: the prevalences returned explain the bag at least as well as the training prevalences, whose log-likelihood is 0. -/
theorem C48_em_answer [LinearOrder α] (y : List α) (hy : y ≠ []) (bag : List (Fin (labelsOf y).length → ℝ)) (hne : bag ≠ []) (hrows : ∀ x ∈ bag, IsPrev x) (eps : ℝ) (maxIter : ℕ) :
    ∃ r p, emPredict (emFit (labelsOf y) y) bag eps maxIter = .ok r ∧ r.prevalences = (fun c => Fl.fin (p c)) ∧ IsPrev p ∧ 0 ≤ logLik (freqs (labelsOf y) y) bag p := by
  obtain ⟨h1, h2, h3⟩ := emFit_eq y hy
  have hk : NeZero (labelsOf y).length := ⟨fun h0 => by
    have := h2.2
    rw [Finset.sum_eq_zero fun c _ => absurd c.2 (by omega)] at this
    norm_num at this⟩
  rw [h1]
  obtain ⟨T, prev', e, -⟩ := emLoop_spec hne h2 h3 hrows eps maxIter 0 (fun _ => 1) (fun h => absurd h (lt_irrefl _))
  refine ⟨_, emIterate (freqs (labelsOf y) y) bag T, e, rfl, (emIterate_explained hne h2 h3 hrows T).1, ?_⟩
  · have h0 : logLik (freqs (labelsOf y) y) bag (emIterate (freqs (labelsOf y) y) bag 0) = 0 := by
      unfold logLik
      apply List.sum_eq_zero
      intro v hv
      obtain ⟨x, hx, rfl⟩ := List.mem_map.1 hv
      have : mixDensity (freqs (labelsOf y) y) (emIterate (freqs (labelsOf y) y) bag 0) x = 1 := by
        show ∑ c, freqs (labelsOf y) y c * (x c / freqs (labelsOf y) y c) = 1
        rw [← (hrows x hx).2]
        exact Finset.sum_congr rfl fun c _ => by have := (h3 c).ne'; field_simp
      rw [this, Real.log_one]
    rw [← h0]
    exact monotone_nat_of_le_succ (f := fun t => logLik (freqs (labelsOf y) y) bag (emIterate (freqs (labelsOf y) y) bag t))
      (fun t => (C48_em_likelihood y hy bag hne hrows t).2) (Nat.zero_le T)

/-! ## C49 -/

theorem emLoop_count (ptr : Fin k → Fl) (rows : List (Fin k → ℝ)) (eps : ℝ) (n : ℕ) (s r : EMState k) (hr : emLoop ptr rows eps n s = .ok r) :
    s.iterations ≤ r.iterations ∧ r.iterations ≤ s.iterations + n
    ∧ (r.iterations < s.iterations + n → 10 ≤ r.iterations ∧ ∃ change, emChange r.prevalences r.previous = .ok change ∧ ¬ Fl.fin eps < change) := by
  induction n generalizing s with
  | zero =>
    obtain rfl : s = r := by simpa [emLoop] using hr
    exact ⟨le_rfl, le_rfl, fun h => absurd h (lt_irrefl _)⟩
  | succ n ih =>
    unfold emLoop at hr
    cases hch : emChange s.prevalences s.previous with
    | error e => rw [hch] at hr; exact absurd hr (by simp)
    | ok change =>
      rw [hch] at hr
      dsimp only at hr
      split_ifs at hr with hc
      · obtain ⟨h1, h2, h3⟩ := ih ⟨emStep ptr rows s.prevalences, s.prevalences, s.iterations + 1⟩ hr
        simp only at h1 h2 h3
        exact ⟨by omega, by omega, fun h => h3 (by omega)⟩
      · push Not at hc
        obtain rfl : s = r := by simpa using hr
        exact ⟨le_rfl, by omega, fun _ => ⟨hc.2, change, hch, hc.1⟩⟩

/-- **C49**, counts, for all inputs for which `predict` returns (even arrays with NaN): at most `max_iter` iterations and at least `min 10 max_iter`; if there are fewer than `max_iter`, the last
change is not greater than epsilon. -/
theorem C49_em_iterations (ptr : Fin k → Fl) (bag : List (Fin k → ℝ)) (eps : ℝ) (maxIter : ℕ) (r : EMState k) (hr : emPredict ptr bag eps maxIter = .ok r) :
    r.iterations ≤ maxIter ∧ min 10 maxIter ≤ r.iterations
    ∧ (r.iterations < maxIter → ∃ change, emChange r.prevalences r.previous = .ok change ∧ ¬ Fl.fin eps < change) := by
  have h := emLoop_count ptr bag eps maxIter ⟨ptr, fun _ => 1, 0⟩ r hr
  simp only [zero_add] at h
  refine ⟨h.2.1, ?_, fun hlt => (h.2.2 hlt).2⟩
  rcases h.2.1.eq_or_lt with he | hlt
  · rw [he]; exact min_le_right _ _
  · exact (min_le_left _ _).trans (h.2.2 hlt).1

/-- **C49**, meaning: the answer is the iterate `T`; if `T` is less than `max_iter` then the last change is at most epsilon, and no earlier iterate from the tenth on had this property. -/
theorem C49_em_stops [LinearOrder α] (y : List α) (hy : y ≠ []) (bag : List (Fin (labelsOf y).length → ℝ)) (hne : bag ≠ []) (hrows : ∀ x ∈ bag, IsPrev x) (eps : ℝ) (maxIter : ℕ) :
    ∃ r T, emPredict (emFit (labelsOf y) y) bag eps maxIter = .ok r ∧ r.iterations = T
      ∧ r.prevalences = (fun c => Fl.fin (emIterate (freqs (labelsOf y) y) bag T c))
      ∧ T ≤ maxIter ∧ min 10 maxIter ≤ T
      ∧ (T < maxIter → meanChange (emIterate (freqs (labelsOf y) y) bag T) (emIterate (freqs (labelsOf y) y) bag (T - 1)) ≤ eps)
      ∧ ∀ s, 10 ≤ s → s < T → eps < meanChange (emIterate (freqs (labelsOf y) y) bag s) (emIterate (freqs (labelsOf y) y) bag (s - 1)) := by
  obtain ⟨h1, h2, h3⟩ := emFit_eq y hy
  have hk : NeZero (labelsOf y).length := ⟨fun h0 => by
    have := h2.2
    rw [Finset.sum_eq_zero fun c _ => absurd c.2 (by omega)] at this
    norm_num at this⟩
  rw [h1]
  obtain ⟨T, prev', e, e2, e3, e4, e5, e6⟩ := emLoop_spec hne h2 h3 hrows eps maxIter 0 (fun _ => 1) (fun h => absurd h (lt_irrefl _))
  have hcnt := C49_em_iterations _ bag eps maxIter _ e
  rw [zero_add] at e3 e4 e5
  exact ⟨_, T, e, rfl, rfl, e3, hcnt.2.1, fun h => e5 h (by have := e4 h; omega), fun s hs hsT => e6 s (Nat.zero_le _) hsT hs⟩

/-! ## C86 -/

/-- **C86**: if the mean posterior over the bag is the vector of training prevalences, EM returns the training prevalences. -/
theorem C86_em_fixed_point [LinearOrder α] (y : List α) (hy : y ≠ []) (bag : List (Fin (labelsOf y).length → ℝ)) (hne : bag ≠ []) (hrows : ∀ x ∈ bag, IsPrev x) (eps : ℝ) (maxIter : ℕ)
    (hcal : ∀ c, (bag.map fun x => x c).sum / bag.length = freqs (labelsOf y) y c) :
    ∃ r, emPredict (emFit (labelsOf y) y) bag eps maxIter = .ok r ∧ r.prevalences = fun c => Fl.fin (freqs (labelsOf y) y c) := by
  obtain ⟨_, h2, h3⟩ := emFit_eq y hy
  obtain ⟨r, T, e0, -, e, -⟩ := C49_em_stops y hy bag hne hrows eps maxIter
  refine ⟨r, e0, ?_⟩
  rw [e]
  have hfix : emMap (freqs (labelsOf y) y) bag (freqs (labelsOf y) y) = freqs (labelsOf y) y := by
    funext c
    rw [← hcal c]
    unfold emMap
    congr 2
    apply List.map_congr_left
    intro x hx
    unfold posterior
    have : mixDensity (freqs (labelsOf y) y) (freqs (labelsOf y) y) x = 1 := by
      unfold mixDensity
      rw [← (hrows x hx).2]
      exact Finset.sum_congr rfl fun c _ => by have := (h3 c).ne'; field_simp
    rw [this]
    have := (h3 c).ne'
    field_simp
  have : emIterate (freqs (labelsOf y) y) bag T = freqs (labelsOf y) y := Function.iterate_fixed hfix T
  rw [this]

/-- **C86**: if EM's answer is stationary (one more iteration would not change it) it is a maximum likelihood estimate: no valid prevalence vector whose support is inside that of the answer
explains the bag better. -/
theorem C86_em_stationary {ptr p : Fin k → ℝ} {bag : List (Fin k → ℝ)} (hne : bag ≠ []) (hptr : ∀ c, 0 < ptr c) (hrows : ∀ x ∈ bag, IsPrev x) (h : Explained ptr p bag)
    (hfix : emMap ptr bag p = p) (q : Fin k → ℝ) (hq : Explained ptr q bag) (hsupp : ∀ c, p c = 0 → q c = 0) : logLik ptr bag q ≤ logLik ptr bag p := by
  have hl : (0:ℝ) < bag.length := by exact_mod_cast List.length_pos_iff.2 hne
  -- every class in the support has mean density ratio 1
  have hmean : ∀ c, p c ≠ 0 → (bag.map fun x => x c / ptr c / mixDensity ptr p x).sum = bag.length := by
    intro c hc
    have := congrFun hfix c
    unfold emMap posterior at this
    rw [div_eq_iff hl.ne'] at this
    have e : (bag.map fun x => p c * (x c / ptr c) / mixDensity ptr p x).sum = p c * (bag.map fun x => x c / ptr c / mixDensity ptr p x).sum := by
      rw [← List.sum_map_mul_left]
      congr 1
      exact List.map_congr_left fun x _ => by ring
    rw [e] at this
    exact mul_left_cancel₀ hc this
  have hterm : ∀ x ∈ bag, Real.log (mixDensity ptr q x) ≤ Real.log (mixDensity ptr p x) + (mixDensity ptr q x / mixDensity ptr p x - 1) := by
    intro x hx
    have h1 := Real.log_le_sub_one_of_pos (div_pos (hq.2 x hx) (h.2 x hx))
    rw [Real.log_div (hq.2 x hx).ne' (h.2 x hx).ne'] at h1
    linarith
  have hsum := List.sum_le_sum hterm
  have e1 : (bag.map fun x => Real.log (mixDensity ptr p x) + (mixDensity ptr q x / mixDensity ptr p x - 1)).sum =
      logLik ptr bag p + ((bag.map fun x => mixDensity ptr q x / mixDensity ptr p x).sum - bag.length) := by
    unfold logLik
    generalize bag = l
    induction l with
    | nil => simp
    | cons a l ih => simp only [List.map_cons, List.sum_cons, ih, List.length_cons]; push_cast; ring
  have e2 : (bag.map fun x => mixDensity ptr q x / mixDensity ptr p x).sum = bag.length := by
    have : bag.map (fun x => mixDensity ptr q x / mixDensity ptr p x) = bag.map fun x => ∑ c, q c * (x c / ptr c / mixDensity ptr p x) := by
      apply List.map_congr_left
      intro x _
      unfold mixDensity
      rw [Finset.sum_div]
      exact Finset.sum_congr rfl fun c _ => by ring
    rw [this, ← sum_list_comm bag fun x c => q c * (x c / ptr c / mixDensity ptr p x)]
    have : ∀ c, (bag.map fun x => q c * (x c / ptr c / mixDensity ptr p x)).sum = q c * bag.length := by
      intro c
      rw [List.sum_map_mul_left]
      by_cases hc : p c = 0
      · rw [hsupp c hc, zero_mul, zero_mul]
      · rw [hmean c hc]
    simp only [this]
    rw [← Finset.sum_mul, hq.1.2, one_mul]
  rw [e1, e2, sub_self, add_zero] at hsum
  exact hsum

/-- **C86**: the order of the bag does not matter. -/
theorem C86_em_perm (ptr : Fin k → Fl) (bag bag' : List (Fin k → ℝ)) (h : bag.Perm bag') (eps : ℝ) (maxIter : ℕ) : emPredict ptr bag eps maxIter = emPredict ptr bag' eps maxIter := by
  have hstep : emStep ptr bag = emStep ptr bag' := by
    funext p c
    unfold emStep
    rw [(h.map fun r => emPosterior ptr p r c).sum_eq, h.length_eq]
  unfold emPredict
  generalize (⟨ptr, fun _ => 1, 0⟩ : EMState k) = s
  induction maxIter generalizing s with
  | zero => rfl
  | succ n ih => unfold emLoop; simp only [hstep, ih]

/-- A concrete case: labels of three examples, a bag of two posterior rows that are not calibrated. -/
example : ∃ (y : List ℕ) (bag : List (Fin (labelsOf y).length → ℝ)), y ≠ [] ∧ bag ≠ [] ∧ (∀ x ∈ bag, IsPrev x) ∧ bag.length = 2 := by
  have h : labelsOf [2, 1, 2] = [1, 2] := labelsOf_eq _ _ (by decide) (by decide)
  refine ⟨[2, 1, 2], [fun i => if (i : ℕ) = 0 then 1/10 else 9/10, fun i => if (i : ℕ) = 0 then 1 else 0], by simp, by simp, ?_, rfl⟩
  intro x hx
  simp only [List.mem_cons, List.not_mem_nil, or_false] at hx
  unfold IsPrev
  rcases hx with rfl | rfl
  · constructor
    · intro i; dsimp only; split_ifs <;> norm_num
    · generalize labelsOf [2, 1, 2] = l at h
      subst h
      simp [Fin.sum_univ_succ]
      norm_num
  · constructor
    · intro i; dsimp only; split_ifs <;> norm_num
    · generalize labelsOf [2, 1, 2] = l at h
      subst h
      simp [Fin.sum_univ_succ]

/-! ## C130: bags that no prevalences explain -/

/-- A bag without examples, or with an example whose probabilities are all zero. -/
def Unexplainable (bag : List (Fin k → ℝ)) : Prop := bag = [] ∨ ∃ x ∈ bag, ∀ c, x c = 0

theorem list_sum_nan {l : List Fl} (h : Fl.nan ∈ l) : l.sum = Fl.nan := by
  induction l with
  | nil => simp at h
  | cons a l ih =>
    rw [List.sum_cons]
    rcases List.mem_cons.1 h with h | h
    · rw [← h, Fl.nan_add]
    · rw [ih h, Fl.add_nan]

theorem emStep_unexplainable {ptr p : Fin k → ℝ} (hptr : ∀ c, 0 < ptr c) {bag : List (Fin k → ℝ)} (h : Unexplainable bag) :
    emStep (fun c => Fl.fin (ptr c)) bag (fun c => Fl.fin (p c)) = fun _ => Fl.nan := by
  funext c
  unfold emStep
  rcases h with rfl | ⟨x, hx, h0⟩
  · simp [Fl.zero_div_zero]
  · have : emPosterior (fun c => Fl.fin (ptr c)) (fun c => Fl.fin (p c)) x c = Fl.nan := by
      unfold emPosterior
      have e : ∀ j, Fl.fin (x j) * (Fl.fin (p j) / Fl.fin (ptr j)) = Fl.fin 0 := by
        intro j
        rw [Fl.fin_div _ (hptr j).ne', Fl.fin_mul, h0 j, zero_mul]
      simp only [e]
      rw [Fl.sum_fin]
      simp [Fl.zero_div_zero]
    rw [list_sum_nan (List.mem_map.2 ⟨x, hx, this⟩), Fl.nan_div]

/-- **C130**: when at least two iterations are allowed, a bag that no prevalences explain makes `EM.predict` raise a ValueError. -/
theorem C130_em_rejects_partial [LinearOrder α] (y : List α) (hy : y ≠ []) (bag : List (Fin (labelsOf y).length → ℝ)) (h : Unexplainable bag) (eps : ℝ) (maxIter : ℕ) (hm : 2 ≤ maxIter) :
    emPredict (emFit (labelsOf y) y) bag eps maxIter = .error .valueError := by
  obtain ⟨h1, h2, h3⟩ := emFit_eq y hy
  have hk : NeZero (labelsOf y).length := ⟨fun h0 => by
    have := h2.2
    rw [Finset.sum_eq_zero fun c _ => absurd c.2 (by omega)] at this
    norm_num at this⟩
  obtain ⟨m, rfl⟩ : ∃ m, maxIter = m + 2 := ⟨maxIter - 2, by omega⟩
  rw [h1]
  have e1 : emChange (fun c => Fl.fin (freqs (labelsOf y) y c)) (fun _ => 1) = .ok (Fl.fin (meanChange (freqs (labelsOf y) y) fun _ => 1)) := emChange_fin _ fun _ => 1
  have e2 : emChange (fun _ : Fin (labelsOf y).length => Fl.nan) (fun c => Fl.fin (freqs (labelsOf y) y c)) = .error .valueError := by
    unfold emChange
    rw [if_neg]
    rintro ⟨⟨p, hp⟩, -⟩
    exact Fl.fin_ne_nan _ (congrFun hp ⟨0, Nat.pos_of_ne_zero hk.ne⟩).symm
  unfold emPredict emLoop
  simp only [e1]
  rw [if_pos (Or.inr (by norm_num)), emStep_unexplainable h3 h]
  unfold emLoop
  simp only [e2]

/-- **C130**, for every input: an answer given before the last allowed iteration holds finite numbers. -/
theorem C130_em_finite_partial (ptr : Fin k → Fl) (bag : List (Fin k → ℝ)) (eps : ℝ) (maxIter : ℕ) (r : EMState k) (hr : emPredict ptr bag eps maxIter = .ok r) (h : r.iterations < maxIter) :
    ∃ p : Fin k → ℝ, r.prevalences = fun c => Fl.fin (p c) := by
  obtain ⟨ch, hch, -⟩ := (C49_em_iterations ptr bag eps maxIter r hr).2.2 h
  unfold emChange at hch
  split_ifs at hch with hc
  exact hc.1

/-- **C130** fails for `max_iter = 1`: the answer is NaN for every class. -/
theorem C130_one_iteration_refuted [LinearOrder α] (y : List α) (hy : y ≠ []) (bag : List (Fin (labelsOf y).length → ℝ)) (h : Unexplainable bag) (eps : ℝ) :
    ∃ r, emPredict (emFit (labelsOf y) y) bag eps 1 = .ok r ∧ ∀ c, r.prevalences c = Fl.nan := by
  obtain ⟨h1, h2, h3⟩ := emFit_eq y hy
  have hk : NeZero (labelsOf y).length := ⟨fun h0 => by
    have := h2.2
    rw [Finset.sum_eq_zero fun c _ => absurd c.2 (by omega)] at this
    norm_num at this⟩
  rw [h1]
  have e1 : emChange (fun c => Fl.fin (freqs (labelsOf y) y c)) (fun _ => 1) = .ok (Fl.fin (meanChange (freqs (labelsOf y) y) fun _ => 1)) := emChange_fin _ fun _ => 1
  refine ⟨⟨emStep (fun c => Fl.fin (freqs (labelsOf y) y c)) bag fun c => Fl.fin (freqs (labelsOf y) y c), fun c => Fl.fin (freqs (labelsOf y) y c), 1⟩, ?_,
    fun c => congrFun (emStep_unexplainable h3 h) c⟩
  unfold emPredict emLoop
  simp only [e1]
  rw [if_pos (Or.inr (by norm_num))]
  rfl

/-- A bag of two examples, one of them with null probabilities, and the labels of three training examples. -/
example : ∃ (y : List ℕ) (bag : List (Fin (labelsOf y).length → ℝ)), y ≠ [] ∧ Unexplainable bag ∧ bag.length = 2 :=
  ⟨[2, 1, 2], [fun _ => 1/2, fun _ => 0], by simp, .inr ⟨fun _ => 0, by simp, fun _ => rfl⟩, rfl⟩

end Verif.Props
