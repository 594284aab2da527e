import Verif.Model.NanPreds
import Verif.Spec.NanPreds
import Verif.Proof.Golden
import Verif.Proof.AC

/-! Helper lemmas about the methods on predictions that may not be numbers. -/

namespace Verif.Proof

open Verif.Model Verif.Spec

variable {α : Type*} {k : ℕ}

theorem sub_nan (x : Fl) : x - Fl.nan = Fl.nan := by cases x <;> rfl

theorem nan_sub (x : Fl) : Fl.nan - x = Fl.nan := by cases x <;> rfl

theorem clip_nan : Fl.nan.clip01 = Fl.nan := rfl

theorem abs_nan : Fl.nan.abs = Fl.nan := rfl

theorem sq_nan : Fl.nan.sq = Fl.nan := rfl

theorem list_sum_has_nan {l : List Fl} (h : Fl.nan ∈ l) : l.sum = Fl.nan := by
  induction l with
  | nil => simp at h
  | cons a l ih =>
    rw [List.sum_cons]
    rcases List.mem_cons.1 h with h | h
    · rw [← h, Fl.nan_add]
    · rw [ih h, Fl.add_nan]

theorem colMeansF_nan {rows : List (Fin k → Fl)} {r : Fin k → Fl} {j : Fin k} (hr : r ∈ rows) (h : r j = Fl.nan) : colMeansF rows j = Fl.nan := by
  unfold colMeansF
  rw [list_sum_has_nan (List.mem_map.2 ⟨r, hr, h⟩), Fl.nan_div]

/-! ## Nothing changes when the predictions are numbers -/

theorem colMeansF_floats (rows : List (Fin k → ℝ)) : colMeansF (floats rows) = colMeans rows := by
  funext j
  unfold colMeansF colMeans floats
  rw [List.map_map, List.length_map, ← Fl.list_sum_fin, List.map_map]
  rfl

theorem selectRows_map {β γ : Type*} [DecidableEq α] (g : β → γ) (y : List α) (rows : List β) (c : α) : selectRows y (rows.map g) c = (selectRows y rows c).map g := by
  unfold selectRows
  rw [List.zip_map_right, List.filter_map, List.map_map, List.map_map]
  rfl

theorem emPosteriorF_floats (ptr p : Fin k → Fl) (row : Fin k → ℝ) : emPosteriorF ptr p (fun j => Fl.fin (row j)) = emPosterior ptr p row := rfl

theorem emStepF_floats (ptr p : Fin k → Fl) (rows : List (Fin k → ℝ)) : emStepF ptr (floats rows) p = emStep ptr rows p := by
  funext c
  unfold emStepF emStep floats
  rw [List.map_map, List.length_map]
  rfl

theorem emLoopF_floats (ptr : Fin k → Fl) (rows : List (Fin k → ℝ)) (eps : ℝ) (n : ℕ) (s : EMState k) : emLoopF ptr (floats rows) eps n s = emLoop ptr rows eps n s := by
  induction n generalizing s with
  | zero => rfl
  | succ n ih =>
    unfold emLoopF emLoop
    simp only [emStepF_floats, ih]
    cases emChange s.prevalences s.previous <;> rfl

theorem argmaxLoopF_eq (row : Fin k → ℝ) : ∀ (l : List (Fin k)) (best : Fin k),
    some (argmaxLoopF (fun j => Fl.fin (row j)) best l) = l.foldl (List.argAux fun b c => row c < row b) (some best) := by
  intro l
  induction l with
  | nil => intro best; rfl
  | cons i l ih =>
    intro best
    rw [List.foldl_cons]
    unfold argmaxLoopF
    rw [if_neg (Fl.fin_ne_nan _)]
    by_cases h : row i ≤ row best
    · rw [if_pos ((Fl.fin_le_fin _ _).2 h), ih]
      simp [List.argAux, not_lt.2 h]
    · rw [if_neg (fun h' => h ((Fl.fin_le_fin _ _).1 h')), ih]
      simp [List.argAux, not_le.1 h]

theorem npArgmaxF_floats (row : Fin k → ℝ) : npArgmaxF (fun j => Fl.fin (row j)) = npArgmax row := by
  unfold npArgmaxF npArgmax List.argmax
  cases h : List.finRange k with
  | nil => rfl
  | cons i l =>
    rw [List.foldl_cons]
    exact argmaxLoopF_eq row l i

theorem sordLoopF_floats (l : List (ℝ × ℝ)) : ∀ cost cum prev : ℝ,
    sordLoopF (Fl.fin cost) cum (Fl.fin prev) (l.map fun t => (Fl.fin t.1, t.2)) = Fl.fin (sordLoop cost cum prev l) := by
  induction l with
  | nil => intro _ _ _; rfl
  | cons t l ih =>
    intro cost cum prev
    rw [List.map_cons]
    unfold sordLoopF sordLoop
    rw [Fl.fin_sub, Fl.fin_mul, Fl.abs_fin, Fl.fin_add, ih]

theorem histCumF_floats (x : List ℝ) {n : ℕ} (edges : Fin (n + 1) → EReal) (i : Fin (n + 1)) : histCumF (x.map Fl.fin) edges i = histCum x edges i := by
  unfold histCumF histCum
  simp only [List.countP_map]
  have e1 : ∀ e : EReal, ((fun v => @decide (Fl.upto v e) (Classical.propDecidable _)) ∘ Fl.fin) = fun v : ℝ => decide ((v : EReal) ≤ e) := by
    intro e; funext v; exact decide_eq_decide.2 Iff.rfl
  have e2 : ∀ e : EReal, ((fun v => @decide (Fl.before v e) (Classical.propDecidable _)) ∘ Fl.fin) = fun v : ℝ => decide ((v : EReal) < e) := by
    intro e; funext v; exact decide_eq_decide.2 Iff.rfl
  rw [e1, e2]

theorem npHistogramF_floats (x : List ℝ) {n : ℕ} (edges : Fin (n + 1) → EReal) : npHistogramF (x.map Fl.fin) edges = npHistogram x edges := by
  unfold npHistogramF npHistogram
  simp only [histCumF_floats]

/-! ## The golden section search when no loss is a number -/

theorem golden_nan_state (a b : ℝ) (n : ℕ) :
    let s := (goldenStep fun _ => Fl.nan)^[n] (goldenInit (fun _ => Fl.nan) a b)
    s.b = b ∧ s.fc = Fl.nan ∧ s.fd = Fl.nan := by
  induction n with
  | zero => exact ⟨rfl, rfl, rfl⟩
  | succ n ih =>
    rw [Function.iterate_succ_apply']
    generalize (goldenStep fun _ => Fl.nan)^[n] (goldenInit (fun _ => Fl.nan) a b) = s at ih ⊢
    obtain ⟨h1, h2, h3⟩ := ih
    unfold goldenStep
    rw [if_neg (by rw [h2]; exact Fl.not_nan_lt _)]
    exact ⟨h1, h3, rfl⟩

/-- The prevalence that the search returns. -/
noncomputable def goldenBlind (tol : ℝ) : ℝ :=
  let s := goldenFinal (fun _ => Fl.nan) tol 0 1
  (s.c + s.b) / 2

theorem golden_nan {tol : ℝ} (htol : 0 < tol) : goldenSectionSearch (fun _ => Fl.nan) tol 0 1 = .ok (Fl.nan, goldenBlind tol) := by
  have h := golden_nan_state 0 1 (goldenSteps tol (1 - 0) - 1).toNat
  unfold goldenSectionSearch
  rw [if_neg (by norm_num), if_neg (by simpa using htol)]
  obtain ⟨_, h2, h3⟩ := h
  unfold goldenResult
  rw [if_neg (by unfold goldenFinal; rw [h2]; exact Fl.not_nan_lt _)]
  congr 2

theorem goldenBlind_bounds {tol : ℝ} (htol : 0 < tol) : 1 - tol / 2 ≤ goldenBlind tol ∧ goldenBlind tol ≤ 1 := by
  have hi := ginv_iter (fun _ => Fl.nan) 0 1 zero_lt_one (goldenSteps tol (1 - 0) - 1).toNat
  have hw := golden_width tol 0 1 zero_lt_one htol
  have hb := (golden_nan_state 0 1 (goldenSteps tol (1 - 0) - 1).toNat).1
  unfold goldenBlind
  change GInv _ 0 1 _ (goldenFinal (fun _ => Fl.nan) tol 0 1) at hi
  change (goldenFinal (fun _ => Fl.nan) tol 0 1).b = 1 at hb
  set s := goldenFinal (fun _ => Fl.nan) tol 0 1
  have hpow := hi.h_pow
  have hwid : invphi * s.h ≤ tol := by
    rw [hpow]
    calc _ = _ := by rw [← mul_assoc, ← pow_succ']
      _ ≤ tol := hw
  have e1 := hi.h_eq
  have e2 := hi.c_eq
  have p2 := invphi2_eq
  have : invphi2 * s.h = s.h - invphi * s.h := by rw [p2]; ring
  have l1 := hi.c_lt_d zero_lt_one
  have l2 := hi.d_lt_b zero_lt_one
  dsimp only
  constructor <;> linarith

theorem sordLoopF_nan_cost (l : List (Fl × ℝ)) : ∀ (cum : ℝ) (prev : Fl), sordLoopF Fl.nan cum prev l = Fl.nan := by
  induction l with
  | nil => intro _ _; rfl
  | cons t l ih => intro cum prev; unfold sordLoopF; rw [Fl.nan_add]; exact ih _ _

theorem sordLoopF_nan (l : List (Fl × ℝ)) : ∀ (cost : Fl) (cum : ℝ) (prev : Fl), (Fl.nan ∈ l.map Prod.fst ∨ (prev = Fl.nan ∧ l ≠ [])) → sordLoopF cost cum prev l = Fl.nan := by
  induction l with
  | nil => intro _ _ _ h; simp at h
  | cons t l ih =>
    intro cost cum prev h
    unfold sordLoopF
    by_cases hp : prev = Fl.nan
    · rw [hp, sub_nan, Fl.nan_mul, abs_nan, Fl.add_nan, sordLoopF_nan_cost]
    · rcases h with h | h
      · rw [List.map_cons, List.mem_cons] at h
        rcases h with h | h
        · rw [← h, nan_sub, Fl.nan_mul, abs_nan, Fl.add_nan, sordLoopF_nan_cost]
        · exact ih _ _ _ (Or.inl h)
      · exact absurd h.1 hp

theorem sordF_nan {l : List (Fl × ℝ)} (h : Fl.nan ∈ l.map Prod.fst) (h2 : 2 ≤ l.length) : sordF l = .ok Fl.nan := by
  match l, h2 with
  | t :: t' :: l, _ =>
    obtain ⟨u, w⟩ := t
    show Except.ok (sordLoopF (Fl.fin 0) w u (t' :: l)) = _
    rw [List.map_cons, List.mem_cons] at h
    rw [sordLoopF_nan]
    rcases h with h | h
    · exact Or.inr ⟨h.symm, by simp⟩
    · exact Or.inl h

end Verif.Proof
