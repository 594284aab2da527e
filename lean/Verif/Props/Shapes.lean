import Verif.Model.Shapes
import Verif.Proof.Decomp
import Verif.Props.Search
import Verif.Props.SearchErrors

/-!
# C131-C134: shapes of arrays
-/

namespace Verif.Props

open Verif.Model Verif.Spec Verif.Proof

/-! ## C131: metrics and the shape of their arguments -/

/-- Three ways to hold a vector in an array: flat, a column, a row. -/
inductive Layout where
  | flat | column | row
  deriving DecidableEq

/-- The array that holds the vector. -/
def Layout.arr {n : ℕ} (l : Layout) (v : Fin n → ℝ) : NdArr ℝ :=
  match l with
  | .flat => .vec n v
  | .column => .col v
  | .row => .row v

private theorem metric_cast (m : {n : ℕ} → (Fin n → ℝ) → (Fin n → ℝ) → Fl) {a b : ℕ} (h : a = b) (p q : Fin a → ℝ) (p' q' : Fin b → ℝ) (hp : ∀ i, p i = p' (Fin.cast h i)) (hq : ∀ i, q i = q' (Fin.cast h i)) :
    m p q = m p' q' := by
  subst h
  have e1 : p = p' := funext hp
  have e2 : q = q' := funext hq
  rw [e1, e2]

private theorem flatten_col {n : ℕ} (v : Fin n → ℝ) (k : Fin (n * 1)) : flattenMat (fun i (_ : Fin 1) => v i) k = v (Fin.cast (Nat.mul_one n) k) := by
  show v (finProdFinEquiv.symm k).1 = _
  congr 1
  apply Fin.ext
  simp [finProdFinEquiv, Fin.divNat]

private theorem flatten_row {n : ℕ} (v : Fin n → ℝ) (k : Fin (1 * n)) : flattenMat (fun (_ : Fin 1) j => v j) k = v (Fin.cast (Nat.one_mul n) k) := by
  show v (finProdFinEquiv.symm k).2 = _
  congr 1
  apply Fin.ext
  have hk : (k : ℕ) < n := by have := k.2; omega
  simpa [finProdFinEquiv, Fin.modNat] using Nat.mod_eq_of_lt hk

/-- **C131**: every metric that adds up element-wise results has the same value, whether its two arguments are flat vectors, columns or rows; a flat vector and a column can be mixed. -/
theorem C131_metric_layout (m : {n : ℕ} → (Fin n → ℝ) → (Fin n → ℝ) → Fl) {n : ℕ} (hn : 0 < n) (p q : Fin n → ℝ) (l l' : Layout) (h : l = l' ∨ (l ≠ .row ∧ l' ≠ .row)) :
    metricNd m (l.arr p) (l'.arr q) = .ok (m p q) := by
  have hn' : n ≠ 0 := by omega
  rcases h with rfl | ⟨h1, h2⟩
  · cases l
    · simp only [metricNd, Layout.arr, checkPrevalencesNd, toColumns, hn', dif_pos]
      simp only [one_ne_zero, or_self, if_false, Except.map]
      exact congrArg _ (metric_cast m (Nat.mul_one n) _ _ _ _ (flatten_col p) (flatten_col q))
    · simp only [metricNd, Layout.arr, NdArr.col, checkPrevalencesNd, toColumns, hn', dif_pos]
      simp only [one_ne_zero, or_self, if_false, Except.map]
      exact congrArg _ (metric_cast m (Nat.mul_one n) _ _ _ _ (flatten_col p) (flatten_col q))
    · simp only [metricNd, Layout.arr, NdArr.row, checkPrevalencesNd, toColumns, hn', dif_pos]
      simp only [one_ne_zero, or_self, if_false, Except.map]
      exact congrArg _ (metric_cast m (Nat.one_mul n) _ _ _ _ (flatten_row p) (flatten_row q))
  · cases l <;> cases l' <;> first | exact absurd rfl h1 | exact absurd rfl h2 | skip
    all_goals
      simp only [metricNd, Layout.arr, NdArr.col, checkPrevalencesNd, toColumns, hn', dif_pos]
      simp only [one_ne_zero, or_self, if_false, Except.map]
      exact congrArg _ (metric_cast m (Nat.mul_one n) _ _ _ _ (flatten_col p) (flatten_col q))

/-- **C131**: a row and a flat vector (or a column) are not mixed up: ValueError, for two or more classes. -/
theorem C131_mixed_layout (m : {n : ℕ} → (Fin n → ℝ) → (Fin n → ℝ) → Fl) {n : ℕ} (hn : 2 ≤ n) (p q : Fin n → ℝ) (l : Layout) (hl : l ≠ .row) :
    metricNd m (l.arr p) (Layout.row.arr q) = .error .valueError ∧ metricNd m (Layout.row.arr p) (l.arr q) = .error .valueError := by
  have h1 : n ≠ 1 := by omega
  have h2 : ¬ (1 = n) := by omega
  cases l <;> first | exact absurd rfl hl | skip
  all_goals
    constructor <;>
      simp only [metricNd, Layout.arr, NdArr.row, NdArr.col, checkPrevalencesNd, toColumns, h1, h2, dif_neg, not_false_eq_true, Except.map]

/-- **C131**: vectors of different lengths raise ValueError, flat, as columns or as rows. -/
theorem C131_other_length (m : {n : ℕ} → (Fin n → ℝ) → (Fin n → ℝ) → Fl) {n n' : ℕ} (h : n ≠ n') (p : Fin n → ℝ) (q : Fin n' → ℝ) (l l' : Layout) :
    metricNd m (l.arr p) (l'.arr q) = .error .valueError ∧ emdScoreNd (l.arr p) (l'.arr q) = .error .valueError := by
  have key : checkPrevalencesNd (l.arr p) (l'.arr q) = .error .valueError := by
    cases l <;> cases l' <;> simp only [Layout.arr, NdArr.row, NdArr.col, checkPrevalencesNd, toColumns] <;> split_ifs <;> first | rfl | omega
  exact ⟨by rw [metricNd, key]; rfl, by rw [emdScoreNd, key]; rfl⟩

/-- **C131**: `emd_score` of flat vectors and of columns is the score of the vectors. -/
theorem C131_emd_score_partial {n : ℕ} (p q : Fin (n + 1) → ℝ) (l l' : Layout) (h1 : l ≠ .row) (h2 : l' ≠ .row) : emdScoreNd (l.arr p) (l'.arr q) = .ok (emdScore p q) := by
  have key : ∀ (a b : Fin (n + 1) → ℝ) (f g : Fin (n + 1) → Fin 1 → ℝ), (∀ i j, f i j = a i) → (∀ i j, g i j = b i) → emd (flattenMat f) (flattenMat g) = emd a b := by
    intro a b f g hf hg
    have e1 : f = fun i _ => a i := by funext i j; exact hf i j
    have e2 : g = fun i _ => b i := by funext i j; exact hg i j
    subst e1 e2
    have := metric_cast (fun p q => Fl.fin (emd p q)) (Nat.mul_one (n + 1)) _ _ a b (flatten_col a) (flatten_col b)
    exact Fl.fin.inj this
  have m0 : ∀ (i : Fin (n + 1)) (j : Fin 1), rowMass (r := n + 1) (c := 1) 0 i j = massAt 0 i := by
    intro i j
    unfold rowMass massAt
    congr 1
    exact propext ⟨fun h => Fin.ext h, fun h => by rw [h]; rfl⟩
  have m1 : ∀ (i : Fin (n + 1)) (j : Fin 1), rowMass (r := n + 1) (c := 1) (n + 1 - 1) i j = massAt (Fin.last n) i := by
    intro i j
    unfold rowMass massAt
    congr 1
    exact propext ⟨fun h => Fin.ext h, fun h => by rw [h]; rfl⟩
  cases l <;> cases l' <;> first | exact absurd rfl h1 | exact absurd rfl h2 | skip
  all_goals
    simp only [emdScoreNd, Layout.arr, NdArr.col, checkPrevalencesNd, toColumns, dif_pos]
    simp only [Nat.add_eq_zero_iff, one_ne_zero, and_false, or_self, if_false, Except.map]
    rw [key p (massAt 0) _ _ (fun _ _ => rfl) m0, key p (massAt (Fin.last n)) _ _ (fun _ _ => rfl) m1, key p q _ (fun i _ => q (Fin.cast rfl i)) (fun _ _ => rfl) (fun _ _ => rfl)]
    rfl

/-- **C131** is false of `emd_score` with rows: the whole row is filled with ones, so that the score of the worst prediction is 2/3 instead of 0. -/
theorem C131_emd_score_row_refuted :
    emdScoreNd (Layout.flat.arr ![1/2, 1/2]) (Layout.flat.arr ![1, 0]) = .ok (Fl.fin 0) ∧ emdScoreNd (Layout.row.arr ![1/2, 1/2]) (Layout.row.arr ![1, 0]) = .ok (Fl.fin (2/3)) := by
  constructor
  · rw [C131_emd_score_partial _ _ _ _ (by decide) (by decide)]
    have e1 : emd ![(1:ℝ)/2, 1/2] (massAt 0) = 1/2 := by
      simp only [emd, cumsum, massAt, Fin.sum_univ_two]; norm_num
    have e2 : emd ![(1:ℝ)/2, 1/2] (massAt (Fin.last 1)) = 1/2 := by
      simp only [emd, cumsum, massAt, Fin.sum_univ_two]; norm_num [show (Fin.last 1) = 1 from rfl]
    have e3 : ∑ k, |cumsum (fun j => ![(1:ℝ)/2, 1/2] j - ![(1:ℝ), 0] j) k| = 1/2 := by
      simp only [cumsum, Fin.sum_univ_two]; norm_num
    simp only [emdScore]
    rw [e1, e2, e3, Fl.fin_div _ (by norm_num)]
    norm_num
  · have key : ∀ a b : Fin 2 → ℝ, emd (flattenMat (fun (_ : Fin 1) j => a j)) (flattenMat (fun (_ : Fin 1) j => b j)) = emd a b := by
      intro a b
      exact Fl.fin.inj (metric_cast (fun p q => Fl.fin (emd p q)) (Nat.one_mul 2) _ _ a b (flatten_row a) (flatten_row b))
    have m0 : rowMass (r := 1) (c := 2) 0 = fun _ j => ![(1:ℝ), 1] j := by
      funext i j
      fin_cases i; fin_cases j <;> simp [rowMass]
    have e1 : emd ![(1:ℝ)/2, 1/2] ![1, 1] = 3/2 := by
      simp only [emd, cumsum, Fin.sum_univ_two]; norm_num [abs_of_neg]
    have e3 : emd ![(1:ℝ)/2, 1/2] ![1, 0] = 1/2 := by
      simp only [emd, cumsum, Fin.sum_univ_two]; norm_num
    have e : emdScoreNd (Layout.row.arr ![1/2, 1/2]) (Layout.row.arr ![1, 0])
        = .ok (Fl.fin (max (emd (flattenMat (fun (_ : Fin 1) j => ![(1:ℝ)/2, 1/2] j)) (flattenMat (rowMass 0))) (emd (flattenMat (fun (_ : Fin 1) j => ![(1:ℝ)/2, 1/2] j)) (flattenMat (rowMass 0)))
          - emd (flattenMat (fun (_ : Fin 1) j => ![(1:ℝ)/2, 1/2] j)) (flattenMat (fun (_ : Fin 1) j => ![(1:ℝ), 0] j)))
          / Fl.fin (max (emd (flattenMat (fun (_ : Fin 1) j => ![(1:ℝ)/2, 1/2] j)) (flattenMat (rowMass 0))) (emd (flattenMat (fun (_ : Fin 1) j => ![(1:ℝ)/2, 1/2] j)) (flattenMat (rowMass 0))))) := rfl
    rw [e, m0, key, key, e1, e3, max_self, Fl.fin_div _ (by norm_num)]
    norm_num

/-- The hypotheses of C131 are met by the metrics of the library, and the values are not trivial. -/
example : metricNd l1 (Layout.column.arr ![1/2, 1/2]) (Layout.flat.arr ![1, 0]) = .ok (Fl.fin 1) := by
  rw [C131_metric_layout l1 (by norm_num) _ _ _ _ (Or.inr ⟨by decide, by decide⟩)]
  simp only [l1, Fin.sum_univ_two]
  norm_num

/-! ## C132: the distance given to a search -/

private theorem scan_congr (l l' : ℕ → Fl) (search : ℝ → ℝ → Except Err (Fl × ℝ)) (h : ∀ i, i ≤ 100 → l i = l' i) (is : List ℕ) (his : ∀ i ∈ is, i ≤ 99) (st : ℕ × Fl × Option ℝ) :
    globalScan l search is st = globalScan l' search is st := by
  induction is generalizing st with
  | nil => rfl
  | cons i is ih =>
    obtain ⟨nMins, best, p⟩ := st
    have h0 := his i (by simp)
    have ih' := ih fun j hj => his j (by simp [hj])
    unfold globalScan
    rw [h (i - 1) (by omega), h i (by omega), h (i + 1) (by omega)]
    simp only [ih']

private theorem core_congr (l l' : ℕ → Fl) (search : ℝ → ℝ → Except Err (Fl × ℝ)) (h : ∀ i, i ≤ 100 → l i = l' i) : globalCore l search = globalCore l' search := by
  unfold globalCore
  rw [scan_congr l l' search h _ (by simp only [List.mem_map, List.mem_range]; rintro i ⟨j, hj, rfl⟩; omega), h 0 (by omega), h 100 (by omega)]

private theorem goldenX_total (g : ℝ → Fl) (tol : ℝ) : goldenSectionSearchX (fun p => .ok (g p)) tol = goldenSectionSearch g tol := rfl

/-- **C132**: with a distance that gives a flat mixture and a column the same value, the search is the search for that distance between vectors. -/
theorem C132_distance_between_vectors_partial {m : ℕ} (dist : NdArr ℝ → NdArr ℝ → Except Err Fl) (d : (Fin m → ℝ) → (Fin m → ℝ) → Fl)
    (hflat : ∀ v w, dist (.vec m v) (.col w) = .ok (d v w)) (hcol : ∀ v w : Fin m → ℝ, dist (.col v) (.col w) = .ok (d v w)) (mix : ℝ → Fin m → ℝ) (test : Fin m → ℝ) (tol : ℝ) :
    globalSearchNd dist mix test tol = (globalSearch d mix test tol none true).map fun r => r.2 := by
  have hl : (List.range 101).mapM (fun i : ℕ => dist (.vec m (mix ((i : ℝ) / 100))) (.col test)) = .ok ((List.range 101).map fun i : ℕ => d (mix ((i : ℝ) / 100)) test) :=
    mapM_ok _ _ _ fun i _ => hflat _ _
  have hg : ∀ i : ℕ, i ≤ 100 → ((List.range 101).map fun i : ℕ => d (mix ((i : ℝ) / 100)) test).getD i 0 = d (mix ((i : ℝ) / 100)) test := by
    intro i hi
    have h : i < ((List.range 101).map fun i : ℕ => d (mix ((i : ℝ) / 100)) test).length := by simpa using by omega
    rw [List.getD_eq_getElem?_getD, List.getElem?_eq_getElem h]
    simp
  unfold globalSearchNd
  rw [hl]
  simp only [hcol, bind, Except.bind, goldenX_total]
  rw [core_congr _ _ _ hg]
  unfold globalSearch
  simp only
  cases globalCore (fun i => d (mix ((i : ℝ) / 100)) test) (goldenSectionSearch (fun p => d (mix p) test) tol) <;> rfl

/-- **C132**: the metrics of the library are such distances, so `DFy`, `DFX` and `FriedmanME` compare the distributions themselves. -/
theorem C132_library_metrics_partial (μ : {n : ℕ} → (Fin n → ℝ) → (Fin n → ℝ) → Fl) {m : ℕ} (hm : 0 < m) (mix : ℝ → Fin m → ℝ) (test : Fin m → ℝ) (tol : ℝ) :
    globalSearchNd (metricNd μ) mix test tol = (globalSearch (fun v w : Fin m → ℝ => μ v w) mix test tol none true).map fun r => r.2 :=
  C132_distance_between_vectors_partial _ _ (fun v w => C131_metric_layout μ hm v w .flat .column (Or.inr ⟨by decide, by decide⟩)) (fun v w => C131_metric_layout μ hm v w .column .column (Or.inl rfl)) _ _ _

/-- A distance written with NumPy: on two columns it is the sum over the bins... -/
theorem C132_columns {m : ℕ} (f : ℝ → ℝ → ℝ) (v w : Fin m → ℝ) : npSumOf f (.col v) (.col w) = .ok (Fl.fin (∑ k, f (v k) (w k))) := by
  simp only [npSumOf, NdArr.col, NdArr.dims, bcastDim, if_true, bind, Except.bind, pure, Except.pure]
  congr 2
  rw [Finset.sum_range]
  refine Finset.sum_congr rfl fun i _ => ?_
  by_cases h1 : m = 1
  · subst h1
    have : i = 0 := Subsingleton.elim _ _
    subst this
    simp [bcastIdx, NdArr.elem]
  · simp [bcastIdx, NdArr.elem, h1]

/-- **C132** is false of distances written with NumPy: between the mixtures of the grid, which are flat, and the column of the test distribution, the sum is over all the *pairs* of bins. -/
theorem C132_grid_refuted {m : ℕ} (hm : m ≠ 1) (f : ℝ → ℝ → ℝ) (v w : Fin m → ℝ) : npSumOf f (.vec m v) (.col w) = .ok (Fl.fin (∑ i, ∑ j, f (v j) (w i))) := by
  have h2 : bcastDim 1 m = .ok m := by
    unfold bcastDim
    rw [if_neg (fun h => hm h.symm), if_pos rfl]
  have h3 : bcastDim m 1 = .ok m := by
    simp [bcastDim, hm]
  simp only [npSumOf, NdArr.col, NdArr.dims, h2, h3, bind, Except.bind, pure, Except.pure]
  congr 2
  rw [Finset.sum_range]
  refine Finset.sum_congr rfl fun i _ => ?_
  rw [Finset.sum_range]
  refine Finset.sum_congr rfl fun j _ => ?_
  simp [bcastIdx, NdArr.elem, hm]

/-- The L1 distance as a user would write it: `lambda p, q: np.sum(np.abs(p - q))`. -/
noncomputable def userL1 : NdArr ℝ → NdArr ℝ → Except Err Fl := npSumOf fun a b => |a - b|

/-- **C132** is false of distances written with NumPy: a perfect classifier, two bins, all the negatives in the first one and all the positives in the second one, and a bag of positives. With the L1 distance of the
library the answer is a prevalence of at least 0.98; with the same distance written with NumPy the losses of the grid are all equal and the search raises ValueError ("there are infinite minima"). -/
theorem C132_user_distance_refuted (tol : ℝ) (htol : 0 < tol) :
    (∃ p, globalSearchNd (metricNd l1) (fun p => mixtureOfPdfs p ![0, 1] ![1, 0]) ![0, 1] tol = .ok (some p) ∧ 98/100 ≤ p ∧ p ≤ 1)
    ∧ globalSearchNd userL1 (fun p => mixtureOfPdfs p ![0, 1] ![1, 0]) ![0, 1] tol = .error .valueError := by
  constructor
  · rw [C132_library_metrics_partial l1 (by norm_num)]
    have hloss : ∀ p : ℝ, p ≤ 1 → l1 (mixtureOfPdfs p ![0, 1] ![1, 0]) ![0, 1] = Fl.fin (2 * (1 - p)) := by
      intro p hp
      simp only [l1, mixtureOfPdfs, Fin.sum_univ_two, Fl.fin_sub, Fl.abs_fin, Fl.fin_add]
      simp
      rw [abs_of_nonneg (by linarith), abs_of_nonpos (by linarith)]
      ring
    obtain ⟨loss, u, v, x, e1, e2, e3, e4, e5, e6, e7⟩ := golden_result (fun p => l1 (mixtureOfPdfs p ![0, 1] ![1, 0]) ![0, 1]) tol (98/100) 1 (by norm_num) htol
    refine ⟨(u + v) / 2, ?_, by linarith, by linarith⟩
    unfold globalSearch globalCore
    simp only
    rw [scan_none]
    · simp only
      rw [if_pos trivial, if_neg, if_neg, e1]
      · rfl
      · rw [hloss _ (by norm_num), hloss _ (by norm_num), Fl.fin_lt_fin]; norm_num
      · rw [hloss _ (by norm_num), hloss _ (by norm_num)]; norm_num [Fl.eq]
    · intro i hi
      simp only [List.mem_map, List.mem_range] at hi
      obtain ⟨j, hj, rfl⟩ := hi
      intro hcon
      have h1 := hcon.1
      have hj' : (j : ℝ) ≤ 98 := by exact_mod_cast (by omega : j ≤ 98)
      rw [hloss _ (by push_cast; linarith), hloss _ (by push_cast; linarith), Fl.fin_lt_fin] at h1
      simp only [Nat.add_sub_cancel] at h1
      push_cast at h1
      linarith
  · have hloss : ∀ i : ℕ, i ∈ List.range 101 → userL1 (.vec 2 (mixtureOfPdfs ((i : ℝ) / 100) ![0, 1] ![1, 0])) (.col ![0, 1]) = .ok (Fl.fin 2) := by
      intro i hi
      have hi' : (i : ℝ) ≤ 100 := by exact_mod_cast (by have := List.mem_range.1 hi; omega : i ≤ 100)
      have h0 : (0 : ℝ) ≤ i := Nat.cast_nonneg i
      unfold userL1
      rw [C132_grid_refuted (by norm_num)]
      congr 2
      simp only [mixtureOfPdfs, Fin.sum_univ_two]
      simp
      rw [abs_of_nonneg (by linarith), abs_of_nonneg (by positivity), abs_of_nonpos (by linarith)]
      ring
    unfold globalSearchNd
    rw [mapM_ok _ _ (fun _ => Fl.fin 2) hloss]
    simp only [bind, Except.bind]
    have hc : ∀ i : ℕ, i ≤ 100 → ((List.range 101).map fun _ => Fl.fin 2).getD i 0 = Fl.fin 2 := by
      intro i hi
      have h : i < ((List.range 101).map fun _ => Fl.fin 2).length := by rw [List.length_map, List.length_range]; omega
      rw [List.getD_eq_getElem?_getD, List.getElem?_eq_getElem h, List.getElem_map, Option.getD_some]
    rw [core_congr _ (fun _ => Fl.fin 2) _ hc]
    unfold globalCore
    rw [scan_none]
    · simp [Fl.eq]
    · intro i _ hcon
      have h1 := hcon.1
      rw [Fl.fin_lt_fin] at h1
      exact lt_irrefl _ h1

/-! ## C133: predictions in a column -/

/-- **C133**, what holds: a column of predictions, labels or probabilities, means the same as the flat array, if it does not have exactly one example. -/
theorem C133_column_partial {α : Type} [DecidableEq α] {k : ℕ} (enc : Bool → α) (classes : List α) :
    (∀ l : List α, l.length ≠ 1 → ccPredictRaw (k := k) enc classes (.labelsCol l) = ccPredictRaw (k := k) enc classes (.labels l))
    ∧ ∀ l : List ℝ, l.length ≠ 1 → ccPredictRaw (k := k) enc classes (.floatsCol l) = ccPredictRaw (k := k) enc classes (.floats l) := by
  constructor
  · intro l hl
    have h1 : ¬ (some l.length = some 1) := fun h => hl (Option.some.inj h)
    simp only [ccPredictRaw, rawProbs2crisps, RawPreds.columnLen, h1, if_false, RawPreds.toPreds, reduceCtorEq]
  · intro l hl
    have h1 : ¬ (some l.length = some 1) := fun h => hl (Option.some.inj h)
    simp only [ccPredictRaw, rawProbs2crisps, RawPreds.columnLen, h1, if_false, RawPreds.toPreds, reduceCtorEq]

/-- **C133** is false of bags with one example: its prediction in a column raises IndexError, whatever it is; in a flat array it is counted. -/
theorem C133_one_example_refuted {α : Type} [DecidableEq α] {k : ℕ} (enc : Bool → α) (a b : α) (hab : a ≠ b) :
    (∀ (classes : List α) (c : α), ccPredictRaw (k := k) enc classes (.labelsCol [c]) = .error .indexError)
    ∧ (∀ (classes : List α) (v : ℝ), ccPredictRaw (k := k) enc classes (.floatsCol [v]) = .error .indexError)
    ∧ ccPredictRaw (k := k) enc [a, b] (.labels [a]) = .ok (.vec 2 ![Fl.fin 1, Fl.fin 0]) := by
  refine ⟨fun _ _ => rfl, fun _ _ => rfl, ?_⟩
  have e : ccPredictRaw (k := k) enc [a, b] (.labels [a]) = .ok (.vec 2 fun i => classFreqs [a, b] [a] i) := rfl
  rw [e]
  congr 2
  funext i
  fin_cases i
  · simp only [classFreqs]
    simp [Fl.fin_div (1:ℝ) one_ne_zero]
  · simp only [classFreqs]
    simp [hab, Fl.fin_div (0:ℝ) one_ne_zero]

/-! ## C134: the shape of the answer -/

/-- A flat array with one entry per class. -/
def FlatAnswer (n : ℕ) (a : NdArr Fl) : Prop := ∃ v : Fin n → Fl, a = .vec n v

private theorem squeeze_col {n : ℕ} (hn : n ≠ 1) (v : Fin n → Fl) : npSqueeze (.col v) = .vec n v := by
  match n, hn, v with
  | 0, _, _ => rfl
  | n + 2, _, _ => rfl

private theorem squeeze_col_one {n : ℕ} (hn : n = 1) (v : Fin n → Fl) : npSqueeze (.col v) = .scalar (v ⟨0, by omega⟩) := by
  subst hn
  rfl

section
variable {σ D α : Type} {k : ℕ}

/-- **C134**, what holds: with two or more classes CC and AC return a flat array with one entry per class. -/
theorem C134_crisp_partial [DecidableEq α] (ops : EstOps σ D α k) (enc : Bool → α) (w : World σ D α) (etrain etest : Option ℕ) (sol : Solvers) (dist : Dist) (f : ACFit α) (X : List D) (pt : Option (Preds α k))
    (hc : 2 ≤ f.classes.length) (a : NdArr Fl) :
    (ccAnswer ops enc w etest f.classes X pt = .ok a → FlatAnswer f.classes.length a) ∧ (acAnswer ops enc w etrain etest sol dist f X pt = .ok a → FlatAnswer f.classes.length a) := by
  constructor
  · unfold ccAnswer
    cases ccPredict ops enc w etest f.classes X pt with
    | error e => intro h; exact absurd h (by simp [Except.map])
    | ok v =>
      intro h
      refine ⟨v, ?_⟩
      rw [← squeeze_col (by omega)]
      exact (Except.ok.inj h).symm
  · unfold acAnswer
    cases acPredict ops enc w etrain etest sol dist f X pt with
    | error e => intro h; exact absurd h (by simp [Except.map])
    | ok v =>
      intro h
      refine ⟨v, ?_⟩
      rw [← squeeze_col (by omega)]
      exact (Except.ok.inj h).symm

/-- **C134**, what holds: also for predictions in any layout (flat, a column, a matrix) CC returns a flat array when there are two or more classes. -/
theorem C134_any_layout_partial [DecidableEq α] (enc : Bool → α) (classes : List α) (p : RawPreds α k) (hc : 2 ≤ classes.length) (a : NdArr Fl) (h : ccPredictRaw enc classes p = .ok a) : FlatAnswer classes.length a := by
  unfold ccPredictRaw at h
  cases hr : rawProbs2crisps enc classes p with
  | error e => rw [hr] at h; exact absurd h (by simp [Except.map])
  | ok l =>
    rw [hr] at h
    refine ⟨classFreqs classes l, ?_⟩
    rw [← squeeze_col (by omega)]
    exact (Except.ok.inj h).symm

/-- **C134**: PAC returns a flat array with one entry per class, also with a single class, and PCC one entry per column of the predictions. -/
theorem C134_probabilistic (ops : EstOps σ D α k) (enc : Bool → α) (w : World σ D α) (etrain etest : Option ℕ) (sol : Solvers) (dist : Dist) (f : ACFit α) (X : List D) (pt : Option (Preds α k)) (a : NdArr Fl) :
    (pccAnswer ops enc w etest f.classes X pt = .ok a → FlatAnswer k a) ∧ (pacAnswer ops enc w etrain etest sol dist f X pt = .ok a → FlatAnswer f.classes.length a) := by
  constructor
  · unfold pccAnswer
    cases pccPredict ops enc w etest f.classes X pt with
    | error e => intro h; exact absurd h (by simp [Except.map])
    | ok v => intro h; exact ⟨v, (Except.ok.inj h).symm⟩
  · unfold pacAnswer
    cases pacPredict ops enc w etrain etest sol dist f X pt with
    | error e => intro h; exact absurd h (by simp [Except.map])
    | ok v => intro h; exact ⟨v, (Except.ok.inj h).symm⟩

/-- **C134** is false of CC and AC trained with a single class: the answer has no dimensions, so that it cannot be indexed by class. -/
theorem C134_one_class_refuted [DecidableEq α] (ops : EstOps σ D α k) (enc : Bool → α) (w : World σ D α) (etrain etest : Option ℕ) (sol : Solvers) (dist : Dist) (f : ACFit α) (X : List D) (pt : Option (Preds α k))
    (hc : f.classes.length = 1) (a : NdArr Fl) :
    (ccAnswer ops enc w etest f.classes X pt = .ok a → ¬ FlatAnswer 1 a ∧ ∃ x, a = .scalar x) ∧ (acAnswer ops enc w etrain etest sol dist f X pt = .ok a → ¬ FlatAnswer 1 a ∧ ∃ x, a = .scalar x) := by
  constructor
  · unfold ccAnswer
    cases ccPredict ops enc w etest f.classes X pt with
    | error e => intro h; exact absurd h (by simp [Except.map])
    | ok v =>
      intro h
      have h' : a = npSqueeze (.col v) := (Except.ok.inj h).symm
      rw [squeeze_col_one hc] at h'
      subst h'
      exact ⟨fun ⟨_, h⟩ => by simp at h, _, rfl⟩
  · unfold acAnswer
    cases acPredict ops enc w etrain etest sol dist f X pt with
    | error e => intro h; exact absurd h (by simp [Except.map])
    | ok v =>
      intro h
      have h' : a = npSqueeze (.col v) := (Except.ok.inj h).symm
      rw [squeeze_col_one hc] at h'
      subst h'
      exact ⟨fun ⟨_, h⟩ => by simp at h, _, rfl⟩

/-- One class: there are such answers, and the number in them is right (1 for a bag of that class). -/
theorem C134_one_class_value_refuted [DecidableEq α] (ops : EstOps σ D α k) (enc : Bool → α) (w : World σ D α) (c : α) (n : ℕ) :
    ccAnswer ops enc w none [c] [] (some (.crisp (List.replicate (n + 1) c))) = .ok (.scalar (Fl.fin 1)) := by
  have e : ccAnswer ops enc w none [c] [] (some (.crisp (List.replicate (n + 1) c))) = .ok (.scalar (classFreqs [c] (List.replicate (n + 1) c) 0)) := rfl
  rw [e]
  congr 2
  simp only [classFreqs]
  have h0 : ((n : ℝ) + 1) ≠ 0 := by positivity
  simp [Fl.fin_div _ h0, div_self h0]

/-- C134: two classes, three examples. -/
example (ops : EstOps σ D Bool k) (enc : Bool → Bool) (w : World σ D Bool) (sol : Solvers) (dist : Dist) (a : NdArr Fl) (h : ccAnswer ops enc w none [false, true] [] (some (.crisp [true, false, true])) = .ok a) : FlatAnswer 2 a :=
  (C134_crisp_partial ops enc w none none sol dist ⟨[false, true], fun _ _ => 0⟩ [] _ (le_refl 2) a).1 h

end

end Verif.Props
