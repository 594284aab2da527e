import Verif.Model.NanQuanty
import Verif.Proof.NanPreds
import Verif.Props.DecompLife

/-!
# QUANTy on predictions that are not numbers (C148)
-/

namespace Verif.Props

open Verif.Model Verif.Spec Verif.Proof

variable {L : Type*}

theorem spillF_nan (cut : ℕ → ℝ) (n : ℕ) (x : Fl) (j : ℕ) (rest : ℝ) (q : ℕ → Fl) (hj : j < n) :
    (spillF cut n x j rest q).1 < n ∧ ∀ k, q k = Fl.nan → (spillF cut n x j rest q).2 k = Fl.nan := by
  induction hm : n - 1 - j generalizing j rest q with
  | zero =>
    rw [spillF, if_neg (by omega)]
    exact ⟨hj, fun k h => h⟩
  | succ m ih =>
    by_cases hc : rest > 1 / 10000 ∧ j < n - 1
    · rw [spillF, if_pos hc]
      obtain ⟨h1, h2⟩ := ih (j + 1) (rest - min rest (cut (j + 1) - cut j)) (Function.update q (j + 1) (q (j + 1) + x * Fl.fin (min rest (cut (j + 1) - cut j)))) (by omega) (by omega)
      refine ⟨h1, fun k hk => h2 k ?_⟩
      by_cases hkj : k = j + 1
      · subst hkj
        rw [Function.update_self, hk, Fl.nan_add]
      · rw [Function.update_of_ne hkj, hk]
    · rw [spillF, if_neg hc]
      exact ⟨hj, fun k h => h⟩

/-- A score that is NaN leaves a quantile that is NaN. -/
theorem quantLoopF_nan (cut : ℕ → ℝ) (n : ℕ) (hn : 0 < n) (x : ℕ → Fl) (w : ℕ → ℝ) (M : ℕ) :
    (quantLoopF cut n x w M).j < n ∧ ((∃ i < M, x i = Fl.nan) → ∃ k < n, (quantLoopF cut n x w M).q k = Fl.nan) := by
  induction M with
  | zero => exact ⟨hn, fun ⟨i, hi, _⟩ => absurd hi (Nat.not_lt_zero i)⟩
  | succ M ih =>
    obtain ⟨h1, h2⟩ := ih
    have hloop : quantLoopF cut n x w (M + 1) = quantStepF cut n (quantLoopF cut n x w M) (x M) (w M) := rfl
    rw [hloop]
    generalize quantLoopF cut n x w M = s at h1 h2 ⊢
    have hq : ∀ v : ℝ, (∃ i < M + 1, x i = Fl.nan) → ∃ k < n, Function.update s.q s.j (s.q s.j + x M * Fl.fin v) k = Fl.nan := by
      rintro v ⟨i, hi, hx⟩
      rcases Nat.lt_succ_iff_lt_or_eq.1 hi with h | rfl
      · obtain ⟨k, hk, hkn⟩ := h2 ⟨i, h, hx⟩
        refine ⟨k, hk, ?_⟩
        by_cases hkj : k = s.j
        · subst hkj
          rw [Function.update_self, hkn, Fl.nan_add]
        · rw [Function.update_of_ne hkj, hkn]
      · exact ⟨s.j, h1, by rw [Function.update_self, hx, Fl.nan_mul, Fl.add_nan]⟩
    unfold quantStepF
    dsimp only
    split
    · exact ⟨h1, hq _⟩
    · obtain ⟨g1, g2⟩ := spillF_nan cut n (x M) s.j (s.cum + w M - cut s.j) (Function.update s.q s.j (s.q s.j + x M * Fl.fin (w M - (s.cum + w M - cut s.j)))) h1
      refine ⟨g1, fun h => ?_⟩
      obtain ⟨k, hk, hkn⟩ := hq _ h
      exact ⟨k, hk, g2 k hkn⟩

theorem computeQuantilesF_nan [DecidableEq L] (prevalence : Option ℝ) (xs : List Fl) (hx : Fl.nan ∈ xs) (n : ℕ) (hn : 0 < n) (y : ℕ → L) (c0 c1 : L) :
    ∃ q : Fin n → Fl, computeQuantilesF prevalence xs.length (fun i => xs.getD i 0) n y c0 c1 = .ok q ∧ ∃ j, q j = Fl.nan := by
  unfold computeQuantilesF
  rw [if_neg hn.ne']
  obtain ⟨i, hi, hxi⟩ := List.getElem_of_mem hx
  obtain ⟨k, hk, hkn⟩ := (quantLoopF_nan (cutpoint n xs.length) n hn (fun i => xs.getD i 0) (quantileWeight prevalence xs.length y c0 c1) xs.length).2 ⟨i, hi, by simp [List.getD_eq_getElem?_getD, hi, hxi]⟩
  exact ⟨_, rfl, ⟨k, hk⟩, by rw [hkn, Fl.nan_div]⟩

/-- The quantiles of numbers are those of `Verif.Model.Search`. -/
theorem spillF_fin (cut : ℕ → ℝ) (n : ℕ) (x : ℝ) (j : ℕ) (rest : ℝ) (q : ℕ → ℝ) :
    spillF cut n (Fl.fin x) j rest (fun k => Fl.fin (q k)) = ((spill cut n x j rest q).1, fun k => Fl.fin ((spill cut n x j rest q).2 k)) := by
  induction hm : n - 1 - j generalizing j rest q with
  | zero =>
    rw [spillF, if_neg (by omega), spill, if_neg (by omega)]
  | succ m ih =>
    by_cases hc : rest > 1 / 10000 ∧ j < n - 1
    · rw [spillF, if_pos hc, spill, if_pos hc]
      have := ih (j + 1) (rest - min rest (cut (j + 1) - cut j)) (Function.update q (j + 1) (q (j + 1) + x * min rest (cut (j + 1) - cut j))) (by omega)
      dsimp only
      rw [← this]
      congr 1
      funext k
      by_cases hk : k = j + 1
      · subst hk
        rw [Function.update_self, Function.update_self]
        rfl
      · rw [Function.update_of_ne hk, Function.update_of_ne hk]
    · rw [spillF, if_neg hc, spill, if_neg hc]

theorem quantLoopF_fin (cut : ℕ → ℝ) (n : ℕ) (x w : ℕ → ℝ) (M : ℕ) :
    quantLoopF cut n (fun i => Fl.fin (x i)) w M = ⟨fun k => Fl.fin ((quantLoop cut n x w M).q k), (quantLoop cut n x w M).cum, (quantLoop cut n x w M).j⟩ := by
  induction M with
  | zero => rfl
  | succ M ih =>
    show quantStepF cut n (quantLoopF cut n _ w M) (Fl.fin (x M)) (w M) = _
    rw [ih]
    have hloop : quantLoop cut n x w (M + 1) = quantStep cut n (quantLoop cut n x w M) (x M) (w M) := rfl
    rw [hloop]
    generalize quantLoop cut n x w M = s
    have hu : ∀ v : ℝ, Function.update (fun k => Fl.fin (s.q k)) s.j (Fl.fin (s.q s.j) + Fl.fin (x M) * Fl.fin v) = fun k => Fl.fin (Function.update s.q s.j (s.q s.j + x M * v) k) := by
      intro v
      funext k
      by_cases hk : k = s.j
      · subst hk
        rw [Function.update_self, Function.update_self]
        rfl
      · rw [Function.update_of_ne hk, Function.update_of_ne hk]
    unfold quantStepF quantStep
    dsimp only
    split
    · rw [hu]
    · rw [hu, spillF_fin]

theorem computeQuantilesF_fin [DecidableEq L] (prevalence : Option ℝ) (N : ℕ) (x : ℕ → ℝ) (n : ℕ) (y : ℕ → L) (c0 c1 : L) :
    computeQuantilesF prevalence N (fun i => Fl.fin (x i)) n y c0 c1 = computeQuantiles prevalence N x n y c0 c1 := by
  unfold computeQuantilesF computeQuantiles
  rw [quantLoopF_fin]

private theorem getD_fin (l : List ℝ) : (fun i => (l.map Fl.fin).getD i 0) = fun i => Fl.fin (l.getD i 0) := by
  funext i
  simp only [List.getD_eq_getElem?_getD, List.getElem?_map]
  cases l[i]? <;> rfl

private theorem scan_congr' (l l' : ℕ → Fl) (search : ℝ → ℝ → Except Err (Fl × ℝ)) (h : ∀ i, i ≤ 100 → l i = l' i) (is : List ℕ) (his : ∀ i ∈ is, 1 ≤ i ∧ i ≤ 99) (st : ℕ × Fl × Option ℝ) :
    globalScan l search is st = globalScan l' search is st := by
  induction is generalizing st with
  | nil => rfl
  | cons i is ih =>
    obtain ⟨a, b, c⟩ := st
    have h0 := his i (by simp)
    have ih' := ih fun j hj => his j (by simp [hj])
    unfold globalScan
    rw [h (i - 1) (by omega), h i (by omega), h (i + 1) (by omega)]
    simp only [ih']

private theorem core_congr' (l l' : ℕ → Fl) (search : ℝ → ℝ → Except Err (Fl × ℝ)) (h : ∀ i, i ≤ 100 → l i = l' i) : globalCore l search = globalCore l' search := by
  unfold globalCore
  rw [scan_congr' l l' search h _ (by simp only [List.mem_map, List.mem_range]; rintro i ⟨j, hj, rfl⟩; omega), h 0 (by omega), h 100 (by omega)]

private theorem getD_grid (f : ℕ → Fl) (i : ℕ) (hi : i ≤ 100) : ((List.range 101).map f).getD i 0 = f i := by
  have h : i < ((List.range 101).map f).length := by simpa using by omega
  rw [List.getD_eq_getElem?_getD, List.getElem?_eq_getElem h]
  simp

private theorem mapM_all_ok {β γ : Type} (f : β → Except Err γ) (g : β → γ) (l : List β) (h : ∀ b ∈ l, f b = .ok (g b)) : l.mapM f = .ok (l.map g) := by
  induction l with
  | nil => rfl
  | cons a l ih =>
    rw [List.mapM_cons, h a (by simp), ih fun b hb => h b (by simp [hb])]
    rfl

theorem globalSearchE_total (g : ℝ → Fl) (tol : ℝ) : globalSearchE (fun p => .ok (g p)) tol = globalCore (fun i => g ((i : ℝ) / 100)) (goldenSectionSearch g tol) := by
  unfold globalSearchE
  rw [mapM_all_ok (fun i : ℕ => Except.ok (g ((i : ℝ) / 100))) (fun i : ℕ => g ((i : ℝ) / 100)) _ fun _ _ => rfl]
  have hx : goldenSectionSearchX (fun p => .ok (g p)) tol = goldenSectionSearch g tol := rfl
  simp only [bind, Except.bind, hx]
  exact core_congr' _ _ _ fun i hi => getD_grid _ i hi

theorem globalSearchE_raises (loss : ℝ → Except Err Fl) (tol : ℝ) (h : ∃ e, loss (((0 : ℕ) : ℝ) / 100) = .error e) : ∃ e, globalSearchE loss tol = .error e := by
  obtain ⟨e, he⟩ := mapM_raises (fun i : ℕ => loss ((i : ℝ) / 100)) (List.range 101) 0 (by simp) h
  refine ⟨e, ?_⟩
  unfold globalSearchE
  rw [he]
  rfl

/-- **C148**: on predictions that are numbers, this is the QUANTy of the other properties. -/
theorem C148_numbers_quanty [DecidableEq L] (n : ℕ) (dist : (Fin n → Fl) → (Fin n → Fl) → Fl) (tol : ℝ) (d : L) (sort : List Fl → List Fl)
    (hs : ∀ l : List ℝ, sort (l.map Fl.fin) = (l.mergeSort fun a b => decide (a ≤ b)).map Fl.fin) (f : QuantyFit L) (bag : List ℝ) (hb : bag ≠ []) :
    quantyPredictF n (fun a b => .ok (dist a b)) tol d sort f.classes (f.train.map fun t => (Fl.fin t.1, t.2)) (bag.map Fl.fin) = (quantyPredict n dist tol d ⟨f, none⟩ bag).2 := by
  have e1 : (f.train.map fun t : ℝ × L => (Fl.fin t.1, t.2)).map Prod.fst = (f.train.map Prod.fst).map Fl.fin := by simp [Function.comp_def]
  have e2 : (f.train.map fun t : ℝ × L => (Fl.fin t.1, t.2)).map Prod.snd = f.train.map Prod.snd := by simp [Function.comp_def]
  unfold quantyPredictF quantyPredict mixPredict quantyQ
  simp only [hs, e1, e2, getD_fin, computeQuantilesF_fin, List.length_map, List.length_mergeSort]
  by_cases hn : n = 0
  · simp [computeQuantiles, hn, bind, Except.bind, Except.map]
  by_cases hc : f.classes.length < 2
  · simp [computeQuantiles, hn, hc, bind, Except.bind, Except.map]
  have hmix : ∀ p, computeQuantiles (some p) f.train.length (fun i => (f.train.map Prod.fst).getD i 0) n (fun i => (f.train.map Prod.snd).getD i (f.classes.getD 0 d)) (f.classes.getD 0 d) (f.classes.getD 1 d)
      = .ok (quantyMixture n (f.classes.getD 0 d) (f.classes.getD 1 d) f.train p) := by
    intro p
    unfold quantyMixture
    simp [computeQuantiles, hn]
  simp only [hmix]
  obtain ⟨t, ht⟩ : ∃ t, computeQuantiles none bag.length (fun i => (bag.mergeSort fun a b => decide (a ≤ b)).getD i 0) n (fun _ => d) d d = .ok t := by simp [computeQuantiles, hn]
  rw [ht]
  simp only [if_neg hc, if_neg hb, bind, Except.bind]
  rw [globalSearchE_total]
  unfold globalSearch
  simp only
  cases globalCore (fun i => dist (quantyMixture n (f.classes.getD 0 d) (f.classes.getD 1 d) f.train ((i : ℝ) / 100)) t) (goldenSectionSearch (fun p => dist (quantyMixture n (f.classes.getD 0 d) (f.classes.getD 1 d) f.train p) t) tol) <;> rfl

/-- With a NaN in the bag or in the training set, the quantiles of the bag or those of the mixture have a NaN. -/
theorem quanty_nan [DecidableEq L] (n : ℕ) (hn : 0 < n) (d : L) (sort : List Fl → List Fl) (hs : ∀ l, (sort l).Perm l) (classes : List L) (train : List (Fl × L)) (bag : List Fl) (h : Fl.nan ∈ bag ∨ Fl.nan ∈ train.map Prod.fst) :
    ∃ t, computeQuantilesF none (sort bag).length (fun i => (sort bag).getD i 0) n (fun _ => d) d d = .ok t ∧ ∀ p, ∃ m,
      computeQuantilesF (some p) train.length (fun i => (train.map Prod.fst).getD i 0) n (fun i => (train.map Prod.snd).getD i (classes.getD 0 d)) (classes.getD 0 d) (classes.getD 1 d) = .ok m ∧ ∃ j, m j = Fl.nan ∨ t j = Fl.nan := by
  obtain ⟨t, ht⟩ : ∃ t, computeQuantilesF none (sort bag).length (fun i => (sort bag).getD i 0) n (fun _ => d) d d = .ok t := by simp [computeQuantilesF, hn.ne']
  refine ⟨t, ht, fun p => ?_⟩
  obtain ⟨m, hm⟩ : ∃ m, computeQuantilesF (some p) train.length (fun i => (train.map Prod.fst).getD i 0) n (fun i => (train.map Prod.snd).getD i (classes.getD 0 d)) (classes.getD 0 d) (classes.getD 1 d) = .ok m := by
    simp [computeQuantilesF, hn.ne']
  refine ⟨m, hm, ?_⟩
  rcases h with h | h
  · obtain ⟨q, hq, j, hj⟩ := computeQuantilesF_nan none (sort bag) ((hs bag).mem_iff.2 h) n hn (fun _ => d) d d
    rw [ht] at hq
    cases hq
    exact ⟨j, Or.inr hj⟩
  · obtain ⟨q, hq, j, hj⟩ := computeQuantilesF_nan (some p) (train.map Prod.fst) h n hn (fun i => (train.map Prod.snd).getD i (classes.getD 0 d)) (classes.getD 0 d) (classes.getD 1 d)
    rw [List.length_map, hm] at hq
    cases hq
    exact ⟨j, Or.inl hj⟩

/-- **C148** for QUANTy: with a distance that rejects vectors with NaN, as the metrics of the library do, `predict` raises an exception as soon as a prediction, of the bag or of the training set, is NaN. -/
theorem C148_quanty_partial [DecidableEq L] (n : ℕ) (hn : 0 < n) (dist : (Fin n → Fl) → (Fin n → Fl) → Except Err Fl) (hd : ∀ a b, (∃ j, a j = Fl.nan ∨ b j = Fl.nan) → ∃ e, dist a b = .error e) (tol : ℝ) (d : L) (sort : List Fl → List Fl)
    (hs : ∀ l, (sort l).Perm l) (classes : List L) (train : List (Fl × L)) (bag : List Fl) (h : Fl.nan ∈ bag ∨ Fl.nan ∈ train.map Prod.fst) : ∃ e, quantyPredictF n dist tol d sort classes train bag = .error e := by
  obtain ⟨t, ht, hmix⟩ := quanty_nan n hn d sort hs classes train bag h
  obtain ⟨m, hm, hnan⟩ := hmix (((0 : ℕ) : ℝ) / 100)
  obtain ⟨e, he⟩ := hd m t hnan
  unfold quantyPredictF
  rw [ht]
  simp only [bind, Except.bind]
  split
  · exact ⟨_, rfl⟩
  obtain ⟨e', he'⟩ := globalSearchE_raises (fun p => computeQuantilesF (some p) train.length (fun i => (train.map Prod.fst).getD i 0) n (fun i => (train.map Prod.snd).getD i (classes.getD 0 d)) (classes.getD 0 d) (classes.getD 1 d) >>= fun v => dist v t)
    tol ⟨e, by rw [hm]; exact he⟩
  simp only [bind, Except.bind] at he'
  exact ⟨e', by rw [he']⟩

/-- The metric `l2`, the default distance, is such a distance. -/
theorem l2Checked_rejects {n : ℕ} (a b : Fin n → Fl) (h : ∃ j, a j = Fl.nan ∨ b j = Fl.nan) : ∃ e, l2Checked a b = .error e := by
  refine ⟨.valueError, if_neg fun hall => ?_⟩
  obtain ⟨j, hj⟩ := h
  obtain ⟨⟨x, hx⟩, y, hy⟩ := hall j
  rcases hj with hj | hj
  · rw [hx] at hj; cases hj
  · rw [hy] at hj; cases hj

/-- **C148** for QUANTy with its default distance, which raises when a vector has an entry that is not a number. -/
theorem C148_quanty_default_partial [DecidableEq L] (n : ℕ) (hn : 0 < n) (tol : ℝ) (d : L) (sort : List Fl → List Fl) (hs : ∀ l, (sort l).Perm l) (classes : List L) (train : List (Fl × L)) (bag : List Fl)
    (h : Fl.nan ∈ bag ∨ Fl.nan ∈ train.map Prod.fst) : ∃ e, quantyPredictF n l2Checked tol d sort classes train bag = .error e :=
  C148_quanty_partial n hn l2Checked l2Checked_rejects tol d sort hs classes train bag h

/-- **C148** refuted for QUANTy with other distances: a distance that gives NaN for vectors with NaN (a sum of differences, say) makes it answer with a prevalence between 0.98 and 1 that does not depend on the data. -/
theorem C148_quanty_refuted : ∃ p : ℝ → ℝ, ∀ (L : Type) [DecidableEq L] (n : ℕ), 0 < n → ∀ (dist : (Fin n → Fl) → (Fin n → Fl) → Fl), (∀ a b, (∃ j, a j = Fl.nan ∨ b j = Fl.nan) → dist a b = Fl.nan) →
    ∀ (tol : ℝ), 0 < tol → ∀ (d : L) (sort : List Fl → List Fl), (∀ l, (sort l).Perm l) → ∀ (classes : List L), 2 ≤ classes.length → ∀ (train : List (Fl × L)) (bag : List Fl), (Fl.nan ∈ bag ∨ Fl.nan ∈ train.map Prod.fst) →
    quantyPredictF n (fun a b => .ok (dist a b)) tol d sort classes train bag = .ok (some ![1 - p tol, p tol]) ∧ 98 / 100 ≤ p tol ∧ p tol ≤ 1 := by
  let p (tol : ℝ) : ℝ := ((goldenFinal (fun _ => Fl.nan) tol (98 / 100) 1).c + (goldenFinal (fun _ => Fl.nan) tol (98 / 100) 1).b) / 2
  refine ⟨p, ?_⟩
  intro L _ n hn dist hd tol htol d sort hs classes hc train bag h
  have hgold : goldenSectionSearch (fun _ => Fl.nan) tol (98 / 100) 1 = .ok (Fl.nan, p tol) := by
    have hst := golden_nan_state (98 / 100) 1 (goldenSteps tol (1 - 98 / 100) - 1).toNat
    unfold goldenSectionSearch
    rw [if_neg (by norm_num), if_neg (not_le.2 (div_pos htol (by norm_num)))]
    obtain ⟨_, h2, h3⟩ := hst
    unfold goldenResult
    rw [if_neg (by unfold goldenFinal; rw [h2]; exact Fl.not_nan_lt _)]
    congr 2
  have hscan : ∀ (is : List ℕ) (search : ℝ → ℝ → Except Err (Fl × ℝ)) (st : ℕ × Fl × Option ℝ), globalScan (fun _ => Fl.nan) search is st = .ok st := by
    intro is search
    induction is with
    | nil => intro st; rfl
    | cons i is ih =>
      rintro ⟨a, b, c⟩
      unfold globalScan
      rw [if_neg (fun h => Fl.not_nan_lt _ h.1)]
      exact ih _
  obtain ⟨t, ht, hmix⟩ := quanty_nan n hn d sort hs classes train bag h
  have hloss : (fun p : ℝ => (computeQuantilesF (some p) train.length (fun i => (train.map Prod.fst).getD i 0) n (fun i => (train.map Prod.snd).getD i (classes.getD 0 d)) (classes.getD 0 d) (classes.getD 1 d) >>= fun mix =>
      (Except.ok (dist mix t) : Except Err Fl))) = fun _ => .ok Fl.nan := by
    funext p
    obtain ⟨m, hm, hnan⟩ := hmix p
    rw [hm]
    show Except.ok (dist m t) = _
    rw [hd m t hnan]
  refine ⟨?_, ?_⟩
  · unfold quantyPredictF
    rw [ht]
    simp only [bind, Except.bind] at hloss ⊢
    rw [if_neg (by omega), hloss, globalSearchE_total (fun _ => Fl.nan)]
    unfold globalCore
    rw [hscan]
    simp only [if_true]
    rw [if_neg (by simp [Fl.eq]), if_neg (Fl.not_nan_lt _), hgold]
    rfl
  · have hi := ginv_iter (fun _ => Fl.nan) (98 / 100) 1 (by norm_num) (goldenSteps tol (1 - 98 / 100) - 1).toNat
    have hb := (golden_nan_state (98 / 100) 1 (goldenSteps tol (1 - 98 / 100) - 1).toNat).1
    change GInv _ (98 / 100) 1 _ (goldenFinal (fun _ => Fl.nan) tol (98 / 100) 1) at hi
    change (goldenFinal (fun _ => Fl.nan) tol (98 / 100) 1).b = 1 at hb
    show 98 / 100 ≤ ((goldenFinal (fun _ => Fl.nan) tol (98 / 100) 1).c + (goldenFinal (fun _ => Fl.nan) tol (98 / 100) 1).b) / 2 ∧ ((goldenFinal (fun _ => Fl.nan) tol (98 / 100) 1).c + (goldenFinal (fun _ => Fl.nan) tol (98 / 100) 1).b) / 2 ≤ 1
    have l1 := hi.c_lt_d (by norm_num)
    have l2 := hi.d_lt_b (by norm_num)
    have l0 := hi.a_lt_c (by norm_num)
    have l3 := hi.a_le
    constructor <;> linarith

/-- A bag of two examples, one of them without a prediction, with the default distance. -/
example (sort : List Fl → List Fl) (hs : ∀ l, (sort l).Perm l) : ∃ e, quantyPredictF 8 l2Checked (1/1000) 0 sort [0, 1] [(Fl.fin 0, 0), (Fl.fin 1, 1)] [Fl.fin (1/2), Fl.nan] = .error e :=
  C148_quanty_partial 8 (by norm_num) l2Checked l2Checked_rejects (1/1000) 0 sort hs [0, 1] [(Fl.fin 0, 0), (Fl.fin 1, 1)] [Fl.fin (1/2), Fl.nan] (Or.inl (by simp))

/-- One quantile and the absolute difference: a distance to which `C148_quanty_refuted` applies. -/
example : ∀ a b : Fin 1 → Fl, (∃ j, a j = Fl.nan ∨ b j = Fl.nan) → (a 0 - b 0).abs = Fl.nan := by
  rintro a b ⟨j, hj⟩
  rw [Subsingleton.elim j 0] at hj
  rcases hj with hj | hj
  · rw [hj]; cases b 0 <;> rfl
  · rw [hj]; cases a 0 <;> rfl

end Verif.Props
