import Verif.Proof.Ordinal
import Verif.Props.AC
import Verif.Props.Df
import Verif.Props.Solve
import Verif.Proof.Eoq

/-!
# C71, C72, C104, C105: ordinal quantifiers
-/

namespace Verif.Props

open Verif.Model Verif.Spec Verif.Proof Matrix

/-- The prediction after any history of calls, when the bag goes through the solver. -/
theorem warm_optimal {F B : Type*} (Q : WarmQuantifier F B) (sv : CvxSolver) (hsv : ExactCvx sv) (loss : CvxLoss) (f0 : F) (hist : List (WarmCall F B)) (f : F) (hf : lastFit f0 hist = f) (b : B)
    {m n : ℕ} (T : Matrix (Fin m) (Fin n) ℝ) (hT : Q.train f = ⟨m, n, T⟩) (q : Fin m → ℝ) (hq : Q.prep f b = .ok (.inl ⟨m, q⟩)) (h0 : ∀ i, 0 ≤ q i) (hn : 0 < n) :
    ∃ x : Fin n → ℝ, (warmPredict Q sv loss (warmRun Q sv loss (warmFit f0) hist) b).2 = .ok (Q.post f ⟨n, x⟩) ∧ BestPrev (cvxObjective loss T q) x := by
  obtain ⟨h1, h2⟩ := warm_inv Q sv loss hist (warmFit f0) (by simp [warmFit])
  rw [show (warmFit f0).fitted = f0 from rfl, hf] at h1 h2
  generalize warmRun Q sv loss (warmFit f0) hist = st at h1 h2 ⊢
  obtain ⟨sf, pr?⟩ := st
  simp only at h1 h2
  subst h1
  have hset : setParameter m ⟨m, q⟩ = .ok q := by unfold setParameter; simp [h0]
  unfold warmPredict
  simp only [hq]
  unfold solveCvx
  cases pr? with
  | none =>
    generalize Q.train sf = t at hT ⊢
    subst hT
    simp only [hset]
    exact ⟨_, rfl, hsv loss T q none hn h0⟩
  | some pr =>
    have ht := h2 pr rfl
    rw [hT] at ht
    obtain ⟨t, l⟩ := pr
    simp only at ht
    subst ht
    simp only [hset]
    exact ⟨_, rfl, hsv loss T q (some l) hn h0⟩

/-! ## C71: ACOrdinal -/

section
variable {σ D α : Type*} {k : ℕ}

/-- The probability that an example of the class in position `j` is predicted as the class in position `l`, in the training set. -/
noncomputable def confusionOf [LinearOrder α] (y : List α) (r : ℕ) (preds : List α) (l j : Fin (labelsOf y).length) : ℝ :=
  condFreq (stacked y r) preds (labelsOf y)[j] (labelsOf y)[l]

theorem acoFit_crisp [LinearOrder α] (ops : EstOps σ D α k) (enc : Bool → α) (w : World σ D α) (et et' : Option ℕ) (s : QState α k) (X : List D) (y : List α) (hy : y ≠ []) (r : ℕ) (hr : 0 < r)
    (preds : List α) (hlen : preds.length = r * y.length) (hk : ∀ a ∈ preds, a ∈ y) :
    acoFit ops enc w et et' s X y (some (.crisp preds)) = .ok ⟨labelsOf y, fun i j => Fl.fin (cmReal y r preds i j), fun i j => Fl.fin (cumsum (fun l => confusionOf y r preds l j) i)⟩ := by
  unfold acoFit
  rw [acFit_crisp ops enc w et et' s X y hy r preds hlen, normalizeRows_eq y r hr preds hlen hk]
  simp only [Except.map]
  congr 2
  funext i j
  exact congrFun (accumArr_fin (cmReal y r preds j)) i

/-- **C71**: row `i` of the training matrix has, for each class, the fraction of its examples that is predicted as one of the classes up to `i`. -/
theorem C71_train_matrix [LinearOrder α] (ops : EstOps σ D α k) (enc : Bool → α) (w : World σ D α) (et et' : Option ℕ) (s : QState α k) (X : List D) (y : List α) (hy : y ≠ []) (r : ℕ) (hr : 0 < r)
    (preds : List α) (hlen : preds.length = r * y.length) (hk : ∀ a ∈ preds, a ∈ y) :
    ∃ f, acoFit ops enc w et et' s X y (some (.crisp preds)) = .ok f ∧ f.classes = labelsOf y
      ∧ ∀ i j, f.train i j = Fl.fin (∑ l, if l ≤ i then condFreq (stacked y r) preds f.classes[j] f.classes[l] else 0) :=
  ⟨_, acoFit_crisp ops enc w et et' s X y hy r hr preds hlen hk, rfl, fun _ _ => rfl⟩

theorem classFreqs_fin [DecidableEq α] (classes l : List α) (hl : l ≠ []) : classFreqs classes l = fun i => Fl.fin (freqs classes l i) := by
  funext i
  unfold classFreqs freqs freq
  rw [Fl.fin_div _ (by exact_mod_cast (List.length_pos_of_ne_nil hl).ne')]

theorem freqs_nonneg [DecidableEq α] (classes l : List α) (i : Fin classes.length) : 0 ≤ freqs classes l i := by unfold freqs freq; positivity

theorem cumsum_nonneg {n : ℕ} (v : Fin n → ℝ) (h : ∀ i, 0 ≤ v i) (k : Fin n) : 0 ≤ cumsum v k := by
  unfold cumsum
  exact Finset.sum_nonneg fun j _ => by split_ifs; exact h j; exact le_rfl

/-- The L1 objective with cumulated data is the earth mover's distance. -/
theorem l1_cumsum {m n : ℕ} (T : Fin m → Fin n → ℝ) (q : Fin m → ℝ) (p : Fin n → ℝ) :
    cvxObjective .l1 (fun i j => cumsum (fun l => T l j) i) (cumsum q) p = emd (mixtureOf T p) q := by
  rw [emd_eq]
  unfold cvxObjective
  refine Finset.sum_congr rfl fun i _ => ?_
  rw [abs_sub_comm]
  congr 2
  exact cumsum_mulVec T p i

variable [LinearOrder α]

/-- **C71**: after any history of `fit` and `predict` calls whose last `fit` had `r` stacked known predictions, with an exact solver, the prevalences returned for a nonempty bag are valid and have the least
earth mover's distance, among all valid prevalences, between the distribution of the predictions expected for them (mixture of the rows of the confusion matrix) and the frequencies of the predictions of the bag. -/
theorem C71_optimal (ops : EstOps σ D α k) (enc : Bool → α) (w : World σ D α) (et et' : Option ℕ) (s : QState α k) (X : List D) (y : List α) (hy : y ≠ []) (r : ℕ) (hr : 0 < r)
    (preds : List α) (hlen : preds.length = r * y.length) (hk : ∀ a ∈ preds, a ∈ y) (sv : CvxSolver) (hsv : ExactCvx sv)
    (f0 f : AcoFit α) (hfit : acoFit ops enc w et et' s X y (some (.crisp preds)) = .ok f) (hist : List (WarmCall (AcoFit α) (List D × Option (Preds α k)))) (hlast : lastFit f0 hist = f)
    (X' : List D) (bag : List α) (hbag : bag ≠ []) :
    ∃ x : Fin (labelsOf y).length → ℝ, (acoPredict ops enc w et et' sv (warmRun (acoQ ops enc w et et') sv .l1 (warmFit f0) hist) (X', some (.crisp bag))).2 = .ok ⟨_, x⟩ ∧ IsPrev x
      ∧ ∀ p, IsPrev p → emd (mixtureOf (confusionOf y r preds) x) (freqs (labelsOf y) bag) ≤ emd (mixtureOf (confusionOf y r preds) p) (freqs (labelsOf y) bag) := by
  rw [acoFit_crisp ops enc w et et' s X y hy r hr preds hlen hk] at hfit
  have hf := (Except.ok.inj hfit).symm
  have hn : 0 < (labelsOf y).length := by
    obtain ⟨a, l, rfl⟩ := List.exists_cons_of_ne_nil hy
    exact List.length_pos_of_mem ((mem_labelsOf _ a).2 List.mem_cons_self)
  subst hf
  obtain ⟨x, hx, hbest⟩ := warm_optimal (acoQ ops enc w et et') sv hsv .l1 f0 hist _ hlast (X', some (.crisp bag))
    (m := (labelsOf y).length) (n := (labelsOf y).length) (fun i j => cumsum (fun l => confusionOf y r preds l j) i) rfl (cumsum (freqs (labelsOf y) bag)) (by
      simp only [acoQ, usingPredict, probs2crisps, Except.map, Bool.false_eq_true, if_false]
      rw [classFreqs_fin _ _ hbag, accumArr_fin]
      rw [if_pos ⟨fun _ _ => trivial, fun _ => trivial⟩]
      rfl) (cumsum_nonneg _ (freqs_nonneg _ _)) hn
  refine ⟨x, hx, hbest.1, fun p hp => ?_⟩
  have := hbest.2 p hp
  rwa [l1_cumsum, l1_cumsum] at this

/-- **C71**: if the frequencies of the predictions are those expected for some prevalences `p` (prior probability shift), the distance at the returned prevalences is 0: the predictions expected for them are
exactly those of the bag; and they are `p` when no other prevalences give the same predictions. -/
theorem C71_prior_shift (ops : EstOps σ D α k) (enc : Bool → α) (w : World σ D α) (et et' : Option ℕ) (s : QState α k) (X : List D) (y : List α) (hy : y ≠ []) (r : ℕ) (hr : 0 < r)
    (preds : List α) (hlen : preds.length = r * y.length) (hk : ∀ a ∈ preds, a ∈ y) (sv : CvxSolver) (hsv : ExactCvx sv)
    (f0 f : AcoFit α) (hfit : acoFit ops enc w et et' s X y (some (.crisp preds)) = .ok f) (hist : List (WarmCall (AcoFit α) (List D × Option (Preds α k)))) (hlast : lastFit f0 hist = f)
    (X' : List D) (bag : List α) (hbag : bag ≠ []) (p : Fin (labelsOf y).length → ℝ) (hp : IsPrev p) (hshift : freqs (labelsOf y) bag = mixtureOf (confusionOf y r preds) p) :
    ∃ x : Fin (labelsOf y).length → ℝ, (acoPredict ops enc w et et' sv (warmRun (acoQ ops enc w et et') sv .l1 (warmFit f0) hist) (X', some (.crisp bag))).2 = .ok ⟨_, x⟩ ∧ IsPrev x
      ∧ mixtureOf (confusionOf y r preds) x = freqs (labelsOf y) bag
      ∧ ((∀ p', IsPrev p' → mixtureOf (confusionOf y r preds) p' = mixtureOf (confusionOf y r preds) p → p' = p) → x = p) := by
  obtain ⟨x, hx, hprev, hmin⟩ := C71_optimal ops enc w et et' s X y hy r hr preds hlen hk sv hsv f0 f hfit hist hlast X' bag hbag
  have h0 := hmin p hp
  rw [← hshift, (emd_eq_zero_iff _ _).2 rfl] at h0
  have hz : emd (mixtureOf (confusionOf y r preds) x) (freqs (labelsOf y) bag) = 0 :=
    le_antisymm h0 (by unfold emd; exact Finset.sum_nonneg fun _ _ => abs_nonneg _)
  have he := (emd_eq_zero_iff _ _).1 hz
  exact ⟨x, hx, hprev, he, fun hu => hu x hprev (he.trans hshift)⟩

end

/-! ## C72: the scores of PDFOrdinaly -/

/-- **C72**: for a posterior with two consecutive classes (or one), the score of 'winner_node' is the expected position of the class. -/
theorem C72_winner_score {n : ℕ} (hn : 2 ≤ n) (row : Fin n → ℝ) (h : IsPrev row) (h2 : TwoConsecutive row) : ordScores .winnerNode [row] = .ok [expectedPosition row] := by
  unfold ordScores
  simp only
  exact mapM_ok _ _ (fun r => expectedPosition r) fun r hr => by rw [List.mem_singleton.1 hr]; exact winnerScore_expected hn row h h2

/-- **C72**: the score of 'full_probabilistic' is always the expected position. -/
theorem C72_full_score {n : ℕ} (row : Fin n → ℝ) : ordScores .fullProbabilistic [row] = .ok [expectedPosition row] := by
  unfold ordScores
  simp [fullScore_eq]

/-- **C72**: with any of the two methods, the scores of rows of probabilities, one per row, are between 1 and the number of classes. -/
theorem C72_scores_range {n : ℕ} (hn : 2 ≤ n) (method : OrdMethod) (hm : method ≠ .other) (rows : List (Fin n → ℝ)) (h : ∀ row ∈ rows, IsPrev row) :
    ∃ scores, ordScores method rows = .ok scores ∧ scores.length = rows.length ∧ ∀ v ∈ scores, 1 ≤ v ∧ v ≤ n := by
  cases method with
  | other => exact absurd rfl hm
  | fullProbabilistic =>
    refine ⟨_, rfl, by simp, fun v hv => ?_⟩
    obtain ⟨row, hrow, rfl⟩ := List.mem_map.1 hv
    rw [fullScore_eq]
    exact expectedPosition_mem row (h row hrow)
  | winnerNode =>
    choose g hg using fun row : {row : Fin n → ℝ // IsPrev row} => winnerScore_mem hn row.1 row.2
    classical
    refine ⟨rows.map fun row => if hr : IsPrev row then g ⟨row, hr⟩ else 0, ?_, by simp, fun v hv => ?_⟩
    · exact mapM_ok _ _ _ fun row hrow => by rw [dif_pos (h row hrow)]; exact (hg ⟨row, h row hrow⟩).1
    · obtain ⟨row, hrow, rfl⟩ := List.mem_map.1 hv
      rw [dif_pos (h row hrow)]
      exact (hg ⟨row, h row hrow⟩).2

/-- **C72**: no example is lost: for scores between 1 and the number of classes the histogram, divided by the number of examples, is a distribution and its entries are the shares of the bins of equal width. -/
theorem C72_histogram (nBins nc : ℕ) (hb : 0 < nBins) (hc : 2 ≤ nc) (scores : List ℝ) (hs : scores ≠ []) (hr : ∀ v ∈ scores, 1 ≤ v ∧ v ≤ nc) :
    ∃ h, ordHistogram nBins nc scores = .ok h ∧ (∀ b, h b / (scores.length : ℝ) = evenBinShare 1 nc (effBins nBins nc) scores b) ∧ IsPrev fun b => h b / (scores.length : ℝ) := by
  obtain ⟨h, h1, h2⟩ := ordHistogram_eq nBins nc hb hc scores
  refine ⟨h, h1, h2, ?_⟩
  rw [show (fun b => h b / (scores.length : ℝ)) = evenBinShare 1 nc (effBins nBins nc) scores from funext h2]
  refine evenBinShare_isPrev _ (by unfold effBins; exact Nat.mul_pos hb (by omega)) _ _ ?_ scores hs hr
  have : (2:ℝ) ≤ nc := by exact_mod_cast hc
  linarith

/-! ## C104, C105: the answers of PDFOrdinaly -/

section
variable {α : Type*} [DecidableEq α] {nc : ℕ}

/-- The distribution of the expected positions of a list of posteriors, in `nb` bins of equal width between 1 and the number of classes. -/
noncomputable def positionPdf (nb : ℕ) (rows : List (Fin nc → ℝ)) : Fin nb → ℝ := evenBinShare 1 nc nb (rows.map expectedPosition)

/-- The posteriors that a method accepts: distributions, and for 'winner_node' with two consecutive classes. -/
def Admissible (method : OrdMethod) (rows : List (Fin nc → ℝ)) : Prop :=
  (∀ row ∈ rows, IsPrev row) ∧ (method = .fullProbabilistic ∨ (method = .winnerNode ∧ ∀ row ∈ rows, TwoConsecutive row))

theorem ordScores_admissible (hn : 2 ≤ nc) (method : OrdMethod) (rows : List (Fin nc → ℝ)) (h : Admissible method rows) : ordScores method rows = .ok (rows.map expectedPosition) := by
  obtain ⟨h1, rfl | ⟨rfl, h2⟩⟩ := h
  · unfold ordScores
    simp only
    congr 1
    exact List.map_congr_left fun row _ => fullScore_eq row
  · exact mapM_ok _ _ _ fun row hrow => winnerScore_expected hn row (h1 row hrow) (h2 row hrow)

theorem positionPdf_isPrev (hn : 2 ≤ nc) (nb : ℕ) (hb : 0 < nb) (rows : List (Fin nc → ℝ)) (hne : rows ≠ []) (h : ∀ row ∈ rows, IsPrev row) : IsPrev (positionPdf nb rows) := by
  refine evenBinShare_isPrev nb hb 1 nc ?_ _ (by simpa using hne) fun v hv => ?_
  · have : (2:ℝ) ≤ nc := by exact_mod_cast hn
    linarith
  · obtain ⟨row, hrow, rfl⟩ := List.mem_map.1 hv
    exact expectedPosition_mem row (h row hrow)

theorem selectRows_map {P Q : Type*} (y : List α) (rows : List P) (g : P → Q) (c : α) : selectRows y (rows.map g) c = (selectRows y rows c).map g := by
  unfold selectRows
  induction y generalizing rows with
  | nil => simp
  | cons a y ih =>
    cases rows with
    | nil => simp
    | cons r rows =>
      simp only [List.map_cons, List.zip_cons_cons, List.filter_cons]
      by_cases h : a = c
      · simp [h, ih]
      · simp [h, ih]

theorem mem_selectRows {P : Type*} (y : List α) (rows : List P) (c : α) (r : P) (h : r ∈ selectRows y rows c) : r ∈ rows := by
  unfold selectRows at h
  obtain ⟨t, ht, rfl⟩ := List.mem_map.1 h
  exact (List.of_mem_zip (List.mem_of_mem_filter ht)).2

/-- The histograms of the classes. -/
noncomputable def classPdfs (nb : ℕ) (classes : Fin nc → α) (yExt : List α) (preds : List (Fin nc → ℝ)) (b : Fin nb) (c : Fin nc) : ℝ := positionPdf nb (classRows yExt preds (classes c)) b

theorem pdfo_hist (hn : 2 ≤ nc) (nBins : ℕ) (hb : 0 < nBins) (rows : List (Fin nc → ℝ)) : ∃ h, ordHistogram nBins nc (rows.map expectedPosition) = .ok h
    ∧ (fun b => h b / (rows.length : ℝ)) = positionPdf (effBins nBins nc) rows := by
  obtain ⟨h, h1, h2⟩ := ordHistogram_eq nBins nc hb hn (rows.map expectedPosition)
  exact ⟨h, h1, funext fun b => by have := h2 b; rw [List.length_map] at this; exact this⟩

theorem pdfoFit_eq (la : LinAlg nc) (fuel nBins : ℕ) (method : OrdMethod) (dist : OrdDist) (hn : 2 < nc) (hb : 0 < nBins) (classes : Fin nc → α) (yExt : List α) (preds : List (Fin nc → ℝ))
    (hlen : yExt.length = preds.length) (ha : Admissible method preds) : pdfoFit la fuel nBins method dist classes yExt preds = .ok (match dist with
      | .l2 => ⟨classPdfs _ classes yExt preds, computeL2ParamTrain la fuel (classPdfs (effBins nBins nc) classes yExt preds)⟩
      | .emd => ⟨fun b c => cumsum (fun b => classPdfs (effBins nBins nc) classes yExt preds b c) b, none⟩
      | _ => ⟨classPdfs _ classes yExt preds, none⟩) := by
  unfold pdfoFit
  rw [if_neg (by omega), ordScores_admissible hn.le method preds ha]
  simp only
  rw [if_neg (by simp [hlen])]
  choose h hh hpdf using fun c : Fin nc => pdfo_hist hn.le nBins hb (selectRows yExt preds (classes c))
  have hseq : (seqFin fun c : Fin nc => ordHistogram nBins nc (selectRows yExt (preds.map expectedPosition) (classes c))) = .ok h := (seqFin_ok _ _).2 fun c => by rw [selectRows_map]; exact hh c
  rw [hseq]
  simp only
  have he : (fun (b : Fin (effBins nBins nc)) (c : Fin nc) => h c b / (yExt.count (classes c) : ℝ)) = classPdfs (effBins nBins nc) classes yExt preds := by
    funext b c
    have := congrFun (hpdf c) b
    rw [selectRows_length yExt preds hlen] at this
    exact this
  cases dist with
  | l2 => simp only; rw [he]
  | emd =>
    simp only
    congr 2
    funext b c
    rw [accumArr_eq]
    congr 1
    funext b'
    exact congrFun (congrFun he b') c
  | hd => simp only; rw [he]
  | other => simp only; rw [he]

theorem sum_dropLast {n : ℕ} (hn : 0 < n) (g : Fin n → ℝ) (hg : g ⟨n - 1, by omega⟩ = 0) : ∑ i, dropLastRow g i = ∑ i, g i := by
  obtain ⟨m, rfl⟩ : ∃ m, n = m + 1 := ⟨n - 1, by omega⟩
  rw [Fin.sum_univ_castSucc]
  have : g (Fin.last m) = 0 := hg
  rw [this, add_zero]
  rfl

theorem clipNormalise_prev {n : ℕ} (x : Fin n → ℝ) (hx : IsPrev x) : clipNormalise ⟨n, x⟩ = ⟨n, x⟩ := by
  unfold clipNormalise
  have hc : (fun i => min (max (x i) 0) 1) = x := by
    funext i
    rw [max_eq_left (hx.1 i), min_eq_left (hx.le_one i)]
  simp only [hc, hx.2, if_pos one_pos, div_one]

/-- **C104**: 'EMD'. After any history of calls whose last `fit` had admissible posteriors of all the classes, with an exact solver, the answer for a nonempty admissible bag is a valid prevalence vector with the least
earth mover's distance, among all valid ones, between the mixture of the class distributions of expected positions and the distribution of the bag. -/
theorem C104_emd_optimal (sv : CvxSolver) (hsv : ExactCvx sv) (qp : QPSolver) (la : LinAlg nc) (fuel nBins : ℕ) (method : OrdMethod) (hn : 2 < nc) (hb : 0 < nBins) (classes : Fin nc → α) (yExt : List α)
    (preds : List (Fin nc → ℝ)) (hlen : yExt.length = preds.length) (ha : Admissible method preds) (hcl : ∀ c, classes c ∈ yExt)
    (f0 f : PdfoFit nBins nc) (hfit : pdfoFit la fuel nBins method .emd classes yExt preds = .ok f) (hist : List (WarmCall (PdfoFit nBins nc) (List (Fin nc → ℝ)))) (hlast : lastFit f0 hist = f)
    (bag : List (Fin nc → ℝ)) (hbag : bag ≠ []) (hab : Admissible method bag) :
    ∃ x : Fin nc → ℝ, (pdfoPredict sv qp method .emd (warmRun (pdfoQ qp method .emd) sv (ordLoss .emd) (warmFit f0) hist) bag).2 = .ok (some ⟨nc, x⟩) ∧ IsPrev x
      ∧ ∀ p, IsPrev p → emd (mixtureOf (classPdfs (nBins * (nc - 1)) classes yExt preds) x) (positionPdf (nBins * (nc - 1)) bag)
        ≤ emd (mixtureOf (classPdfs (nBins * (nc - 1)) classes yExt preds) p) (positionPdf (nBins * (nc - 1)) bag) := by
  rw [← show effBins nBins nc = nBins * (nc - 1) from rfl]
  rw [pdfoFit_eq la fuel nBins method .emd hn hb classes yExt preds hlen ha] at hfit
  have hf := (Except.ok.inj hfit).symm
  subst hf
  have heff : 0 < effBins nBins nc := by unfold effBins; exact Nat.mul_pos hb (by omega)
  obtain ⟨h, hh, hpdf⟩ := pdfo_hist hn.le nBins hb bag
  have hbagprev := positionPdf_isPrev hn.le (effBins nBins nc) heff bag hbag hab.1
  have hclprev : ∀ c, IsPrev fun b => classPdfs (effBins nBins nc) classes yExt preds b c := fun c =>
    positionPdf_isPrev hn.le _ heff _ (selectRows_ne_nil yExt preds hlen _ (hcl c)) fun row hrow => ha.1 row (mem_selectRows _ _ _ _ hrow)
  obtain ⟨x, hx, hbest⟩ := warm_optimal (pdfoQ qp method .emd) sv hsv .l1 f0 hist _ hlast bag
    (m := effBins nBins nc - 1) (n := nc) (dropLastRow fun b c => cumsum (fun b => classPdfs (effBins nBins nc) classes yExt preds b c) b) rfl
    (dropLastRow (cumsum (positionPdf (effBins nBins nc) bag))) (by
      simp only [pdfoQ]
      rw [ordScores_admissible hn.le method bag hab]
      simp only
      rw [hh]
      simp only
      rw [hpdf, accumArr_eq]) (fun i => cumsum_nonneg _ hbagprev.1 _) (by omega)
  have hobj : ∀ p, IsPrev p → cvxObjective .l1 (dropLastRow fun b c => cumsum (fun b => classPdfs (effBins nBins nc) classes yExt preds b c) b) (dropLastRow (cumsum (positionPdf (effBins nBins nc) bag))) p
      = emd (mixtureOf (classPdfs (effBins nBins nc) classes yExt preds) p) (positionPdf (effBins nBins nc) bag) := by
    intro p hp
    rw [← l1_cumsum]
    unfold cvxObjective
    simp only
    refine Eq.trans ?_ (sum_dropLast heff (fun k => |cumsum (positionPdf (effBins nBins nc) bag) k - ((fun i j => cumsum (fun l => classPdfs (effBins nBins nc) classes yExt preds l j) i) *ᵥ p) k|) ?_)
    · rfl
    · have e1 := (cumsum_isCdf hbagprev).last ⟨effBins nBins nc - 1, by omega⟩ (by simp; omega)
      have e2 : ∀ c, cumsum (fun l => classPdfs (effBins nBins nc) classes yExt preds l c) ⟨effBins nBins nc - 1, by omega⟩ = 1 := fun c => (cumsum_isCdf (hclprev c)).last _ (by simp; omega)
      simp only [mulVec, dotProduct, e1, e2, one_mul, hp.2, sub_self, abs_zero]
  refine ⟨x, ?_, hbest.1, fun p hp => ?_⟩
  · unfold pdfoPredict
    simp only [ordLoss]
    rw [hx]
    simp only [pdfoQ, Except.map]
    rw [clipNormalise_prev x hbest.1]
  · have := hbest.2 p hp
    rwa [hobj x hbest.1, hobj p hp] at this

/-- **C104**: 'EMD', whatever the solver returns and in any state. Every answer has its entries between 0 and 1 and, unless all of them are 0, they sum to 1. -/
theorem C104_emd_any_solver {nBins nc : ℕ} (sv : CvxSolver) (qp : QPSolver) (method : OrdMethod) (s : WarmState (PdfoFit nBins nc)) (bag : List (Fin nc → ℝ)) (v : Vec)
    (h : (pdfoPredict sv qp method .emd s bag).2 = .ok (some v)) : (∀ i, 0 ≤ v.2 i ∧ v.2 i ≤ 1) ∧ (∑ i, v.2 i = 1 ∨ ∀ i, v.2 i = 0) := by
  obtain ⟨x, rfl⟩ : ∃ x, v = clipNormalise x := by
    unfold pdfoPredict at h
    simp only at h
    have h1 : (warmPredict (pdfoQ qp (nBins := nBins) method .emd) sv (ordLoss .emd) s bag).2 = .ok v := by
      cases hr : (warmPredict (pdfoQ qp (nBins := nBins) method .emd) sv (ordLoss .emd) s bag).2 with
      | error e => rw [hr] at h; cases h
      | ok a => rw [hr] at h; cases h; rfl
    unfold warmPredict at h1
    cases h0 : (pdfoQ qp (nBins := nBins) method .emd).prep s.fitted bag with
    | error e => rw [h0] at h1; cases h1
    | ok p =>
      rw [h0] at h1
      cases p with
      | inr d =>
        exfalso
        simp only [pdfoQ] at h0
        split at h0
        · cases h0
        · split at h0 <;> cases h0
      | inl q =>
        simp only at h1
        cases h3 : solveCvx sv (ordLoss .emd) ((pdfoQ qp (nBins := nBins) method .emd).train s.fitted) q s.problem with
        | error e => rw [h3] at h1; cases h1
        | ok r =>
          rw [h3] at h1
          exact ⟨r.2, (Except.ok.inj h1).symm⟩
  have h0 : ∀ i, 0 ≤ min (max (x.2 i) 0) 1 := fun i => le_min (le_max_right _ _) zero_le_one
  unfold clipNormalise
  simp only
  by_cases hs : 0 < ∑ i, min (max (x.2 i) 0) 1
  · rw [if_pos hs]
    refine ⟨fun i => ⟨div_nonneg (h0 i) hs.le, (div_le_one hs).2 (Finset.single_le_sum (fun j _ => h0 j) (Finset.mem_univ i))⟩, .inl ?_⟩
    rw [← Finset.sum_div]
    exact div_self hs.ne'
  · rw [if_neg hs]
    have hz : ∑ i, min (max (x.2 i) 0) 1 = 0 := le_antisymm (not_lt.1 hs) (Finset.sum_nonneg fun i _ => h0 i)
    exact ⟨fun i => ⟨h0 i, min_le_right _ _⟩, .inr fun i => (Finset.sum_eq_zero_iff_of_nonneg fun i _ => h0 i).1 hz i (Finset.mem_univ i)⟩

/-- **C105**: 'HD'. With an exact solver, after any history, the answer is a valid prevalence vector with the least Hellinger distance between the mixture of the class distributions and the distribution of the bag. -/
theorem C105_hd_optimal (sv : CvxSolver) (hsv : ExactCvx sv) (qp : QPSolver) (la : LinAlg nc) (fuel nBins : ℕ) (method : OrdMethod) (hn : 2 < nc) (hb : 0 < nBins) (classes : Fin nc → α) (yExt : List α)
    (preds : List (Fin nc → ℝ)) (hlen : yExt.length = preds.length) (ha : Admissible method preds) (hcl : ∀ c, classes c ∈ yExt)
    (f0 f : PdfoFit nBins nc) (hfit : pdfoFit la fuel nBins method .hd classes yExt preds = .ok f) (hist : List (WarmCall (PdfoFit nBins nc) (List (Fin nc → ℝ)))) (hlast : lastFit f0 hist = f)
    (bag : List (Fin nc → ℝ)) (hbag : bag ≠ []) (hab : Admissible method bag) :
    ∃ x : Fin nc → ℝ, (pdfoPredict sv qp method .hd (warmRun (pdfoQ qp method .hd) sv (ordLoss .hd) (warmFit f0) hist) bag).2 = .ok (some ⟨nc, x⟩) ∧ IsPrev x
      ∧ ∀ p, IsPrev p → hellingerSq (positionPdf (nBins * (nc - 1)) bag) (mixtureOf (classPdfs (nBins * (nc - 1)) classes yExt preds) x)
        ≤ hellingerSq (positionPdf (nBins * (nc - 1)) bag) (mixtureOf (classPdfs (nBins * (nc - 1)) classes yExt preds) p) := by
  rw [← show effBins nBins nc = nBins * (nc - 1) from rfl]
  rw [pdfoFit_eq la fuel nBins method .hd hn hb classes yExt preds hlen ha] at hfit
  have hf := (Except.ok.inj hfit).symm
  subst hf
  have heff : 0 < effBins nBins nc := by unfold effBins; exact Nat.mul_pos hb (by omega)
  obtain ⟨h, hh, hpdf⟩ := pdfo_hist hn.le nBins hb bag
  have hbagprev := positionPdf_isPrev hn.le (effBins nBins nc) heff bag hbag hab.1
  have hclprev : ∀ c, IsPrev fun b => classPdfs (effBins nBins nc) classes yExt preds b c := fun c =>
    positionPdf_isPrev hn.le _ heff _ (selectRows_ne_nil yExt preds hlen _ (hcl c)) fun row hrow => ha.1 row (mem_selectRows _ _ _ _ hrow)
  obtain ⟨x, hx, hbest⟩ := warm_optimal (pdfoQ qp method .hd) sv hsv .hd f0 hist _ hlast bag
    (m := effBins nBins nc) (n := nc) (classPdfs (effBins nBins nc) classes yExt preds) rfl (positionPdf (effBins nBins nc) bag) (by
      simp only [pdfoQ]
      rw [ordScores_admissible hn.le method bag hab]
      simp only
      rw [hh]
      simp only
      rw [hpdf]) hbagprev.1 (by omega)
  refine ⟨x, ?_, hbest.1, fun p hp => ?_⟩
  · unfold pdfoPredict
    simp only [ordLoss]
    rw [hx]
    rfl
  · have h3 := hbest.2 p hp
    unfold cvxObjective at h3
    simp only at h3
    have h1 := hellingerSq_eq (positionPdf (effBins nBins nc) bag) (classPdfs (effBins nBins nc) classes yExt preds *ᵥ x) hbagprev.1 (mulVec_nonneg (fun b c => (hclprev c).1 b) hbest.1)
    have h2 := hellingerSq_eq (positionPdf (effBins nBins nc) bag) (classPdfs (effBins nBins nc) classes yExt preds *ᵥ p) hbagprev.1 (mulVec_nonneg (fun b c => (hclprev c).1 b) hp)
    rw [sum_mulVec (s := 1) (fun c => (hclprev c).2) hbest.1] at h1
    rw [sum_mulVec (s := 1) (fun c => (hclprev c).2) hp] at h2
    show hellingerSq _ (classPdfs (effBins nBins nc) classes yExt preds *ᵥ x) ≤ hellingerSq _ (classPdfs (effBins nBins nc) classes yExt preds *ᵥ p)
    linarith

/-- **C105**: 'L2'. With exact linear algebra and an exact quadratic solver, after any history, the answer is a valid prevalence vector whose squared L2 distance between the mixture of the class distributions and the
distribution of the bag is within half a spacing (the perturbation that makes the Gram matrix positive definite) of the least one; and it is the least one when no two combinations of the class distributions coincide. -/
theorem C105_l2_optimal (sv : CvxSolver) (qp : QPSolver) (hqp : ExactQP qp) (la : LinAlg nc) (hla : ExactLinAlg la) (fuel nBins : ℕ) (method : OrdMethod) (hn : 2 < nc) (hb : 0 < nBins) (classes : Fin nc → α)
    (yExt : List α) (preds : List (Fin nc → ℝ)) (hlen : yExt.length = preds.length) (ha : Admissible method preds)
    (f0 f : PdfoFit nBins nc) (hfit : pdfoFit la (fuel + 1) nBins method .l2 classes yExt preds = .ok f) (hist : List (WarmCall (PdfoFit nBins nc) (List (Fin nc → ℝ)))) (hlast : lastFit f0 hist = f)
    (bag : List (Fin nc → ℝ)) (hab : Admissible method bag) :
    ∃ x : Fin nc → ℝ, (pdfoPredict sv qp method .l2 (warmRun (pdfoQ qp method .l2) sv (ordLoss .l2) (warmFit f0) hist) bag).2 = .ok (some ⟨nc, x⟩) ∧ IsPrev x
      ∧ (∀ p, IsPrev p → l2Loss (classPdfs (nBins * (nc - 1)) classes yExt preds) (positionPdf (nBins * (nc - 1)) bag) x
        ≤ l2Loss (classPdfs (nBins * (nc - 1)) classes yExt preds) (positionPdf (nBins * (nc - 1)) bag) p
          + la.spacing ((2:ℝ) • ((Matrix.of (classPdfs (nBins * (nc - 1)) classes yExt preds))ᵀ * Matrix.of (classPdfs (nBins * (nc - 1)) classes yExt preds))) / 2)
      ∧ ((∀ v : Fin nc → ℝ, mixtureOf (classPdfs (nBins * (nc - 1)) classes yExt preds) v = 0 → v = 0) →
        ∀ p, IsPrev p → l2Loss (classPdfs (nBins * (nc - 1)) classes yExt preds) (positionPdf (nBins * (nc - 1)) bag) x
          ≤ l2Loss (classPdfs (nBins * (nc - 1)) classes yExt preds) (positionPdf (nBins * (nc - 1)) bag) p) := by
  rw [← show effBins nBins nc = nBins * (nc - 1) from rfl]
  rw [pdfoFit_eq la (fuel + 1) nBins method .l2 hn hb classes yExt preds hlen ha] at hfit
  have hf := (Except.ok.inj hfit).symm
  subst hf
  obtain ⟨h, hh, hpdf⟩ := pdfo_hist hn.le nBins hb bag
  obtain ⟨par, x, hpar, hx, hprev, hnear⟩ := C26_l2_near qp hqp la hla (by omega) (classPdfs (effBins nBins nc) classes yExt preds) (positionPdf (effBins nBins nc) bag) fuel
  obtain ⟨h1, -⟩ := warm_inv (pdfoQ qp method .l2) sv (ordLoss .l2) hist (warmFit f0) (by simp [warmFit])
  rw [show (warmFit f0).fitted = f0 from rfl, hlast] at h1
  refine ⟨x, ?_, hprev, hnear, fun hT p hp => ?_⟩
  · unfold pdfoPredict
    simp only
    unfold warmPredict
    rw [h1]
    simp only [pdfoQ]
    rw [ordScores_admissible hn.le method bag hab]
    simp only
    rw [hh]
    simp only
    rw [hpdf, hpar]
    simp only [hx, Except.map]
  · obtain ⟨par', x', hpar', hx', hprev', hmin⟩ := C26_l2_exact qp hqp la hla (by omega) (classPdfs (effBins nBins nc) classes yExt preds) (positionPdf (effBins nBins nc) bag) fuel hT
    rw [hpar] at hpar'
    rw [← Option.some.inj hpar', hx] at hx'
    rw [Except.ok.inj hx']
    exact hmin p hp

/-- **C105** fails for the documented 'L1' and for a distance function: `fit` accepts them and `predict` returns None for every bag. -/
theorem C105_other_refuted (sv : CvxSolver) (qp : QPSolver) (la : LinAlg nc) (fuel nBins : ℕ) (method : OrdMethod) (hn : 2 < nc) (hb : 0 < nBins) (classes : Fin nc → α) (yExt : List α)
    (preds : List (Fin nc → ℝ)) (hlen : yExt.length = preds.length) (ha : Admissible method preds) (bag : List (Fin nc → ℝ)) (hab : Admissible method bag) :
    ∃ f : PdfoFit nBins nc, pdfoFit la fuel nBins method .other classes yExt preds = .ok f ∧ (pdfoPredict sv qp method .other (warmFit f) bag).2 = .ok none := by
  refine ⟨_, pdfoFit_eq la fuel nBins method .other hn hb classes yExt preds hlen ha, ?_⟩
  obtain ⟨h, hh, -⟩ := pdfo_hist hn.le nBins hb bag
  unfold pdfoPredict
  simp only
  rw [ordScores_admissible hn.le method bag hab]
  simp only
  rw [hh]
  rfl

/-- **C105**: an unknown method is rejected by `fit`. -/
theorem C105_unknown_method (la : LinAlg nc) (fuel nBins : ℕ) (dist : OrdDist) (hn : 2 < nc) (classes : Fin nc → α) (yExt : List α) (preds : List (Fin nc → ℝ)) :
    pdfoFit la fuel nBins .other dist classes yExt preds = .error .valueError := by
  unfold pdfoFit
  rw [if_neg (by omega)]
  rfl

/-- **C105**: with two classes or less `fit` raises a TypeError. -/
theorem C105_few_classes (la : LinAlg nc) (fuel nBins : ℕ) (method : OrdMethod) (dist : OrdDist) (hn : nc ≤ 2) (classes : Fin nc → α) (yExt : List α) (preds : List (Fin nc → ℝ)) :
    pdfoFit la fuel nBins method dist classes yExt preds = .error .typeError := by
  unfold pdfoFit
  rw [if_pos hn]

end

/-! ## Non-vacuity -/

section examples

/-- C71: three classes, one of the examples of class 1 is taken for class 0; the bag has the predictions of the training set, so the prior shift hypothesis holds with the training frequencies. -/
example (ops : EstOps Unit Unit ℕ 3) (enc : Bool → ℕ) (w : World Unit Unit ℕ) (s : QState ℕ 3) :
    ∃ (sv : CvxSolver) (f : AcoFit ℕ), ExactCvx sv ∧ acoFit ops enc w none none s [(), (), (), ()] [0, 1, 1, 2] (some (.crisp [0, 1, 0, 2])) = .ok f
      ∧ lastFit f [.predict (([] : List Unit), some (Preds.crisp (k := 3) [1]))] = f
      ∧ IsPrev (freqs (labelsOf [0, 1, 1, 2]) [0, 1, 1, 2]) ∧ freqs (labelsOf [0, 1, 1, 2]) [0, 1, 0, 2] = mixtureOf (confusionOf [0, 1, 1, 2] 1 [0, 1, 0, 2]) (freqs (labelsOf [0, 1, 1, 2]) [0, 1, 1, 2]) := by
  obtain ⟨sv, hsv⟩ := exactCvx_exists
  refine ⟨sv, _, hsv, acoFit_crisp ops enc w none none s _ _ (by simp) 1 one_pos _ rfl (by simp), rfl, freqs_isPrev _ (labelsOf_nodup _) _ (by simp) fun a ha => (mem_labelsOf _ a).2 ha, ?_⟩
  funext j
  rw [← mixture_of_training [0, 1, 1, 2] (by simp) 1 one_pos [0, 1, 0, 2] rfl j]
  exact Finset.sum_congr rfl fun i _ => mul_comm _ _

theorem exRow_prev : IsPrev ![(0:ℝ), 1/4, 3/4] := ⟨fun i => by fin_cases i <;> norm_num, by simp [Fin.sum_univ_three]; norm_num⟩

theorem exRow_two : TwoConsecutive ![(0:ℝ), 1/4, 3/4] := ⟨1, fun c h1 h2 => by fin_cases c <;> simp_all⟩

/-- C72: a posterior with two consecutive classes; its score is 2.75. -/
example : ordScores .winnerNode [![(0:ℝ), 1/4, 3/4]] = .ok [11/4] := by
  rw [C72_winner_score (by norm_num) _ exRow_prev exRow_two]
  congr 2
  unfold expectedPosition
  simp [Fin.sum_univ_three]
  norm_num

theorem unit_prev (i : Fin 3) : IsPrev fun c : Fin 3 => if c = i then (1:ℝ) else 0 := ⟨fun c => by dsimp only; split_ifs <;> norm_num, by simp⟩

theorem unit_two (i : Fin 3) : TwoConsecutive fun c : Fin 3 => if c = i then (1:ℝ) else 0 := ⟨i, fun c h1 _ => if_neg fun h => h1 (by rw [h])⟩

/-- C104, C105: posteriors of three classes, valid for both methods, and exact solvers. -/
example : (∃ sv : CvxSolver, ExactCvx sv) ∧ (∃ qp : QPSolver, ExactQP qp) ∧ (∃ la : LinAlg 3, ExactLinAlg la)
    ∧ ∀ method : OrdMethod, method ≠ .other → Admissible method [fun c : Fin 3 => if c = 0 then (1:ℝ) else 0, ![0, 1/4, 3/4], fun c => if c = 2 then 1 else 0]
      ∧ ∀ c : Fin 3, ![(7:ℕ), 8, 9] c ∈ [7, 8, 9] := by
  refine ⟨exactCvx_exists, exactQP_exists, exactLinAlg_exists 3, fun method hm => ⟨⟨?_, ?_⟩, by decide⟩⟩
  · simp only [List.forall_mem_cons]
    exact ⟨unit_prev 0, exRow_prev, unit_prev 2, by simp⟩
  · cases method with
    | other => exact absurd rfl hm
    | fullProbabilistic => exact .inl rfl
    | winnerNode =>
      refine .inr ⟨rfl, ?_⟩
      simp only [List.forall_mem_cons]
      exact ⟨unit_two 0, exRow_two, unit_two 2, by simp⟩

end examples

end Verif.Props
