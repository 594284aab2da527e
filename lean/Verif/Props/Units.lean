import Verif.Proof.Units
import Verif.Props.RenameDf

/-!
# C149: the answers do not depend on the units of the features
-/

namespace Verif.Props

open Verif.Model Verif.Spec Verif.Proof

section
variable {α : Type} [DecidableEq α] {nf : ℕ}

theorem column_conv (u : Units nf) (rows : List (Fin nf → ℝ)) (d : Fin nf) : (u.sample rows).map (fun row => row d) = (rows.map fun row => row d).map fun v => u.factor d * v + u.shift d := by
  unfold Units.sample
  rw [List.map_map, List.map_map]
  rfl

theorem dfxFit_conv (ppf : ℝ → EReal) (cfg : DfCfg) (classes y : List α) (hcl : ∀ c ∈ classes, c ∈ y) (X : List (Fin nf → ℝ)) (hX : y.length = X.length) (u : Units nf)
    (hs : ∀ d, Spread cfg.strategy classes (y.zip (X.map fun row => row d))) :
    dfxFit ppf cfg classes y (u.sample X) = (dfxFit ppf cfg classes y X).map fun f => ⟨fun d i => cutConv (u.factor d) (u.shift d) (f.cuts d i), f.train⟩ := by
  unfold dfxFit dfFit
  have h1 : (seqFin fun d => computeBincuts ppf ((u.sample X).map fun row => row d) y classes cfg.nBins cfg.strategy none)
      = (seqFin fun d => computeBincuts ppf (X.map fun row => row d) y classes cfg.nBins cfg.strategy none).map fun c d i => cutConv (u.factor d) (u.shift d) (c d i) := by
    refine Eq.trans (congrArg seqFin (funext fun d => ?_)) (seqFin_map _ fun d (e : Fin (cfg.nBins + 1) → EReal) i => cutConv (u.factor d) (u.shift d) (e i))
    rw [column_conv, computeBincuts_conv (u.pos d) _ ppf _ y classes hcl _ _ (fun _ => hs d) (Or.inl (by simp [hX]))]
  rw [h1]
  cases seqFin fun d => computeBincuts ppf (X.map fun row => row d) y classes cfg.nBins cfg.strategy none with
  | error e => rfl
  | ok cuts =>
    simp only [Except.map]
    have hl : y.length = (u.sample X).length := by simp [Units.sample, hX]
    rw [if_neg (not_not.2 hl), if_neg (not_not.2 hX)]
    have h2 : ∀ c : Fin classes.length, histBlocks (fun (d : Fin nf) (row : Fin nf → ℝ) => row d) (fun d i => cutConv (u.factor d) (u.shift d) (cuts d i)) (selectRows y (u.sample X) classes[c])
        = histBlocks (fun d row => row d) cuts (selectRows y X classes[c]) := by
      intro c
      rw [show selectRows y (u.sample X) classes[c] = u.sample (selectRows y X classes[c]) from Proof.selectRows_map _ _ _ _, histBlocks_conv]
    simp only [h2]
    cases seqFin fun c : Fin classes.length => histBlocks (fun (d : Fin nf) (row : Fin nf → ℝ) => row d) cuts (selectRows y X classes[c]) <;> rfl

theorem dfxTest_conv {nc : ℕ} (cfg : DfCfg) (u : Units nf) (f : DfFit nf cfg.nBins nc) (bag : List (Fin nf → ℝ)) :
    dfxTest cfg ⟨fun d i => cutConv (u.factor d) (u.shift d) (f.cuts d i), f.train⟩ (u.sample bag) = dfxTest cfg f bag := by
  unfold dfxTest dfTest
  rw [histBlocks_conv]

theorem dfxAnswers_conv {nc : ℕ} (sv : CvxSolver) (qp : QPSolver) (tol : ℝ) (cfg : DfCfg) (distance : DfDistance (nf * cfg.nBins)) (u : Units nf) (f : DfFit nf cfg.nBins nc) (bags : List (List (Fin nf → ℝ))) :
    ∀ s, dfxAnswers sv qp tol cfg distance ⟨fun d i => cutConv (u.factor d) (u.shift d) (f.cuts d i), f.train⟩ s (bags.map u.sample) = dfxAnswers sv qp tol cfg distance f s bags := by
  induction bags with
  | nil => intro s; rfl
  | cons bag bags ih =>
    intro s
    simp only [List.map_cons, dfxAnswers, dfxTest_conv]
    cases dfxTest cfg f bag with
    | error e => exact congrArg _ (ih s)
    | ok q => exact congrArg _ (ih _)

/-- **C149** for DFX and HDX: training set and bags in other units give the same answers (or the same failures), with every distance and every solver, deterministic as the arguments say. -/
theorem C149_dfx (ppf : ℝ → EReal) (sv : CvxSolver) (qp : QPSolver) (tol : ℝ) (cfg : DfCfg) (distance : DfDistance (nf * cfg.nBins)) (classes : List α) (la : LinAlg classes.length) (fuel : ℕ) (y : List α)
    (hcl : ∀ c ∈ classes, c ∈ y) (X : List (Fin nf → ℝ)) (hX : y.length = X.length) (hs : ∀ d, Spread cfg.strategy classes (y.zip (X.map fun row => row d))) (u : Units nf) (bags : List (List (Fin nf → ℝ))) :
    dfxRun ppf sv qp tol cfg distance classes la fuel y (u.sample X) (bags.map u.sample) = dfxRun ppf sv qp tol cfg distance classes la fuel y X bags := by
  unfold dfxRun
  rw [dfxFit_conv ppf cfg classes y hcl X hX u hs]
  cases dfxFit ppf cfg classes y X with
  | error e => rfl
  | ok f =>
    simp only [Except.map]
    cases matchParams la fuel distance f.train with
    | error e => rfl
    | ok par => exact congrArg Except.ok (dfxAnswers_conv sv qp tol cfg distance u f bags _)

end

/-- Non-vacuity: four examples of two classes, one feature that varies in the training set and within the classes. -/
example : (∀ c ∈ [(1 : ℤ), 2], c ∈ [(1 : ℤ), 1, 2, 2])
    ∧ ∀ st, Spread st [(1 : ℤ), 2] ([(1 : ℤ), 1, 2, 2].zip (([![0], ![1], ![2], ![5]] : List (Fin 1 → ℝ)).map fun row => row 0)) := by
  refine ⟨by decide, fun st => ?_⟩
  cases st
  · exact ⟨0, by simp, 1, by simp, by norm_num⟩
  · trivial
  · exact ⟨1, by simp, 0, by simp [ofClass], 1, by simp [ofClass], by norm_num⟩
  · exact ⟨0, by simp, 1, by simp, by norm_num⟩
  · trivial

/-! ## Features that do not vary -/

theorem const_of_not_varies {l : List ℝ} (h : ¬ Varies l) : ∃ v, ∀ w ∈ l, w = v := by
  cases l with
  | nil => exact ⟨0, fun w hw => by cases hw⟩
  | cons a l => exact ⟨a, fun w hw => by_contra fun hne => h ⟨w, hw, a, by simp, hne⟩⟩

section
variable {α : Type} [DecidableEq α]

theorem histCum_const {x : List ℝ} {v : ℝ} (h : ∀ w ∈ x, w = v) {n : ℕ} (edges : Fin (n + 1) → EReal) (i : Fin (n + 1)) : histCum x edges i = x.length * histCum [v] edges i := by
  have hx : x = List.replicate x.length v := List.eq_replicate_iff.2 ⟨rfl, h⟩
  rw [hx]
  unfold histCum
  simp only [List.countP_replicate, List.length_replicate, List.countP_singleton]
  split_ifs <;> simp

theorem equalWidth_ok (ppf : ℝ → EReal) (x : List ℝ) (y classes : List α) {n : ℕ} (hn : 0 < n) (hx : x ≠ []) : ∃ cuts, computeBincuts ppf x y classes n .equalWidth none = .ok cuts ∧ Monotone cuts := by
  unfold computeBincuts binRange
  dsimp only
  cases hmin : x.min? with
  | none => exact absurd (List.min?_eq_none_iff.1 hmin) hx
  | some a =>
    cases hmax : x.max? with
    | none => exact absurd (List.max?_eq_none_iff.1 hmax) hx
    | some b =>
      dsimp only
      have hab : a ≤ b := (List.min?_eq_some_iff.1 hmin).2 b (List.max?_eq_some_iff.1 hmax).1
      obtain ⟨e, he, hm⟩ := binEdges_mono hn hab
      rw [he]
      exact ⟨_, rfl, (cutsOk_of_inner hn (fun i => e i) fun i j _ hij _ => hm _ _ hij).mono⟩

/-- The bins of one feature: in the new units the histograms are the same, or the feature is constant in the training set. -/
theorem bincuts_cases {A : ℝ} (hA : 0 < A) (B : ℝ) (ppf : ℝ → EReal) (x : List ℝ) (y classes : List α) (hcl : ∀ c ∈ classes, c ∈ y) (n : ℕ) (st : BinStrategy) (hst : st ≠ .binormal) (h : x.length = y.length)
    (cuts : Fin (n + 1) → EReal) (hc : computeBincuts ppf x y classes n st none = .ok cuts) :
    ∃ cuts', computeBincuts ppf (x.map fun v => A * v + B) y classes n st none = .ok cuts'
      ∧ ((cuts' = fun i => cutConv A B (cuts i)) ∨ ((∃ v, ∀ w ∈ x, w = v) ∧ (∀ i : Fin n, cuts i.castSucc ≤ cuts i.succ) ∧ ∀ i : Fin n, cuts' i.castSucc ≤ cuts' i.succ)) := by
  by_cases hs : Spread st classes (y.zip x)
  · refine ⟨_, ?_, Or.inl rfl⟩
    rw [computeBincuts_conv hA B ppf x y classes hcl n st (fun _ => hs) (Or.inl h), hc]
    rfl
  · have hnv : ¬ Varies x := by
      cases st with
      | equalWidth => simpa only [Spread, List.map_snd_zip h.le] using hs
      | normal => simpa only [Spread, List.map_snd_zip h.le] using hs
      | equalCount => exact absurd trivial hs
      | other => exact absurd trivial hs
      | binormal => exact absurd rfl hst
    have hv := const_of_not_varies hnv
    have step : ∀ {c : Fin (n + 1) → EReal}, Monotone c → ∀ i : Fin n, c i.castSucc ≤ c i.succ := fun hc i => hc i.castSucc_lt_succ.le
    cases st with
    | equalCount => exact absurd trivial hs
    | other => exact absurd trivial hs
    | binormal => exact absurd rfl hst
    | equalWidth =>
      have hne : x ≠ [] := by
        rintro rfl
        cases hc
      have hn : 0 < n := by
        rcases Nat.eq_zero_or_pos n with h0 | h0
        · exfalso
          unfold computeBincuts at hc
          dsimp only at hc
          split at hc
          · cases hc
          · unfold binEdges at hc
            rw [if_pos h0] at hc
            cases hc
        · exact h0
      obtain ⟨c1, h1, m1⟩ := equalWidth_ok ppf x y classes hn hne
      obtain ⟨c2, h2, m2⟩ := equalWidth_ok ppf (x.map fun v => A * v + B) y classes hn (by simpa using hne)
      obtain rfl := Except.ok.inj (h1.symm.trans hc)
      exact ⟨c2, h2, Or.inr ⟨hv, step m1, step m2⟩⟩
    | normal =>
      unfold computeBincuts at hc ⊢
      dsimp only at hc ⊢
      rw [List.length_map, if_neg (not_not.2 h)] at *
      by_cases hx : x = []
      · rw [if_pos hx] at hc
        cases hc
      · rw [if_neg hx] at hc
        rw [if_neg (by simpa using hx), normalParams_conv hA B x y classes h hx]
        by_cases hp : 0 < (normalParams x y classes).2
        · exact ⟨_, by rw [normalCuts_conv hA B ppf n _ hp, hc]; rfl, Or.inl rfl⟩
        · unfold normalCuts at hc ⊢
          rw [if_neg hp] at hc
          rw [if_neg (show ¬ 0 < A * (normalParams x y classes).2 from fun h => hp ((pos_iff_pos_of_mul_pos h).1 hA))]
          refine ⟨cuts, hc, Or.inr ⟨hv, ?_, ?_⟩⟩
          all_goals
            rcases Nat.eq_zero_or_pos n with h0 | h0
            · subst h0; intro i; exact i.elim0
            · obtain ⟨e, he, hm⟩ := binEdges_mono h0 (le_refl (0 : ℝ))
              rw [he] at hc
              obtain rfl := Except.ok.inj hc
              exact fun i => EReal.coe_le_coe_iff.2 (hm _ _ (by simp))

/-- The share of the bins of one feature. -/
noncomputable def featureHist {nf nb : ℕ} (cuts : Fin (nb + 1) → EReal) (d : Fin nf) (rows : List (Fin nf → ℝ)) : Except Err (Fin nb → ℝ) :=
  (npHistogram (rows.map fun row => row d) cuts).map fun h b => h b / rows.length

theorem featureHist_const {nf nb : ℕ} (cuts : Fin (nb + 1) → EReal) (hm : ∀ i : Fin nb, cuts i.castSucc ≤ cuts i.succ) (d : Fin nf) (v : ℝ) :
    ∃ w, ∀ rows : List (Fin nf → ℝ), rows ≠ [] → (∀ row ∈ rows, row d = v) → featureHist cuts d rows = .ok w := by
  refine ⟨fun b => histCum [v] cuts b.succ - histCum [v] cuts b.castSucc, fun rows hne hr => ?_⟩
  have hl : (rows.length : ℝ) ≠ 0 := by simpa using hne
  have hc : ∀ w ∈ rows.map fun row => row d, w = v := by
    intro w hw
    obtain ⟨row, h, rfl⟩ := List.mem_map.1 hw
    exact hr row h
  unfold featureHist npHistogram
  rw [if_pos hm]
  refine congrArg Except.ok (funext fun b => ?_)
  dsimp only
  rw [histCum_const hc, histCum_const hc, List.length_map, ← mul_sub, mul_div_cancel_left₀ _ hl]

theorem featureHist_ok {nf nb : ℕ} (cuts : Fin (nb + 1) → EReal) (hm : ∀ i : Fin nb, cuts i.castSucc ≤ cuts i.succ) (d : Fin nf) (rows : List (Fin nf → ℝ)) : ∃ w, featureHist cuts d rows = .ok w := by
  unfold featureHist npHistogram
  rw [if_pos hm]
  exact ⟨_, rfl⟩

theorem featureHist_conv {nf nb : ℕ} (u : Units nf) (cuts : Fin (nb + 1) → EReal) (d : Fin nf) (rows : List (Fin nf → ℝ)) :
    featureHist (fun i => cutConv (u.factor d) (u.shift d) (cuts i)) d (u.sample rows) = featureHist cuts d rows := by
  unfold featureHist
  rw [column_conv, npHistogram_conv (u.pos d)]
  simp [Units.sample]

/-- What `accumulate` does with each block. -/
noncomputable def blockRep (f : DistFun) {nb : ℕ} (v : Fin nb → ℝ) : Fin nb → ℝ :=
  match f with
  | .pdf => v
  | .cdf => cumsum v

theorem accumulate_perBlock (f : DistFun) {nd nb : ℕ} (v : Fin nd → Fin nb → ℝ) (d : Fin nd) (b : Fin nb) : accumulate .perBlock f v (finProdFinEquiv (d, b)) = blockRep f (v d) b := by
  cases f <;> simp [accumulate, blockRep, stackBlocks]

theorem dfxFit_iff {nf : ℕ} (ppf : ℝ → EReal) (cfg : DfCfg) (classes y : List α) (X : List (Fin nf → ℝ)) (hX : y.length = X.length) (fit : DfFit nf cfg.nBins classes.length) :
    dfxFit ppf cfg classes y X = .ok fit ↔ (∀ d, computeBincuts ppf (X.map fun row => row d) y classes cfg.nBins cfg.strategy none = .ok (fit.cuts d))
      ∧ ∃ v : Fin classes.length → Fin nf → Fin cfg.nBins → ℝ, (∀ c d, featureHist (fit.cuts d) d (selectRows y X classes[c]) = .ok (v c d)) ∧ fit.train = fun i c => accumulate .perBlock cfg.f (v c) i := by
  unfold dfxFit dfFit
  constructor
  · intro h
    split at h
    · cases h
    · rename_i cuts hcuts
      rw [if_neg (not_not.2 hX)] at h
      split at h
      · cases h
      · rename_i v hv
        obtain rfl := Except.ok.inj h
        refine ⟨(seqFin_ok _ _).1 hcuts, v, fun c => ?_, rfl⟩
        have := (seqFin_ok _ _).1 hv c
        exact (seqFin_ok _ _).1 this
  · rintro ⟨h1, v, h2, h3⟩
    have e1 : (seqFin fun d => computeBincuts ppf (X.map fun row => row d) y classes cfg.nBins cfg.strategy none) = .ok fit.cuts := (seqFin_ok _ _).2 h1
    have e2 : (seqFin fun c : Fin classes.length => histBlocks (fun (d : Fin nf) (row : Fin nf → ℝ) => row d) fit.cuts (selectRows y X classes[c])) = .ok v :=
      (seqFin_ok _ _).2 fun c => (seqFin_ok _ _).2 (h2 c)
    rw [e1]
    dsimp only
    rw [if_neg (not_not.2 hX), e2]
    dsimp only
    rw [← h3]

theorem dfxTest_iff {nf nc : ℕ} (cfg : DfCfg) (fit : DfFit nf cfg.nBins nc) (bag : List (Fin nf → ℝ)) (q : Fin (nf * cfg.nBins) → ℝ) :
    dfxTest cfg fit bag = .ok q ↔ ∃ v : Fin nf → Fin cfg.nBins → ℝ, (∀ d, featureHist (fit.cuts d) d bag = .ok (v d)) ∧ q = accumulate .perBlock cfg.f v := by
  unfold dfxTest dfTest histBlocks
  constructor
  · intro h
    cases hv : (seqFin fun d => (npHistogram (bag.map fun row => row d) (fit.cuts d)).map fun (h : Fin cfg.nBins → ℝ) b => h b / (bag.length : ℝ)) with
    | error e => rw [hv] at h; cases h
    | ok v =>
      rw [hv] at h
      exact ⟨v, (seqFin_ok _ _).1 hv, (Except.ok.inj h).symm⟩
  · rintro ⟨v, h, rfl⟩
    have : (seqFin fun d => (npHistogram (bag.map fun row => row d) (fit.cuts d)).map fun (h : Fin cfg.nBins → ℝ) b => h b / (bag.length : ℝ)) = .ok v := (seqFin_ok _ _).2 h
    rw [this]
    rfl

/-- The terms of the named distances. -/
noncomputable def DistName.term (nm : DistName) (a b : ℝ) : ℝ :=
  match nm with
  | .hd => (Real.sqrt a - Real.sqrt b) ^ 2
  | .l1 => |a - b|
  | .l2 => (a - b) ^ 2

theorem DistName.le_iff (nm : DistName) {m : ℕ} (q s t : Fin m → ℝ) : nm.dist q s ≤ nm.dist q t ↔ ∑ i, nm.term (q i) (s i) ≤ ∑ i, nm.term (q i) (t i) := by
  cases nm with
  | l1 => rfl
  | hd => exact Real.sqrt_le_sqrt_iff (Finset.sum_nonneg fun i _ => by positivity)
  | l2 => exact Real.sqrt_le_sqrt_iff (Finset.sum_nonneg fun i _ => by positivity)

/-- Blocks that are the same, and blocks in which the classes are the same, do not change which mixture is closer. -/
theorem closer_conv (nm : DistName) {nd nb nc : ℕ} (q q' : Fin (nd * nb) → ℝ) (T T' : Matrix (Fin (nd * nb)) (Fin nc) ℝ)
    (h : ∀ d : Fin nd, (∀ b : Fin nb, q' (finProdFinEquiv (d, b)) = q (finProdFinEquiv (d, b)) ∧ ∀ c, T' (finProdFinEquiv (d, b)) c = T (finProdFinEquiv (d, b)) c)
      ∨ ∀ b : Fin nb, ∃ t t', ∀ c, T (finProdFinEquiv (d, b)) c = t ∧ T' (finProdFinEquiv (d, b)) c = t')
    (p z : Fin nc → ℝ) (hp : IsPrev p) (hz : IsPrev z) : nm.dist q (mixtureOf T p) ≤ nm.dist q (mixtureOf T z) ↔ nm.dist q' (mixtureOf T' p) ≤ nm.dist q' (mixtureOf T' z) := by
  rw [DistName.le_iff, DistName.le_iff, ← sub_nonneg, ← sub_nonneg (b := ∑ i, nm.term (q' i) (mixtureOf T' p i)), ← Finset.sum_sub_distrib, ← Finset.sum_sub_distrib]
  have : ∀ i, nm.term (q i) (mixtureOf T z i) - nm.term (q i) (mixtureOf T p i) = nm.term (q' i) (mixtureOf T' z i) - nm.term (q' i) (mixtureOf T' p i) := by
    intro i
    obtain ⟨⟨d, b⟩, rfl⟩ := finProdFinEquiv.surjective i
    rcases h d with h | h
    · obtain ⟨h1, h2⟩ := h b
      unfold mixtureOf
      rw [h1]
      simp only [h2]
    · obtain ⟨t, t', h⟩ := h b
      have e : ∀ x : Fin nc → ℝ, IsPrev x → mixtureOf T x (finProdFinEquiv (d, b)) = t ∧ mixtureOf T' x (finProdFinEquiv (d, b)) = t' := fun x hx => by
        unfold mixtureOf
        simp only [(h _).1, (h _).2, ← Finset.mul_sum, hx.2, mul_one, and_self]
      rw [(e z hz).1, (e z hz).2, (e p hp).1, (e p hp).2, sub_self, sub_self]
  simp only [this]

/-- **C149** for DFX and HDX with any training set and all the strategies but 'binormal', also with features that do not vary: the prevalences that are the closest to a bag in the new units are those that are the closest to it in the
old ones (the order is the same). -/
theorem C149_dfx_closest {nf : ℕ} (ppf : ℝ → EReal) (nm : DistName) (cfg : DfCfg) (hst : cfg.strategy ≠ .binormal) (classes y : List α) (hcl : ∀ c ∈ classes, c ∈ y) (X : List (Fin nf → ℝ)) (hX : y.length = X.length)
    (u : Units nf) (fit : DfFit nf cfg.nBins classes.length) (hfit : dfxFit ppf cfg classes y X = .ok fit) (bag : List (Fin nf → ℝ)) (q : Fin (nf * cfg.nBins) → ℝ) (hq : dfxTest cfg fit bag = .ok q) :
    ∃ fit' q', dfxFit ppf cfg classes y (u.sample X) = .ok fit' ∧ dfxTest cfg fit' (u.sample bag) = .ok q'
      ∧ ∀ p z, IsPrev p → IsPrev z → (nm.dist q (mixtureOf fit.train p) ≤ nm.dist q (mixtureOf fit.train z) ↔ nm.dist q' (mixtureOf fit'.train p) ≤ nm.dist q' (mixtureOf fit'.train z)) := by
  have hX' : y.length = (u.sample X).length := by simp [Units.sample, hX]
  obtain ⟨hc, v, hv, hT⟩ := (dfxFit_iff ppf cfg classes y X hX fit).1 hfit
  obtain ⟨w, hw, hqw⟩ := (dfxTest_iff cfg fit bag q).1 hq
  have hr : ∀ c : Fin classes.length, selectRows y X classes[c] ≠ [] := fun c => selectRows_ne hX (hcl _ (List.getElem_mem _))
  have hsel : ∀ c : Fin classes.length, selectRows y (u.sample X) classes[c] = u.sample (selectRows y X classes[c]) := fun c => Proof.selectRows_map _ _ _ _
  have hsub : ∀ c : Fin classes.length, ∀ row ∈ selectRows y X classes[c], row ∈ X := by
    intro c row h
    unfold selectRows at h
    obtain ⟨t, ht, rfl⟩ := List.mem_map.1 h
    exact (List.of_mem_zip (a := t.1) (b := t.2) (List.mem_filter.1 ht).1).2
  have hf : ∀ d, ∃ cuts' : Fin (cfg.nBins + 1) → EReal, ∃ v' : Fin classes.length → Fin cfg.nBins → ℝ, ∃ w' : Fin cfg.nBins → ℝ,
      computeBincuts ppf ((u.sample X).map fun row => row d) y classes cfg.nBins cfg.strategy none = .ok cuts'
      ∧ (∀ c : Fin classes.length, featureHist cuts' d (selectRows y (u.sample X) classes[c]) = .ok (v' c)) ∧ featureHist cuts' d (u.sample bag) = .ok w'
      ∧ ((w' = w d ∧ ∀ c, v' c = v c d) ∨ ∃ t t', ∀ c, v c d = t ∧ v' c = t') := by
    intro d
    obtain ⟨cuts', h1, h2⟩ := bincuts_cases (u.pos d) (u.shift d) ppf (X.map fun row => row d) y classes hcl cfg.nBins cfg.strategy hst (by simp [hX]) (fit.cuts d) (hc d)
    rw [← column_conv] at h1
    rcases h2 with rfl | ⟨⟨x0, hx0⟩, m1, m2⟩
    · refine ⟨_, fun c => v c d, w d, h1, fun c => ?_, ?_, Or.inl ⟨rfl, fun c => rfl⟩⟩
      · rw [hsel, featureHist_conv, hv c d]
      · rw [featureHist_conv, hw d]
    · obtain ⟨t, ht⟩ := featureHist_const (fit.cuts d) m1 d x0
      obtain ⟨t', ht'⟩ := featureHist_const cuts' m2 d (u.factor d * x0 + u.shift d)
      obtain ⟨w', hw'⟩ := featureHist_ok cuts' m2 d (u.sample bag)
      have hx : ∀ c : Fin classes.length, ∀ row ∈ selectRows y X classes[c], row d = x0 := fun c row h => hx0 _ (List.mem_map.2 ⟨row, hsub c row h, rfl⟩)
      refine ⟨cuts', fun _ => t', w', h1, fun c => ?_, hw', Or.inr ⟨t, t', fun c => ⟨?_, rfl⟩⟩⟩
      · rw [hsel]
        refine ht' _ (by simpa [Units.sample] using hr c) fun row h => ?_
        obtain ⟨r, hr', rfl⟩ := List.mem_map.1 h
        exact congrArg (fun a => u.factor d * a + u.shift d) (hx c r hr')
      · exact Except.ok.inj ((hv c d).symm.trans (ht _ (hr c) (hx c)))
  choose cuts' v' w' k1 k2 k3 k4 using hf
  refine ⟨⟨cuts', fun i c => accumulate .perBlock cfg.f (fun d => v' d c) i⟩, accumulate .perBlock cfg.f w', (dfxFit_iff ppf cfg classes y _ hX' _).2 ⟨k1, fun c d => v' d c, fun c d => k2 d c, rfl⟩,
    (dfxTest_iff cfg _ _ _).2 ⟨w', k3, rfl⟩, closer_conv nm _ _ _ _ fun d => ?_⟩
  rw [hqw, hT]
  simp only [accumulate_perBlock]
  rcases k4 d with ⟨h1, h2⟩ | ⟨t, t', h⟩
  · exact Or.inl fun b => ⟨by rw [h1], fun c => by rw [h2]⟩
  · exact Or.inr fun b => ⟨blockRep cfg.f t b, blockRep cfg.f t' b, fun c => ⟨by rw [(h c).1], by rw [(h c).2]⟩⟩

end

/-- Non-vacuity: a training set with a second feature that does not vary, and a bag in which it has another value. -/
example (ppf : ℝ → EReal) : ∃ fit q, dfxFit ppf ⟨.pdf, 4, .equalWidth⟩ [(1 : ℤ), 2] [1, 2] [![0, 7], ![(1 : ℝ), 7]] = .ok fit ∧ dfxTest ⟨.pdf, 4, .equalWidth⟩ fit [![1, 8]] = .ok q
    ∧ ¬ Varies ([![0, 7], ![(1 : ℝ), 7]].map fun row => row 1) := by
  choose cuts h1 h2 using fun d : Fin 2 => equalWidth_ok ppf ([![0, 7], ![(1 : ℝ), 7]].map fun row => row d) [(1 : ℤ), 2] [1, 2] (n := 4) (by norm_num) (by simp)
  have hm : ∀ d, ∀ i : Fin 4, cuts d i.castSucc ≤ cuts d i.succ := fun d i => h2 d i.castSucc_lt_succ.le
  choose v hv using fun (c : Fin 2) (d : Fin 2) => featureHist_ok (cuts d) (hm d) d (selectRows [(1 : ℤ), 2] [![0, 7], ![(1 : ℝ), 7]] [(1 : ℤ), 2][c])
  choose w hw using fun (d : Fin 2) => featureHist_ok (cuts d) (hm d) d [![(1 : ℝ), 8]]
  refine ⟨⟨cuts, _⟩, _, (dfxFit_iff ppf ⟨.pdf, 4, .equalWidth⟩ [(1 : ℤ), 2] [1, 2] _ rfl _).2 ⟨h1, v, hv, rfl⟩, (dfxTest_iff ⟨.pdf, 4, .equalWidth⟩ _ _ _).2 ⟨w, hw, rfl⟩, ?_⟩
  rintro ⟨a, ha, b, hb, h⟩
  simp at ha hb
  exact h (ha.trans hb.symm)

/-! ## 'binormal' with features that do not vary within the classes -/

/-- The cut points when the standard deviations are null. -/
theorem binormal_null (ppf : ℝ → EReal) (a b : ℝ) : computeBincuts ppf [a, b] [(1 : ℤ), 2] [1, 2] 2 .binormal none = .ok ![((-1/2 : ℝ) : EReal), ((0 : ℝ) : EReal), ((1/2 : ℝ) : EReal)] := by
  have hp : (binormalParams [a, b] [(1 : ℤ), 2] [1, 2]).2 = 0 := by simp [binormalParams, selectRows, npStd, npMean]
  unfold computeBincuts
  dsimp only
  rw [if_neg (by simp), if_neg (by simp)]
  unfold normalCuts binEdges
  rw [hp, if_neg (lt_irrefl _), if_neg (by norm_num), if_neg (lt_irrefl _), if_pos rfl]
  refine congrArg Except.ok (funext fun i => ?_)
  fin_cases i
  all_goals exact congrArg Real.toEReal (by norm_num [linspace])

theorem nullHist (v : ℝ) (w : Fin 2 → ℝ) (h0 : w 0 = (if v < 0 then 1 else 0) - (if v < -1/2 then 1 else 0)) (h1 : w 1 = (if v ≤ 1/2 then 1 else 0) - (if v < 0 then 1 else 0)) :
    featureHist (nf := 1) (nb := 2) ![((-1/2 : ℝ) : EReal), ((0 : ℝ) : EReal), ((1/2 : ℝ) : EReal)] 0 [![v]] = .ok w := by
  unfold featureHist npHistogram
  rw [if_pos]
  · refine congrArg Except.ok (funext fun b => ?_)
    fin_cases b
    · show _ = w 0
      rw [h0]
      simp [histCum, Fin.ext_iff]
    · show _ = w 1
      rw [h1]
      simp [histCum, Fin.ext_iff]
  · intro i
    fin_cases i
    all_goals exact EReal.coe_le_coe_iff.2 (by norm_num)

/-- One training example of each class and a bag of one example, with the null cut points. -/
theorem binormal_run (ppf : ℝ → EReal) (sv : CvxSolver) (hsv : ExactCvx sv) (qp : QPSolver) (hqp : ExactQP qp) (tol : ℝ) (la : LinAlg 2) (hla : ExactLinAlg la) (fuel : ℕ) (a b v : ℝ) (wa wb wv : Fin 2 → ℝ)
    (ha : featureHist (nf := 1) (nb := 2) ![((-1/2 : ℝ) : EReal), ((0 : ℝ) : EReal), ((1/2 : ℝ) : EReal)] 0 [![a]] = .ok wa)
    (hb : featureHist (nf := 1) (nb := 2) ![((-1/2 : ℝ) : EReal), ((0 : ℝ) : EReal), ((1/2 : ℝ) : EReal)] 0 [![b]] = .ok wb)
    (hv : featureHist (nf := 1) (nb := 2) ![((-1/2 : ℝ) : EReal), ((0 : ℝ) : EReal), ((1/2 : ℝ) : EReal)] 0 [![v]] = .ok wv)
    (h0 : ∀ j, 0 ≤ wa j ∧ 0 ≤ wb j ∧ 0 ≤ wv j) :
    ∃ x : Fin 2 → ℝ, dfxRun ppf sv qp tol (nf := 1) ⟨.pdf, 2, .binormal⟩ .l1 [(1 : ℤ), 2] la (fuel + 1) [1, 2] [![a], ![b]] [[![v]]] = .ok [.ok (some (realList x))] ∧ IsPrev x
      ∧ ∀ p : Fin 2 → ℝ, IsPrev p → ∑ j, |wv j - (wa j * x 0 + wb j * x 1)| ≤ ∑ j, |wv j - (wa j * p 0 + wb j * p 1)| := by
  let cuts : Fin 1 → Fin (2 + 1) → EReal := fun _ => ![((-1/2 : ℝ) : EReal), ((0 : ℝ) : EReal), ((1/2 : ℝ) : EReal)]
  let T : Matrix (Fin (1 * 2)) (Fin 2) ℝ := fun i c => accumulate (nd := 1) (nb := 2) .perBlock .pdf (fun _ => ![wa, wb] c) i
  let q : Fin (1 * 2) → ℝ := accumulate (nd := 1) (nb := 2) .perBlock .pdf (fun _ => wv)
  have hfit : dfxFit ppf ⟨.pdf, 2, .binormal⟩ [(1 : ℤ), 2] [1, 2] [![a], ![b]] = .ok ⟨cuts, T⟩ := by
    refine (dfxFit_iff ppf ⟨.pdf, 2, .binormal⟩ [(1 : ℤ), 2] [1, 2] _ rfl _).2 ⟨fun d => ?_, fun c _ => ![wa, wb] c, fun c d => ?_, rfl⟩
    · obtain rfl : d = 0 := Subsingleton.elim _ _
      exact binormal_null ppf a b
    · obtain rfl : d = 0 := Subsingleton.elim _ _
      change Fin 2 at c
      fin_cases c
      · exact ha
      · exact hb
  have hq : dfxTest ⟨.pdf, 2, .binormal⟩ ⟨cuts, T⟩ [![v]] = .ok q := by
    refine (dfxTest_iff ⟨.pdf, 2, .binormal⟩ _ _ _).2 ⟨fun _ => wv, fun d => ?_, rfl⟩
    obtain rfl : d = 0 := Subsingleton.elim _ _
    exact hv
  have hTn : ∀ k j, 0 ≤ T k j := by
    intro k j
    fin_cases j
    · exact (h0 _).1
    · exact (h0 _).2.1
  obtain ⟨par, x, h1, h2, -, h3, h4⟩ := matchAnswer_closest sv hsv qp hqp (by norm_num) la hla fuel tol (.l1 : DfDistance (1 * 2)) rfl () T hTn trivial q fun k => (h0 _).2.2
  refine ⟨x, ?_, h3, fun p hp => ?_⟩
  · unfold dfxRun
    rw [hfit]
    dsimp only
    obtain rfl : par = none := (Except.ok.inj h1).symm
    show Except.ok (dfxAnswers sv qp tol ⟨.pdf, 2, .binormal⟩ (.l1 : DfDistance (1 * 2)) ⟨cuts, T⟩ ⟨(), T, none, none, none⟩ [[![v]]]) = _
    unfold dfxAnswers
    rw [hq]
    dsimp only
    unfold dfxAnswers
    rw [h2]
  · have e : ∀ z : Fin 2 → ℝ, totalError q (mixtureOf T z) = ∑ j : Fin 2, |wv j - (wa j * z 0 + wb j * z 1)| := by
      intro z
      unfold totalError
      refine Fintype.sum_equiv (finProdFinEquiv.symm.trans (Equiv.uniqueProd (Fin 2) (Fin 1))) _ _ fun i => ?_
      obtain ⟨⟨d, j⟩, rfl⟩ := finProdFinEquiv.surjective i
      simp only [mixtureOf, Fin.sum_univ_two, q, T, accumulate_perBlock]
      simp [blockRep]
    rw [← e, ← e]
    exact h4 p hp

/-- **C149** is false for DFX with 'binormal' when a feature does not vary within the classes: the cut points are around 0 in whatever units. Moving the origin of the feature by one half turns "all of class 1" into "all of class 2". -/
theorem C149_binormal_refuted (ppf : ℝ → EReal) (sv : CvxSolver) (hsv : ExactCvx sv) (qp : QPSolver) (hqp : ExactQP qp) (tol : ℝ) (la : LinAlg 2) (hla : ExactLinAlg la) (fuel : ℕ) :
    ∃ u : Units 1, dfxRun ppf sv qp tol (nf := 1) ⟨.pdf, 2, .binormal⟩ .l1 [(1 : ℤ), 2] la (fuel + 1) [1, 2] [![0], ![1]] [[![1/2]]] = .ok [.ok (some [.fin 1, .fin 0])]
      ∧ dfxRun ppf sv qp tol (nf := 1) ⟨.pdf, 2, .binormal⟩ .l1 [(1 : ℤ), 2] la (fuel + 1) [1, 2] (u.sample [![0], ![1]]) ([[![1/2]]].map u.sample) = .ok [.ok (some [.fin 0, .fin 1])] := by
  refine ⟨⟨fun _ => 1, fun _ => -1/2, fun _ => one_pos⟩, ?_, ?_⟩
  · obtain ⟨x, h1, h2, h3⟩ := binormal_run ppf sv hsv qp hqp tol la hla fuel 0 1 (1/2) ![0, 1] ![0, 0] ![0, 1] (nullHist _ _ (by norm_num) (by norm_num)) (nullHist _ _ (by norm_num) (by norm_num))
      (nullHist _ _ (by norm_num) (by norm_num)) (fun j => by fin_cases j <;> simp)
    rw [h1]
    have h4 := h3 ![1, 0] ⟨fun i => by fin_cases i <;> simp, by simp⟩
    have h5 := h2.2
    simp [Fin.sum_univ_two] at h4 h5
    have e0 : x 0 = 1 := by
      have : 1 - x 0 = 0 := by simpa using h4
      linarith
    have e1 : x 1 = 0 := by linarith
    simp [realList, List.ofFn_succ, e0, e1]
  · have hs : ∀ v : ℝ, (⟨fun _ => 1, fun _ => -1/2, fun _ => one_pos⟩ : Units 1).conv ![v] = ![v - 1/2] := fun v => by
      funext i
      fin_cases i
      simp [Units.conv]
      ring
    simp only [Units.sample, List.map_cons, List.map_nil, hs]
    obtain ⟨x, h1, h2, h3⟩ := binormal_run ppf sv hsv qp hqp tol la hla fuel (0 - 1/2) (1 - 1/2) (1/2 - 1/2) ![1, 0] ![0, 1] ![0, 1] (nullHist _ _ (by norm_num) (by norm_num)) (nullHist _ _ (by norm_num) (by norm_num))
      (nullHist _ _ (by norm_num) (by norm_num)) (fun j => by fin_cases j <;> simp)
    rw [h1]
    have h4 := h3 ![0, 1] ⟨fun i => by fin_cases i <;> simp, by simp⟩
    have h5 := h2.2
    simp [Fin.sum_univ_two] at h4 h5
    have p0 := h2.1 0
    have e0 : x 0 = 0 := by
      have k1 := abs_nonneg (x 0)
      have k2 := abs_nonneg (1 - x 1)
      exact abs_eq_zero.1 (by linarith)
    have e1 : x 1 = 1 := by linarith
    simp [realList, List.ofFn_succ, e0, e1]

/-! ## EDX -/

theorem avgDist_scale {P P' : Type*} (d : P → P → ℝ) (d' : P' → P' → ℝ) (φ : P → P') (c : ℝ) (hφ : ∀ u v, d' (φ u) (φ v) = c * d u v) (A B : List P) : avgDist d' (A.map φ) (B.map φ) = c * avgDist d A B := by
  unfold avgDist
  simp only [List.map_map, List.length_map, Function.comp_def, hφ, List.sum_map_mul_left]
  ring

theorem energyLoss_scale {P P' : Type*} {n : ℕ} (d : P → P → ℝ) (d' : P' → P' → ℝ) (φ : P → P') (c : ℝ) (hφ : ∀ u v, d' (φ u) (φ v) = c * d u v) (train : Fin (n + 1) → List P) (test : List P) (p : Fin (n + 1) → ℝ) :
    energyLoss d' (fun i => (train i).map φ) (test.map φ) p = c * energyLoss d train test p := by
  unfold energyLoss
  simp only [avgDist_scale d d' φ c hφ]
  rw [mul_sub, Finset.mul_sum, Finset.mul_sum, Finset.mul_sum, Finset.mul_sum]
  congr 1
  · exact Finset.sum_congr rfl fun i _ => by ring
  · refine Finset.sum_congr rfl fun i _ => ?_
    rw [Finset.mul_sum]
    exact Finset.sum_congr rfl fun j _ => by ring

theorem separated_scale {P P' : Type*} {n : ℕ} (d : P → P → ℝ) (d' : P' → P' → ℝ) (φ : P → P') (c : ℝ) (hc : 0 < c) (hφ : ∀ u v, d' (φ u) (φ v) = c * d u v) (train : Fin (n + 1) → List P) (h : Separated d train) :
    Separated d' fun i => (train i).map φ := by
  intro x hx hne
  have e : ∑ i, ∑ j, x i * x j * avgDist d' ((train i).map φ) ((train j).map φ) = c * ∑ i, ∑ j, x i * x j * avgDist d (train i) (train j) := by
    simp only [avgDist_scale d d' φ c hφ, Finset.mul_sum]
    exact Finset.sum_congr rfl fun i _ => Finset.sum_congr rfl fun j _ => by ring
  rw [e]
  exact mul_neg_of_pos_of_neg hc (h x hx hne)

/-- **C149** for EDX: when all the distances between examples are multiplied by the same factor (all the features in the same unit, as in `manhattan_units` and `euclidean_units`), the answer is the same. -/
theorem C149_edx {α P P' : Type} [DecidableEq α] {n : ℕ} (hn : 0 < n) (qp : QPSolver) (hqp : ExactQP qp) (la : LinAlg n) (fuel : ℕ) (d : P → P → ℝ) (hd : ∀ u v, d u v = d v u) (d' : P' → P' → ℝ)
    (hd' : ∀ u v, d' u v = d' v u) (φ : P → P') (c : ℝ) (hc : 0 < c) (hφ : ∀ u v, d' (φ u) (φ v) = c * d u v) (classes : Fin (n + 1) → α) (y : List α) (hcl : ∀ i, classes i ∈ y) (X : List P)
    (hX : y.length = X.length) (hsep : Separated d fun i => ofClass (y.zip X) (classes i)) (bag : List P) (hb : bag ≠ []) :
    ∃ f f' p, edFit la fuel d classes y X = some f ∧ edFit la fuel d' classes y (X.map φ) = some f' ∧ edPredict qp d f bag = .ok p ∧ edPredict qp d' f' (bag.map φ) = .ok p ∧ IsPrev p := by
  have htrain : ∀ i, ofClass (y.zip X) (classes i) ≠ [] := fun i => selectRows_ne hX (hcl i)
  have hsel : ∀ i, selectRows y (X.map φ) (classes i) = (ofClass (y.zip X) (classes i)).map φ := fun i => Proof.selectRows_map _ _ _ _
  obtain ⟨par, p, h1, h2, h3, h4⟩ := C28_energy hn qp hqp la d hd _ bag htrain hb fuel hsep
  obtain ⟨par', p', h1', h2', h3', h4'⟩ := C28_energy hn qp hqp la d' hd' (fun i => (ofClass (y.zip X) (classes i)).map φ) (bag.map φ) (fun i => by simpa using htrain i) (by simpa using hb) fuel
    (separated_scale d d' φ c hc hφ _ hsep)
  have hpp : p' = p := by
    refine energy_unique d _ hsep bag _ _ h3' h3 (fun x hx => ?_) h4
    have := h4' x hx
    rw [energyLoss_scale d d' φ c hφ, energyLoss_scale d d' φ c hφ] at this
    exact le_of_mul_le_mul_left this hc
  subst hpp
  refine ⟨⟨_, edK d _, par⟩, ⟨_, edK d' _, par'⟩, p', ?_, ?_, h2, h2', h3⟩
  · unfold edFit
    exact congrArg (Option.map _) h1
  · unfold edFit
    simp only [hsel]
    exact congrArg (Option.map _) h1'

/-- A change of units with the same factor for all the features multiplies the distances of scikit-learn by it. -/
theorem manhattan_units {nf : ℕ} (u : Units nf) (c : ℝ) (hc : 0 < c) (hu : ∀ d, u.factor d = c) (a b : Fin nf → ℝ) : manhattan (u.conv a) (u.conv b) = c * manhattan a b := by
  unfold manhattan Units.conv
  rw [Finset.mul_sum]
  refine Finset.sum_congr rfl fun d _ => ?_
  rw [hu, show c * a d + u.shift d - (c * b d + u.shift d) = c * (a d - b d) by ring, abs_mul, abs_of_pos hc]

theorem euclidean_units {nf : ℕ} (u : Units nf) (c : ℝ) (hc : 0 < c) (hu : ∀ d, u.factor d = c) (a b : Fin nf → ℝ) : euclidean (u.conv a) (u.conv b) = c * euclidean a b := by
  unfold euclidean Units.conv
  have : ∑ d, (u.factor d * a d + u.shift d - (u.factor d * b d + u.shift d)) ^ 2 = c ^ 2 * ∑ d, (a d - b d) ^ 2 := by
    rw [Finset.mul_sum]
    refine Finset.sum_congr rfl fun d _ => ?_
    rw [hu]
    ring
  rw [this, Real.sqrt_mul (by positivity), Real.sqrt_sq hc.le]

/-- Non-vacuity: two classes with one example each, told apart by the distance; inches to centimetres. -/
example : Separated (n := 1) manhattan (fun i => ofClass ([(1 : ℤ), 2].zip [![0, 0], ![1, (1 : ℝ)]]) (![(1 : ℤ), 2] i))
    ∧ ∃ u : Units 2, ∀ d, u.factor d = 254 / 100 := by
  refine ⟨?_, ⟨fun _ => 254 / 100, fun _ => 0, fun _ => by norm_num⟩, fun d => rfl⟩
  have hsel : (fun i => ofClass ([(1 : ℤ), 2].zip [![0, 0], ![1, (1 : ℝ)]]) (![(1 : ℤ), 2] i)) = ![[![0, 0]], [![1, 1]]] := by
    funext i
    fin_cases i <;> rfl
  rw [hsel]
  intro c hc hne
  rw [Fin.sum_univ_two] at hc
  have h0 : c 0 ≠ 0 := fun h => hne (funext fun i => by fin_cases i <;> simp [h] <;> linarith)
  have hp : 0 < c 0 ^ 2 := by positivity
  simp only [Fin.sum_univ_two, avgDist, manhattan]
  simp
  rw [show c 1 = -c 0 by linarith]
  nlinarith

/-- **C149** is false for EDX when the features change by different factors: prevalences 1/2 and 1/2 become 1/4 and 3/4. -/
theorem C149_edx_refuted (qp : QPSolver) (hqp : ExactQP qp) (la : LinAlg 1) (fuel : ℕ) :
    ∃ (u : Units 2) (X bag : List (Fin 2 → ℝ)) (f f' : EDFit (Fin 2 → ℝ) 1), edFit la fuel manhattan ![(1 : ℤ), 2] [1, 2] X = some f ∧ edFit la fuel manhattan ![(1 : ℤ), 2] [1, 2] (u.sample X) = some f'
      ∧ edPredict qp manhattan f bag = .ok ![1/2, 1/2] ∧ edPredict qp manhattan f' (u.sample bag) = .ok ![1/4, 3/4] := by
  have main : ∀ a b : ℝ, 0 < a → 0 < b → ∃ (f : EDFit (Fin 2 → ℝ) 1), edFit la fuel manhattan ![(1 : ℤ), 2] [1, 2] [![0, 0], ![a, b]] = some f
      ∧ edPredict qp manhattan f [![a, 0]] = .ok ![b / (a + b), a / (a + b)] := by
    intro a b ha hb
    have hab : 0 < a + b := by positivity
    let train : Fin 2 → List (Fin 2 → ℝ) := ![[![0, 0]], [![a, b]]]
    have hsel : (fun i => selectRows [(1 : ℤ), 2] [![0, 0], ![a, b]] (![(1 : ℤ), 2] i)) = train := by
      funext i
      fin_cases i <;> rfl
    have hsep : Separated (n := 1) manhattan train := by
      intro c hc hne
      rw [Fin.sum_univ_two] at hc
      have h0 : c 0 ≠ 0 := fun h => hne (funext fun i => by fin_cases i <;> simp [h] <;> linarith)
      have hp : 0 < c 0 ^ 2 := by positivity
      simp only [Fin.sum_univ_two, avgDist, manhattan, train]
      simp [abs_of_pos ha, abs_of_pos hb]
      rw [show c 1 = -c 0 by linarith]
      nlinarith [mul_pos hp hab]
    have hsymm : ∀ u v : Fin 2 → ℝ, manhattan u v = manhattan v u := fun u v => Finset.sum_congr rfl fun i _ => abs_sub_comm _ _
    obtain ⟨par, p, h1, h2, h3, h4⟩ := C28_energy (by norm_num) qp hqp la manhattan hsymm train [![a, 0]] (fun i => by fin_cases i <;> simp [train]) (by simp) fuel hsep
    refine ⟨⟨train, edK manhattan train, par⟩, ?_, ?_⟩
    · unfold edFit
      dsimp only
      rw [hsel]
      exact congrArg (Option.map _) h1
    · refine h2.trans (congrArg Except.ok ?_)
      have hl : ∀ x : Fin 2 → ℝ, energyLoss (n := 1) manhattan train [![a, 0]] x = 2 * (x 0 * a + x 1 * b) - 2 * x 0 * x 1 * (a + b) := by
        intro x
        simp only [energyLoss, Fin.sum_univ_two, avgDist, manhattan, train]
        simp [abs_of_pos ha, abs_of_pos hb]
        ring
      have hcand := h4 ![b / (a + b), a / (a + b)] ⟨fun i => by fin_cases i <;> simp <;> positivity, by
        rw [Fin.sum_univ_two]
        simp
        field_simp
        ring⟩
      rw [hl, hl] at hcand
      have h5 := h3.2
      rw [Fin.sum_univ_two] at h5
      have e1 : p 1 = 1 - p 0 := by linarith
      simp only [Matrix.cons_val_zero, Matrix.cons_val_one] at hcand
      rw [e1] at hcand
      have key : 2 * (p 0 * a + (1 - p 0) * b) - 2 * p 0 * (1 - p 0) * (a + b) - (2 * (b / (a + b) * a + a / (a + b) * b) - 2 * (b / (a + b)) * (a / (a + b)) * (a + b)) = 2 * (a + b) * (p 0 - b / (a + b)) ^ 2 := by
        field_simp
        ring
      have h6 : (p 0 - b / (a + b)) ^ 2 ≤ 0 := by nlinarith
      have e0 : p 0 = b / (a + b) := by nlinarith [sq_nonneg (p 0 - b / (a + b)), pow_eq_zero_iff (two_ne_zero) |>.1 (le_antisymm h6 (sq_nonneg _))]
      funext i
      fin_cases i
      · simpa using e0
      · simp [e1, e0]
        field_simp
        ring
  have hs : ∀ a b : ℝ, (⟨![3, 1], fun _ => 0, fun d => by fin_cases d <;> simp⟩ : Units 2).conv ![a, b] = ![3 * a, b] := fun a b => by
    funext i
    fin_cases i <;> simp [Units.conv]
  obtain ⟨f, h1, h2⟩ := main 1 1 one_pos one_pos
  obtain ⟨f', h1', h2'⟩ := main 3 1 (by norm_num) one_pos
  refine ⟨⟨![3, 1], fun _ => 0, fun d => by fin_cases d <;> simp⟩, [![0, 0], ![1, 1]], [![1, 0]], f, f', h1, ?_, ?_, ?_⟩
  · simpa [Units.sample, hs] using h1'
  · convert h2 using 3 <;> norm_num
  · simp only [Units.sample, List.map_cons, List.map_nil, hs]
    convert h2' using 3 <;> norm_num

end Verif.Props
