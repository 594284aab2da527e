import Verif.Props.RenameEnergy

/-!
# C138 for the methods that match distributions
-/

namespace Verif.Props

open Verif.Model Verif.Spec Verif.Proof

/-! ## The representations of a renamed training set -/

theorem selectRows_rename {α β V W : Type*} [DecidableEq α] [DecidableEq β] {g : α → β} (hg : Function.Injective g) (y : List α) (P : List V) (φ : V → W) (a : α) :
    selectRows (y.map g) (P.map φ) (g a) = (selectRows y P a).map φ := ofClass_rename hg y P φ a

theorem labels_perm {α β : Type*} [LinearOrder α] [LinearOrder β] {g : α → β} (hg : Function.Injective g) (y : List α) : (labelsOf (y.map g)).Perm ((labelsOf y).map g) := by
  refine (List.perm_ext_iff_of_nodup (labelsOf_nodup' _) ((labelsOf_nodup' y).map hg)).2 fun b => ?_
  rw [mem_labelsOf', List.mem_map, List.mem_map]
  simp only [mem_labelsOf']

theorem bincuts_rename {α β : Type*} [DecidableEq α] [DecidableEq β] {g : α → β} (hg : Function.Injective g) (ppf : ℝ → EReal) (x : List ℝ) (y classes : List α) (classes' : List β) (hc : classes'.Perm (classes.map g))
    (n : ℕ) (strategy : BinStrategy) (range : Option (ℝ × ℝ)) : computeBincuts ppf x (y.map g) classes' n strategy range = computeBincuts ppf x y classes n strategy range := by
  have hl : classes'.length = classes.length := by rw [hc.length_eq, List.length_map]
  have hsel : ∀ c, selectRows (y.map g) x (g c) = selectRows y x c := fun c => by simpa using selectRows_rename hg y x id c
  cases strategy with
  | equalWidth => rfl
  | equalCount => rfl
  | other => rfl
  | binormal =>
    have : binormalParams x (y.map g) classes' = binormalParams x y classes := by
      unfold binormalParams
      rw [(hc.map _).sum_eq, (hc.map _).sum_eq, hl]
      simp only [List.map_map, Function.comp_def, hsel]
    simp only [computeBincuts, hl, List.length_map, this]
  | normal =>
    have : normalParams x (y.map g) classes' = normalParams x y classes := by
      unfold normalParams
      have hw : (y.map g).map (fun c => if c ∈ classes' then (x.length : ℝ) / ((y.map g).count c : ℝ) else 1) = y.map fun c => if c ∈ classes then (x.length : ℝ) / (y.count c : ℝ) else 1 := by
        rw [List.map_map]
        refine List.map_congr_left fun c _ => ?_
        simp only [Function.comp_apply, hc.mem_iff, List.mem_map_of_injective hg, List.count_map_of_injective _ _ hg]
      simp only [hw]
    simp only [computeBincuts, List.length_map, this]

section
variable {α β : Type} [LinearOrder α] [LinearOrder β] {g : α → β} (hg : Function.Injective g) {y : List α}

/-- What `fit` learns from the renamed training set. -/
theorem df_rename (hg : Function.Injective g) (e : Fin (labelsOf y).length ≃ Fin (labelsOf (y.map g)).length) (he : ∀ j, (labelsOf (y.map g))[j] = g (labelsOf y)[e.symm j]) (ppf : ℝ → EReal) {D D' : Type*} {nd nd' : ℕ} (kind : CumKind)
    (cfg : DfCfg) (range : Option (ℝ × ℝ)) (att : Fin nd → D → ℝ) (att' : Fin nd' → D' → ℝ) (φ : D → D') (eD : Fin nd ≃ Fin nd') (hatt : ∀ d v, att' d (φ v) = att (eD.symm d) v) (yE : List α) (rows : List D)
    (fit : DfFit nd cfg.nBins (labelsOf y).length) (hfit : dfFit ppf kind cfg range att (labelsOf y) y yE rows = .ok fit) :
    ∃ v : Fin (labelsOf y).length → Fin nd → Fin cfg.nBins → ℝ, (fit.train = fun i c => accumulate kind cfg.f (v c) i) ∧ (∀ c, histBlocks att fit.cuts (ofClass (yE.zip rows) (labelsOf y)[c]) = .ok (v c))
      ∧ dfFit ppf kind cfg range att' (labelsOf (y.map g)) (y.map g) (yE.map g) (rows.map φ) = .ok ⟨fun d => fit.cuts (eD.symm d), fun i c => accumulate kind cfg.f (fun d => v (e.symm c) (eD.symm d)) i⟩ := by
  unfold dfFit at hfit
  split at hfit
  · cases hfit
  · rename_i cuts hcuts
    split_ifs at hfit with hlen
    split at hfit
    · cases hfit
    · rename_i v hv
      rw [not_not] at hlen
      cases hfit
      have hv' := (seqFin_ok _ _).1 hv
      refine ⟨v, rfl, hv', ?_⟩
      have hcuts' : (seqFin fun d => computeBincuts ppf ((rows.map φ).map (att' d)) (y.map g) (labelsOf (y.map g)) cfg.nBins cfg.strategy range) = .ok fun d => cuts (eD.symm d) := by
        rw [seqFin_ok]
        intro d
        rw [bincuts_rename hg ppf _ y (labelsOf y) _ (labels_perm hg y), List.map_map]
        have := (seqFin_ok _ _).1 hcuts (eD.symm d)
        rw [← this]
        congr 1
        exact List.map_congr_left fun r _ => hatt d r
      have hv'' : (seqFin fun c : Fin (labelsOf (y.map g)).length => histBlocks att' (fun d => cuts (eD.symm d)) (selectRows (yE.map g) (rows.map φ) (labelsOf (y.map g))[c])) = .ok fun c d => v (e.symm c) (eD.symm d) := by
        rw [seqFin_ok]
        intro c
        rw [he, selectRows_rename hg]
        unfold histBlocks
        rw [seqFin_ok]
        intro d
        have := (seqFin_ok _ _).1 (hv' (e.symm c)) (eD.symm d)
        rw [← this, List.map_map, List.length_map]
        congr 2
        exact List.map_congr_left fun r _ => hatt d r
      unfold dfFit
      rw [hcuts']
      simp only [List.length_map, hlen, ne_eq, not_true_eq_false, if_false]
      erw [hv'']

end

/-! ## The order of the descriptors -/

/-- Where each entry goes when the descriptors are listed in another order. -/
def blockPerm {nd nd' : ℕ} (eD : Fin nd ≃ Fin nd') (nb : ℕ) : Fin (nd * nb) ≃ Fin (nd' * nb) :=
  finProdFinEquiv.symm.trans ((eD.prodCongr (Equiv.refl _)).trans finProdFinEquiv)

/-- Representations in another order differ by a constant that does not depend on the sample: none in general, the number of previous blocks for cumulative sums of complete blocks over the whole column. -/
theorem accumulate_perm {nd nd' nb : ℕ} (eD : Fin nd ≃ Fin nd') (kind : CumKind) (f : DistFun) (complete : Prop) (h : f = .pdf ∨ kind = .perBlock ∨ complete) :
    ∃ off : Fin (nd * nb) → ℝ, (f = .pdf ∨ kind = .perBlock → off = 0) ∧ ∀ v : Fin nd → Fin nb → ℝ, (complete → ∀ d, ∑ b, v d b = 1) → ∀ i,
      accumulate kind f (fun d => v (eD.symm d)) (blockPerm eD nb i) = accumulate kind f v i + off i := by
  have hstack : ∀ (v : Fin nd → Fin nb → ℝ) i, stackBlocks (fun d => v (eD.symm d)) (blockPerm eD nb i) = stackBlocks v i := by
    intro v i
    simp [stackBlocks, blockPerm]
  by_cases hA : f = .pdf ∨ kind = .perBlock
  · refine ⟨0, fun _ => rfl, fun v _ i => ?_⟩
    rw [Pi.zero_apply, add_zero]
    rcases f with _ | _
    · exact hstack v i
    · rcases kind with _ | _
      · rcases hA with h | h <;> cases h
      · exact hstack (fun d => cumsum (v d)) i
  · have hc : complete := by tauto
    have hf : f = .cdf := by cases f <;> tauto
    have hk : kind = .whole := by cases kind <;> tauto
    subst hf hk
    refine ⟨fun i => ((eD (finProdFinEquiv.symm i).1 : ℕ) : ℝ) - ((finProdFinEquiv.symm i).1 : ℕ), fun h => absurd h hA, fun v hv i => ?_⟩
    have hv := hv hc
    have key : ∀ {n : ℕ} (u : Fin n → Fin nb → ℝ), (∀ d, ∑ b, u d b = 1) → ∀ j, cumsum (stackBlocks u) j = ((finProdFinEquiv.symm j).1 : ℕ) + cumsum (u (finProdFinEquiv.symm j).1) (finProdFinEquiv.symm j).2 := by
      intro n u hu j
      have := cumsum_stack u (finProdFinEquiv.symm j).1 (finProdFinEquiv.symm j).2
      unfold blockOf at this
      rw [Prod.mk.eta, Equiv.apply_symm_apply] at this
      rw [this]
      congr 1
      simp only [hu]
      rw [Finset.sum_ite, Finset.sum_const_zero, add_zero, Finset.sum_const, nsmul_eq_mul, mul_one]
      congr 1
      rw [show (Finset.univ.filter fun d' => d' < (finProdFinEquiv.symm j).1) = Finset.Iio (finProdFinEquiv.symm j).1 by ext; simp, Fin.card_Iio]
    simp only [accumulate]
    rw [key _ (fun d => hv _), key v hv]
    have hb : finProdFinEquiv.symm (blockPerm eD nb i) = (eD (finProdFinEquiv.symm i).1, (finProdFinEquiv.symm i).2) := by simp [blockPerm]
    rw [hb]
    simp only [Equiv.symm_apply_apply]
    ring

/-! ## The closest mixtures -/

/-- The distances that have a name. -/
inductive DistName where
  | hd | l1 | l2

/-- The value of the argument `distance`. -/
def DistName.arg (nm : DistName) (m : ℕ) : DfDistance m :=
  match nm with
  | .hd => .hd
  | .l1 => .l1
  | .l2 => .l2

/-- The distance. -/
noncomputable def DistName.dist (nm : DistName) {m : ℕ} : (Fin m → ℝ) → (Fin m → ℝ) → ℝ :=
  match nm with
  | .hd => hellingerDist
  | .l1 => totalError
  | .l2 => euclidean

theorem DistName.named (nm : DistName) (m : ℕ) : namedDistance (nm.arg m) = some nm.dist := by cases nm <;> rfl

section
variable {m m' n n' : ℕ} (nm : DistName) (π : Fin m ≃ Fin m') (e : Fin n ≃ Fin n') {T : Fin m → Fin n → ℝ} {T' : Fin m' → Fin n' → ℝ} {off : Fin m → ℝ} (hT : ∀ i c, T' (π i) (e c) = T i c + off i)
include hT

theorem mixture_perm (p : Fin n' → ℝ) (hp : ∑ j, p j = 1) (i : Fin m) : mixtureOf T' p (π i) = mixtureOf T (p ∘ e) i + off i := by
  unfold mixtureOf
  rw [← Equiv.sum_comp e]
  simp only [hT, add_mul, Finset.sum_add_distrib, ← Finset.mul_sum, Function.comp_apply]
  rw [Equiv.sum_comp e p, hp, mul_one]

theorem dist_perm (hoff : nm = .hd → off = 0) (q : Fin m → ℝ) (q' : Fin m' → ℝ) (hq : ∀ i, q' (π i) = q i + off i) (p : Fin n' → ℝ) (hp : ∑ j, p j = 1) : nm.dist q' (mixtureOf T' p) = nm.dist q (mixtureOf T (p ∘ e)) := by
  cases nm with
  | hd =>
    obtain rfl := hoff rfl
    simp only [DistName.dist, hellingerDist]
    congr 1
    rw [← Equiv.sum_comp π]
    refine Finset.sum_congr rfl fun i _ => ?_
    rw [hq, mixture_perm π e hT p hp, Pi.zero_apply, add_zero, add_zero]
  | l1 =>
    simp only [DistName.dist, totalError]
    rw [← Equiv.sum_comp π]
    refine Finset.sum_congr rfl fun i _ => ?_
    rw [hq, mixture_perm π e hT p hp, add_sub_add_right_eq_sub]
  | l2 =>
    simp only [DistName.dist, euclidean]
    congr 1
    rw [← Equiv.sum_comp π]
    refine Finset.sum_congr rfl fun i _ => ?_
    rw [hq, mixture_perm π e hT p hp, add_sub_add_right_eq_sub]

theorem solvable_perm (hoff : nm = .hd → off = 0) (hs : off = 0 ∨ ∃ i s, s ≠ 0 ∧ ∀ c, T' i c = s) (hd : Solvable (nm.arg m) T) : Solvable (nm.arg m') T' := by
  cases nm with
  | l1 => trivial
  | hd =>
    obtain rfl := hoff rfl
    obtain ⟨s, hs⟩ := hd
    refine ⟨s, fun j => ?_⟩
    rw [← hs (e.symm j), ← Equiv.sum_comp π]
    refine Finset.sum_congr rfl fun i _ => ?_
    have := hT i (e.symm j)
    rwa [e.apply_symm_apply, Pi.zero_apply, add_zero] at this
  | l2 =>
    intro x hx
    have h0 : off = 0 ∨ ∑ c, x (e c) = 0 := by
      refine hs.imp id ?_
      rintro ⟨i, s, hs, h⟩
      have := hx i
      simp only [h, ← Finset.mul_sum] at this
      rw [Equiv.sum_comp e x]
      exact (mul_eq_zero.1 this).resolve_left hs
    have := hd (x ∘ e) fun i => by
      have h1 := hx (π i)
      rw [← Equiv.sum_comp e] at h1
      simp only [hT, add_mul, Finset.sum_add_distrib, ← Finset.mul_sum] at h1
      rcases h0 with h0 | h0
      · rw [h0, Pi.zero_apply, zero_mul, add_zero] at h1
        exact h1
      · rw [h0, mul_zero, add_zero] at h1
        exact h1
    funext j
    simpa using congrFun this (e.symm j)

/-- The closest mixtures of two problems that differ in the order. -/
theorem closest_perm (hoff : nm = .hd → off = 0) (hd : Solvable (nm.arg m) T) (q : Fin m → ℝ) (q' : Fin m' → ℝ) (hq : ∀ i, q' (π i) = q i + off i) (x : Fin n → ℝ) (x' : Fin n' → ℝ) (hx : IsPrev x) (hx' : IsPrev x')
    (hopt : ∀ p, IsPrev p → nm.dist q (mixtureOf T x) ≤ nm.dist q (mixtureOf T p)) (hopt' : ∀ p, IsPrev p → nm.dist q' (mixtureOf T' x') ≤ nm.dist q' (mixtureOf T' p)) :
    nm.dist q (mixtureOf T (x' ∘ e)) = nm.dist q (mixtureOf T x) ∧ (nm = .l2 ∨ (∀ z, IsPrev z → nm.dist q (mixtureOf T z) ≤ nm.dist q (mixtureOf T x) → z = x) → x' = x ∘ e.symm) := by
  have hcomp : ∀ p : Fin n → ℝ, IsPrev p → IsPrev (p ∘ e.symm) := fun p hp => ⟨fun i => hp.1 _, (Equiv.sum_comp e.symm p).trans hp.2⟩
  have hxe : IsPrev (x' ∘ e) := ⟨fun i => hx'.1 _, (Equiv.sum_comp e x').trans hx'.2⟩
  have hmin : ∀ p, IsPrev p → nm.dist q (mixtureOf T (x' ∘ e)) ≤ nm.dist q (mixtureOf T p) := by
    intro p hp
    have h1 := hopt' _ (hcomp p hp)
    rw [dist_perm nm π e hT hoff q q' hq _ hx'.2, dist_perm nm π e hT hoff q q' hq _ (hcomp p hp).2] at h1
    have h2 : (p ∘ e.symm) ∘ e = p := by funext i; simp
    rwa [h2] at h1
  refine ⟨le_antisymm (hmin x hx) (hopt _ hxe), fun h => ?_⟩
  have : x' ∘ e = x := by
    rcases h with rfl | h
    · exact l2_closest_unique T hd q _ _ hxe hx hmin hopt
    · exact h _ hxe (hmin x hx)
  rw [← this]
  funext i
  simp

end

/-! ## C138 -/

/-- The training and testing representations of a renamed problem. -/
theorem df_rename_rep {α β : Type} [LinearOrder α] [LinearOrder β] {g : α → β} (hg : Function.Injective g) {y : List α} (hy : y ≠ []) (e : Fin (labelsOf y).length ≃ Fin (labelsOf (y.map g)).length)
    (he : ∀ j, (labelsOf (y.map g))[j] = g (labelsOf y)[e.symm j]) (ppf : ℝ → EReal) {D D' : Type*} {nd nd' : ℕ} (kind : CumKind)
    (cfg : DfCfg) (range : Option (ℝ × ℝ)) (att : Fin nd → D → ℝ) (att' : Fin nd' → D' → ℝ) (φ : D → D') (eD : Fin nd ≃ Fin nd') (hatt : ∀ d v, att' d (φ v) = att (eD.symm d) v) (yE : List α) (rows : List D)
    (hcl : ∀ c ∈ labelsOf y, ofClass (yE.zip rows) c ≠ [])
    (fit : DfFit nd cfg.nBins (labelsOf y).length) (hfit : dfFit ppf kind cfg range att (labelsOf y) y yE rows = .ok fit) (hnb : 0 < cfg.nBins) (hnd : 0 < nd)
    (hcfg : cfg.f = .pdf ∨ kind = .perBlock ∨ ∀ d, CutsOk (fit.cuts d)) (bag : List D) (hbag : bag ≠ []) :
    ∃ fit' q q', ∃ off : Fin (nd * cfg.nBins) → ℝ, dfFit ppf kind cfg range att' (labelsOf (y.map g)) (y.map g) (yE.map g) (rows.map φ) = .ok fit' ∧ dfTest kind cfg att fit bag = .ok q ∧ dfTest kind cfg att' fit' (bag.map φ) = .ok q'
      ∧ (cfg.f = .pdf ∨ kind = .perBlock → off = 0) ∧ (∀ i c, fit'.train (blockPerm eD cfg.nBins i) (e c) = fit.train i c + off i) ∧ (∀ i, q' (blockPerm eD cfg.nBins i) = q i + off i)
      ∧ (off = 0 ∨ ∃ i s, s ≠ 0 ∧ ∀ c, fit'.train i c = s) := by
  obtain ⟨v, hv, hvb, hfit'⟩ := df_rename hg e he ppf kind cfg range att att' φ eD hatt yE rows fit hfit
  have hpos : 0 < (labelsOf y).length := labels_pos y hy
  have hm : ∀ d, Monotone (fit.cuts d) := fun d => histBlocks_mono (hvb ⟨0, hpos⟩) d
  obtain ⟨off, hoff0, hoff⟩ := accumulate_perm (nb := cfg.nBins) eD kind cfg.f (∀ d, CutsOk (fit.cuts d)) hcfg
  have hcomplete : ∀ l : List D, l ≠ [] → (∀ d, CutsOk (fit.cuts d)) → ∀ d, IsPrev fun b => (l.map fun r => binInd (fit.cuts d) b (att d r)).sum / (l.length : ℝ) :=
    fun l hl hc d => block_isPrev hnb _ (hc d) l hl _
  have hvs : ∀ c, v c = fun d b => ((ofClass (yE.zip rows) (labelsOf y)[c]).map fun r => binInd (fit.cuts d) b (att d r)).sum / ((ofClass (yE.zip rows) (labelsOf y)[c]).length : ℝ) := fun c => by
    have := histBlocks_eq att fit.cuts hm (ofClass (yE.zip rows) (labelsOf y)[c])
    rw [hvb c] at this
    exact Except.ok.inj this
  have hvp : (∀ d, CutsOk (fit.cuts d)) → ∀ c d, IsPrev (v c d) := fun hc c d => by
    rw [hvs c]
    exact hcomplete _ (hcl _ (List.getElem_mem _)) hc d
  refine ⟨_, _, _, off, hfit', dfTest_eq kind cfg att fit hm bag, dfTest_eq kind cfg att' _ (fun d => hm _) _, hoff0, fun i c => ?_, fun i => ?_, ?_⟩
  · rw [hv]
    simp only [e.symm_apply_apply]
    exact hoff (v c) (fun hc d => (hvp hc c d).2) i
  · rw [← hoff _ fun hc d => (hcomplete bag hbag hc d).2]
    simp only [List.map_map, List.length_map, Function.comp_def, hatt]
  · by_cases hA : cfg.f = .pdf ∨ kind = .perBlock
    · exact Or.inl (hoff0 hA)
    · have hc : ∀ d, CutsOk (fit.cuts d) := by tauto
      have hf : cfg.f = .cdf := by
        cases h : cfg.f <;> tauto
      have hk : kind = .whole := by cases kind <;> tauto
      subst hk
      have hnd' : 0 < nd' := by
        have := Fintype.card_congr eD
        simp only [Fintype.card_fin] at this
        omega
      refine Or.inr ⟨finProdFinEquiv (⟨0, hnd'⟩, ⟨cfg.nBins - 1, by omega⟩), 1, one_ne_zero, fun c => ?_⟩
      rw [hf]
      simp only [accumulate]
      have := cumsum_stack (fun d => v (e.symm c) (eD.symm d)) ⟨0, hnd'⟩ ⟨cfg.nBins - 1, by omega⟩
      unfold blockOf at this
      rw [this, (cumsum_isCdf (hvp hc (e.symm c) (eD.symm ⟨0, hnd'⟩))).last _ (by simp; omega)]
      simp [Fin.lt_def]

section
variable {α β : Type} [LinearOrder α] [LinearOrder β] (g : α → β) (hg : Function.Injective g) (y : List α) (hy : y ≠ [])
include hg hy

/-- **C138** for DFX (and HDX, MMX...): the two answers are equally close to the bag; they are the same prevalences if no others are as close, as with 'L2'. -/
theorem C138_dfx {nf : ℕ} (hnf : 0 < nf) (sv : CvxSolver) (hsv : ExactCvx sv) (qp : QPSolver) (hqp : ExactQP qp) (ppf : ℝ → EReal) (la : LinAlg (labelsOf y).length) (hla : ExactLinAlg la) (la' : LinAlg (labelsOf (y.map g)).length)
    (hla' : ExactLinAlg la') (fuel : ℕ) (tol : ℝ) (cfg : DfCfg) (hnb : 0 < cfg.nBins) (nm : DistName) (X Xt : List (Fin nf → ℝ)) (hX : y.length = X.length) (hXt : Xt ≠ [])
    (fit : DfFit nf cfg.nBins (labelsOf y).length) (hfit : dfxFit ppf cfg (labelsOf y) y X = .ok fit) (hd : Solvable (nm.arg _) fit.train)
    (par : QPParams (labelsOf y).length ((labelsOf y).length + 1)) (hpar : nm = .l2 → computeL2ParamTrain la (fuel + 1) fit.train = some par) :
    ∃ fit' q q' x x', dfxFit ppf cfg (labelsOf (y.map g)) (y.map g) X = .ok fit' ∧ dfxTest cfg fit Xt = .ok q ∧ dfxTest cfg fit' Xt = .ok q' ∧ dfSolve sv qp tol (nm.arg _) fit.train par q = .ok (some ⟨_, x⟩)
      ∧ (∀ par', (nm = .l2 → computeL2ParamTrain la' (fuel + 1) fit'.train = some par') → dfSolve sv qp tol (nm.arg _) fit'.train par' q' = .ok (some ⟨_, x'⟩)) ∧ IsPrev x ∧ IsPrev x'
      ∧ (∀ z, SameByClass g y z x' → nm.dist q (mixtureOf fit.train z) = nm.dist q (mixtureOf fit.train x))
      ∧ (nm = .l2 ∨ (∀ z, IsPrev z → nm.dist q (mixtureOf fit.train z) ≤ nm.dist q (mixtureOf fit.train x) → z = x) → SameByClass g y x x') := by
  obtain ⟨e, he⟩ := exists_perm g y hg
  have he' : ∀ j, (labelsOf (y.map g))[j] = g (labelsOf y)[e.symm j] := fun j => by simp only [← he, e.apply_symm_apply]
  obtain ⟨fit', q, q', off, h1, h2, h3, h4, h5, h6, h7⟩ := df_rename_rep hg hy e he' ppf .perBlock cfg none (fun (d : Fin nf) (row : Fin nf → ℝ) => row d) (fun (d : Fin nf) (row : Fin nf → ℝ) => row d) id (Equiv.refl _)
    (fun d v => rfl) y X (fun c hc => selectRows_ne hX ((mem_labelsOf y c).1 hc)) fit hfit hnb hnf (Or.inr (Or.inl rfl)) Xt hXt
  rw [List.map_id] at h1 h3
  have hoff : nm = .hd → off = 0 := fun _ => h4 (Or.inr rfl)
  have hd' : Solvable (nm.arg _) fit'.train := solvable_perm nm _ e h5 hoff h7 hd
  obtain ⟨h0, q2, hq2, hq0⟩ := df_nonneg ppf .perBlock cfg none _ y y hy X fit hfit Xt
  obtain rfl := Except.ok.inj (hq2.symm.trans h2)
  obtain ⟨h0', q2', hq2', hq0'⟩ := df_nonneg ppf .perBlock cfg none _ (y.map g) (y.map g) (by simpa using hy) X fit' h1 Xt
  obtain rfl := Except.ok.inj (hq2'.symm.trans h3)
  obtain ⟨p1, x, hp1, -, hs, hx, hopt⟩ := matchAnswer_closest sv hsv qp hqp (labels_pos y hy) la hla fuel tol (nm.arg _) (nm.named _) fit fit.train h0 hd q2 hq0
  obtain ⟨p1', x', hp1', -, hs', hx', hopt'⟩ := matchAnswer_closest sv hsv qp hqp (labels_pos (y.map g) (by simpa using hy)) la' hla' fuel tol (nm.arg _) (nm.named _) fit' fit'.train h0' hd' q2' hq0'
  obtain ⟨hc1, hc2⟩ := closest_perm nm _ e h5 hoff hd q2 q2' h6 x x' hx hx' hopt hopt'
  refine ⟨fit', q2, q2', x, x', h1, hq2, hq2', hs par fun h => ?_, fun par' hpar' => hs' par' fun h => ?_, hx, hx', fun z hz => ?_, fun h => (sameByClass_iff he _ _).2 (hc2 h)⟩
  · cases nm with
    | hd => cases h
    | l1 => cases h
    | l2 =>
      simp only [DistName.arg, matchParams, hpar rfl] at hp1
      exact (Except.ok.inj hp1).symm
  · cases nm with
    | hd => cases h
    | l1 => cases h
    | l2 =>
      simp only [DistName.arg, matchParams, hpar' rfl] at hp1'
      exact (Except.ok.inj hp1').symm
  · rw [← hc1, (sameByClass_iff he _ _).1 hz]
    congr 2
    funext i
    simp

/-- **C138** for DFy (and HDy, MMy) with three or more classes: the two answers are equally close to the bag; they are the same prevalences if no others are as close, as with 'L2'. CDFs, which are accumulated over all the
classes, need 'L1' or 'L2' and bins that cover all the values. -/
theorem C138_dfy_partial {σ σ' D : Type} (enc : Bool → α) (enc' : Bool → β) (w : World σ D α) (w' : World σ' D β) (et et' eu eu' : Option ℕ) (X Xt X' Xt' : List D) (r : ℕ) (hr : 0 < r)
    (ops : EstOps σ D α (labelsOf y).length) (ops' : EstOps σ' D β (labelsOf (y.map g)).length) (hk : (labelsOf y).length ≠ 2) (sv : CvxSolver) (hsv : ExactCvx sv) (qp : QPSolver) (hqp : ExactQP qp) (ppf : ℝ → EReal)
    (la : LinAlg (labelsOf y).length) (hla : ExactLinAlg la) (la' : LinAlg (labelsOf (y.map g)).length) (hla' : ExactLinAlg la') (fuel : ℕ) (tol : ℝ) (cfg : DfCfg) (hnb : 0 < cfg.nBins) (nm : DistName)
    (P Q : List (Fin (labelsOf y).length → ℝ)) (hP : P.length = r * y.length) (hQ : Q ≠ [])
    (fit : DfFit (nDescriptors (labelsOf y).length) cfg.nBins (labelsOf y).length) (hfit : dfyFit ppf cfg (labelsOf y) y (stacked y r) P = .ok fit) (hd : Solvable (nm.arg _) fit.train)
    (hcfg : cfg.f = .pdf ∨ nm ≠ .hd ∧ ∀ d, CutsOk (fit.cuts d))
    (P' Q' : List (Fin (labelsOf (y.map g)).length → ℝ)) (hP' : List.Forall₂ (SameByClass g y) P P') (hQ' : List.Forall₂ (SameByClass g y) Q Q') :
    ∃ q x x', dfyTest cfg fit Q = .ok q ∧ ucRun ops enc w ⟨dfyClass ppf sv qp la (fuel + 1) tol cfg (nm.arg _), et, et'⟩ X y (some (.probs P)) Xt (some (.probs Q)) = .ok (some (realList x))
      ∧ ucRun ops' enc' w' ⟨dfyClass ppf sv qp la' (fuel + 1) tol cfg (nm.arg _), eu, eu'⟩ X' (y.map g) (some (.probs P')) Xt' (some (.probs Q')) = .ok (some (realList x')) ∧ IsPrev x ∧ IsPrev x'
      ∧ (∀ z, SameByClass g y z x' → nm.dist q (mixtureOf fit.train z) = nm.dist q (mixtureOf fit.train x))
      ∧ (nm = .l2 ∨ (∀ z, IsPrev z → nm.dist q (mixtureOf fit.train z) ≤ nm.dist q (mixtureOf fit.train x) → z = x) → SameByClass g y x x') := by
  obtain ⟨e, he⟩ := exists_perm g y hg
  have he' : ∀ j, (labelsOf (y.map g))[j] = g (labelsOf y)[e.symm j] := fun j => by simp only [← he, e.apply_symm_apply]
  have hPl : P'.length = r * (y.map g).length := by rw [← hP'.length_eq, hP, List.length_map]
  obtain rfl := rows_renamed he hP'
  obtain rfl := rows_renamed he hQ'
  have hkk : (labelsOf (y.map g)).length = (labelsOf y).length := by simpa using (Fintype.card_congr e).symm
  have hn : nDescriptors (labelsOf y).length = (labelsOf y).length := by unfold nDescriptors; rw [if_neg hk]
  have hn' : nDescriptors (labelsOf (y.map g)).length = (labelsOf (y.map g)).length := by unfold nDescriptors; rw [if_neg (by rw [hkk]; exact hk)]
  let eD : Fin (nDescriptors (labelsOf y).length) ≃ Fin (nDescriptors (labelsOf (y.map g)).length) := (finCongr hn).trans (e.trans (finCongr hn').symm)
  have hl : (stacked y r).length = P.length := by rw [stacked_length, hP]
  have hpos := labels_pos y hy
  obtain ⟨fit', q, q', off, h1, h2, h3, h4, h5, h6, h7⟩ := df_rename_rep hg hy e he' ppf .whole cfg (some (0, 1)) (dfyAtt (labelsOf y).length) (dfyAtt (labelsOf (y.map g)).length) (fun v => v ∘ e.symm) eD
    (fun d v => rfl) (stacked y r) P (fun c hc => selectRows_ne hl (stacked_mem y r hr _ ((mem_labelsOf y c).1 hc))) fit hfit hnb (by rw [hn]; exact hpos) (hcfg.imp id fun h => Or.inr h.2) Q hQ
  rw [← stacked_map] at h1
  have hoff : nm = .hd → off = 0 := fun h => h4 (Or.inl (hcfg.resolve_right fun h' => h'.1 h))
  have hd' : Solvable (nm.arg _) fit'.train := solvable_perm nm _ e h5 hoff h7 hd
  obtain ⟨q2, x, hq2, hrun, hx, hopt⟩ := dfy_closest enc w et et' X Xt y hy r ops sv hsv qp hqp ppf la hla fuel tol cfg (nm.arg _) (nm.named _) P hP fit hfit hd Q
  obtain ⟨q2', x', hq2', hrun', hx', hopt'⟩ := dfy_closest enc' w' eu eu' X' Xt' (y.map g) (by simpa using hy) r ops' sv hsv qp hqp ppf la' hla' fuel tol cfg (nm.arg _) (nm.named _) _ hPl fit' h1 hd' (Q.map fun r => r ∘ e.symm)
  obtain rfl := Except.ok.inj (hq2.symm.trans h2)
  obtain rfl := Except.ok.inj (hq2'.symm.trans h3)
  obtain ⟨hc1, hc2⟩ := closest_perm nm _ e h5 hoff hd q2 q2' h6 x x' hx hx' hopt hopt'
  refine ⟨q2, x, x', hq2, hrun, hrun', hx, hx', fun z hz => ?_, fun h => (sameByClass_iff he _ _).2 (hc2 h)⟩
  rw [← hc1, (sameByClass_iff he _ _).1 hz]
  congr 2
  funext i
  simp

end

/-- Non-vacuity: three classes and any list of predictions for them. -/
example (ppf : ℝ → EReal) (y : List ℤ) (h : labelsOf y = [1, 2, 3]) (P : List (Fin (labelsOf y).length → ℝ)) (hP : y.length = P.length) (f : DistFun) :
    (labelsOf y).length ≠ 2 ∧ ∃ fit, dfyFit ppf ⟨f, 8, .equalWidth⟩ (labelsOf y) y y P = .ok fit ∧ (∀ d, CutsOk (fit.cuts d)) ∧ Solvable (DistName.l1.arg _) fit.train := by
  have hy : y ≠ [] := by
    rintro rfl
    simp [labelsOf] at h
  have hPne : P ≠ [] := by
    rintro rfl
    exact hy (List.length_eq_zero_iff.1 (by simpa using hP))
  obtain ⟨fit, h1, h2, -⟩ := df_repr ppf .whole ⟨f, 8, .equalWidth⟩ (some (0, 1)) (dfyAtt (labelsOf y).length) (labelsOf y) y y P hP
    fun d => spanning_cuts ppf ⟨f, 8, .equalWidth⟩ (by norm_num) _ (by simpa using hPne) (Or.inl rfl) y _ _ (by rintro r h; cases h; norm_num)
  exact ⟨by rw [h]; decide, fit, h1, h2, trivial⟩

/-! ## Probabilities given to crisp quantifiers -/

/-- **C138**: probabilities in which each row has one maximum are converted to the labels of the same classes. -/
theorem C138_crisp_partial {α β : Type} [LinearOrder α] [LinearOrder β] (g : α → β) (hg : Function.Injective g) (y : List α) (hy : y ≠ []) (enc : Bool → α) (enc' : Bool → β) (P : List (Fin (labelsOf y).length → ℝ))
    (hmax : ∀ row ∈ P, ∀ i j, (∀ l, row l ≤ row i) → (∀ l, row l ≤ row j) → i = j) (P' : List (Fin (labelsOf (y.map g)).length → ℝ)) (hP' : List.Forall₂ (SameByClass g y) P P') :
    ∃ out, probs2crisps enc (labelsOf y) (.probs P) = .ok out ∧ probs2crisps enc' (labelsOf (y.map g)) (.probs P') = .ok (out.map g) := by
  obtain ⟨e, he⟩ := exists_perm g y hg
  obtain rfl := rows_renamed he hP'
  obtain ⟨out, h1, h2⟩ := C07_matrix_argmax enc (labelsOf y) (List.length_pos_iff.1 (labels_pos y hy)) P
  obtain ⟨out', h1', h2'⟩ := C07_matrix_argmax enc' (labelsOf (y.map g)) (List.length_pos_iff.1 (labels_pos (y.map g) (by simpa using hy))) (P.map fun r => r ∘ e.symm)
  refine ⟨out, h1, h1'.trans (congrArg Except.ok ?_)⟩
  clear h1 h1' hP'
  induction h2 generalizing out' with
  | nil =>
    cases h2'
    rfl
  | @cons row c P out h _ ih =>
    rw [List.map_cons] at h2'
    cases h2' with
    | @cons _ c' _ out' h' h2' =>
      rw [List.map_cons, ih (fun row hr => hmax row (List.mem_cons_of_mem _ hr)) out' h2']
      congr 1
      obtain ⟨i, rfl, hi, -⟩ := h
      obtain ⟨j, rfl, hj, -⟩ := h'
      have hij : e.symm j = i := hmax row (List.mem_cons_self ..) _ _ (fun l => by simpa using hj (e l)) hi
      rw [← he i, ← hij]
      simp only [e.apply_symm_apply]

/-- A quantifier of labels given probabilities does what it does with the labels they are converted to. -/
theorem ucRun_converted {σ D α : Type} {k : ℕ} [LinearOrder α] (ops : EstOps σ D α k) (enc : Bool → α) (w : World σ D α) (cls : UcClass α k) (hp : cls.probabilistic = false) (et et' : Option ℕ) (X Xt : List D)
    (y : List α) (P Q : Preds α k) (out outQ : List α) (hP : probs2crisps enc (labelsOf y) P = .ok out) (hQ : probs2crisps enc (labelsOf y) Q = .ok outQ) :
    ucRun ops enc w ⟨cls, et, et'⟩ X y (some P) Xt (some Q) = ucRun ops enc w ⟨cls, et, et'⟩ X y (some (.crisp out)) Xt (some (.crisp outQ)) := by
  rw [← npUnique_eq_labelsOf] at hP hQ
  have hid : ∀ l : List α, probs2crisps enc (npUnique y) (.crisp l : Preds α k) = .ok l := fun _ => rfl
  have hF : usingFit ops enc w ⟨et, et', cls.needsTrain, cls.probabilistic⟩ ⟨none, none, none⟩ X y (some P) = usingFit ops enc w ⟨et, et', cls.needsTrain, cls.probabilistic⟩ ⟨none, none, none⟩ X y (some (.crisp out)) := by
    cases hn : cls.needsTrain <;> simp [usingFit, trainPreds, hp, hP, hid, Except.map]
  have hc : (usingFit ops enc w ⟨et, et', cls.needsTrain, cls.probabilistic⟩ ⟨none, none, none⟩ X y (some (.crisp out))).2.1.classes = some (npUnique y) := by
    simp only [usingFit]
    repeat' split
    all_goals rfl
  have hu : ∀ w', usingPredict ops enc w' ⟨et, et', cls.needsTrain, cls.probabilistic⟩ (npUnique y) Xt (some Q) = usingPredict ops enc w' ⟨et, et', cls.needsTrain, cls.probabilistic⟩ (npUnique y) Xt (some (.crisp outQ)) := by
    intro w'
    cases et' <;> simp [usingPredict, hp, hQ, hid, Except.map]
  simp only [ucRun, ucFit, ucPredict, ucNew, UcObj.cfg, hF]
  cases cls.pre y with
  | some e => rfl
  | none =>
    generalize usingFit ops enc w ⟨et, et', cls.needsTrain, cls.probabilistic⟩ ⟨none, none, none⟩ X y (some (.crisp out)) = r at hc ⊢
    obtain ⟨w', s, e⟩ := r
    obtain ⟨c, pt, ye⟩ := s
    obtain rfl : c = some (npUnique y) := hc
    cases e with
    | some e => rfl
    | none =>
      simp only []
      cases cls.learn none y ⟨some (npUnique y), pt, ye⟩ with
      | error e => rfl
      | ok m => simp only [Option.getD_some, hu]

/-- **C138, refuted**: with equal probabilities the first class is taken, so CC on a bag with such an example depends on the order of the classes. -/
theorem C138_ties_refuted {σ D : Type} (ops : EstOps σ D ℤ 2) (enc : Bool → ℤ) (w : World σ D ℤ) (et et' : Option ℕ) (X Xt : List D) :
    ucRun ops enc w ⟨ccClass, et, et'⟩ X [1, 2] (some (.probs [![1, 0], ![0, 1]])) Xt (some (.probs [![1/2, 1/2]])) = .ok (some [1, 0])
    ∧ ucRun ops enc w ⟨ccClass, et, et'⟩ X [-1, -2] (some (.probs [![0, 1], ![1, 0]])) Xt (some (.probs [![1/2, 1/2]])) = .ok (some [1, 0]) := by
  have key : ∀ (a b : ℤ) (y : List ℤ) (P : Preds ℤ 2), a ≠ b → labelsOf y = [a, b] → ucRun ops enc w ⟨ccClass, et, et'⟩ X y (some P) Xt (some (.probs [![1/2, 1/2]])) = .ok (some [1, 0]) := by
    intro a b y P hab hl
    have hQ : probs2crisps enc (labelsOf y) (.probs [![1/2, 1/2]] : Preds ℤ 2) = .ok [a] := by
      rw [hl]
      obtain ⟨out, h, h2⟩ := C07_matrix_argmax enc [a, b] (by simp) [![1/2, 1/2]]
      cases h2 with
      | cons h1 h2 =>
        cases h2
        obtain ⟨i, rfl, -, h1⟩ := h1
        have : i = 0 := by
          by_contra hi
          have := h1 0 (Fin.pos_of_ne_zero hi)
          fin_cases i <;> norm_num at this
        rw [this] at h
        exact h
    rw [← npUnique_eq_labelsOf] at hQ hl
    rw [hl] at hQ
    simp only [ucRun, ucFit, ucPredict, ucNew, usingFit, usingPredict, UcObj.cfg, ccClass, hQ, hl, Bool.false_and, Bool.false_eq_true, if_false, Except.map, keep, crispLabels, Option.getD_some]
    rw [classFreqs_eq _ _ (by simp)]
    simp [vecList, freqs, freq, hab, List.ofFn_succ]
  exact ⟨key 1 2 _ _ (by norm_num) (labelsOf_eq _ _ (by decide) (by decide)), key (-2) (-1) _ _ (by norm_num) (labelsOf_eq _ _ (by decide) (by decide))⟩

end Verif.Props
