import Verif.Model.Solve
import Verif.Model.Energy
import Verif.Model.MetricsOrdinal
import Verif.Model.Bags
import Mathlib.Data.EReal.Operations
import Mathlib.Logic.Equiv.Fin.Basic

/-!
# Model of `quantificationlib/multiclass/df.py` and `quantificationlib/multiclass/friedman.py`

Bin cuts, histograms, `DFy`, `DFX` (and their wrappers `HDy`, `HDX`, `MMy`) and `FriedmanME`, from the point where
predictions are known; how they are obtained is `UsingClassifiers`, modelled in `Verif.Model.Base`. Cut points are
extended reals. Not modelled: verbose printing, `check_array`, arrays that contain NaN. Dividing by the size of an
empty sample gives NaN in NumPy and 0 here: the theorems assume nonempty bags.
-/

namespace Verif.Model

open Matrix

variable {α : Type*}

/-! ## Bin cuts -/

/-- `np.linspace(a, b, n + 1)[i]`, used by `np.histogram_bin_edges`. -/
noncomputable def linspace (a b : ℝ) (n : ℕ) (i : ℕ) : ℝ := a + i * ((b - a) / n)

/-- `np.histogram_bin_edges(x, bins=n, range=[a, b])` (df.py:699, 724, 735): an empty range is widened by 1/2 on both
sides. -/
noncomputable def binEdges (n : ℕ) (a b : ℝ) : Except Err (ℕ → ℝ) :=
  if n = 0 then .error .valueError
  else if b < a then .error .valueError
  else if a = b then .ok (linspace (a - 1/2) (b + 1/2) n)
  else .ok (linspace a b n)

/-- The values of `bin_strategy`. -/
inductive BinStrategy where
  | equalWidth | equalCount | binormal | normal | other
  deriving DecidableEq

/-- `l[i]` for a Python index, negative ones counting from the end. -/
def pyIndex (l : List ℝ) (i : ℤ) : Except Err ℝ :=
  match l[(if i < 0 then i + l.length else i).toNat]? with
  | some v => if -(l.length : ℤ) ≤ i then .ok v else .error .indexError
  | none => .error .indexError

/-- `np.mean` of a nonempty sample. -/
noncomputable def npMean (l : List ℝ) : ℝ := l.sum / l.length

/-- `np.std` of a nonempty sample. -/
noncomputable def npStd (l : List ℝ) : ℝ := Real.sqrt (npMean (l.map fun v => (v - npMean l) ^ 2))

/-- `np.average(v, weights=w)`. -/
noncomputable def npAverage (l : List (ℝ × ℝ)) : ℝ := (l.map fun t => t.1 * t.2).sum / (l.map Prod.snd).sum

/-- Evaluate an array of computations from left to right. -/
def seqFin {β : Type*} : {n : ℕ} → (Fin n → Except Err β) → Except Err (Fin n → β)
  | 0, _ => .ok Fin.elim0
  | _ + 1, f =>
    match f 0 with
    | .error e => .error e
    | .ok a =>
      match seqFin fun i => f i.succ with
      | .error e => .error e
      | .ok r => .ok (Fin.cons a r)

/-- The range of the equal-width strategy (df.py:695-696): the given one, or that of the sample. -/
noncomputable def binRange (x : List ℝ) (range : Option (ℝ × ℝ)) : Option (ℝ × ℝ) :=
  match range with
  | some r => some r
  | none => match x.min?, x.max? with
    | some a, some b => some (a, b)
    | _, _ => none

section
variable [DecidableEq α]

/-- `mu` and `std` of the binormal strategy (df.py:714-720): averages of the means and standard deviations of the
two classes. -/
noncomputable def binormalParams (x : List ℝ) (y : List α) (classes : List α) : ℝ × ℝ :=
  ((classes.map fun c => npMean (selectRows y x c)).sum / classes.length,
   (classes.map fun c => npStd (selectRows y x c)).sum / classes.length)

/-- `mu` and `std` of the normal strategy (df.py:726-731): every class has the same total weight. -/
noncomputable def normalParams (x : List ℝ) (y : List α) (classes : List α) : ℝ × ℝ :=
  let w := y.map fun c => if c ∈ classes then (x.length : ℝ) / (y.count c : ℝ) else 1
  let mu := npAverage (x.zip w)
  (mu, Real.sqrt (npAverage ((x.map fun v => (v - mu) ^ 2).zip w)))

/-- The cut points of a normal distribution (df.py:721-724, 732-735); `ppf` is `scipy.stats.norm.ppf`. A null
standard deviation gives the edges of the range `[0, 0]`, whatever the mean. With no bins, `i / n_bins` is a
ZeroDivisionError. -/
noncomputable def normalCuts (ppf : ℝ → EReal) (n : ℕ) (p : ℝ × ℝ) : Except Err (Fin (n + 1) → EReal) :=
  if 0 < p.2 then
    if n = 0 then .error .zeroDivisionError else .ok fun i => (p.2 : EReal) * ppf ((i : ℕ) / n) + (p.1 : EReal)
  else (binEdges n 0 0).map fun e i => (e i : EReal)

/-- `compute_bincuts` (df.py:644-739). `x[y == cls]` with arrays of different lengths is an IndexError. -/
noncomputable def computeBincuts (ppf : ℝ → EReal) (x : List ℝ) (y : List α) (classes : List α) (n : ℕ) (strategy : BinStrategy)
    (range : Option (ℝ × ℝ)) : Except Err (Fin (n + 1) → EReal) :=
  match strategy with
  | .equalWidth =>
    match binRange x range with
    | none => .error .valueError
    | some (a, b) =>
      match binEdges n a b with
      | .error e => .error e
      | .ok edge => .ok fun i => if i = Fin.last n then ⊤ else if i = 0 then ⊥ else (edge i : EReal)
  | .equalCount =>
    let sorted := x.mergeSort (· ≤ ·)
    seqFin fun i : Fin (n + 1) =>
      if i = Fin.last n then .ok ⊤
      else if i = 0 then .ok ⊥
      else
        let cutpoint := roundHalfEven ((x.length : ℝ) * (i : ℕ) / n)
        match pyIndex sorted (cutpoint - 1), pyIndex sorted cutpoint with
        | .ok u, .ok v => .ok (((u + v) / 2 : ℝ) : EReal)
        | .error e, _ => .error e
        | _, .error e => .error e
  | .binormal =>
    if classes.length ≠ 2 then .error .valueError
    else if x.length ≠ y.length then .error .indexError
    else normalCuts ppf n (binormalParams x y classes)
  | .normal =>
    if x.length ≠ y.length then .error .indexError
    else if x = [] then .error .zeroDivisionError
    else normalCuts ppf n (normalParams x y classes)
  | .other => .error .valueError

/-! ## Histograms -/

open Classical in
/-- The cumulative counts used by `np.histogram` (searchsorted on the left, on the right for the last edge). -/
noncomputable def histCum (x : List ℝ) {n : ℕ} (edges : Fin (n + 1) → EReal) (i : Fin (n + 1)) : ℝ :=
  if i = Fin.last n then (x.countP fun v : ℝ => decide ((v : EReal) ≤ edges i) : ℕ)
  else (x.countP fun v : ℝ => decide ((v : EReal) < edges i) : ℕ)

open Classical in
/-- `np.histogram(x, bins=edges)[0]` (df.py:261, 327, 549, 597): decreasing edges are a ValueError. -/
noncomputable def npHistogram (x : List ℝ) {n : ℕ} (edges : Fin (n + 1) → EReal) : Except Err (Fin n → ℝ) :=
  if ∀ i : Fin n, edges i.castSucc ≤ edges i.succ then .ok fun i => histCum x edges i.succ - histCum x edges i.castSucc
  else .error .valueError

/-- Concatenation of the blocks of all the descriptors: `v[descr * n_bins:(descr + 1) * n_bins]` (df.py:260, 326, 548, 596). -/
def stackBlocks {nd nb : ℕ} (v : Fin nd → Fin nb → ℝ) : Fin (nd * nb) → ℝ :=
  fun i => v (finProdFinEquiv.symm i).1 (finProdFinEquiv.symm i).2

/-- The blocks of a concatenation. -/
def blockOf {nd nb : ℕ} (v : Fin (nd * nb) → ℝ) (d : Fin nd) : Fin nb → ℝ := fun b => v (finProdFinEquiv (d, b))

/-- The relative frequencies of the bins of every descriptor, for a sample (df.py:259-262, 325-329, 547-550, 595-598); `att`
are the descriptors of an example. -/
noncomputable def histBlocks {D : Type*} {nd nb : ℕ} (att : Fin nd → D → ℝ) (cuts : Fin nd → Fin (nb + 1) → EReal) (rows : List D) :
    Except Err (Fin nd → Fin nb → ℝ) :=
  seqFin fun d => (npHistogram (rows.map (att d)) (cuts d)).map fun h b => h b / rows.length

/-- The values of `distribution_function` (anything but 'CDF' is a PDF). -/
inductive DistFun where
  | pdf | cdf
  deriving DecidableEq

/-- How CDFs are accumulated: `DFy` over the whole column (df.py:265-266, 332-333), `DFX` over each descriptor (df.py:552-555,
600-603). -/
inductive CumKind where
  | whole | perBlock
  deriving DecidableEq

/-- The representation of a sample from its histograms. -/
noncomputable def accumulate (kind : CumKind) (f : DistFun) {nd nb : ℕ} (v : Fin nd → Fin nb → ℝ) : Fin (nd * nb) → ℝ :=
  match f, kind with
  | .pdf, _ => stackBlocks v
  | .cdf, .whole => cumsum (stackBlocks v)
  | .cdf, .perBlock => stackBlocks fun d => cumsum (v d)

/-- Constructor arguments of `DFy` and `DFX`. `dist` is a distance function given instead of a name. -/
structure DfCfg where
  f : DistFun
  nBins : ℕ
  strategy : BinStrategy

/-- What `fit` leaves in `bincuts_` and `train_distrib_`. -/
structure DfFit (nd nb nc : ℕ) where
  cuts : Fin nd → Fin (nb + 1) → EReal
  train : Matrix (Fin (nd * nb)) (Fin nc) ℝ

/-- The common part of `DFy.fit` and `DFX.fit` (df.py:243-266, 535-555). `y` are the labels given to `fit`, `yExt` those of the
rows. -/
noncomputable def dfFit (ppf : ℝ → EReal) {D : Type*} {nd : ℕ} (kind : CumKind) (cfg : DfCfg) (range : Option (ℝ × ℝ)) (att : Fin nd → D → ℝ)
    (classes : List α) (y yExt : List α) (rows : List D) : Except Err (DfFit nd cfg.nBins classes.length) :=
  match seqFin fun d => computeBincuts ppf (rows.map (att d)) y classes cfg.nBins cfg.strategy range with
  | .error e => .error e
  | .ok cuts =>
    if yExt.length ≠ rows.length then .error .indexError
    else
      match seqFin fun c : Fin classes.length => histBlocks att cuts (selectRows yExt rows classes[c]) with
      | .error e => .error e
      | .ok v => .ok ⟨cuts, fun i c => accumulate kind cfg.f (v c) i⟩

/-- The testing distribution (df.py:323-333, 593-603). -/
noncomputable def dfTest {D : Type*} {nd nc : ℕ} (kind : CumKind) (cfg : DfCfg) (att : Fin nd → D → ℝ) (fit : DfFit nd cfg.nBins nc) (rows : List D) :
    Except Err (Fin (nd * cfg.nBins) → ℝ) :=
  (histBlocks att fit.cuts rows).map fun v => accumulate kind cfg.f v

/-- The number of descriptors of `DFy` (df.py:243-247, 317-321). -/
def nDescriptors (nc : ℕ) : ℕ := if nc = 2 then 1 else nc

theorem nDescriptors_le (nc : ℕ) : nDescriptors nc ≤ nc := by unfold nDescriptors; split_ifs <;> omega

/-- `predictions[:, descr]`. -/
def dfyAtt (nc : ℕ) (d : Fin (nDescriptors nc)) (row : Fin nc → ℝ) : ℝ := row (Fin.castLE (nDescriptors_le nc) d)

/-- `DFy.fit` (df.py:216-277) after `super().fit`. -/
noncomputable def dfyFit (ppf : ℝ → EReal) (cfg : DfCfg) (classes : List α) (y yExt : List α) (preds : List (Fin classes.length → ℝ)) :
    Except Err (DfFit (nDescriptors classes.length) cfg.nBins classes.length) :=
  dfFit ppf .whole cfg (some (0, 1)) (dfyAtt classes.length) classes y yExt preds

/-- The testing distribution of `DFy.predict` (df.py:279-357) after `super().predict`. -/
noncomputable def dfyTest {nc : ℕ} (cfg : DfCfg) (fit : DfFit (nDescriptors nc) cfg.nBins nc) (preds : List (Fin nc → ℝ)) :
    Except Err (Fin (nDescriptors nc * cfg.nBins) → ℝ) :=
  dfTest .whole cfg (dfyAtt nc) fit preds

/-- `DFX.fit` (df.py:518-566): the descriptors are the features. -/
noncomputable def dfxFit (ppf : ℝ → EReal) {nf : ℕ} (cfg : DfCfg) (classes : List α) (y : List α) (X : List (Fin nf → ℝ)) :
    Except Err (DfFit nf cfg.nBins classes.length) :=
  dfFit ppf .perBlock cfg none (fun d row => row d) classes y y X

/-- The testing distribution of `DFX.predict` (df.py:568-623). -/
noncomputable def dfxTest {nf nc : ℕ} (cfg : DfCfg) (fit : DfFit nf cfg.nBins nc) (X : List (Fin nf → ℝ)) : Except Err (Fin (nf * cfg.nBins) → ℝ) :=
  dfTest .perBlock cfg (fun d row => row d) fit X

/-! ## The answer -/

/-- The values of `distance`: a name, or a function for `global_search`. -/
inductive DfDistance (m : ℕ) where
  | hd | l1 | l2
  | fn (d : (Fin m → ℝ) → (Fin m → ℝ) → Fl)

/-- The end of `predict` on a fresh object (df.py:338-352, 605-619, friedman.py:253-267): a vector of prevalences. `par` are the
parameters computed by `fit` for 'L2'. A function is only compared with the mixtures of the first two columns, and
the answer is `[1 - p, p]`, whatever the number of classes; `none` stands for the integer 2 that `global_search` returns when
no loss is finite. -/
noncomputable def dfSolve (sv : CvxSolver) (qp : QPSolver) (tol : ℝ) {m nc : ℕ} (distance : DfDistance m) (T : Matrix (Fin m) (Fin nc) ℝ) (par : QPParams nc (nc + 1))
    (q : Fin m → ℝ) : Except Err (Option Vec) :=
  match distance with
  | .hd => (solveCvx sv .hd ⟨m, nc, T⟩ ⟨m, q⟩ none).map fun r => some r.2
  | .l1 => (solveCvx sv .l1 ⟨m, nc, T⟩ ⟨m, q⟩ none).map fun r => some r.2
  | .l2 => (solveL2 qp T q par).map fun x => some ⟨nc, x⟩
  | .fn d =>
    if h : 1 < nc then
      (globalSearch d (fun p => mixtureOfPdfs p (fun i => T i ⟨1, h⟩) (fun i => T i ⟨0, by omega⟩)) q tol none true).map
        fun r => r.2.map fun p => ⟨2, ![1 - p, p]⟩
    else .error .indexError

/-! ## Friedman -/

open Classical in
/-- One row of `Vp` or `Up` (friedman.py:187-189, 247-249). -/
noncomputable def friedmanRow {nc : ℕ} (prevs : Fin nc → ℝ) (row : Fin nc → ℝ) : Fin nc → ℝ :=
  fun j => if prevs j ≤ row j then 1 else 0

/-- `.mean(axis=0)`. -/
noncomputable def meanRows {m : ℕ} (rows : List (Fin m → ℝ)) : Fin m → ℝ := fun j => (rows.map fun r => r j).sum / rows.length

/-- What `FriedmanME.fit` leaves in `train_prevs_` and `train_distrib_`. -/
structure FriedmanFit (nc : ℕ) where
  prevs : Fin nc → ℝ
  train : Matrix (Fin nc) (Fin nc) ℝ

/-- `FriedmanME.fit` (friedman.py:149-204) after `super().fit`. -/
noncomputable def friedmanFit (classes : List α) (y yExt : List α) (preds : List (Fin classes.length → ℝ)) : Except Err (FriedmanFit classes.length) :=
  if yExt.length ≠ preds.length then .error .indexError
  else
    let prevs : Fin classes.length → ℝ := fun j => (y.count classes[j] : ℝ) / y.length
    .ok ⟨prevs, fun i c => meanRows ((selectRows yExt preds classes[c]).map (friedmanRow prevs)) i⟩

/-- The testing distribution of `FriedmanME.predict` (friedman.py:206-271). -/
noncomputable def friedmanTest {nc : ℕ} (fit : FriedmanFit nc) (preds : List (Fin nc → ℝ)) : Fin nc → ℝ :=
  meanRows (preds.map (friedmanRow fit.prevs))

end

end Verif.Model
