import Verif.Model.Df
import Verif.Model.Decomp
import Verif.Model.MetricsMulti

/-!
# Model of `quantificationlib/ensembles/eoq.py`

`EoQ`, from the point where predictions are known for quantifiers that use classifiers. Base quantifiers are arbitrary: `deepcopy` makes the members independent, so
that each is the result of its own `fit`. `nc` is `len(self.classes_)`. Bag generators are in a heap, since objects share them: the default
`bag_generator=PriorShift_BagGenerator()` (eoq.py:155) is evaluated once, when the class is defined.

Not modelled: verbose printing, fitting the estimators (eoq.py:266-326), base quantifiers that derive from neither `WithoutClassifiers` nor `UsingClassifiers`
(a ValueError), generators of other classes, members that predict NaN or inf.
-/

namespace Verif.Model

variable {α G Q ι : Type}

/-- The base quantifier: what it is trained with (`ι` and the labels) and what it predicts. -/
structure EoqOps (Q ι α : Type) where
  fit : ι → List α → Except Err Q
  predict : Q → ι → Except Err (List ℝ)

/-- The values of `combination_strategy`. -/
inductive EoqStrategy where
  | mean | median | prevalenceSimilarity | distributionSimilarity | all | other
  deriving DecidableEq

/-- Constructor arguments (eoq.py:155-183). `gen` is the address of the bag generator, `dist` the metric of `cdist`. -/
structure EoqCfg where
  nQuant : ℕ
  gen : ℕ
  strategy : EoqStrategy
  f : DistFun
  nBins : ℕ
  binStrategy : BinStrategy
  dist : (n : ℕ) → (Fin n → ℝ) → (Fin n → ℝ) → ℝ
  pct : ℝ

/-- Bag generators and the global random generator. -/
structure EoqWorld (G : Type) where
  gens : ℕ → PriorGen G
  glob : G

/-- What `fit` leaves in `quantifiers_`, `bincuts_` and `distributions_`. -/
structure EoqFit (Q : Type) (nd nb : ℕ) where
  members : List Q
  cuts : Fin nd → Fin (nb + 1) → EReal
  dists : List (Fin (nd * nb) → ℝ)

/-! ## Fit -/

/-- The bags (eoq.py:228-236): those of the generator, whose number of bags is set, or those given by the user (by columns); `none` when
`prevalences` is given but `indexes` is not. -/
noncomputable def eoqBags [LinearOrder α] (rng : Rng G) (fuel : ℕ) (w : EoqWorld G) (cfg : EoqCfg) (y : List α) (lenX : ℕ) (prevs : Option (List (List Fl))) (idx : Option (List (List ℕ))) :
    Option (EoqWorld G × Except Err (Option (List (List ℕ)))) :=
  match prevs, idx with
  | none, none =>
    (priorGenerate rng fuel { w.gens cfg.gen with nBags := cfg.nQuant } w.glob ⟨y, some lenX⟩).map fun g =>
      (⟨Function.update w.gens cfg.gen g.1, g.2.1⟩, g.2.2.map fun b => some b.idx)
  | _, idx => some (w, .ok idx)

/-- `indexes[:, i]`. -/
def bagAt (idx : Option (List (List ℕ))) (i : ℕ) : Except Err (List ℕ) :=
  match idx with
  | none => .error .typeError
  | some l => item l i

/-- The loops that fill `distributions_` (eoq.py:255-262, 377-391): the sample is the whole training set in every row, and `np.cumsum(..., axis=1)`
of a one-dimensional slice is an AxisError (a ValueError). -/
noncomputable def eoqDistribution {D : Type} {nd nb : ℕ} (f : DistFun) (att : Fin nd → D → ℝ) (cuts : Fin nd → Fin (nb + 1) → EReal) (rows : List D) : Except Err (Fin (nd * nb) → ℝ) :=
  histBlocks att cuts rows >>= fun v => if f = .cdf ∧ 0 < nd then .error .valueError else .ok (stackBlocks v)

/-- Training the member of a bag with the features of its examples (eoq.py:250-252). -/
def eoqxMember {nf : ℕ} (ops : EoqOps Q (List (Fin nf → ℝ)) α) (X : List (Fin nf → ℝ)) (y : List α) (bag : List ℕ) : Except Err Q := do
  let rows ← bag.mapM (item X)
  let ys ← bag.mapM (item y)
  ops.fit rows ys

/-- The bin cuts of the features (eoq.py:244-247): rows of the array have 101 places, whatever `n_bins`. -/
noncomputable def eoqxCuts [LinearOrder α] (ppf : ℝ → EReal) {nf : ℕ} (nb : ℕ) (X : List (Fin nf → ℝ)) (y : List α) : Except Err (Fin nf → Fin (nb + 1) → EReal) :=
  (seqFin fun d => computeBincuts ppf (X.map fun row => row d) y (npUnique y) nb .equalWidth none) >>= fun cuts => if nb ≠ 100 ∧ 0 < nf then .error .valueError else .ok cuts

/-- `fit` with quantifiers that do not use classifiers, after the bags (eoq.py:238-262). -/
noncomputable def eoqxLearn [LinearOrder α] (ppf : ℝ → EReal) {nf : ℕ} (cfg : EoqCfg) (ops : EoqOps Q (List (Fin nf → ℝ)) α) (X : List (Fin nf → ℝ)) (y : List α) (idx : Option (List (List ℕ))) :
    Except Err (EoqFit Q nf cfg.nBins) := do
  let cuts ← eoqxCuts ppf cfg.nBins X y
  let members ← (List.range cfg.nQuant).mapM fun i => bagAt idx i >>= eoqxMember ops X y
  let dists ← (List.range cfg.nQuant).mapM fun _ => eoqDistribution cfg.f (fun d row => row d) cuts X
  pure ⟨members, cuts, dists⟩

/-- `EoQ.fit` (eoq.py:185-400) with quantifiers that do not use classifiers. -/
noncomputable def eoqxFit [LinearOrder α] (ppf : ℝ → EReal) (rng : Rng G) (fuel : ℕ) {nf : ℕ} (w : EoqWorld G) (cfg : EoqCfg) (ops : EoqOps Q (List (Fin nf → ℝ)) α) (X : List (Fin nf → ℝ)) (y : List α)
    (prevs : Option (List (List Fl))) (idx : Option (List (List ℕ))) : Option (EoqWorld G × Except Err (EoqFit Q nf cfg.nBins)) :=
  (eoqBags rng fuel w cfg y X.length prevs idx).map fun r => (r.1, r.2 >>= eoqxLearn ppf cfg ops X y)

/-- Predictions given to `EoQ`: crisp (1-D), probabilities (2-D), or those of an ensemble of classifiers (3-D: for every example, a row per
estimator). -/
inductive EoqPreds (α : Type) (nc : ℕ) where
  | crisp (l : List α)
  | probs (l : List (Fin nc → ℝ))
  | ens (l : List (List (Fin nc → ℝ)))

/-- `len(predictions)`. -/
def EoqPreds.len {nc : ℕ} : EoqPreds α nc → ℕ
  | .crisp l => l.length
  | .probs l => l.length
  | .ens l => l.length

/-- The predictions of the examples of a bag for member `i` (eoq.py:347-357). -/
def EoqPreds.ofBag {nc : ℕ} (p : EoqPreds α nc) (bag : List ℕ) (i : ℕ) : Except Err (Preds α nc) :=
  match p with
  | .crisp l => (bag.mapM (item l)).map .crisp
  | .probs l => (bag.mapM (item l)).map .probs
  | .ens l => (bag.mapM fun j => item l j >>= fun rows => item rows i).map .probs

/-- The probabilities whose distribution is represented: averages over the estimators of an ensemble (eoq.py:367-374, 380-387); none for crisp
predictions. -/
noncomputable def EoqPreds.rows {nc : ℕ} : EoqPreds α nc → Option (List (Fin nc → ℝ))
  | .crisp _ => none
  | .probs l => some l
  | .ens l => some (l.map meanRows)

/-- `indexes_ext` (eoq.py:334-340) for `m` training examples with `r` predictions each: `np.tile(indexes, (r, 1))` has `r * bag_size` rows, the
array that is added has `r * m`. Simplification: NumPy would broadcast arrays with a single row or a single column. -/
def extIndexes (m r nQuant : ℕ) (idx : Option (List (List ℕ))) : Except Err (Option (List (List ℕ))) :=
  match idx with
  | none => .error .typeError
  | some l =>
    if l.length = nQuant ∧ (r = 0 ∨ ∀ bag ∈ l, bag.length = m) then .ok (some (l.map fun bag => ((List.range r).map fun t => bag.map fun j => j + t * m).flatten))
    else .error .valueError

/-- `y_ext` and `indexes_ext` (eoq.py:330-340). -/
def eoqExtend (y : List α) (nPreds nQuant : ℕ) (idx : Option (List (List ℕ))) : Except Err (List α × Option (List (List ℕ))) := do
  let yExt ← extendLabels y nPreds
  if y.length = nPreds then pure (yExt, idx)
  else
    let idxExt ← extIndexes y.length (nPreds / y.length) nQuant idx
    pure (yExt, idxExt)

/-- Training the member `i` of a bag with predictions (eoq.py:345-357). -/
def eoqyMember {nc : ℕ} (ops : EoqOps Q (Preds α nc) α) (preds : EoqPreds α nc) (yExt : List α) (i : ℕ) (bag : List ℕ) : Except Err Q := do
  let ys ← bag.mapM (item yExt)
  let p ← preds.ofBag bag i
  ops.fit p ys

/-- The bin cuts of the predictions (eoq.py:365-374): zeros for crisp ones. -/
noncomputable def eoqyCuts [DecidableEq α] (ppf : ℝ → EReal) {nc : ℕ} (nb : ℕ) (strategy : BinStrategy) (classes : List α) (yExt : List α) (preds : EoqPreds α nc) :
    Except Err (Fin (nDescriptors nc) → Fin (nb + 1) → EReal) :=
  match preds.rows with
  | none => .ok fun _ _ => 0
  | some rows => seqFin fun d => computeBincuts ppf (rows.map (dfyAtt nc d)) yExt classes nb strategy none

/-- A row of `distributions_` (eoq.py:376-391): zeros for crisp predictions. -/
noncomputable def eoqyDistribution {nc nb : ℕ} (f : DistFun) (cuts : Fin (nDescriptors nc) → Fin (nb + 1) → EReal) (preds : EoqPreds α nc) : Except Err (Fin (nDescriptors nc * nb) → ℝ) :=
  match preds.rows with
  | none => if f = .cdf ∧ 0 < nDescriptors nc then .error .valueError else .ok fun _ => 0
  | some rows => eoqDistribution f (dfyAtt nc) cuts rows

/-- `fit` with quantifiers that use classifiers, after the bags and with known predictions (eoq.py:330-391). -/
noncomputable def eoqyLearn [LinearOrder α] (ppf : ℝ → EReal) {nc : ℕ} (cfg : EoqCfg) (ops : EoqOps Q (Preds α nc) α) (preds : EoqPreds α nc) (y : List α) (idx : Option (List (List ℕ))) :
    Except Err (EoqFit Q (nDescriptors nc) cfg.nBins) := do
  let ext ← eoqExtend y preds.len cfg.nQuant idx
  let members ← (List.range cfg.nQuant).mapM fun i => bagAt ext.2 i >>= eoqyMember ops preds ext.1 i
  let cuts ← eoqyCuts ppf cfg.nBins cfg.binStrategy (npUnique y) ext.1 preds
  let dists ← (List.range cfg.nQuant).mapM fun _ => eoqyDistribution cfg.f cuts preds
  pure ⟨members, cuts, dists⟩

/-- `EoQ.fit` (eoq.py:185-400) with quantifiers that use classifiers and known predictions. -/
noncomputable def eoqyFit [LinearOrder α] (ppf : ℝ → EReal) (rng : Rng G) (fuel : ℕ) {nc : ℕ} (w : EoqWorld G) (cfg : EoqCfg) (ops : EoqOps Q (Preds α nc) α) (lenX : ℕ) (preds : EoqPreds α nc) (y : List α)
    (prevs : Option (List (List Fl))) (idx : Option (List (List ℕ))) : Option (EoqWorld G × Except Err (EoqFit Q (nDescriptors nc) cfg.nBins)) :=
  (eoqBags rng fuel w cfg y lenX prevs idx).map fun r => (r.1, r.2 >>= eoqyLearn ppf cfg ops preds y)

/-! ## Predict -/

/-- `prevalences[i, :] = v` (eoq.py:435, 447, 450): NumPy broadcasts an array with one element. -/
def storeRow (nc : ℕ) (v : List ℝ) : Except Err (Fin nc → ℝ) :=
  if h : v.length = nc then .ok fun i => v[i]
  else
    match v with
    | [a] => .ok fun _ => a
    | _ => .error .valueError

/-- `l[0:k]`. -/
def sliceTo {β : Type} (l : List β) (k : ℤ) : List β := if 0 ≤ k then l.take k.toNat else l.take ((l.length : ℤ) + k).toNat

/-- The members selected by an array of differences (eoq.py:457-458, 501-502); `argsort` is `np.argsort`. -/
noncomputable def eoqSelect (argsort : List Fl → List ℕ) (cfg : EoqCfg) (d : List Fl) : List ℕ := sliceTo (argsort d) (roundHalfEven ((cfg.nQuant : ℝ) * cfg.pct))

/-- The differences between the mean prediction and those of the members (eoq.py:453-456). -/
noncomputable def eoqDifferences {nc : ℕ} (rows : List (Fin nc → ℝ)) : List Fl := rows.map fun r => meanAbsoluteError (meanRows rows) r

/-- `v / float(np.sum(v))`. -/
noncomputable def normalise {nc : ℕ} (v : Fin nc → Fl) : Fin nc → Fl := fun j => v j / ∑ i, v i

/-- `np.mean(rows, axis=0)`, normalised (eoq.py:506-507, 512-513, 515-516, 519-520, 525-526, 528-529): NaN for no rows. -/
noncomputable def eoqMean {nc : ℕ} (rows : List (Fin nc → ℝ)) : Fin nc → Fl :=
  normalise fun j => Fl.fin (rows.map fun r => r j).sum / Fl.fin (rows.length : ℝ)

/-- `np.median` of finite numbers. -/
noncomputable def npMedian (l : List ℝ) : Fl :=
  let s := l.mergeSort (· ≤ ·)
  if l.length = 0 then .nan
  else if l.length % 2 = 1 then .fin (s.getD (l.length / 2) 0)
  else .fin ((s.getD (l.length / 2 - 1) 0 + s.getD (l.length / 2) 0) / 2)

/-- `np.median(rows, axis=0)`, normalised (eoq.py:509-510, 522-523). -/
noncomputable def eoqMedian {nc : ℕ} (rows : List (Fin nc → ℝ)) : Fin nc → Fl := normalise fun j => npMedian (rows.map fun r => r j)

/-- The mean of the selected members. -/
noncomputable def eoqMeanOf {nc : ℕ} (rows : List (Fin nc → ℝ)) (sel : List ℕ) : Except Err (Fin nc → Fl) := (sel.mapM (item rows)).map eoqMean

/-- What `predict` returns: a vector, the dictionary of the strategy 'all' (mean, median, prevalence_similarity, distribution_similarity, all), or the
initial value 0 for an unknown strategy. -/
inductive EoqAnswer (nc : ℕ) where
  | vec (v : Fin nc → Fl)
  | dict (mean median prev dist all : Fin nc → Fl)
  | zero

/-- The combination of the members' predictions (eoq.py:452-533); `distances` are those of the test distribution. -/
noncomputable def eoqCombine (argsort : List Fl → List ℕ) {nc : ℕ} (cfg : EoqCfg) (rows : List (Fin nc → ℝ)) (distances : Except Err (List Fl)) : Except Err (EoqAnswer nc) :=
  match cfg.strategy with
  | .mean => .ok (.vec (eoqMean rows))
  | .median => .ok (.vec (eoqMedian rows))
  | .prevalenceSimilarity => (eoqMeanOf rows (eoqSelect argsort cfg (eoqDifferences rows))).map .vec
  | .distributionSimilarity => distances >>= fun d => (eoqMeanOf rows (eoqSelect argsort cfg d)).map .vec
  | .all => do
    let d ← distances
    let m2 ← eoqMeanOf rows (eoqSelect argsort cfg (eoqDifferences rows))
    let m3 ← eoqMeanOf rows (eoqSelect argsort cfg d)
    pure (.dict (eoqMean rows) (eoqMedian rows) m2 m3 fun j => (eoqMean rows j + eoqMedian rows j + m2 j + m3 j) / Fl.fin 4)
  | .other => .ok .zero

/-- The distances to the distributions of the members (eoq.py:500). -/
noncomputable def eoqDistances {nd nb : ℕ} (cfg : EoqCfg) (fit : EoqFit Q nd nb) (test : Fin (nd * nb) → ℝ) : List Fl := fit.dists.map fun d => Fl.fin (cfg.dist _ test d)

/-- The predictions of the members (eoq.py:430-435). -/
def eoqxRows (nc : ℕ) {nf nb : ℕ} (cfg : EoqCfg) (ops : EoqOps Q (List (Fin nf → ℝ)) α) (fit : EoqFit Q nf nb) (X : List (Fin nf → ℝ)) : Except Err (List (Fin nc → ℝ)) :=
  (List.range cfg.nQuant).mapM fun i => item fit.members i >>= fun q => ops.predict q X >>= storeRow nc

/-- `EoQ.predict` (eoq.py:402-533) with quantifiers that do not use classifiers. With 'CDF' the name `test_distributions` is undefined, but `fit` has
failed before. -/
noncomputable def eoqxPredict (argsort : List Fl → List ℕ) (nc : ℕ) {nf : ℕ} (cfg : EoqCfg) (ops : EoqOps Q (List (Fin nf → ℝ)) α) (fit : EoqFit Q nf cfg.nBins) (X : List (Fin nf → ℝ)) : Except Err (EoqAnswer nc) :=
  eoqxRows nc cfg ops fit X >>= fun rows => eoqCombine argsort cfg rows ((eoqDistribution cfg.f (fun d row => row d) fit.cuts X).map (eoqDistances cfg fit))

/-- The testing predictions given to member `i` (eoq.py:445-450). -/
def EoqPreds.forMember {nc : ℕ} (p : EoqPreds α nc) (i : ℕ) : Except Err (Preds α nc) :=
  match p with
  | .crisp l => .ok (.crisp l)
  | .probs l => .ok (.probs l)
  | .ens l => (l.mapM fun rows => item rows i).map .probs

/-- The predictions of the members (eoq.py:445-450). -/
def eoqyRows {nc nb : ℕ} (cfg : EoqCfg) (ops : EoqOps Q (Preds α nc) α) (fit : EoqFit Q (nDescriptors nc) nb) (preds : EoqPreds α nc) : Except Err (List (Fin nc → ℝ)) :=
  (List.range cfg.nQuant).mapM fun i => item fit.members i >>= fun q => preds.forMember i >>= fun p => ops.predict q p >>= storeRow nc

/-- The distribution of the testing predictions (eoq.py:473-496). -/
noncomputable def eoqyTest {nc nb : ℕ} (f : DistFun) (cuts : Fin (nDescriptors nc) → Fin (nb + 1) → EReal) (preds : EoqPreds α nc) : Except Err (Fin (nDescriptors nc * nb) → ℝ) :=
  match preds.rows with
  | none => .error .valueError
  | some rows => eoqDistribution f (dfyAtt nc) cuts rows

/-- `EoQ.predict` (eoq.py:402-533) with quantifiers that use classifiers and known predictions. -/
noncomputable def eoqyPredict (argsort : List Fl → List ℕ) {nc : ℕ} (cfg : EoqCfg) (ops : EoqOps Q (Preds α nc) α) (fit : EoqFit Q (nDescriptors nc) cfg.nBins) (preds : EoqPreds α nc) : Except Err (EoqAnswer nc) :=
  eoqyRows cfg ops fit preds >>= fun rows => eoqCombine argsort cfg rows ((eoqyTest cfg.f fit.cuts preds).map (eoqDistances cfg fit))

end Verif.Model
