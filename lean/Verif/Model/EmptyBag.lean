import Verif.Model.NanPreds
import Verif.Model.Shapes

/-!
# Distribution matching on a bag that may be empty

In `Verif.Model.Df` the relative frequencies are real numbers, and those of an empty bag are zero by the convention of Lean for the division by zero. Here the division is that of NumPy, so that they are NaN, and
the distance is any function of two arrays of floats that may raise an exception.
-/

namespace Verif.Model

/-- `np.cumsum` of a flat array of floats. -/
noncomputable def cumsumF {m : ℕ} (v : Fin m → Fl) : Fin m → Fl := fun k => ∑ j, if j ≤ k then v j else 0

/-- The testing distribution of `DFy.predict` (df.py:317-336). -/
noncomputable def dfyTestFl {nc : ℕ} (cfg : DfCfg) (fit : DfFit (nDescriptors nc) cfg.nBins nc) (preds : List (Fin nc → ℝ)) : Except Err (Fin (nDescriptors nc * cfg.nBins) → Fl) :=
  (seqFin fun d => npHistogram (preds.map (dfyAtt nc d)) (fit.cuts d)).map fun v =>
    let shares : Fin (nDescriptors nc * cfg.nBins) → Fl := fun i => Fl.fin (stackBlocks v i) / Fl.fin (preds.length : ℝ)
    match cfg.f with
    | .pdf => shares
    | .cdf => cumsumF shares

/-- `global_search(..., mixtures=None, return_mixtures=True, ...)` (search.py:71-111) when the test distribution may not be made of numbers: the mixtures and the test distribution are columns, but the mixtures of the
grid are flat (see `globalSearchNd`). -/
noncomputable def globalSearchFl (dist : NdArr Fl → NdArr Fl → Except Err Fl) {m : ℕ} (mix : ℝ → Fin m → ℝ) (test : Fin m → Fl) (tol : ℝ) : Except Err (Option ℝ) := do
  let losses ← (List.range 101).mapM fun i : ℕ => dist (.vec m fun j => Fl.fin (mix ((i : ℝ) / 100) j)) (.col test)
  globalCore (fun i => losses.getD i 0) (goldenSectionSearchX (fun p => dist (.col fun j => Fl.fin (mix p j)) (.col test)) tol)

/-- `DFy.predict` (df.py:279-357) after `super().predict`, for a fresh object with two classes and a distance given as a function. -/
noncomputable def dfySearchFl (tol : ℝ) (cfg : DfCfg) (dist : NdArr Fl → NdArr Fl → Except Err Fl) (fit : DfFit (nDescriptors 2) cfg.nBins 2) (preds : List (Fin 2 → ℝ)) : Except Err (Option (Fin 2 → ℝ)) := do
  let test ← dfyTestFl cfg fit preds
  let p ← globalSearchFl dist (fun p => mixtureOfPdfs p (fun i => fit.train i 1) (fun i => fit.train i 0)) test tol
  pure (p.map fun p => ![1 - p, p])

end Verif.Model
