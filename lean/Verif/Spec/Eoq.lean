import Verif.Model.Eoq
import Verif.Spec.Prevalence
import Verif.Spec.Df

/-!
# Specification for ensembles of quantifiers
-/

namespace Verif.Spec

open Verif.Model

/-- What is used of `np.argsort`, for arrays without NaN: it returns all the positions, ordered by value. -/
structure ArgsortOk (argsort : List Fl → List ℕ) : Prop where
  perm : ∀ l : List ℝ, (argsort (l.map Fl.fin)).Perm (List.range l.length)
  sorted : ∀ l : List ℝ, (argsort (l.map Fl.fin)).Pairwise fun i j => l.getD i 0 ≤ l.getD j 0

/-- A prevalence vector for `nc` classes, as an array. -/
def IsPrevList (nc : ℕ) (v : List ℝ) : Prop := v.length = nc ∧ (∀ x ∈ v, 0 ≤ x) ∧ v.sum = 1

/-- `m` is a median of the values: no more than half of them are less, and no more than half are greater. -/
def IsMedian (m : ℝ) (l : List ℝ) : Prop := 2 * l.countP (fun x => decide (x < m)) ≤ l.length ∧ 2 * l.countP (fun x => decide (m < x)) ≤ l.length

/-- The answer to `predict` is a prevalence vector or, for the strategy 'all', a dictionary of five prevalence vectors. -/
def ValidFor {nc : ℕ} (strategy : EoqStrategy) (r : Except Err (EoqAnswer nc)) : Prop :=
  match strategy with
  | .all => ∃ m1 m2 m3 m4 m5, r = .ok (.dict m1 m2 m3 m4 m5) ∧ IsPrevFl m1 ∧ IsPrevFl m2 ∧ IsPrevFl m3 ∧ IsPrevFl m4 ∧ IsPrevFl m5
  | .other => False
  | _ => ∃ v, r = .ok (.vec v) ∧ IsPrevFl v

/-- The answer to `predict` is `v` or, for the strategy 'all', a dictionary with `v` everywhere. -/
def AnswerIs {nc : ℕ} (strategy : EoqStrategy) (r : Except Err (EoqAnswer nc)) (v : Fin nc → Fl) : Prop :=
  match strategy with
  | .all => r = .ok (.dict v v v v v)
  | .other => False
  | _ => r = .ok (.vec v)

/-- Is the strategy one of those that select members by similarity of distributions? -/
def UsesDistributions (s : EoqStrategy) : Prop := s = .distributionSimilarity ∨ s = .all

/-- Does the strategy select some of the members? -/
def Selects (s : EoqStrategy) : Prop := s = .prevalenceSimilarity ∨ s = .distributionSimilarity ∨ s = .all

/-- Does the strategy compute medians? -/
def UsesMedian (s : EoqStrategy) : Prop := s = .median ∨ s = .all

/-- `v` is the mean of the predictions of `k` of the `n` members, such that no member left out has a smaller score than one of them. -/
def MeanOfBest {nc : ℕ} (score : ℕ → ℝ) (n k : ℕ) (vs : List (List ℝ)) (v : Fin nc → Fl) : Prop :=
  ∃ S : List ℕ, S.Nodup ∧ S.length = k ∧ (∀ i ∈ S, i < n) ∧ (∀ i ∈ S, ∀ j < n, j ∉ S → score i ≤ score j) ∧ ∀ c, v c = .fin ((S.map fun i => (vs.getD i []).getD c 0).sum / k)

/-- The mean prevalence that the members give to a class. -/
noncomputable def meanPrediction (vs : List (List ℝ)) (c : ℕ) : ℝ := (vs.map fun v => v.getD c 0).sum / vs.length

/-- The mean absolute difference between the predictions of a member and the mean predictions. -/
noncomputable def distanceToMean (nc : ℕ) (vs : List (List ℝ)) (i : ℕ) : ℝ := (∑ c : Fin nc, |(vs.getD i []).getD c 0 - meanPrediction vs c|) / nc

/-- `rows` are the examples (or the labels, or the predictions) of a bag. -/
def BagOf {β : Type} (X : List β) (bag : List ℕ) (rows : List β) : Prop := (bag.map fun i => X[i]?) = rows.map some

/-- `p` are the predictions of the examples of a bag for member `i`: with an ensemble of classifiers, those of classifier `i`. -/
def BagPreds {α : Type} {nc : ℕ} (preds : EoqPreds α nc) (bag : List ℕ) (i : ℕ) (p : Preds α nc) : Prop :=
  match preds with
  | .crisp l => ∃ ps, p = .crisp ps ∧ BagOf l bag ps
  | .probs l => ∃ ps, p = .probs ps ∧ BagOf l bag ps
  | .ens l => ∃ ps, p = .probs ps ∧ (bag.map fun j => l[j]?.bind fun rows => rows[i]?) = ps.map some

/-- The distribution of a sample: the share of every bin, for every feature. -/
noncomputable def sampleDistribution {nf nb : ℕ} (cuts : Fin nf → Fin (nb + 1) → EReal) (rows : List (Fin nf → ℝ)) : Fin (nf * nb) → ℝ :=
  fun k => binShare (cuts k.divNat) (rows.map fun r => r k.divNat) k.modNat

end Verif.Spec
