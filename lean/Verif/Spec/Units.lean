import Verif.Model.Df
import Verif.Spec.PriorShift
import Verif.Spec.NegType

/-!
# Specification: other units for the features
-/

namespace Verif.Spec

open Verif.Model

/-- A change of units (metres to feet, Celsius to Fahrenheit...): feature `d` is multiplied by a positive factor and shifted. -/
structure Units (nf : ℕ) where
  factor : Fin nf → ℝ
  shift : Fin nf → ℝ
  pos : ∀ d, 0 < factor d

/-- An example in the new units. -/
def Units.conv {nf : ℕ} (u : Units nf) (row : Fin nf → ℝ) : Fin nf → ℝ := fun d => u.factor d * row d + u.shift d

/-- A sample in the new units. -/
def Units.sample {nf : ℕ} (u : Units nf) (rows : List (Fin nf → ℝ)) : List (Fin nf → ℝ) := rows.map u.conv

/-- Two of the values are different. -/
def Varies (l : List ℝ) : Prop := ∃ a ∈ l, ∃ b ∈ l, a ≠ b

/-- What the bins of a feature need: that it varies in the training set ('equal_width', 'normal'), that it varies within one of the classes ('binormal'); nothing ('equal_count'). -/
def Spread {α : Type*} [DecidableEq α] (strategy : BinStrategy) (classes : List α) (s : List (α × ℝ)) : Prop :=
  match strategy with
  | .equalWidth => Varies (s.map Prod.snd)
  | .normal => Varies (s.map Prod.snd)
  | .binormal => ∃ c ∈ classes, Varies (ofClass s c)
  | .equalCount => True
  | .other => True

end Verif.Spec
