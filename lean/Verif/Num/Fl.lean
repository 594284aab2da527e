import Mathlib.Analysis.SpecialFunctions.Log.Base
import Mathlib.Analysis.SpecialFunctions.Sqrt
import Mathlib.Algebra.BigOperators.Group.Finset.Basic
import Mathlib.Algebra.BigOperators.Fin
import Mathlib.Tactic.Linarith
import Mathlib.Tactic.NormNum
import Mathlib.Tactic.Positivity

/-!
# NumPy floating point values

`Fl` models the values a NumPy `float64` computation produces: a finite number, the two
infinities and NaN, with the IEEE-754 rules for the special values.

Simplifications (also recorded in DESIGN.md): finite arithmetic is exact real arithmetic
(no rounding, overflow or underflow) and there is a single unsigned zero, so `x / 0` is
`+inf` for `x > 0` and `-inf` for `x < 0`.
-/

namespace Verif

open Classical

/-- A NumPy float: finite, `+inf`, `-inf` or NaN. -/
inductive Fl where
  | fin (x : ℝ)
  | pinf
  | ninf
  | nan

namespace Fl

/-- IEEE addition: `inf + -inf` is NaN, NaN absorbs. -/
noncomputable def add : Fl → Fl → Fl
  | nan, _ => nan
  | _, nan => nan
  | fin x, fin y => fin (x + y)
  | pinf, ninf => nan
  | ninf, pinf => nan
  | pinf, _ => pinf
  | _, pinf => pinf
  | ninf, _ => ninf
  | _, ninf => ninf

/-- Sign change. -/
noncomputable def neg : Fl → Fl
  | fin x => fin (-x)
  | pinf => ninf
  | ninf => pinf
  | nan => nan

/-- `s * inf` for a finite `s`: NaN when `s = 0`. -/
noncomputable def scaleInf (s : ℝ) : Fl :=
  if s = 0 then nan else if 0 < s then pinf else ninf

/-- IEEE multiplication: `0 * inf` is NaN. -/
noncomputable def mul : Fl → Fl → Fl
  | nan, _ => nan
  | _, nan => nan
  | fin x, fin y => fin (x * y)
  | fin x, pinf => scaleInf x
  | fin x, ninf => scaleInf (-x)
  | pinf, fin y => scaleInf y
  | ninf, fin y => scaleInf (-y)
  | pinf, pinf => pinf
  | ninf, ninf => pinf
  | pinf, ninf => ninf
  | ninf, pinf => ninf

/-- IEEE division: `0/0` and `inf/inf` are NaN, `x/0` is infinite, `x/inf` is 0. -/
noncomputable def div : Fl → Fl → Fl
  | nan, _ => nan
  | _, nan => nan
  | fin x, fin y => if y = 0 then scaleInf x else fin (x / y)
  | fin _, pinf => fin 0
  | fin _, ninf => fin 0
  | pinf, fin y => if 0 ≤ y then pinf else ninf
  | ninf, fin y => if 0 ≤ y then ninf else pinf
  | pinf, pinf => nan
  | ninf, ninf => nan
  | pinf, ninf => nan
  | ninf, pinf => nan

noncomputable instance : Zero Fl := ⟨fin 0⟩
noncomputable instance : One Fl := ⟨fin 1⟩
noncomputable instance : Add Fl := ⟨add⟩
noncomputable instance : Neg Fl := ⟨neg⟩
noncomputable instance : Sub Fl := ⟨fun a b => add a (neg b)⟩
noncomputable instance : Mul Fl := ⟨mul⟩
noncomputable instance : Div Fl := ⟨div⟩
instance : Inhabited Fl := ⟨nan⟩

/-- Absolute value. -/
noncomputable def abs : Fl → Fl
  | fin x => fin |x|
  | pinf => pinf
  | ninf => pinf
  | nan => nan

/-- `np.sqrt`: NaN on negative arguments. -/
noncomputable def sqrt : Fl → Fl
  | fin x => if x < 0 then nan else fin (Real.sqrt x)
  | pinf => pinf
  | ninf => nan
  | nan => nan

/-- `np.log`: `-inf` at 0, NaN on negative arguments. -/
noncomputable def log : Fl → Fl
  | fin x => if x < 0 then nan else if x = 0 then ninf else fin (Real.log x)
  | pinf => pinf
  | ninf => nan
  | nan => nan

/-- `np.log2`: `-inf` at 0, NaN on negative arguments. -/
noncomputable def log2 : Fl → Fl
  | fin x => if x < 0 then nan else if x = 0 then ninf else fin (Real.logb 2 x)
  | pinf => pinf
  | ninf => nan
  | nan => nan

/-- `np.exp`. -/
noncomputable def exp : Fl → Fl
  | fin x => fin (Real.exp x)
  | pinf => pinf
  | ninf => fin 0
  | nan => nan

/-- `x ** 2`. -/
noncomputable def sq (x : Fl) : Fl := x * x

/-- IEEE `<`: false as soon as one side is NaN. -/
def lt : Fl → Fl → Prop
  | fin x, fin y => x < y
  | ninf, fin _ => True
  | ninf, pinf => True
  | fin _, pinf => True
  | _, _ => False

/-- IEEE `<=`: false as soon as one side is NaN. -/
def le : Fl → Fl → Prop
  | fin x, fin y => x ≤ y
  | ninf, fin _ => True
  | ninf, pinf => True
  | ninf, ninf => True
  | fin _, pinf => True
  | pinf, pinf => True
  | _, _ => False

instance : LT Fl := ⟨lt⟩
instance : LE Fl := ⟨le⟩

/-- IEEE `==`: NaN differs from everything, itself included. -/
def eq : Fl → Fl → Prop
  | nan, _ => False
  | _, nan => False
  | a, b => a = b

/-- `np.clip(x, 0, 1)`: NaN stays NaN. -/
noncomputable def clip01 : Fl → Fl
  | fin x => fin (max 0 (min x 1))
  | pinf => fin 1
  | ninf => fin 0
  | nan => nan

/-- Is the value finite? (`np.isfinite`) -/
def IsFin : Fl → Prop
  | fin _ => True
  | _ => False

/-! ### Computation rules on finite values -/

@[simp] theorem zero_def : (0 : Fl) = fin 0 := rfl
@[simp] theorem one_def : (1 : Fl) = fin 1 := rfl
@[simp] theorem fin_add (x y : ℝ) : fin x + fin y = fin (x + y) := rfl
@[simp] theorem fin_sub (x y : ℝ) : fin x - fin y = fin (x - y) := by
  show fin (x + -y) = _
  rw [sub_eq_add_neg]
@[simp] theorem fin_neg (x : ℝ) : -fin x = fin (-x) := rfl
@[simp] theorem fin_mul (x y : ℝ) : fin x * fin y = fin (x * y) := rfl
theorem fin_div_def (x y : ℝ) : fin x / fin y = if y = 0 then scaleInf x else fin (x / y) := rfl
theorem fin_div {y : ℝ} (x : ℝ) (h : y ≠ 0) : fin x / fin y = fin (x / y) := by
  rw [fin_div_def, if_neg h]
theorem zero_div_zero : fin 0 / fin 0 = nan := by
  simp [fin_div_def, scaleInf]
@[simp] theorem abs_fin (x : ℝ) : abs (fin x) = fin |x| := rfl
@[simp] theorem sq_fin (x : ℝ) : sq (fin x) = fin (x ^ 2) := by
  simp [sq, pow_two]
@[simp] theorem exp_fin (x : ℝ) : exp (fin x) = fin (Real.exp x) := rfl
theorem sqrt_fin {x : ℝ} (h : 0 ≤ x) : sqrt (fin x) = fin (Real.sqrt x) := by
  simp [sqrt, not_lt.mpr h]
theorem log_fin {x : ℝ} (h : 0 < x) : log (fin x) = fin (Real.log x) := by
  simp [log, not_lt.mpr h.le, h.ne']
theorem log2_fin {x : ℝ} (h : 0 < x) : log2 (fin x) = fin (Real.logb 2 x) := by
  simp [log2, not_lt.mpr h.le, h.ne']
theorem log2_zero : log2 (fin 0) = ninf := by simp [log2]
theorem log_zero : log (fin 0) = ninf := by simp [log]
@[simp] theorem fin_lt_fin (x y : ℝ) : fin x < fin y ↔ x < y := Iff.rfl
@[simp] theorem fin_le_fin (x y : ℝ) : fin x ≤ fin y ↔ x ≤ y := Iff.rfl
@[simp] theorem eq_fin (x y : ℝ) : eq (fin x) (fin y) ↔ x = y := by simp [eq]
@[simp] theorem clip01_fin (x : ℝ) : clip01 (fin x) = fin (max 0 (min x 1)) := rfl
@[simp] theorem fin_inj (x y : ℝ) : fin x = fin y ↔ x = y := ⟨fun h => by injection h, fun h => by rw [h]⟩
@[simp] theorem isFin_fin (x : ℝ) : IsFin (fin x) := trivial
@[simp] theorem nan_add (x : Fl) : nan + x = nan := by cases x <;> rfl
@[simp] theorem add_nan (x : Fl) : x + nan = nan := by cases x <;> rfl
@[simp] theorem nan_mul (x : Fl) : nan * x = nan := by cases x <;> rfl
@[simp] theorem mul_nan (x : Fl) : x * nan = nan := by cases x <;> rfl
@[simp] theorem nan_div (x : Fl) : nan / x = nan := by cases x <;> rfl
@[simp] theorem div_nan (x : Fl) : x / nan = nan := by cases x <;> rfl
@[simp] theorem not_nan_lt (x : Fl) : ¬ nan < x := by cases x <;> exact id
@[simp] theorem not_lt_nan (x : Fl) : ¬ x < nan := by cases x <;> exact id
@[simp] theorem fin_ne_nan (x : ℝ) : fin x ≠ nan := by intro h; cases h
@[simp] theorem zero_mul_ninf : fin 0 * ninf = nan := by
  show scaleInf (-0) = nan
  simp [scaleInf]

/-- Exact arithmetic makes `Fl` addition a commutative monoid, so sums do not depend on
the order in which NumPy adds. -/
noncomputable instance : AddCommMonoid Fl where
  add := add
  zero := fin 0
  nsmul := nsmulRec
  add_assoc a b c := by
    show add (add a b) c = add a (add b c)
    cases a <;> cases b <;> cases c <;> simp [add, add_assoc]
  zero_add a := by
    show add (fin 0) a = a
    cases a <;> simp [add]
  add_zero a := by
    show add a (fin 0) = a
    cases a <;> simp [add]
  add_comm a b := by
    show add a b = add b a
    cases a <;> cases b <;> simp [add, add_comm]

/-- The inclusion of the reals, as a homomorphism of additive monoids. -/
noncomputable def finHom : ℝ →+ Fl where
  toFun := fin
  map_zero' := rfl
  map_add' _ _ := rfl

theorem sum_fin {ι : Type*} (s : Finset ι) (f : ι → ℝ) :
    (∑ i ∈ s, fin (f i)) = fin (∑ i ∈ s, f i) :=
  (map_sum finHom f s).symm

theorem list_sum_fin (l : List ℝ) : (l.map fin).sum = fin l.sum :=
  (map_list_sum finHom l).symm

theorem sum_eq_nan {ι : Type*} [DecidableEq ι] (s : Finset ι) (f : ι → Fl) {i : ι} (hi : i ∈ s)
    (h : f i = nan) : (∑ i ∈ s, f i) = nan := by
  rw [← Finset.add_sum_erase s f hi, h, nan_add]

end Fl

end Verif
