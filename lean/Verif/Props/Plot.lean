import Verif.Model.Plot
import Mathlib.Tactic.Cases

/-!
# C155: plot_boxes gives every system its colour
-/

namespace Verif.Props

open Verif.Model

theorem paintBoxes_length {C : Type*} (bs : List (BoxColors C)) (cs : List C) : (paintBoxes bs cs).length = bs.length := by
  induction bs generalizing cs with
  | nil => simp [paintBoxes]
  | cons b bs ih => cases cs <;> simp [paintBoxes, ih]

theorem paintBoxes_get {C : Type*} (bs : List (BoxColors C)) (cs : List C) (i : ℕ) (h : i < bs.length) (h' : i < (paintBoxes bs cs).length) :
    (paintBoxes bs cs)[i] = if hc : i < cs.length then ⟨cs[i], cs[i]⟩ else bs[i] := by
  induction bs generalizing cs i with
  | nil => simp at h
  | cons b bs ih =>
    cases cs with
    | nil => simp [paintBoxes]
    | cons c cs =>
      cases i with
      | zero => simp [paintBoxes]
      | succ i =>
        simp only [paintBoxes, List.getElem_cons_succ, List.length_cons, Nat.add_lt_add_iff_right]
        exact ih cs i (by simpa using h) (by simpa [paintBoxes] using h')

/-- **C155**: for a plot with one box and one median per system (column of the matrix): the box of system `i` gets colour `i` of the list, both its edge and its inside; systems beyond the end of the list keep the colours
of matplotlib, and colours beyond the last system are not used; all the medians are black. -/
theorem C155_colors {C E : Type*} (boxplot : List E → Bool → BoxPlot C) (black : C) (m : List E) (cs : List C) (h : (boxplot m true).boxes.length = m.length) (hm : (boxplot m true).medians.length = m.length) :
    (plotBoxes boxplot black m (some cs)).boxes.length = m.length ∧ (plotBoxes boxplot black m (some cs)).medians = List.replicate m.length black
      ∧ ∀ i (hi : i < m.length) (hb : i < (plotBoxes boxplot black m (some cs)).boxes.length) (h0 : i < (boxplot m true).boxes.length),
        (∀ hc : i < cs.length, (plotBoxes boxplot black m (some cs)).boxes[i].edge = cs[i] ∧ (plotBoxes boxplot black m (some cs)).boxes[i].face = cs[i])
        ∧ (cs.length ≤ i → (plotBoxes boxplot black m (some cs)).boxes[i] = (boxplot m true).boxes[i]) := by
  refine ⟨(paintBoxes_length _ _).trans h, ?_, fun i hi hb h0 => ?_⟩
  · show ((boxplot m true).medians.map fun _ => black) = _
    rw [List.map_const', hm]
  · have := paintBoxes_get (boxplot m true).boxes cs i h0 hb
    refine ⟨fun hc => ?_, fun hc => ?_⟩
    · rw [dif_pos hc] at this
      have e : (plotBoxes boxplot black m (some cs)).boxes[i] = ⟨cs[i], cs[i]⟩ := this
      rw [e]
      exact ⟨rfl, rfl⟩
    · rw [dif_neg (Nat.not_lt.2 hc)] at this
      exact this

/-- **C155**: without colours, the plot is the one of matplotlib. -/
theorem C155_no_colors {C E : Type*} (boxplot : List E → Bool → BoxPlot C) (black : C) (m : List E) : plotBoxes boxplot black m none = boxplot m false := rfl

/-- C155: three systems and two colours (numbers; 0 is black, 9 is matplotlib's). -/
example : plotBoxes (fun (m : List ℕ) _ => ⟨m.map fun _ => ⟨9, 9⟩, m.map fun _ => 9⟩) 0 [7, 7, 7] (some [1, 2]) = ⟨[⟨1, 1⟩, ⟨2, 2⟩, ⟨9, 9⟩], [0, 0, 0]⟩ := rfl

end Verif.Props
