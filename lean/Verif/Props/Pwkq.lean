import Verif.Props.AC
import Verif.Spec.Cvx

/-!
# C85: the nearest-neighbour quantifier `PWKQuantifier`
-/

namespace Verif.Props

open Verif.Model Verif.Spec Verif.Proof

variable {α : Type*}

theorem pwkqFit_eq [LinearOrder α] (y preds : List α) (hlen : preds.length = y.length) (hk : ∀ a ∈ preds, a ∈ y) :
    pwkqFit y preds = .ok ⟨labelsOf y, fun i j => Fl.fin (cmReal y 1 preds i j)⟩ := by
  have e1 : stacked y 1 = y := by simp [stacked]
  have := normalizeRows_eq y 1 one_pos preds (by rw [one_mul, hlen]) hk
  rw [e1] at this
  rw [← this]
  simp [pwkqFit, confusionMatrix, hlen, Except.map, npUnique_eq_labelsOf]

/-- **C85**, the matrix: entry `(i, j)` is the fraction of the training examples of class `i` that the classifier predicts as class `j`, and every row is a distribution. -/
theorem C85_pwkq_matrix [LinearOrder α] (y preds : List α) (hlen : preds.length = y.length) (hk : ∀ a ∈ preds, a ∈ y) :
    ∃ f, pwkqFit y preds = .ok f ∧ f.classes = labelsOf y ∧ (∀ i j, f.cm i j = Fl.fin (condFreq y preds f.classes[i] f.classes[j])) ∧ ∀ i, IsPrevFl (f.cm i) := by
  refine ⟨_, pwkqFit_eq y preds hlen hk, rfl, fun i j => ?_, fun i => ⟨_, cmReal_row y 1 one_pos preds (by rw [one_mul, hlen]) hk i, rfl⟩⟩
  have e1 : stacked y 1 = y := by simp [stacked]
  simp only [cmReal, e1]

/-- What is assumed of the L1 solver: on real arguments it returns a valid prevalence vector that minimises the L1 distance. -/
def ExactL1 (sol : Solvers) : Prop :=
  ∀ {m n : ℕ} (T : Fin m → Fin n → ℝ) (q : Fin m → ℝ), 0 < n → ∃ x, sol.l1 (fun i j => Fl.fin (T i j)) (fun i => Fl.fin (q i)) = (fun j => Fl.fin (x j))
    ∧ BestPrev (fun p => ∑ i, |∑ j, T i j * p j - q i|) x

theorem pwkq_go_recovery (sol : Solvers) (hsol : ExactL1 sol) {n : ℕ} (M : Matrix (Fin n) (Fin n) ℝ) (hM : NonDegenerate M) (p : Fin n → ℝ) (hp : IsPrev p) :
    pwkqPredict.go sol (fun i j => Fl.fin (M i j)) (fun j => Fl.fin (∑ i, p i * M i j)) = fun i => Fl.fin (p i) := by
  rcases hM with ⟨hn, hM⟩ | ⟨h, hM⟩
  · have hgo : pwkqPredict.go sol (fun i j => Fl.fin (M i j)) (fun j => Fl.fin (∑ i, p i * M i j)) = sol.l1 (fun i j => Fl.fin (M j i)) (fun j => Fl.fin (∑ i, p i * M i j)) := by
      match n, hn with
      | 0, _ => rfl
      | 1, _ => rfl
      | 2, h => exact absurd rfl h
      | n + 3, _ => rfl
    have hn0 : 0 < n := by
      rcases Nat.eq_zero_or_pos n with rfl | h
      · have := hp.2
        simp at this
      · exact h
    obtain ⟨x, hx, hxp, hbest⟩ := hsol (fun i j => M j i) (fun j => ∑ i, p i * M i j) hn0
    rw [hgo, hx]
    have hzero := hbest p hp
    have hp0 : (∑ i, |∑ j, M j i * p j - ∑ j, p j * M j i|) = 0 := by
      apply Finset.sum_eq_zero
      intro i _
      rw [Finset.sum_congr rfl fun j _ => mul_comm (M j i) (p j), sub_self, abs_zero]
    simp only at hzero
    rw [hp0] at hzero
    have hall := (Finset.sum_eq_zero_iff_of_nonneg fun i _ => abs_nonneg _).1 (le_antisymm hzero (Finset.sum_nonneg fun i _ => abs_nonneg _))
    have hxe : x = p := by
      have h1 := adjX_unique M hM x (fun j => ∑ i, p i * M i j) fun j => sub_eq_zero.1 (abs_eq_zero.1 (hall j (Finset.mem_univ j)))
      have h2 := adjX_unique M hM p (fun j => ∑ i, p i * M i j) fun j => Finset.sum_congr rfl fun i _ => mul_comm _ _
      rw [← h1, h2]
    rw [hxe]
  · subst h
    have h := C11_binary_recovery sol .L2 M hM p hp
    simp only [adjust, Except.ok.injEq] at h
    exact h

/-- **C85**, exactness: asked for the bag it was fitted on, `PWKQuantifier` returns the class frequencies of the training labels, provided the confusion matrix is not degenerate (and,
with other than two classes, the L1 solver is exact). -/
theorem C85_pwkq_self [LinearOrder α] (sol : Solvers) (hsol : ExactL1 sol) (y preds : List α) (hy : y ≠ []) (hlen : preds.length = y.length) (hk : ∀ a ∈ preds, a ∈ y)
    (hM : NonDegenerate fun i j : Fin (labelsOf y).length => condFreq y preds (labelsOf y)[i] (labelsOf y)[j]) :
    ∃ f, pwkqFit y preds = .ok f ∧ f.classes = labelsOf y ∧ pwkqPredict sol f preds = fun i => Fl.fin (freqs f.classes y i) := by
  refine ⟨_, pwkqFit_eq y preds hlen hk, rfl, ?_⟩
  have hne : preds ≠ [] := by
    intro h
    rw [h] at hlen
    exact hy (List.length_eq_zero_iff.1 hlen.symm)
  have e1 : stacked y 1 = y := by simp [stacked]
  have hM' : NonDegenerate (cmReal y 1 preds) := by
    unfold cmReal
    simp only [e1]
    exact hM
  have hmix := mixture_of_training y hy 1 one_pos preds (by rw [one_mul, hlen])
  unfold pwkqPredict
  simp only
  rw [classFreqs_eq _ _ hne]
  simp_rw [← hmix]
  exact pwkq_go_recovery sol hsol _ hM' _ (freqs_isPrev _ (labelsOf_nodup y) y hy fun a ha => (mem_labelsOf y a).2 ha)

/-- Two classes, predictions that are right except for one example: the hypotheses hold. -/
example : ([1, 2, 2, 2] : List ℕ).length = ([1, 1, 2, 2] : List ℕ).length ∧ (∀ a ∈ ([1, 2, 2, 2] : List ℕ), a ∈ ([1, 1, 2, 2] : List ℕ))
    ∧ NonDegenerate fun i j : Fin (labelsOf ([1, 1, 2, 2] : List ℕ)).length => condFreq [1, 1, 2, 2] [1, 2, 2, 2] (labelsOf [1, 1, 2, 2])[i] (labelsOf [1, 1, 2, 2])[j] := by
  refine ⟨rfl, by decide, ?_⟩
  have h : labelsOf ([1, 1, 2, 2] : List ℕ) = [1, 2] := labelsOf_eq _ _ (by decide) (by decide)
  have key : ∀ l : List ℕ, l = [1, 2] → NonDegenerate fun i j : Fin l.length => condFreq [1, 1, 2, 2] [1, 2, 2, 2] l[i] l[j] := ?_
  · exact key _ h
  rintro l rfl
  refine .inr ⟨rfl, ?_⟩
  simp [condFreq]
  norm_num

end Verif.Props
