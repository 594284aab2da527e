import Verif.Props.Search
import Verif.Model.Pipeline

/-!
# C33, from the training distributions to the answer

What DFX, DFy and the Friedman methods do with a distance given as a function: the class distributions are mixed, the search of C33 finds a prevalence and the answer is the pair `1 - p`, `p`.
-/

namespace Verif.Props

open Verif.Model Verif.Spec Verif.Proof

/-- The distribution of a bag with prevalences `p`, when the columns of `T` are the distributions of the two classes. -/
def mixOf {m : ℕ} (T : Matrix (Fin m) (Fin 2) ℝ) (p : Fin 2 → ℝ) : Fin m → ℝ :=
  fun i => T i 0 * p 0 + T i 1 * p 1

/-- **C33, partial** (the methods that search): for two classes and a distance that is convex along the mixtures, with its last minimum at a prevalence `m` of the second class which is at most 0.98 (or with a
smaller distance at 1 than at 0), the answer is a pair of prevalences whose mixture is as near to the distribution of the bag as that of every other pair, up to twice the variation of the distance over
one tolerance. This holds with and without mixtures kept from an earlier bag. -/
theorem C33_matching_partial {F : Type} {m : ℕ} (sv : CvxSolver) (qp : QPSolver) (tol ε : ℝ) (htol : 0 < tol) (d : (Fin m → ℝ) → (Fin m → ℝ) → ℝ) (s : MatchState F m 2) (q : Fin m → ℝ)
    (hcache : s.mixtures = none ∨ s.mixtures = some fun i : ℕ => mixOf s.train ![1 - (i : ℝ) / 100, (i : ℝ) / 100])
    (hconv : ConvexOn ℝ (Set.Icc 0 1) fun p : ℝ => d (mixOf s.train ![1 - p, p]) q)
    (p0 : ℝ) (hp0 : p0 ∈ Set.Icc (0:ℝ) 1)
    (hmin : ∀ p ∈ Set.Icc (0:ℝ) 1, d (mixOf s.train ![1 - p0, p0]) q ≤ d (mixOf s.train ![1 - p, p]) q)
    (hlast : ∀ p ∈ Set.Icc (0:ℝ) 1, p0 < p → d (mixOf s.train ![1 - p0, p0]) q < d (mixOf s.train ![1 - p, p]) q)
    (hside : p0 ≤ 98/100 ∨ d (mixOf s.train ![0, 1]) q < d (mixOf s.train ![1, 0]) q)
    (hε : ∀ x ∈ Set.Icc (0:ℝ) 1, ∀ y ∈ Set.Icc (0:ℝ) 1, |x - y| ≤ tol → |d (mixOf s.train ![1 - x, x]) q - d (mixOf s.train ![1 - y, y]) q| ≤ ε) :
    ∃ v : Fin 2 → ℝ, (matchAnswer sv qp tol (.fn fun v q => Fl.fin (d v q)) s q).2 = .ok (some [Fl.fin (v 0), Fl.fin (v 1)]) ∧ IsPrev v
      ∧ ∀ p : Fin 2 → ℝ, IsPrev p → d (mixOf s.train v) q ≤ d (mixOf s.train p) q + 2 * ε := by
  set g : ℝ → ℝ := fun p => d (mixOf s.train ![1 - p, p]) q with hg
  have hm : ∀ p : ℝ, mixtureOfPdfs p (fun i => s.train i 1) (fun i => s.train i 0) = mixOf s.train ![1 - p, p] := by
    intro p
    funext i
    simp [mixtureOfPdfs, mixOf]
    ring
  obtain ⟨p, h1, h2, h3⟩ := C33_global_search_convex_partial g tol ε p0 htol hconv hp0 hmin hlast (by simpa [hg] using hside) hε
  have hcore : globalCore (fun i : ℕ => Fl.fin (g ((i : ℝ) / 100))) (goldenSectionSearch (fun p => Fl.fin (g p)) tol) = .ok (some p) := by
    unfold globalSearch at h1
    simp only at h1
    generalize hr : globalCore _ _ = r at h1 ⊢
    cases r with
    | error e => cases h1
    | ok r => rw [← (Prod.mk.inj (Except.ok.inj h1)).2]
  have hsearch : ∀ c, (c = none ∨ c = some fun i : ℕ => mixOf s.train ![1 - (i : ℝ) / 100, (i : ℝ) / 100]) →
      ∃ c', globalSearch (fun v q => Fl.fin (d v q)) (fun p => mixtureOfPdfs p (fun i => s.train i 1) (fun i => s.train i 0)) q tol c true = .ok (c', some p) := by
    intro c hc
    simp only [hm]
    unfold globalSearch
    rcases hc with rfl | rfl
    · simp only
      rw [show (fun i : ℕ => Fl.fin (d (mixOf s.train ![1 - (i : ℝ) / 100, (i : ℝ) / 100]) q)) = fun i : ℕ => Fl.fin (g ((i : ℝ) / 100)) from rfl, hcore]
      exact ⟨_, rfl⟩
    · simp only
      rw [show (fun i : ℕ => Fl.fin (d (mixOf s.train ![1 - (i : ℝ) / 100, (i : ℝ) / 100]) q)) = fun i : ℕ => Fl.fin (g ((i : ℝ) / 100)) from rfl, hcore]
      exact ⟨_, rfl⟩
  obtain ⟨c', hc'⟩ := hsearch _ hcache
  refine ⟨![1 - p, p], ?_, ⟨?_, ?_⟩, ?_⟩
  · have hlt : 1 < 2 := by norm_num
    unfold matchAnswer
    simp only
    rw [dif_pos hlt]
    have : (⟨1, hlt⟩ : Fin 2) = 1 := rfl
    have h0 : (⟨0, by omega⟩ : Fin 2) = 0 := rfl
    simp only [this, h0]
    rw [hc']
    simp [realList, vecList]
  · intro i
    fin_cases i
    · simpa using h2.2
    · simpa using h2.1
  · simp [Fin.sum_univ_two]
  · intro r hr
    have hsum := hr.2
    rw [Fin.sum_univ_two] at hsum
    have hr0 := hr.1 0
    have hr1 := hr.1 1
    have := h3 (r 1) ⟨hr1, by linarith⟩
    have e : r = ![1 - r 1, r 1] := by
      funext i
      fin_cases i
      · show r 0 = 1 - r 1; linarith
      · rfl
    rw [e]
    exact this

/-- Non-vacuity: the squared Euclidean distance, two classes with distributions (1, 0) and (0, 1), a bag with distribution (0.7, 0.3). -/
example : ConvexOn ℝ (Set.Icc (0:ℝ) 1) (fun p : ℝ => (fun v q : Fin 2 → ℝ => ∑ i, (v i - q i) ^ 2) (mixOf !![1, 0; 0, 1] ![1 - p, p]) ![7/10, 3/10])
    ∧ ∀ p ∈ Set.Icc (0:ℝ) 1, 3/10 < p → (fun v q : Fin 2 → ℝ => ∑ i, (v i - q i) ^ 2) (mixOf !![1, 0; 0, 1] ![1 - 3/10, 3/10]) ![7/10, 3/10]
        < (fun v q : Fin 2 → ℝ => ∑ i, (v i - q i) ^ 2) (mixOf !![1, 0; 0, 1] ![1 - p, p]) ![7/10, 3/10] := by
  have e : ∀ p : ℝ, (fun v q : Fin 2 → ℝ => ∑ i, (v i - q i) ^ 2) (mixOf !![1, 0; 0, 1] ![1 - p, p]) ![7/10, 3/10] = 2 * (p - 3/10) ^ 2 := by
    intro p
    simp [mixOf, Fin.sum_univ_two]
    ring
  simp only [e]
  refine ⟨⟨convex_Icc _ _, ?_⟩, ?_⟩
  · intro x _ y _ a b ha hb hab
    simp only [smul_eq_mul]
    obtain rfl : a = 1 - b := by linarith
    nlinarith [mul_nonneg (mul_nonneg ha hb) (sq_nonneg (x - y))]
  · intro p _ hp
    have : 0 < (p - 3/10) ^ 2 := by
      have : 0 < p - 3/10 := by linarith
      positivity
    norm_num
    linarith

end Verif.Props
