import Verif.Props.NormSearch
import Verif.Props.PriorShift

/-!
# C128 with any norm as distance

Under prior probability shift, the searches of DFy, DFX and FriedmanME with two classes find the prevalences of the bag up to twice the tolerance.
-/

namespace Verif.Props

open Verif.Model Verif.Spec Verif.Proof

/-- The distance to a mixture of two classes that the norm tells apart. -/
theorem searchable_mixture {m nc : ℕ} (hnc : nc = 2) (N : Seminorm ℝ (Fin m → ℝ)) (T : Matrix (Fin m) (Fin nc) ℝ) (b : Fin nc → ℝ) (hb : IsPrev b) (tol : ℝ) (hN : 0 < N ((fun i => T i ⟨1, by omega⟩) - fun i => T i ⟨0, by omega⟩)) :
    Searchable (⟨1, by omega⟩ : Fin nc) tol (tol * N ((fun i => T i ⟨1, by omega⟩) - fun i => T i ⟨0, by omega⟩)) (fun p => N (mixtureOf T p - mixtureOf T b))
    ∧ ∀ p, IsPrev p → ∀ c, N (mixtureOf T p - mixtureOf T b) = |p c - b c| * N ((fun i => T i ⟨1, by omega⟩) - fun i => T i ⟨0, by omega⟩) := by
  subst hnc
  have hN : 0 < N ((fun i => T i 1) - fun i => T i 0) := hN
  show Searchable (1 : Fin 2) tol (tol * N ((fun i => T i 1) - fun i => T i 0)) (fun p => N (mixtureOf T p - mixtureOf T b))
    ∧ ∀ p, IsPrev p → ∀ c, N (mixtureOf T p - mixtureOf T b) = |p c - b c| * N ((fun i => T i 1) - fun i => T i 0)
  set L := N ((fun i => T i 1) - fun i => T i 0) with hL
  have z : ∀ p : Fin 2 → ℝ, IsPrev p → p 0 = 1 - p 1 := fun p hp => by
    have := hp.2
    rw [Fin.sum_univ_two] at this
    linarith
  have e : ∀ p, IsPrev p → N (mixtureOf T p - mixtureOf T b) = |p 1 - b 1| * L := by
    intro p hp
    have : mixtureOf T p - mixtureOf T b = (p 1 - b 1) • ((fun i => T i 1) - fun i => T i 0) := by
      funext i
      simp [mixtureOf, Fin.sum_univ_two, z p hp, z b hb]
      ring
    rw [this, map_smul_eq_mul, Real.norm_eq_abs]
  obtain ⟨-, hb0, hb1⟩ := prev_two hb
  refine ⟨⟨⟨convex_prev, fun p hp r hr x y hx hy hxy => ?_⟩, ⟨b, hb, fun p hp => ?_, fun p hp hl => ?_, ?_⟩, fun p r hp hr h => ?_⟩, fun p hp c => ?_⟩
  · dsimp only
    rw [e _ hp, e _ hr, e _ (convex_prev hp hr hx hy hxy)]
    have h1 : (x • p + y • r) 1 - b 1 = x * (p 1 - b 1) + y * (r 1 - b 1) := by
      simp only [Pi.add_apply, Pi.smul_apply, smul_eq_mul]
      linear_combination b 1 * hxy
    have h2 := abs_add_le (x * (p 1 - b 1)) (y * (r 1 - b 1))
    rw [abs_mul, abs_mul, abs_of_nonneg hx, abs_of_nonneg hy] at h2
    rw [h1]
    simp only [smul_eq_mul]
    nlinarith [mul_le_mul_of_nonneg_right h2 hN.le]
  · rw [e _ hb, e _ hp, sub_self, abs_zero, zero_mul]
    positivity
  · rw [e _ hb, e _ hp, sub_self, abs_zero, zero_mul]
    exact mul_pos (abs_pos.2 (by linarith)) hN
  · rcases le_or_gt (b 1) (98 / 100) with h | h
    · exact .inl h
    · refine .inr fun p q hp hq hp1 hq0 => ?_
      rw [e _ hp, e _ hq, hp1, hq0]
      refine mul_lt_mul_of_pos_right ?_ hN
      rw [abs_of_nonneg (by linarith), abs_of_nonpos (by linarith)]
      linarith
  · rw [e _ hp, e _ hr, ← sub_mul, abs_mul, abs_of_pos hN]
    refine mul_le_mul_of_nonneg_right ((abs_abs_sub_abs_le_abs_sub _ _).trans ?_) hN.le
    rw [sub_sub_sub_cancel_right]
    exact h
  · rw [e p hp]
    congr 1
    fin_cases c
    · show |p 1 - b 1| = |p 0 - b 0|
      rw [z p hp, z b hb, abs_sub_comm]
      congr 1
      ring
    · rfl

section
variable {σ D α : Type} [LinearOrder α] (enc : Bool → α) (w : World σ D α) (et et' : Option ℕ) (X Xt : List D) (y : List α) (hy : y ≠ []) (r : ℕ) (hr : 0 < r) (hk : (labelsOf y).length = 2)
include hy hr

/-- **C128** for DFy (HDy, MMy) with two classes and any norm of the difference as distance: the prevalences of the bag up to twice the tolerance. -/
theorem C128_dfy_norm (ops : EstOps σ D α (labelsOf y).length) (sv : CvxSolver) (qp : QPSolver) (ppf : ℝ → EReal) (la : LinAlg (labelsOf y).length) (fuel : ℕ) (tol : ℝ) (htol : 0 < tol) (cfg : DfCfg)
    (N : Seminorm ℝ (Fin (nDescriptors (labelsOf y).length * cfg.nBins) → ℝ)) (P : List (Fin (labelsOf y).length → ℝ)) (hP : P.length = r * y.length)
    (fit : DfFit (nDescriptors (labelsOf y).length) cfg.nBins (labelsOf y).length) (hfit : dfyFit ppf cfg (labelsOf y) y (stacked y r) P = .ok fit)
    (hN : 0 < N ((fun i => fit.train i ⟨1, by omega⟩) - fun i => fit.train i ⟨0, by omega⟩))
    (bag : List (α × (Fin (labelsOf y).length → ℝ))) (hs : PriorShift ((stacked y r).zip P) bag) :
    ∃ x : Fin (labelsOf y).length → ℝ, ucRun ops enc w ⟨dfyClass ppf sv qp la fuel tol cfg (.fn fun v q => Fl.fin (N (v - q))), et, et'⟩ X y (some (.probs P)) Xt (some (.probs (bag.map Prod.snd))) = .ok (some (realList x)) ∧ IsPrev x
      ∧ ∀ c, |x c - freq (bag.map Prod.fst) (labelsOf y)[c]| ≤ 2 * tol := by
  have hl : (stacked y r).length = P.length := by rw [stacked_length, hP]
  have hp := hs.bagPrevs_isPrev (stacked_mem_iff y r hr) hl
  obtain ⟨h0, q, hq, hmix⟩ := df_shift ppf .whole cfg (some (0, 1)) _ y (stacked y r) hy (stacked_mem_iff y r hr) P fit hfit bag hs
  obtain rfl : q = mixtureOf fit.train (bagPrevs y bag) := funext hmix
  obtain ⟨h1, h2⟩ := searchable_mixture hk N fit.train _ hp tol hN
  obtain ⟨x, h3, hx, h4⟩ := C175_dfy enc w et et' X Xt y hy r hk ops sv qp ppf la fuel tol _ htol cfg (fun v q => N (v - q)) P hP fit hfit (bag.map Prod.snd) (by simpa using hs.nonempty) _ hq h1
  refine ⟨x, h3, hx, fun c => ?_⟩
  have h5 := h4 _ hp
  rw [sub_self, map_zero, zero_add, h2 x hx c, ← mul_assoc] at h5
  exact le_of_mul_le_mul_right h5 hN

/-- **C128** for FriedmanME with two classes and any norm of the difference as distance. -/
theorem C128_friedman_norm (ops : EstOps σ D α (labelsOf y).length) (sv : CvxSolver) (qp : QPSolver) (la : LinAlg (labelsOf y).length) (fuel : ℕ) (tol : ℝ) (htol : 0 < tol)
    (N : Seminorm ℝ (Fin (labelsOf y).length → ℝ)) (P : List (Fin (labelsOf y).length → ℝ)) (hP : P.length = r * y.length)
    (T : Fin (labelsOf y).length → Fin (labelsOf y).length → ℝ) (hT : T = fun i c => reachShare i (freq y (labelsOf y)[i]) (ofClass ((stacked y r).zip P) (labelsOf y)[c]))
    (hN : 0 < N ((fun i => T i ⟨1, by omega⟩) - fun i => T i ⟨0, by omega⟩))
    (bag : List (α × (Fin (labelsOf y).length → ℝ))) (hs : PriorShift ((stacked y r).zip P) bag) :
    ∃ x : Fin (labelsOf y).length → ℝ, ucRun ops enc w ⟨friedmanClass sv qp la fuel tol (.fn fun v q => Fl.fin (N (v - q))), et, et'⟩ X y (some (.probs P)) Xt (some (.probs (bag.map Prod.snd))) = .ok (some (realList x)) ∧ IsPrev x
      ∧ ∀ c, |x c - freq (bag.map Prod.fst) (labelsOf y)[c]| ≤ 2 * tol := by
  have hl : (stacked y r).length = P.length := by rw [stacked_length, hP]
  have hp := hs.bagPrevs_isPrev (stacked_mem_iff y r hr) hl
  obtain ⟨fit, h1, -, h2, h3, -⟩ := C54_friedman (labelsOf y) y (stacked y r) P hl (labelsOf_nodup' y) fun a => ((mem_labelsOf' y a).trans (stacked_mem_iff y r hr a).symm)
  have hT' : fit.train = T := by
    rw [hT]
    funext i c
    exact (h2 i c).1
  have hmix : (fun i => reachShare i (freq y (labelsOf y)[i]) (bag.map Prod.snd)) = mixtureOf T (bagPrevs y bag) := by
    rw [← hT']
    funext i
    rw [← h3 (bag.map Prod.snd) i]
    unfold friedmanTest meanRows
    simp only [List.map_map, List.length_map]
    have h4 := hs.mean_labels (stacked_mem_iff y r hr) fun row => friedmanRow fit.prevs row i
    simp only [List.map_map, List.length_map] at h4
    refine h4.trans (Finset.sum_congr rfl fun c _ => ?_)
    congr 1
    unfold friedmanFit at h1
    rw [if_neg (not_not.2 hl)] at h1
    cases h1
    simp only [meanRows, List.map_map, List.length_map]
    rfl
  obtain ⟨h5, h6⟩ := searchable_mixture hk N T _ hp tol hN
  rw [← hmix] at h5
  obtain ⟨x, h7, hx, h8⟩ := C175_friedman enc w et et' X Xt y hy r hr hk ops sv qp la fuel tol _ htol (fun v q => N (v - q)) P hP T hT (bag.map Prod.snd) (by simpa using hs.nonempty) h5
  refine ⟨x, h7, hx, fun c => ?_⟩
  have h9 := h8 _ hp
  rw [hmix, sub_self, map_zero, zero_add, h6 x hx c, ← mul_assoc] at h9
  exact le_of_mul_le_mul_right h9 hN

end

/-- **C128** for DFX (HDX, MMX) with two classes and any norm of the difference as distance: any number of bags one after the other. -/
theorem C128_dfx_norm {α : Type} [LinearOrder α] {nf : ℕ} (y : List α) (hy : y ≠ []) (hk : (labelsOf y).length = 2) (sv : CvxSolver) (qp : QPSolver) (ppf : ℝ → EReal) (la : LinAlg (labelsOf y).length) (fuel : ℕ) (tol : ℝ) (htol : 0 < tol)
    (cfg : DfCfg) (N : Seminorm ℝ (Fin (nf * cfg.nBins) → ℝ)) (X : List (Fin nf → ℝ)) (hX : y.length = X.length) (fit : DfFit nf cfg.nBins (labelsOf y).length) (hfit : dfxFit ppf cfg (labelsOf y) y X = .ok fit)
    (hN : 0 < N ((fun i => fit.train i ⟨1, by omega⟩) - fun i => fit.train i ⟨0, by omega⟩))
    (bags : List (List (α × (Fin nf → ℝ)))) (hbags : ∀ bag ∈ bags, PriorShift (y.zip X) bag) :
    ∃ answers, dfxRun ppf sv qp tol cfg (.fn fun v q => Fl.fin (N (v - q))) (labelsOf y) la fuel y X (bags.map fun bag => bag.map Prod.snd) = .ok answers
      ∧ List.Forall₂ (fun bag a => ∃ x : Fin (labelsOf y).length → ℝ, a = .ok (some (realList x)) ∧ IsPrev x ∧ ∀ c, |x c - freq (bag.map Prod.fst) (labelsOf y)[c]| ≤ 2 * tol) bags answers := by
  have key : ∀ bag ∈ bags, IsPrev (bagPrevs y bag) ∧ dfxTest cfg fit (bag.map Prod.snd) = .ok (mixtureOf fit.train (bagPrevs y bag)) := by
    intro bag hb
    have hs := hbags bag hb
    obtain ⟨h0, q, hq, hmix⟩ := df_shift ppf .perBlock cfg none _ y y hy (fun _ => Iff.rfl) X fit hfit bag hs
    obtain rfl : q = mixtureOf fit.train (bagPrevs y bag) := funext hmix
    exact ⟨hs.bagPrevs_isPrev (fun _ => Iff.rfl) hX, hq⟩
  obtain ⟨answers, h1, h2⟩ := C175_dfx y hk sv qp ppf la fuel tol _ htol cfg (fun v q => N (v - q)) X fit hfit (bags.map fun bag => bag.map Prod.snd) (by
    intro b hb
    obtain ⟨bag, hbag, rfl⟩ := List.mem_map.1 hb
    obtain ⟨hp, hq⟩ := key bag hbag
    exact ⟨by simpa using (hbags bag hbag).nonempty, _, hq, (searchable_mixture hk N fit.train _ hp tol hN).1⟩)
  refine ⟨answers, h1, ?_⟩
  rw [List.forall₂_map_left_iff] at h2
  rw [List.forall₂_iff_zip] at h2 ⊢
  refine ⟨h2.1, fun {bag a} hz => ?_⟩
  obtain ⟨hp, hq⟩ := key bag (List.of_mem_zip hz).1
  obtain ⟨x, q, ha, hq', hx, h4⟩ := h2.2 hz
  obtain rfl : _ = q := Except.ok.inj (hq.symm.trans hq')
  refine ⟨x, ha, hx, fun c => ?_⟩
  have h5 := h4 _ hp
  rw [sub_self, map_zero, zero_add, (searchable_mixture hk N fit.train _ hp tol hN).2 x hx c, ← mul_assoc] at h5
  exact le_of_mul_le_mul_right h5 hN

/-- Non-vacuity: two examples with the predictions `(1, 0)` and `(0, 1)` that are right, a bag with three of the first and one of the second; the classes are told apart by `l1` (the example of C137). -/
example : PriorShift ((stacked [0, 1] 1).zip [![(1:ℝ), 0], ![0, 1]]) [(0, ![1, 0]), (0, ![1, 0]), (0, ![1, 0]), (1, ![0, 1])]
    ∧ (0:ℝ) < taxicab 2 (![0, 1] - ![1, 0]) := by
  refine ⟨⟨by simp, fun c hc => ?_⟩, ?_⟩
  · have hc' : c = 0 ∨ c = 1 := by simpa using hc
    rcases hc' with rfl | rfl
    · have e : ofClass [(0, ![(1:ℝ), 0]), (0, ![1, 0]), (0, ![1, 0]), (1, ![0, 1])] 0 = [![1, 0], ![1, 0], ![1, 0]] := by simp [ofClass]
      have e' : ofClass ((stacked [0, 1] 1).zip [![(1:ℝ), 0], ![0, 1]]) 0 = [![1, 0]] := by simp [ofClass, stacked]
      rw [e, e']
      refine ⟨by simp, by simp, fun a => ?_⟩
      unfold freq
      simp only [List.count_cons, List.count_nil, List.length_cons, List.length_nil]
      split_ifs <;> norm_num
    · have e : ofClass [(0, ![(1:ℝ), 0]), (0, ![1, 0]), (0, ![1, 0]), (1, ![0, 1])] 1 = [![0, 1]] := by simp [ofClass]
      have e' : ofClass ((stacked [0, 1] 1).zip [![(1:ℝ), 0], ![0, 1]]) 1 = [![0, 1]] := by simp [ofClass, stacked]
      rw [e, e']
      exact ⟨by simp, by simp, fun a => rfl⟩
  · show (0:ℝ) < ∑ i, |(![0, 1] - ![1, 0] : Fin 2 → ℝ) i|
    norm_num [Fin.sum_univ_two]

end Verif.Props
