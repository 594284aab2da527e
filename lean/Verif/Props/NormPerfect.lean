import Verif.Props.NormShift
import Verif.Props.Perfect

/-!
# C163 with any norm as distance
-/

namespace Verif.Props

open Verif.Model Verif.Spec Verif.Proof

/-- Labels with what is always seen of their examples are under prior probability shift. -/
theorem priorShift_perfect {α β : Type} [DecidableEq α] (l Q : List α) (f : α → β) (hQ : Q ≠ []) (h : ∀ a ∈ Q, a ∈ l) : PriorShift (l.zip (l.map f)) (Q.map fun a => (a, f a)) := by
  rw [zip_map_self]
  refine ⟨by simpa using hQ, fun c hc => ?_⟩
  have hcQ : c ∈ Q := by simpa using hc
  have key : ∀ m : List α, c ∈ m → ∃ n, ofClass (m.map fun a => (a, f a)) c = List.replicate (n + 1) (f c) := by
    intro m hm
    have h1 : ∀ b ∈ ofClass (m.map fun a => (a, f a)) c, b = f c := by
      intro b hb
      simp only [ofClass, List.mem_map, List.mem_filter] at hb
      obtain ⟨p, ⟨⟨a, ha, rfl⟩, hp⟩, rfl⟩ := hb
      have : a = c := by simpa using hp
      rw [this]
    have h2 : f c ∈ ofClass (m.map fun a => (a, f a)) c := by
      simp only [ofClass, List.mem_map, List.mem_filter]
      exact ⟨(c, f c), ⟨⟨c, hm, rfl⟩, by simp⟩, rfl⟩
    have h3 := List.eq_replicate_of_mem h1
    have h4 : (ofClass (m.map fun a => (a, f a)) c).length ≠ 0 := fun h0 => by
      rw [List.length_eq_zero_iff.1 h0] at h2
      simp at h2
    obtain ⟨n, hn⟩ := Nat.exists_eq_succ_of_ne_zero h4
    rw [hn] at h3
    exact ⟨n, h3⟩
  obtain ⟨n, h1⟩ := key Q hcQ
  obtain ⟨n', h2⟩ := key l (h c hcQ)
  rw [h1, h2]
  refine ⟨by simp, by simp, fun a => ?_⟩
  unfold freq
  simp only [List.count_replicate, List.length_replicate]
  split_ifs
  · rw [div_self (by positivity), div_self (by positivity)]
  · simp

/-- **C163** for FriedmanME with two classes and any norm of the difference as distance: with certain posteriors that are never wrong it answers the prevalences of the bag within twice its tolerance. -/
theorem C163_friedman_norm {σ D α : Type} [LinearOrder α] (enc : Bool → α) (w : World σ D α) (et et' : Option ℕ) (X Xt : List D) (y : List α) (hy : y ≠ []) (r : ℕ) (hr : 0 < r) (hk : (labelsOf y).length = 2)
    (Q : List α) (hQ : Q ≠ []) (hQy : ∀ a ∈ Q, a ∈ y) (ops : EstOps σ D α (labelsOf y).length) (sv : CvxSolver) (qp : QPSolver) (la : LinAlg (labelsOf y).length) (fuel : ℕ) (tol : ℝ) (htol : 0 < tol)
    (N : Seminorm ℝ (Fin (labelsOf y).length → ℝ)) (hN : ∀ v, N v = 0 → v = 0) :
    ∃ x : Fin (labelsOf y).length → ℝ, ucRun ops enc w ⟨friedmanClass sv qp la fuel tol (.fn fun v q => Fl.fin (N (v - q))), et, et'⟩ X y (some (.probs ((stacked y r).map (oneHot (labelsOf y))))) Xt (some (.probs (Q.map (oneHot (labelsOf y)))))
      = .ok (some (realList x)) ∧ IsPrev x ∧ ∀ c, |x c - freq Q (labelsOf y)[c]| ≤ 2 * tol := by
  have hsh := priorShift_perfect (stacked y r) Q (oneHot (labelsOf y)) hQ fun a ha => (stacked_mem_iff y r hr a).2 (hQy a ha)
  have h0 : (0:ℕ) < (labelsOf y).length := by omega
  have h1 : 1 < (labelsOf y).length := by omega
  have hne : (labelsOf y)[0] ≠ (labelsOf y)[1] := fun h => by
    have := (List.Nodup.getElem_inj_iff (labelsOf_nodup' y)).1 h
    omega
  have hfreq : ∀ i : Fin (labelsOf y).length, 0 < freq y (labelsOf y)[i] := fun i => by
    unfold freq
    have : 0 < y.count (labelsOf y)[i] := List.count_pos_iff.2 ((mem_labelsOf' y _).1 (List.getElem_mem _))
    have : 0 < y.length := List.length_pos_iff.2 hy
    positivity
  have hT : 0 < N ((fun i => reachShare i (freq y (labelsOf y)[i]) (ofClass ((stacked y r).zip ((stacked y r).map (oneHot (labelsOf y)))) (labelsOf y)[(⟨1, by omega⟩ : Fin (labelsOf y).length)]))
      - fun i => reachShare i (freq y (labelsOf y)[i]) (ofClass ((stacked y r).zip ((stacked y r).map (oneHot (labelsOf y)))) (labelsOf y)[(⟨0, by omega⟩ : Fin (labelsOf y).length)])) := by
    refine lt_of_le_of_ne (apply_nonneg N _) fun h => ?_
    have h2 := congrFun (hN _ h.symm) ⟨1, h1⟩
    have hall : ∀ c, ∀ b ∈ ofClass ((stacked y r).zip ((stacked y r).map (oneHot (labelsOf y)))) c, b = oneHot (labelsOf y) c := by
      intro c b hb
      rw [zip_map_self] at hb
      simp only [ofClass, List.mem_map, List.mem_filter] at hb
      obtain ⟨p, ⟨⟨a, ha, rfl⟩, hp⟩, rfl⟩ := hb
      have : a = c := by simpa using hp
      rw [this]
    have e1 : reachShare (⟨1, h1⟩ : Fin (labelsOf y).length) (freq y (labelsOf y)[1]) (ofClass ((stacked y r).zip ((stacked y r).map (oneHot (labelsOf y)))) (labelsOf y)[1]) = 1 := by
      unfold reachShare
      rw [List.countP_eq_length.2, div_self]
      · have hm : (labelsOf y)[1] ∈ stacked y r := (stacked_mem_iff y r hr _).2 ((mem_labelsOf' y _).1 (List.getElem_mem _))
        have : oneHot (labelsOf y) (labelsOf y)[1] ∈ ofClass ((stacked y r).zip ((stacked y r).map (oneHot (labelsOf y)))) (labelsOf y)[1] := by
          rw [zip_map_self]
          simp only [ofClass, List.mem_map, List.mem_filter]
          exact ⟨(_, _), ⟨⟨_, hm, rfl⟩, by simp⟩, rfl⟩
        exact_mod_cast (List.length_pos_of_mem this).ne'
      · intro b hb
        rw [hall _ b hb]
        have e : oneHot (labelsOf y) (labelsOf y)[1] ⟨1, h1⟩ = 1 := if_pos rfl
        rw [e]
        refine decide_eq_true ?_
        unfold freq
        exact div_le_one_of_le₀ (by exact_mod_cast List.count_le_length) (by positivity)
    have e0 : reachShare (⟨1, h1⟩ : Fin (labelsOf y).length) (freq y (labelsOf y)[1]) (ofClass ((stacked y r).zip ((stacked y r).map (oneHot (labelsOf y)))) (labelsOf y)[0]) = 0 := by
      unfold reachShare
      rw [List.countP_eq_zero.2, Nat.cast_zero, zero_div]
      intro b hb
      rw [hall _ b hb]
      have e : oneHot (labelsOf y) (labelsOf y)[0] ⟨1, h1⟩ = 0 := if_neg (show ¬ (labelsOf y)[1] = (labelsOf y)[0] from fun h => hne h.symm)
      rw [e, decide_eq_true_eq]
      exact not_le.2 (hfreq ⟨1, h1⟩)
    have h3 : reachShare (⟨1, h1⟩ : Fin (labelsOf y).length) (freq y (labelsOf y)[1]) (ofClass ((stacked y r).zip ((stacked y r).map (oneHot (labelsOf y)))) (labelsOf y)[1])
        - reachShare (⟨1, h1⟩ : Fin (labelsOf y).length) (freq y (labelsOf y)[1]) (ofClass ((stacked y r).zip ((stacked y r).map (oneHot (labelsOf y)))) (labelsOf y)[0]) = 0 := h2
    rw [e1, e0] at h3
    norm_num at h3
  obtain ⟨x, h2, h3, h4⟩ := C128_friedman_norm enc w et et' X Xt y hy r hr hk ops sv qp la fuel tol htol N _ (by rw [List.length_map, stacked_length]) _ rfl hT _ hsh
  simp only [List.map_map, Function.comp_def] at h2 h4
  refine ⟨x, h2, h3, fun c => ?_⟩
  have := h4 c
  rwa [List.map_id'] at this

/-- Non-vacuity: the norm `l1`, two classes and a bag of their labels. -/
example : (∀ v, taxicab 2 v = 0 → v = 0) ∧ (labelsOf [0, 1] : List ℕ).length = 2 ∧ ∀ a ∈ [0, 0, 1], a ∈ [0, 1] := by
  refine ⟨fun v hv => ?_, by simp [labelsOf], by decide⟩
  have hv : ∑ i, |v i| = 0 := hv
  rw [Finset.sum_eq_zero_iff_of_nonneg fun i _ => abs_nonneg _] at hv
  funext i
  exact abs_eq_zero.1 (hv i (Finset.mem_univ i))

end Verif.Props
