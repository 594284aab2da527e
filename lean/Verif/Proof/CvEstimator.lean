import Verif.Spec.CvEstimator
import Verif.Props.Eoq2

/-!
# Facts about cross validation
-/

namespace Verif.Proof

open Verif.Model Verif.Spec Verif.Props

variable {k : ℕ}

theorem cvWriteAll_spec (g : ℕ → Except Err (Fin k → ℝ)) (v : ℕ → Fin k → ℝ) (r : ℕ) (t : List ℕ) (hg : ∀ j ∈ t, g j = .ok (v j)) (arr : List (List (Fin k → ℝ))) (rows : List (Fin k → ℝ)) (hr : arr[r]? = some rows)
    (ht : ∀ j ∈ t, j < rows.length) :
    ∃ rows', cvWriteAll g r t arr = .ok (arr.set r rows') ∧ rows'.length = rows.length ∧ ∀ j, rows'[j]? = if j ∈ t then some (v j) else rows[j]? := by
  induction t generalizing arr rows with
  | nil =>
    refine ⟨rows, ?_, rfl, fun j => by simp⟩
    obtain ⟨h, rfl⟩ := List.getElem?_eq_some_iff.1 hr
    simp [cvWriteAll]
  | cons a t ih =>
    have ha := ht a (by simp)
    have hlt : r < arr.length := (List.getElem?_eq_some_iff.1 hr).1
    obtain ⟨rows', h1, h2, h3⟩ := ih (fun j hj => hg j (List.mem_cons_of_mem _ hj)) (arr.set r (rows.set a (v a))) (rows.set a (v a)) (by simp [hlt]) fun j hj => by
      rw [List.length_set]
      exact ht j (List.mem_cons_of_mem _ hj)
    refine ⟨rows', ?_, by rw [h2, List.length_set], fun j => ?_⟩
    · have hw : (g a >>= cvWrite arr r a) = .ok (arr.set r (rows.set a (v a))) := by
        rw [bind_ok (hg a (by simp)) _]
        unfold cvWrite
        rw [hr]
        simp only
        rw [if_pos ha]
      show ((g a >>= cvWrite arr r a) >>= cvWriteAll g r t) = _
      rw [bind_ok hw _, h1, List.set_set]
    · rw [h3 j]
      by_cases hj : j ∈ t
      · rw [if_pos hj, if_pos (List.mem_cons_of_mem _ hj)]
      · rw [if_neg hj]
        by_cases hja : j = a
        · subst hja
          rw [if_pos (by simp), List.getElem?_set_self ha]
        · rw [if_neg (by simp [hja, hj]), List.getElem?_set_ne (Ne.symm hja)]

/-- A repetition fills a row of the array. -/
theorem cvLoop_rep (n : ℕ) (g : ℕ → ℕ → Except Err (Fin k → ℝ)) (v : ℕ → ℕ → Fin k → ℝ) (N : ℕ) (hg : ∀ a < N, ∀ j < n, g a j = .ok (v a j)) (fs : List Fold) (hne : fs ≠ []) (hnon : ∀ f ∈ fs, f.2 ≠ [])
    (hin : ∀ f ∈ fs, ∀ j ∈ f.2, j < n) (hnd : (fs.flatMap fun f => f.2).Nodup) (rest : List Fold) (i c r : ℕ) (hc : c + (fs.map fun f => f.2.length).sum = n) (hN : i + fs.length ≤ N)
    (arr : List (List (Fin k → ℝ))) (rows : List (Fin k → ℝ)) (hr : arr[r]? = some rows) (hl : rows.length = n) :
    ∃ rows', cvLoop n g i (fs ++ rest) arr r c = cvLoop n g (i + fs.length) rest (arr.set r rows') (r + 1) 0 ∧ rows'.length = n
      ∧ (∀ j, (∀ f ∈ fs, j ∉ f.2) → rows'[j]? = rows[j]?) ∧ ∀ p f, fs[p]? = some f → ∀ j ∈ f.2, rows'[j]? = some (v (i + p) j) := by
  induction fs generalizing i c arr rows with
  | nil => exact absurd rfl hne
  | cons f fs ih =>
    have hlt : r < arr.length := (List.getElem?_eq_some_iff.1 hr).1
    obtain ⟨rows1, h1, h2, h3⟩ := cvWriteAll_spec (g i) (v i) r f.2 (fun j hj => hg i (by simp at hN; omega) j (hin f (by simp) j hj)) arr rows hr fun j hj => by
      rw [hl]; exact hin f (by simp) j hj
    have hstep : cvFold (g i) r f.2 arr = .ok (arr.set r rows1) := by
      unfold cvFold
      rw [if_pos hlt, h1]
    rw [List.flatMap_cons, List.nodup_append'] at hnd
    obtain ⟨-, hnd2, hdis⟩ := hnd
    have hdis' : ∀ j ∈ f.2, ∀ f' ∈ fs, j ∉ f'.2 := fun j hj f' hf' hj' => hdis hj (List.mem_flatMap.2 ⟨f', hf', hj'⟩)
    simp only [List.map_cons, List.sum_cons] at hc
    show ∃ rows', (cvFold (g i) r f.2 arr >>= _) = _ ∧ _
    rw [bind_ok hstep _]
    by_cases hfs : fs = []
    · subst hfs
      have hcn : c + f.2.length = n := by simpa using hc
      rw [if_pos hcn]
      refine ⟨rows1, by simp, by omega, fun j hj => ?_, fun p f' hp j hj => ?_⟩
      · rw [h3 j, if_neg (hj f (by simp))]
      · cases p with
        | succ p => simp at hp
        | zero =>
          simp only [List.getElem?_cons_zero, Option.some.injEq] at hp
          subst hp
          rw [h3 j, if_pos hj]
          rfl
    · have hpos : 0 < (fs.map fun f => f.2.length).sum := by
        obtain ⟨f', fs', rfl⟩ := List.exists_cons_of_ne_nil hfs
        have := List.length_pos_iff.2 (hnon f' (by simp))
        simp only [List.map_cons, List.sum_cons]
        omega
      rw [if_neg (by omega)]
      obtain ⟨rows', k1, k2, k3, k4⟩ := ih hfs (fun f' hf' => hnon f' (List.mem_cons_of_mem _ hf')) (fun f' hf' => hin f' (List.mem_cons_of_mem _ hf')) hnd2 (i + 1) (c + f.2.length) (by omega)
        (by simp only [List.length_cons] at hN; omega) (arr.set r rows1) rows1 (by simp [hlt]) (by omega)
      refine ⟨rows', ?_, k2, fun j hj => ?_, fun p f' hp j hj => ?_⟩
      · show cvLoop n g (i + 1) (fs ++ rest) _ _ _ = _
        rw [k1, List.set_set, List.length_cons]
        congr 1
        omega
      · rw [k3 j fun f' hf' => hj f' (List.mem_cons_of_mem _ hf'), h3 j, if_neg (hj f (by simp))]
      · cases p with
        | zero =>
          simp only [List.getElem?_cons_zero, Option.some.injEq] at hp
          subst hp
          rw [k3 j (hdis' j hj), h3 j, if_pos hj]
          rfl
        | succ p =>
          rw [List.getElem?_cons_succ] at hp
          rw [k4 p f' hp j hj]
          congr 2
          omega

theorem kfold_sum {n : ℕ} {fs : List Fold} (h : IsKFold n fs) : (fs.map fun f => f.2.length).sum = n := by
  have := h.partition.length_eq
  rwa [List.length_flatMap, List.length_range] at this

theorem kfold_ne {n : ℕ} (hn : 0 < n) {fs : List Fold} (h : IsKFold n fs) : fs ≠ [] := by
  rintro rfl
  have := kfold_sum h
  simp at this
  omega

/-- All the repetitions fill the array. -/
theorem cvLoop_reps (n : ℕ) (hn : 0 < n) (g : ℕ → ℕ → Except Err (Fin k → ℝ)) (v : ℕ → ℕ → Fin k → ℝ) (N : ℕ) (hg : ∀ a < N, ∀ j < n, g a j = .ok (v a j)) (reps : List (List Fold)) (hk : ∀ rep ∈ reps, IsKFold n rep)
    (i r : ℕ) (hN : i + reps.flatten.length ≤ N) (arr : List (List (Fin k → ℝ))) (hlen : arr.length = r + reps.length) (hrows : ∀ rows ∈ arr, rows.length = n) :
    ∃ arr', cvLoop n g i reps.flatten arr r 0 = .ok arr' ∧ arr'.length = arr.length ∧ (∀ rows ∈ arr', rows.length = n) ∧ (∀ q < r, arr'[q]? = arr[q]?)
      ∧ ∀ q rep, reps[q]? = some rep → ∀ j < n, ∃ a f rows, reps.flatten[a]? = some f ∧ f ∈ rep ∧ j ∈ f.2 ∧ arr'[r + q]? = some rows ∧ rows[j]? = some (v (i + a) j) := by
  induction reps generalizing i r arr with
  | nil => exact ⟨arr, rfl, rfl, hrows, fun _ _ => rfl, by simp⟩
  | cons rep reps ih =>
    have hkr := hk rep (by simp)
    have hmem : ∀ j, j < n ↔ ∃ f ∈ rep, j ∈ f.2 := by
      intro j
      rw [← List.mem_range, ← hkr.partition.mem_iff, List.mem_flatMap]
    have hr : r < arr.length := by rw [hlen]; simp
    rw [List.flatten_cons, List.length_append] at hN
    obtain ⟨rows', h1, h2, -, h4⟩ := cvLoop_rep n g v N hg rep (kfold_ne hn hkr) hkr.nonempty (fun f hf j hj => (hmem j).2 ⟨f, hf, hj⟩) (hkr.partition.nodup_iff.2 List.nodup_range) reps.flatten i 0 r
      (by rw [kfold_sum hkr]; omega) (by omega) arr arr[r] (List.getElem?_eq_getElem hr) (hrows _ (List.getElem_mem hr))
    obtain ⟨arr', k1, k2, k3, k4, k5⟩ := ih (fun rep' h' => hk rep' (List.mem_cons_of_mem _ h')) (i + rep.length) (r + 1) (by omega) (arr.set r rows') (by rw [List.length_set, hlen, List.length_cons]; omega)
      fun rows hrw => by
        rcases List.mem_or_eq_of_mem_set hrw with h | h
        · exact hrows _ h
        · rw [h]; exact h2
    refine ⟨arr', ?_, by rw [k2, List.length_set], k3, fun q hq => ?_, fun q rep' hq j hj => ?_⟩
    · rw [List.flatten_cons, h1, k1]
    · rw [k4 q (by omega), List.getElem?_set_ne (by omega)]
    · cases q with
      | zero =>
        simp only [List.getElem?_cons_zero, Option.some.injEq] at hq
        subst hq
        obtain ⟨f, hf, hjf⟩ := (hmem j).1 hj
        obtain ⟨p, hp⟩ := List.getElem?_of_mem hf
        refine ⟨p, f, rows', ?_, hf, hjf, ?_, h4 p f hp j hjf⟩
        · rw [List.flatten_cons, List.getElem?_append_left (List.getElem?_eq_some_iff.1 hp).1, hp]
        · rw [Nat.add_zero, k4 r (by omega), List.getElem?_set_self hr]
      | succ q =>
        rw [List.getElem?_cons_succ] at hq
        obtain ⟨a, f, rows, e1, e2, e3, e4, e5⟩ := k5 q rep' hq j hj
        refine ⟨rep.length + a, f, rows, ?_, e2, e3, ?_, ?_⟩
        · rw [List.flatten_cons, List.getElem?_append_right (by omega), Nat.add_sub_cancel_left, e1]
        · rw [← e4]; congr 1; omega
        · rw [e5]; congr 2; omega

end Verif.Proof
