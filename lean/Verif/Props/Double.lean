import Verif.Props.Rounding
import Verif.Proof.Double

/-!
# C145: an answer of `FrankAndHallQuantifier` on doubles with a negative prevalence
-/

namespace Verif.Props

open Verif.Model Verif.Spec Verif.Proof

theorem rndDouble_near {x : ℝ} {m : ℤ} (e : ℕ) (h1 : 2 ^ 52 ≤ x * 2 ^ e) (h2 : x * 2 ^ e < 2 ^ 53) (h3 : (m : ℝ) - 1/2 < x * 2 ^ e) (h4 : x * 2 ^ e < m + 1/2) : rndDouble x = m / 2 ^ e :=
  rndDouble_eq e h1 h2 (Or.inl (abs_lt.2 ⟨by linarith, by linarith⟩))

theorem rndDouble_tieUp {x : ℝ} {m : ℤ} (e : ℕ) (h1 : 2 ^ 52 ≤ x * 2 ^ e) (h2 : x * 2 ^ e < 2 ^ 53) (h3 : x * 2 ^ e = m - 1/2) (h4 : Even m) : rndDouble x = m / 2 ^ e :=
  rndDouble_eq e h1 h2 (Or.inr ⟨by rw [h3, show (m:ℝ) - 1/2 - m = -(1/2) by ring, abs_neg, abs_of_pos (by norm_num)], h4⟩)

theorem rndDouble_tieDown {x : ℝ} {m : ℤ} (e : ℕ) (h1 : 2 ^ 52 ≤ x * 2 ^ e) (h2 : x * 2 ^ e < 2 ^ 53) (h3 : x * 2 ^ e = m + 1/2) (h4 : Even m) : rndDouble x = m / 2 ^ e :=
  rndDouble_eq e h1 h2 (Or.inr ⟨by rw [h3, show (m:ℝ) + 1/2 - m = 1/2 by ring, abs_of_pos (by norm_num)], h4⟩)


theorem fh_0 : rndDouble ((3602879701896397 / 18014398509481984) - (5404319552844595 / 36028797018963968)) = (1801439850948199 / 36028797018963968) := by
  rw [rndDouble_near (m := 7205759403792796) 57 (by norm_num) (by norm_num) (by norm_num) (by norm_num)]
  norm_num

theorem fh_1 : rndDouble ((5404319552844595 / 36028797018963968) + (1801439850948199 / 36028797018963968)) = (3602879701896397 / 18014398509481984) := by
  rw [rndDouble_near (m := 7205759403792794) 55 (by norm_num) (by norm_num) (by norm_num) (by norm_num)]
  norm_num

theorem fh_2 : rndDouble ((1 / 4) - (3602879701896397 / 18014398509481984)) = (900719925474099 / 18014398509481984) := by
  rw [rndDouble_near (m := 7205759403792792) 57 (by norm_num) (by norm_num) (by norm_num) (by norm_num)]
  norm_num

theorem fh_3 : rndDouble ((3602879701896397 / 18014398509481984) + (900719925474099 / 18014398509481984)) = (1 / 4) := by
  rw [rndDouble_near (m := 4503599627370496) 54 (by norm_num) (by norm_num) (by norm_num) (by norm_num)]
  norm_num

theorem fh_4 : rndDouble ((5404319552844595 / 18014398509481984) - (1 / 4)) = (900719925474099 / 18014398509481984) := by
  rw [rndDouble_near (m := 7205759403792792) 57 (by norm_num) (by norm_num) (by norm_num) (by norm_num)]
  norm_num

theorem fh_5 : rndDouble ((1 / 4) + (900719925474099 / 18014398509481984)) = (5404319552844595 / 18014398509481984) := by
  rw [rndDouble_near (m := 5404319552844595) 54 (by norm_num) (by norm_num) (by norm_num) (by norm_num)]
  norm_num

theorem fh_6 : rndDouble ((3152519739159347 / 9007199254740992) - (5404319552844595 / 18014398509481984)) = (900719925474099 / 18014398509481984) := by
  rw [rndDouble_near (m := 7205759403792792) 57 (by norm_num) (by norm_num) (by norm_num) (by norm_num)]
  norm_num

theorem fh_7 : rndDouble ((5404319552844595 / 18014398509481984) + (900719925474099 / 18014398509481984)) = (3152519739159347 / 9007199254740992) := by
  rw [rndDouble_near (m := 6305039478318694) 54 (by norm_num) (by norm_num) (by norm_num) (by norm_num)]
  norm_num

theorem fh_8 : rndDouble ((3602879701896397 / 9007199254740992) - (3152519739159347 / 9007199254740992)) = (225179981368525 / 4503599627370496) := by
  rw [rndDouble_near (m := 7205759403792800) 57 (by norm_num) (by norm_num) (by norm_num) (by norm_num)]
  norm_num

theorem fh_9 : rndDouble ((3152519739159347 / 9007199254740992) + (225179981368525 / 4503599627370496)) = (3602879701896397 / 9007199254740992) := by
  rw [rndDouble_near (m := 7205759403792794) 54 (by norm_num) (by norm_num) (by norm_num) (by norm_num)]
  norm_num

theorem fh_10 : rndDouble ((8106479329266893 / 18014398509481984) - (3602879701896397 / 9007199254740992)) = (900719925474099 / 18014398509481984) := by
  rw [rndDouble_near (m := 7205759403792792) 57 (by norm_num) (by norm_num) (by norm_num) (by norm_num)]
  norm_num

theorem fh_11 : rndDouble ((3602879701896397 / 9007199254740992) + (900719925474099 / 18014398509481984)) = (8106479329266893 / 18014398509481984) := by
  rw [rndDouble_near (m := 8106479329266893) 54 (by norm_num) (by norm_num) (by norm_num) (by norm_num)]
  norm_num

theorem fh_12 : rndDouble (1 - (8106479329266893 / 18014398509481984)) = (2476979795053773 / 4503599627370496) := by
  rw [rndDouble_tieUp (m := 4953959590107546) 53 (by norm_num) (by norm_num) (by norm_num) (by decide)]
  norm_num

theorem fh_13 : rndDouble ((900719925474099 / 18014398509481984) + (900719925474099 / 18014398509481984)) = (900719925474099 / 9007199254740992) := by
  rw [rndDouble_near (m := 7205759403792792) 56 (by norm_num) (by norm_num) (by norm_num) (by norm_num)]
  norm_num

theorem fh_14 : rndDouble ((3602879701896397 / 18014398509481984) + (900719925474099 / 9007199254740992)) = (5404319552844595 / 18014398509481984) := by
  rw [rndDouble_near (m := 5404319552844595) 54 (by norm_num) (by norm_num) (by norm_num) (by norm_num)]
  norm_num

theorem fh_15 : rndDouble ((900719925474099 / 18014398509481984) + (225179981368525 / 4503599627370496)) = (1801439850948199 / 18014398509481984) := by
  rw [rndDouble_near (m := 7205759403792796) 56 (by norm_num) (by norm_num) (by norm_num) (by norm_num)]
  norm_num

theorem fh_16 : rndDouble ((900719925474099 / 18014398509481984) + (2476979795053773 / 4503599627370496)) = (1351079888211149 / 2251799813685248) := by
  rw [rndDouble_tieUp (m := 5404319552844596) 53 (by norm_num) (by norm_num) (by norm_num) (by decide)]
  norm_num

theorem fh_17 : rndDouble ((1801439850948199 / 18014398509481984) + (1351079888211149 / 2251799813685248)) = (788129934789837 / 1125899906842624) := by
  rw [rndDouble_tieUp (m := 6305039478318696) 53 (by norm_num) (by norm_num) (by norm_num) (by decide)]
  norm_num

theorem fh_18 : rndDouble ((5404319552844595 / 18014398509481984) + (788129934789837 / 1125899906842624)) = (4503599627370497 / 4503599627370496) := by
  rw [rndDouble_near (m := 4503599627370497) 52 (by norm_num) (by norm_num) (by norm_num) (by norm_num)]
  norm_num

theorem fh_in_0 : rndDouble (5404319552844595 / 36028797018963968) = (5404319552844595 / 36028797018963968) := by
  rw [rndDouble_near (m := 5404319552844595) 55 (by norm_num) (by norm_num) (by norm_num) (by norm_num)]
  norm_num

theorem fh_in_1 : rndDouble (3602879701896397 / 18014398509481984) = (3602879701896397 / 18014398509481984) := by
  rw [rndDouble_near (m := 7205759403792794) 55 (by norm_num) (by norm_num) (by norm_num) (by norm_num)]
  norm_num

theorem fh_in_2 : rndDouble (1 / 4) = (1 / 4) := by
  rw [rndDouble_near (m := 4503599627370496) 54 (by norm_num) (by norm_num) (by norm_num) (by norm_num)]
  norm_num

theorem fh_in_3 : rndDouble (5404319552844595 / 18014398509481984) = (5404319552844595 / 18014398509481984) := by
  rw [rndDouble_near (m := 5404319552844595) 54 (by norm_num) (by norm_num) (by norm_num) (by norm_num)]
  norm_num

theorem fh_in_4 : rndDouble (3152519739159347 / 9007199254740992) = (3152519739159347 / 9007199254740992) := by
  rw [rndDouble_near (m := 6305039478318694) 54 (by norm_num) (by norm_num) (by norm_num) (by norm_num)]
  norm_num

theorem fh_in_5 : rndDouble (3602879701896397 / 9007199254740992) = (3602879701896397 / 9007199254740992) := by
  rw [rndDouble_near (m := 7205759403792794) 54 (by norm_num) (by norm_num) (by norm_num) (by norm_num)]
  norm_num

theorem fh_in_6 : rndDouble (8106479329266893 / 18014398509481984) = (8106479329266893 / 18014398509481984) := by
  rw [rndDouble_near (m := 8106479329266893) 54 (by norm_num) (by norm_num) (by norm_num) (by norm_num)]
  norm_num

theorem fh_in_7 : rndDouble 1 = 1 := by
  rw [rndDouble_near (m := 4503599627370496) 52 (by norm_num) (by norm_num) (by norm_num) (by norm_num)]
  norm_num

/-- The doubles nearest to 3/20, 4/20, 5/20, 6/20, 7/20, 8/20, 9/20 and 1. -/
noncomputable def fhGroups : List ℝ := [(5404319552844595 / 36028797018963968), (3602879701896397 / 18014398509481984), (1 / 4), (5404319552844595 / 18014398509481984), (3152519739159347 / 9007199254740992), (3602879701896397 / 9007199254740992), (8106479329266893 / 18014398509481984), 1]

theorem pairwiseSum_short {rnd : ℝ → ℝ} {l : List ℝ} (h : l.length ≤ 128) : pairwiseSum rnd l = blockSum rnd l := by
  rw [pairwiseSum, dif_pos h]

theorem fhqLoopA_step {done rest : List ℝ} {l s x : ℝ} (hs : pairwiseSum rndDouble done = s) (hx : rndDouble (l - s) = x) (h0 : 0 ≤ x) (h1 : x ≤ 1) :
    fhqLoopA Arith.double done (l :: rest) = fhqLoopA Arith.double (done ++ [x]) rest := by
  rw [fhqLoopA]
  simp only [Arith.double]
  rw [hs, hx, min_eq_left h1, max_eq_right h0]

theorem fhGroups_loop : fhqLoopA Arith.double [(5404319552844595 / 36028797018963968)] [(3602879701896397 / 18014398509481984), (1 / 4), (5404319552844595 / 18014398509481984), (3152519739159347 / 9007199254740992), (3602879701896397 / 9007199254740992), (8106479329266893 / 18014398509481984), 1] = [(5404319552844595 / 36028797018963968), (1801439850948199 / 36028797018963968), (900719925474099 / 18014398509481984), (900719925474099 / 18014398509481984), (900719925474099 / 18014398509481984), (225179981368525 / 4503599627370496), (900719925474099 / 18014398509481984), (2476979795053773 / 4503599627370496)] := by
  rw [fhqLoopA_step (s := (5404319552844595 / 36028797018963968)) (x := (1801439850948199 / 36028797018963968)) (by rw [pairwiseSum_short (by simp)]; simp only [List.cons_append, List.nil_append, blockSum, seqSum, List.foldl_cons, List.foldl_nil, fh_0, fh_1, fh_2, fh_3, fh_4, fh_5, fh_6, fh_7, fh_8, fh_9, fh_10, fh_11, fh_12, fh_13, fh_14, fh_15, fh_16, fh_17, fh_18]) (by rw [fh_0]) (by norm_num) (by norm_num)]
  rw [fhqLoopA_step (s := (3602879701896397 / 18014398509481984)) (x := (900719925474099 / 18014398509481984)) (by rw [pairwiseSum_short (by simp)]; simp only [List.cons_append, List.nil_append, blockSum, seqSum, List.foldl_cons, List.foldl_nil, fh_0, fh_1, fh_2, fh_3, fh_4, fh_5, fh_6, fh_7, fh_8, fh_9, fh_10, fh_11, fh_12, fh_13, fh_14, fh_15, fh_16, fh_17, fh_18]) (by rw [fh_2]) (by norm_num) (by norm_num)]
  rw [fhqLoopA_step (s := (1 / 4)) (x := (900719925474099 / 18014398509481984)) (by rw [pairwiseSum_short (by simp)]; simp only [List.cons_append, List.nil_append, blockSum, seqSum, List.foldl_cons, List.foldl_nil, fh_0, fh_1, fh_2, fh_3, fh_4, fh_5, fh_6, fh_7, fh_8, fh_9, fh_10, fh_11, fh_12, fh_13, fh_14, fh_15, fh_16, fh_17, fh_18]) (by rw [fh_4]) (by norm_num) (by norm_num)]
  rw [fhqLoopA_step (s := (5404319552844595 / 18014398509481984)) (x := (900719925474099 / 18014398509481984)) (by rw [pairwiseSum_short (by simp)]; simp only [List.cons_append, List.nil_append, blockSum, seqSum, List.foldl_cons, List.foldl_nil, fh_0, fh_1, fh_2, fh_3, fh_4, fh_5, fh_6, fh_7, fh_8, fh_9, fh_10, fh_11, fh_12, fh_13, fh_14, fh_15, fh_16, fh_17, fh_18]) (by rw [fh_6]) (by norm_num) (by norm_num)]
  rw [fhqLoopA_step (s := (3152519739159347 / 9007199254740992)) (x := (225179981368525 / 4503599627370496)) (by rw [pairwiseSum_short (by simp)]; simp only [List.cons_append, List.nil_append, blockSum, seqSum, List.foldl_cons, List.foldl_nil, fh_0, fh_1, fh_2, fh_3, fh_4, fh_5, fh_6, fh_7, fh_8, fh_9, fh_10, fh_11, fh_12, fh_13, fh_14, fh_15, fh_16, fh_17, fh_18]) (by rw [fh_8]) (by norm_num) (by norm_num)]
  rw [fhqLoopA_step (s := (3602879701896397 / 9007199254740992)) (x := (900719925474099 / 18014398509481984)) (by rw [pairwiseSum_short (by simp)]; simp only [List.cons_append, List.nil_append, blockSum, seqSum, List.foldl_cons, List.foldl_nil, fh_0, fh_1, fh_2, fh_3, fh_4, fh_5, fh_6, fh_7, fh_8, fh_9, fh_10, fh_11, fh_12, fh_13, fh_14, fh_15, fh_16, fh_17, fh_18]) (by rw [fh_10]) (by norm_num) (by norm_num)]
  rw [fhqLoopA_step (s := (8106479329266893 / 18014398509481984)) (x := (2476979795053773 / 4503599627370496)) (by rw [pairwiseSum_short (by simp)]; simp only [List.cons_append, List.nil_append, blockSum, seqSum, List.foldl_cons, List.foldl_nil, fh_0, fh_1, fh_2, fh_3, fh_4, fh_5, fh_6, fh_7, fh_8, fh_9, fh_10, fh_11, fh_12, fh_13, fh_14, fh_15, fh_16, fh_17, fh_18]) (by rw [fh_12]) (by norm_num) (by norm_num)]
  simp only [fhqLoopA, List.cons_append, List.nil_append]

theorem fhGroups_sum : pairwiseSum rndDouble [(5404319552844595 / 36028797018963968), (1801439850948199 / 36028797018963968), (900719925474099 / 18014398509481984), (900719925474099 / 18014398509481984), (900719925474099 / 18014398509481984), (225179981368525 / 4503599627370496), (900719925474099 / 18014398509481984), (2476979795053773 / 4503599627370496)] = (4503599627370497 / 4503599627370496) := by
  rw [pairwiseSum_short (by simp)]
  simp only [blockSum, eightSums, seqSum, List.foldl_nil, fh_0, fh_1, fh_2, fh_3, fh_4, fh_5, fh_6, fh_7, fh_8, fh_9, fh_10, fh_11, fh_12, fh_13, fh_14, fh_15, fh_16, fh_17, fh_18]

/-- **C145** (`FrankAndHallQuantifier`, refuted): on doubles, nine classes, with the prevalences 0.15, 0.2, 0.25, 0.3, 0.35, 0.4, 0.45 and 1 for the left groups (doubles in [0,1], in increasing order), the last class
gets a negative prevalence: `np.sum` adds the other eight up to more than 1, and the clipping that the code does for this purpose leaves the last class out. -/
theorem C145_frankhall_refuted : (∀ v ∈ fhGroups, rndDouble v = v ∧ 0 ≤ v ∧ v ≤ 1) ∧ isAsc fhGroups ∧ ∃ p last, fhqA Arith.double fhGroups = p ++ [last] ∧ last < 0 := by
  have hasc : isAsc fhGroups := by
    unfold fhGroups
    simp only [isAsc]
    norm_num
  refine ⟨?_, hasc, [(5404319552844595 / 36028797018963968), (1801439850948199 / 36028797018963968), (900719925474099 / 18014398509481984), (900719925474099 / 18014398509481984), (900719925474099 / 18014398509481984), (225179981368525 / 4503599627370496), (900719925474099 / 18014398509481984), (2476979795053773 / 4503599627370496)], Arith.double.rnd (1 - Arith.double.sum [(5404319552844595 / 36028797018963968), (1801439850948199 / 36028797018963968), (900719925474099 / 18014398509481984), (900719925474099 / 18014398509481984), (900719925474099 / 18014398509481984), (225179981368525 / 4503599627370496), (900719925474099 / 18014398509481984), (2476979795053773 / 4503599627370496)]), ?_, ?_⟩
  · simp only [fhGroups, List.forall_mem_cons]
    refine ⟨⟨fh_in_0, by norm_num, by norm_num⟩, ⟨fh_in_1, by norm_num, by norm_num⟩, ⟨fh_in_2, by norm_num, by norm_num⟩, ⟨fh_in_3, by norm_num, by norm_num⟩, ⟨fh_in_4, by norm_num, by norm_num⟩, ⟨fh_in_5, by norm_num, by norm_num⟩, ⟨fh_in_6, by norm_num, by norm_num⟩, ⟨fh_in_7, by norm_num, by norm_num⟩, by simp⟩
  · unfold fhqA correctAscA
    rw [if_pos hasc]
    unfold fhGroups fhqClassesA
    simp only [fhGroups_loop]
  · have hs : Arith.double.sum [(5404319552844595 / 36028797018963968), (1801439850948199 / 36028797018963968), (900719925474099 / 18014398509481984), (900719925474099 / 18014398509481984), (900719925474099 / 18014398509481984), (225179981368525 / 4503599627370496), (900719925474099 / 18014398509481984), (2476979795053773 / 4503599627370496)] = (4503599627370497 / 4503599627370496) := fhGroups_sum
    rw [hs]
    have := (abs_le.1 (double_ok.rnd (1 - (4503599627370497 / 4503599627370496)))).2
    rw [abs_of_neg (by norm_num)] at this
    norm_num at this ⊢
    linarith

end Verif.Props
