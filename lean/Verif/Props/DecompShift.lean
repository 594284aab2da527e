import Verif.Model.DecompBase
import Verif.Props.DecompError
import Verif.Props.Drift
import Verif.Props.FrankHall

/-!
# C160: decompositions and prior probability shift
-/

namespace Verif.Props

open Verif.Model Verif.Spec Verif.Proof

variable {τ D α : Type}

theorem rowsOfTwo_twoColumns (c : List ℝ) : rowsOfTwo (twoColumns c) = c.map fun v => ![1 - v, v] := by
  unfold rowsOfTwo twoColumns
  simp only [List.headD_cons, List.length_map]
  apply List.ext_getElem
  · simp
  · intro i h1 h2
    simp only [List.length_map, List.length_range] at h1
    simp only [List.getElem_map, List.getElem_range]
    funext j
    fin_cases j <;> simp [h1]

theorem ucBase_run (ops : EstOps τ D ℤ 2) (enc : Bool → ℤ) (w : World τ D ℤ) (cls : UcClass ℤ 2) (e1 e2 : Option ℕ) (X X' : List D) (y : List ℤ) (p p' : Option (List (List ℝ))) (l : List Fl)
    (h : ucRun ops enc w ⟨cls, e1, e2⟩ X y (p.map fun m => .probs (rowsOfTwo m)) X' (p'.map fun m => .probs (rowsOfTwo m)) = .ok (some l)) :
    ∃ s, (ucBase ops enc w cls).fit e1 e2 X y p = .ok s ∧ (ucBase ops enc w cls).predict s X' p' = .ok l := by
  unfold ucRun at h
  simp only at h
  split at h
  · cases h
  · rename_i hr
    refine ⟨⟨(ucFit ops enc w ⟨cls, e1, e2⟩ (ucNew ⟨cls, e1, e2⟩) X y (p.map fun m => .probs (rowsOfTwo m))).1, e1, e2,
      (ucFit ops enc w ⟨cls, e1, e2⟩ (ucNew ⟨cls, e1, e2⟩) X y (p.map fun m => .probs (rowsOfTwo m))).2.1⟩, ?_, ?_⟩
    · simp only [ucBase]
      rw [hr]
    · simp only [ucBase]
      rw [h]

section
variable (ops : EstOps τ D ℤ 2) (enc : Bool → ℤ) (w : World τ D ℤ) (sol : Solvers) (dist : Dist)

/-- PAC on a binary problem: the answer is Forman's estimate, from the means of the scores of the bag and of the two labels. -/
theorem pac_two (et et' : Option ℕ) (X X' : List D) (train : List (ℤ × ℝ)) (bag : List ℝ) (hb : bag ≠ []) (h01 : labelsOf (train.map Prod.fst) = [0, 1]) (m1 m0 : ℝ)
    (h1 : meanOf (ofClass train 1) id = m1) (h0 : meanOf (ofClass train 0) id = m0) (hd : 1/1000 < |m1 - m0|) :
    ucRun ops enc w ⟨pacClass sol dist, et, et'⟩ X (train.map Prod.fst) (some (.probs ((train.map Prod.snd).map fun v => ![1 - v, v]))) X' (some (.probs (bag.map fun v => ![1 - v, v])))
      = .ok (some [Fl.fin (1 - max 0 (min ((meanOf bag id - m0) / (m1 - m0)) 1)), Fl.fin (max 0 (min ((meanOf bag id - m0) / (m1 - m0)) 1))]) := by
  have hy : train.map Prod.fst ≠ [] := by
    intro h
    rw [h] at h01
    exact absurd h01 (by simp [labelsOf])
  have hst : stacked (train.map Prod.fst) 1 = train.map Prod.fst := by simp [stacked]
  rw [ucRun_given_probs ops enc w X X' _ (pacClass sol dist) rfl rfl et et' hy 1 _ _ (by simp)]
  have hlen : (2 : ℕ) = (npUnique (train.map Prod.fst)).length := by rw [npUnique_eq_labelsOf, h01]; rfl
  have e : answerOn (pacClass sol dist) (train.map Prod.fst) 1 (.probs ((train.map Prod.snd).map fun v => ![1 - v, v])) (.probs (bag.map fun v => ![1 - v, v]))
      = ((adjust sol dist (fun i j => colMeans (rowsOf (train.map Prod.fst) ((train.map Prod.snd).map fun v => (![1 - v, v] : Fin 2 → ℝ)) (npUnique (train.map Prod.fst))[i]) (Fin.cast hlen.symm j))
          (fun j => colMeans (bag.map fun v => (![1 - v, v] : Fin 2 → ℝ)) (Fin.cast hlen.symm j))).map vecList).map some := by
    simp only [answerOn, learnAnswer, fittedState, pacClass, trainData, probRows, if_true, bind, Except.bind, hst, List.length_map, keep]
    rw [dif_pos hlen]
    simp only [pure, Except.pure]
    rw [dif_pos hlen]
  rw [e]
  have hrows : ∀ c, rowsOf (train.map Prod.fst) ((train.map Prod.snd).map fun v => (![1 - v, v] : Fin 2 → ℝ)) c = (ofClass train c).map fun v => ![1 - v, v] := fun c => by
    unfold rowsOf ofClass
    rw [List.map_map, List.zip_map', List.filter_map, List.map_map, List.map_map]
    rfl
  have hmem : ∀ c ∈ ([0, 1] : List ℤ), ofClass train c ≠ [] := fun c hc => by
    rw [← h01, mem_labelsOf'] at hc
    obtain ⟨t, ht, hte⟩ := List.mem_map.1 hc
    intro hn
    unfold ofClass at hn
    rw [List.map_eq_nil_iff, List.filter_eq_nil_iff] at hn
    exact hn t ht (by simpa using hte)
  have hmean : ∀ l : List ℝ, l ≠ [] → colMeans (l.map fun v => (![1 - v, v] : Fin 2 → ℝ)) 1 = Fl.fin (meanOf l id) := fun l hl => by
    rw [colMeans_eq _ (by simpa using hl)]
    simp only [meanOf, List.map_map, List.length_map]
    rfl
  have gen : ∀ (L : List ℤ) (_ : L = [0, 1]) (hlen : 2 = L.length),
      ((adjust sol dist (fun i j => colMeans (rowsOf (train.map Prod.fst) ((train.map Prod.snd).map fun v => (![1 - v, v] : Fin 2 → ℝ)) L[i]) (Fin.cast hlen.symm j))
          (fun j => colMeans (bag.map fun v => (![1 - v, v] : Fin 2 → ℝ)) (Fin.cast hlen.symm j))).map vecList).map some
        = .ok (some [Fl.fin (1 - max 0 (min ((meanOf bag id - m0) / (m1 - m0)) 1)), Fl.fin (max 0 (min ((meanOf bag id - m0) / (m1 - m0)) 1))]) := by
    rintro _ rfl hlen
    have q := C09_binary_formula (fun (i j : Fin 2) => colMeans (rowsOf (train.map Prod.fst) ((train.map Prod.snd).map fun v => (![1 - v, v] : Fin 2 → ℝ)) ([0, 1] : List ℤ)[i]) j)
      (colMeans (bag.map fun v => (![1 - v, v] : Fin 2 → ℝ))) m1 m0 (meanOf bag id)
      (by simp only [hrows]; rw [← h1]; exact hmean _ (hmem 1 (by simp))) (by simp only [hrows]; rw [← h0]; exact hmean _ (hmem 0 (by simp))) (hmean bag hb) hd sol dist
    exact congrArg (fun r => (Except.map vecList r).map some) q
  exact gen _ (by rw [npUnique_eq_labelsOf, h01]) hlen

end

section
variable [LinearOrder α] {β : Type*}

/-- The mean over the examples of some classes is the mean of each of them, when it is the same for all. -/
theorem mean_side (train : List (α × β)) (f : β → ℝ) (s : α → Prop) [DecidablePred s] (m : ℝ) (hall : ∀ c ∈ train.map Prod.fst, s c → meanOf (ofClass train c) f = m) (hne : ∃ t ∈ train, s t.1) :
    meanOf ((train.filter fun t => s t.1).map Prod.snd) f = m := by
  set sub := train.filter fun t => s t.1 with hsub
  have hin : ∀ t ∈ sub, t.1 ∈ train.map Prod.fst := fun t ht => List.mem_map_of_mem (List.mem_filter.1 ht).1
  have hs : ∀ t ∈ sub, s t.1 := fun t ht => by simpa using (List.mem_filter.1 ht).2
  have hsne : sub ≠ [] := by
    obtain ⟨t, ht, h⟩ := hne
    exact List.ne_nil_of_mem (List.mem_filter.2 ⟨ht, by simpa using h⟩)
  rw [bag_mean (train.map Prod.fst) sub hin f]
  have : ∀ c : Fin (labelsOf (train.map Prod.fst)).length, bagPrevs (train.map Prod.fst) sub c * meanOf (ofClass sub (labelsOf (train.map Prod.fst))[c]) f = bagPrevs (train.map Prod.fst) sub c * m := fun c => by
    by_cases hc : s (labelsOf (train.map Prod.fst))[c]
    · congr 1
      rw [← hall _ ((mem_labelsOf' _ _).1 (List.getElem_mem _)) hc]
      congr 1
      unfold ofClass
      rw [hsub, List.filter_filter]
      congr 1
      refine List.filter_congr fun t _ => ?_
      by_cases ht : t.1 = (labelsOf (train.map Prod.fst))[c]
      · simpa [ht] using hc
      · simp
        exact fun e => absurd e ht
    · have : bagPrevs (train.map Prod.fst) sub c = 0 := by
        have hnot : (labelsOf (train.map Prod.fst))[c] ∉ sub.map Prod.fst := fun h => by
          obtain ⟨t, ht, e⟩ := List.mem_map.1 h
          exact hc (e ▸ hs t ht)
        rw [bagPrevs, freq, List.count_eq_zero_of_not_mem hnot, Nat.cast_zero, zero_div]
      rw [this, zero_mul, zero_mul]
  rw [Finset.sum_congr rfl fun c _ => this c, ← Finset.sum_mul, (bagPrevs_isPrev _ sub hsne hin).2, one_mul]

/-- Under prior shift the mean over the bag is that of the means of the classes in the training set, with the prevalences of the bag. -/
theorem shift_mean (y : List α) (train bag : List (α × β)) (h : PriorShift train bag) (hbag : ∀ t ∈ bag, t.1 ∈ y) (f : β → ℝ) :
    meanOf (bag.map Prod.snd) f = ∑ c : Fin (labelsOf y).length, bagPrevs y bag c * meanOf (ofClass train (labelsOf y)[c]) f := by
  have := dev_le_drift (fun (_ : Unit) => f) y train bag hbag
  rw [C156_no_drift (fun (_ : Unit) => f) y train bag h, Fintype.sum_unique] at this
  exact sub_eq_zero.1 (abs_eq_zero.1 (le_antisymm this (abs_nonneg _)))

/-- PAC on the problem "the classes of one side against those of the other side", when the mean of its score is the same for all the classes of a side: under prior shift it answers the total prevalence of the side. -/
theorem side_answer (ops : EstOps τ D ℤ 2) (enc : Bool → ℤ) (w : World τ D ℤ) (sol : Solvers) (dist : Dist) (e1 e2 : Option ℕ) (X X' : List D) (y : List α) (R : List β) (hR : R.length = y.length)
    (bag : List (α × β)) (hshift : PriorShift (y.zip R) bag) (s : α → Prop) [DecidablePred s] (f : β → ℝ) (m1 m0 : ℝ) (hs1 : ∃ c ∈ y, s c) (hs0 : ∃ c ∈ y, ¬ s c)
    (hm1 : ∀ c ∈ y, s c → meanOf (ofClass (y.zip R) c) f = m1) (hm0 : ∀ c ∈ y, ¬ s c → meanOf (ofClass (y.zip R) c) f = m0) (hd : 1/1000 < |m1 - m0|) :
    ∃ st, (ucBase ops enc w (pacClass sol dist)).fit e1 e2 X (y.map fun a => if s a then 1 else 0) (some (twoColumns (R.map f))) = .ok st
      ∧ (ucBase ops enc w (pacClass sol dist)).predict st X' (some (twoColumns ((bag.map Prod.snd).map f)))
        = .ok [Fl.fin (1 - ∑ c : Fin (labelsOf y).length, if s (labelsOf y)[c] then bagPrevs y bag c else 0), Fl.fin (∑ c : Fin (labelsOf y).length, if s (labelsOf y)[c] then bagPrevs y bag c else 0)] := by
  set v := ∑ c : Fin (labelsOf y).length, if s (labelsOf y)[c] then bagPrevs y bag c else 0 with hv
  have hmap : (y.zip R).map Prod.fst = y := List.map_fst_zip hR.ge
  have hmap' : (y.zip R).map Prod.snd = R := List.map_snd_zip hR.le
  have hbag : ∀ t ∈ bag, t.1 ∈ y := fun t ht => hshift.mem (List.mem_map_of_mem ht)
  have hp : IsPrev (bagPrevs y bag) := bagPrevs_isPrev y bag hshift.nonempty hbag
  set train : List (ℤ × ℝ) := (y.zip R).map fun t => (if s t.1 then 1 else 0, f t.2) with htrain
  have hfst : train.map Prod.fst = y.map fun a => if s a then 1 else 0 := by
    rw [htrain, List.map_map]
    conv_rhs => rw [← hmap, List.map_map]
    rfl
  have hsnd : train.map Prod.snd = R.map f := by
    rw [htrain, List.map_map]
    conv_rhs => rw [← hmap', List.map_map]
    rfl
  have hex : ∀ (q : α → Prop), (∃ c ∈ y, q c) → ∃ t ∈ y.zip R, q t.1 := fun q ⟨c, hc, hq⟩ => by
    rw [← hmap] at hc
    obtain ⟨t, ht, e⟩ := List.mem_map.1 hc
    exact ⟨t, ht, e ▸ hq⟩
  have h1 : meanOf (ofClass train 1) id = m1 := by
    rw [← mean_side (y.zip R) f s m1 (by rw [hmap]; exact hm1) (hex s hs1)]
    unfold ofClass meanOf
    rw [htrain, List.filter_map]
    simp only [List.map_map, List.length_map]
    have : ((fun t : ℤ × ℝ => decide (t.1 = 1)) ∘ fun t : α × β => ((if s t.1 then 1 else 0 : ℤ), f t.2)) = fun t => decide (s t.1) := by
      funext t
      by_cases h : s t.1 <;> simp [h]
    rw [this]
    rfl
  have h0 : meanOf (ofClass train 0) id = m0 := by
    rw [← mean_side (y.zip R) f (fun c => ¬ s c) m0 (by rw [hmap]; exact hm0) (hex _ hs0)]
    unfold ofClass meanOf
    rw [htrain, List.filter_map]
    simp only [List.map_map, List.length_map]
    have : ((fun t : ℤ × ℝ => decide (t.1 = 0)) ∘ fun t : α × β => ((if s t.1 then 1 else 0 : ℤ), f t.2)) = fun t => decide (¬ s t.1) := by
      funext t
      by_cases h : s t.1 <;> simp [h]
    rw [this]
    rfl
  have h01 : labelsOf (train.map Prod.fst) = [0, 1] := by
    refine labelsOf_eq _ _ (by decide) ?_
    rw [hfst]
    ext a
    simp only [List.mem_toFinset, List.mem_map, List.mem_cons, List.not_mem_nil, or_false]
    constructor
    · rintro ⟨c, -, rfl⟩
      split_ifs <;> simp
    · rintro (rfl | rfl)
      · obtain ⟨c, hc, h⟩ := hs0
        exact ⟨c, hc, if_neg h⟩
      · obtain ⟨c, hc, h⟩ := hs1
        exact ⟨c, hc, if_pos h⟩
  have hmean : meanOf ((bag.map Prod.snd).map f) id = v * m1 + (1 - v) * m0 := by
    have e : meanOf ((bag.map Prod.snd).map f) id = meanOf (bag.map Prod.snd) f := by
      unfold meanOf
      rw [List.map_id, List.length_map]
    rw [e, shift_mean y (y.zip R) bag hshift hbag f, ← hp.2]
    have e2 : ∑ c, bagPrevs y bag c - v = ∑ c : Fin (labelsOf y).length, if s (labelsOf y)[c] then 0 else bagPrevs y bag c := by
      rw [hv, ← Finset.sum_sub_distrib]
      refine Finset.sum_congr rfl fun c _ => ?_
      split_ifs <;> ring
    rw [e2, hv, Finset.sum_mul, Finset.sum_mul, ← Finset.sum_add_distrib]
    refine Finset.sum_congr rfl fun c _ => ?_
    have hc : (labelsOf y)[c] ∈ y := (mem_labelsOf' y _).1 (List.getElem_mem _)
    split_ifs with h
    · rw [hm1 _ hc h]; ring
    · rw [hm0 _ hc h]; ring
  have hv0 : 0 ≤ v := Finset.sum_nonneg fun c _ => by split_ifs <;> [exact hp.1 c; exact le_rfl]
  have hv1 : v ≤ 1 := by
    rw [← hp.2, hv]
    exact Finset.sum_le_sum fun c _ => by split_ifs <;> [exact le_rfl; exact hp.1 c]
  have hne : m1 - m0 ≠ 0 := by
    intro h
    rw [h] at hd
    norm_num at hd
  have hq : (v * m1 + (1 - v) * m0 - m0) / (m1 - m0) = v := by
    field_simp
    ring
  have hrun := pac_two ops enc w sol dist e1 e2 X X' train ((bag.map Prod.snd).map f) (by simpa using hshift.nonempty) h01 m1 m0 h1 h0 hd
  rw [hmean, hq, min_eq_left hv1, max_eq_right hv0, hfst, hsnd] at hrun
  refine ucBase_run ops enc w (pacClass sol dist) e1 e2 X X' _ _ _ _ ?_
  simp only [Option.map_some, rowsOfTwo_twoColumns]
  exact hrun

theorem columns_get {n : ℕ} (rows : List (Fin n → ℝ)) (i : Fin n) : (columnsOf rows).getD i [] = rows.map fun row => row i := by
  unfold columnsOf
  rw [List.getD_eq_getElem?_getD, List.getElem?_ofFn, dif_pos i.2]
  rfl

/-- **C160** for `OneVsRestQuantifier`, what holds: if the mean of each score is the same for all the classes but its own, the copies of PAC, and so the decomposition, are right under prior shift. -/
theorem C160_ovr_partial (ops : EstOps τ D ℤ 2) (enc : Bool → ℤ) (w : World τ D ℤ) (sol : Solvers) (dist : Dist) (estTrain estTest : Option (List ℕ)) (X X' : List D) (y : List α) (h3 : 3 ≤ (labelsOf y).length)
    (he1 : Enough (labelsOf y).length estTrain) (he2 : Enough (labelsOf y).length estTest) (R : List (Fin (labelsOf y).length → ℝ)) (hR : R.length = y.length) (bag : List (α × (Fin (labelsOf y).length → ℝ)))
    (hshift : PriorShift (y.zip R) bag) (m1 m0 : Fin (labelsOf y).length → ℝ) (hm1 : ∀ i : Fin (labelsOf y).length, meanOf (ofClass (y.zip R) (labelsOf y)[i]) (fun row => row i) = m1 i)
    (hm0 : ∀ i j : Fin (labelsOf y).length, j ≠ i → meanOf (ofClass (y.zip R) (labelsOf y)[j]) (fun row => row i) = m0 i) (hd : ∀ i, 1/1000 < |m1 i - m0 i|) :
    ∃ f, ovrFit (ucBase ops enc w (pacClass sol dist)) estTrain estTest X y (some (columnsOf R)) = .ok f
      ∧ ovrPredict (ucBase ops enc w (pacClass sol dist)) f X' (some (columnsOf (bag.map Prod.snd))) = .ok (List.ofFn fun i => Fl.fin (bagPrevs y bag i)) := by
  have hbag : ∀ t ∈ bag, t.1 ∈ y := fun t ht => hshift.mem (List.mem_map_of_mem ht)
  have hp : IsPrev (bagPrevs y bag) := bagPrevs_isPrev y bag hshift.nonempty hbag
  have hidx : ∀ c ∈ y, ∃ j : Fin (labelsOf y).length, (labelsOf y)[j] = c := fun c hc => exists_getElem_of_mem ((mem_labelsOf' y c).2 hc)
  have hinj : ∀ i j : Fin (labelsOf y).length, (labelsOf y)[i] = (labelsOf y)[j] → i = j := fun i j h => getElem_inj_of_nodup (labelsOf_nodup' y) h
  have hin : ∀ i : Fin (labelsOf y).length, (labelsOf y)[i] ∈ y := fun i => (mem_labelsOf' y _).1 (List.getElem_mem _)
  have key := fun i : Fin (labelsOf y).length => side_answer ops enc w sol dist (estTrain.bind (·[(i : ℕ)]?)) (estTest.bind (·[(i : ℕ)]?)) X X' y R hR bag hshift (fun c => c = (labelsOf y)[i]) (fun row => row i) (m1 i) (m0 i)
    ⟨_, hin i, rfl⟩ (by
      obtain ⟨j, hj⟩ : ∃ j : Fin (labelsOf y).length, j ≠ i := by
        by_cases h : (i : ℕ) = 0
        · exact ⟨⟨1, by omega⟩, fun e => by rw [← e] at h; simp at h⟩
        · exact ⟨⟨0, by omega⟩, fun e => h (by rw [← e])⟩
      exact ⟨_, hin j, fun e => hj (hinj _ _ e)⟩)
    (fun c hc e => by rw [e]; exact hm1 i) (fun c hc hne => by
      obtain ⟨j, rfl⟩ := hidx c hc
      exact hm0 i j fun e => hne (by rw [e])) (hd i)
  choose st hfit hpred using key
  have hv : ∀ i : Fin (labelsOf y).length, (∑ c : Fin (labelsOf y).length, if (labelsOf y)[c] = (labelsOf y)[i] then bagPrevs y bag c else 0) = bagPrevs y bag i := fun i => by
    rw [Finset.sum_eq_single_of_mem i (Finset.mem_univ i)]
    · exact if_pos rfl
    · intro c _ hc
      exact if_neg fun e => hc (hinj _ _ e)
  simp only [hv] at hpred
  refine C51_ovr_faithful (ucBase ops enc w (pacClass sol dist)) estTrain estTest X X' y _ _ h3 (fun _ _ => Or.inr rfl) he1 he2 ?_ ?_ st (fun i => ?_) (fun i => Fl.fin (1 - bagPrevs y bag i)) (bagPrevs y bag) (fun i => ?_) hp
  · rintro l h
    rw [← Option.some.inj h, columnsOf, List.length_ofFn]
  · rintro l h
    rw [← Option.some.inj h, columnsOf, List.length_ofFn]
  · have := hfit i
    rw [← columns_get] at this
    exact this
  · have := hpred i
    rw [← columns_get] at this
    exact this

/-- **C160** for `FrankAndHallQuantifier`, what holds: if the mean of each score is the same for all the classes of its left group, and the same for all those of its right group. -/
theorem C160_fh_partial (ops : EstOps τ D ℤ 2) (enc : Bool → ℤ) (w : World τ D ℤ) (sol : Solvers) (dist : Dist) (estTrain estTest : Option (List ℕ)) (X X' : List D) (y : List α) (h3 : 3 ≤ (labelsOf y).length)
    (he1 : Enough ((labelsOf y).length - 1) estTrain) (he2 : Enough ((labelsOf y).length - 1) estTest) (R : List (Fin ((labelsOf y).length - 1) → ℝ)) (hR : R.length = y.length)
    (bag : List (α × (Fin ((labelsOf y).length - 1) → ℝ))) (hshift : PriorShift (y.zip R) bag) (m1 m0 : Fin ((labelsOf y).length - 1) → ℝ)
    (hm1 : ∀ (i : Fin ((labelsOf y).length - 1)) (j : Fin (labelsOf y).length), (j : ℕ) ≤ i → meanOf (ofClass (y.zip R) (labelsOf y)[j]) (fun row => row i) = m1 i)
    (hm0 : ∀ (i : Fin ((labelsOf y).length - 1)) (j : Fin (labelsOf y).length), (i : ℕ) < j → meanOf (ofClass (y.zip R) (labelsOf y)[j]) (fun row => row i) = m0 i) (hd : ∀ i, 1/1000 < |m1 i - m0 i|) :
    ∃ f, fhqFit (ucBase ops enc w (pacClass sol dist)) estTrain estTest X y (some (columnsOf R)) = .ok f
      ∧ fhqPredict (ucBase ops enc w (pacClass sol dist)) f X' (some (columnsOf (bag.map Prod.snd))) = .ok (List.ofFn fun i => Fl.fin (bagPrevs y bag i)) := by
  have hbag : ∀ t ∈ bag, t.1 ∈ y := fun t ht => hshift.mem (List.mem_map_of_mem ht)
  have hp : IsPrev (bagPrevs y bag) := bagPrevs_isPrev y bag hshift.nonempty hbag
  have hidx : ∀ c ∈ y, ∃ j : Fin (labelsOf y).length, (labelsOf y)[j] = c := fun c hc => exists_getElem_of_mem ((mem_labelsOf' y c).2 hc)
  have hin : ∀ i : Fin (labelsOf y).length, (labelsOf y)[i] ∈ y := fun i => (mem_labelsOf' y _).1 (List.getElem_mem _)
  have hside : ∀ (i : ℕ) (j : Fin (labelsOf y).length), (labelsOf y)[j] ∈ (labelsOf y).take (i + 1) ↔ (j : ℕ) ≤ i := fun i j => by
    exact (mem_take_iff (labelsOf_nodup' y) (List.getElem?_eq_getElem j.2)).trans Nat.lt_succ_iff
  have key := fun i : Fin ((labelsOf y).length - 1) => side_answer ops enc w sol dist (estTrain.bind (·[(i : ℕ)]?)) (estTest.bind (·[(i : ℕ)]?)) X X' y R hR bag hshift (fun c => c ∈ (labelsOf y).take (i + 1)) (fun row => row i)
    (m1 i) (m0 i) ⟨_, hin ⟨0, by omega⟩, (hside i ⟨0, by omega⟩).2 (Nat.zero_le _)⟩ ⟨_, hin ⟨i + 1, by omega⟩, fun h => by have := (hside i ⟨i + 1, by omega⟩).1 h; simp at this⟩
    (fun c hc h => by
      obtain ⟨j, rfl⟩ := hidx c hc
      exact hm1 i j ((hside i j).1 h))
    (fun c hc h => by
      obtain ⟨j, rfl⟩ := hidx c hc
      exact hm0 i j (by by_contra hn; exact h ((hside i j).2 (by omega)))) (hd i)
  choose st hfit hpred using key
  have hv : ∀ i : Fin ((labelsOf y).length - 1), (∑ c : Fin (labelsOf y).length, if (labelsOf y)[c] ∈ (labelsOf y).take (i + 1) then bagPrevs y bag c else 0) = ((List.ofFn (bagPrevs y bag)).take (i + 1)).sum := fun i => by
    rw [List.sum_take_ofFn, Finset.sum_filter]
    refine Finset.sum_congr rfl fun c _ => ?_
    rw [if_congr ((hside i c).trans Nat.lt_succ_iff.symm) rfl rfl]
  simp only [hv] at hpred
  have htake : ∀ i : Fin ((labelsOf y).length - 1), ((List.ofFn (bagPrevs y bag)).take (i + 1)).sum ≤ 1 := fun i => by
    rw [List.sum_take_ofFn, ← hp.2]
    exact Finset.sum_le_sum_of_subset_of_nonneg (Finset.filter_subset _ _) fun c _ _ => hp.1 c
  have htake0 : ∀ i : Fin ((labelsOf y).length - 1), 0 ≤ ((List.ofFn (bagPrevs y bag)).take (i + 1)).sum := fun i => by
    rw [List.sum_take_ofFn]
    exact Finset.sum_nonneg fun c _ => hp.1 c
  obtain ⟨f, x, e1, -, e3, -, hx, -⟩ := C159_fh (ucBase ops enc w (pacClass sol dist)) estTrain estTest X X' y (some (columnsOf R)) (some (columnsOf (bag.map Prod.snd))) h3 (fun _ _ => Or.inr rfl) he1 he2
    (by rintro l h; rw [← Option.some.inj h, columnsOf, List.length_ofFn]) (by rintro l h; rw [← Option.some.inj h, columnsOf, List.length_ofFn]) st
    (fun i => by have := hfit i; rw [← columns_get] at this; exact this) _ _ (fun i => by have := hpred i; rw [← columns_get] at this; exact this) htake0 htake (bagPrevs y bag) hp 0
    (fun i => by rw [sub_self, abs_zero])
  refine ⟨f, e1, ?_⟩
  have : x = bagPrevs y bag := by
    funext c
    have := hx c
    rw [mul_zero] at this
    exact sub_eq_zero.1 (abs_eq_zero.1 (le_antisymm this (abs_nonneg _)))
  rw [e3, this]

end

/-! ### A case in which the decompositions are wrong -/

/-- Three classes, one example of each. -/
theorem three_labels : labelsOf ([0, 1, 2] : List ℕ) = [0, 1, 2] := labelsOf_eq _ _ (by decide) (by decide)

theorem three_get (i : Fin (labelsOf ([0, 1, 2] : List ℕ)).length) : (labelsOf ([0, 1, 2] : List ℕ))[i] = i.val ∧ i.val < 3 := by
  have h : i.val < 3 := by have := i.2; simpa [three_labels] using this
  refine ⟨?_, h⟩
  show (labelsOf ([0, 1, 2] : List ℕ))[i.val] = i.val
  rw [List.getElem_of_eq three_labels]
  have : ∀ (k : ℕ) (hk : k < 3), ([0, 1, 2] : List ℕ)[k]'hk = k := fun k hk => by interval_cases k <;> rfl
  exact this i.val h

theorem ofFn_three {β : Type*} (g : ℕ → β) {n : ℕ} (hn : n = 3) : List.ofFn (fun i : Fin n => g i.val) = [g 0, g 1, g 2] := by
  subst hn
  simp [List.ofFn_succ]

/-- The probabilities of the class: those of class 1 are the same for classes 0 and 1. -/
noncomputable def confused (c j : ℕ) : ℝ := if c = 0 then (if j = 0 then 1 else 0) else if c = 1 then (if j = 2 then 0 else 1/2) else (if j = 2 then 1 else 0)

/-- The scores of the left group: those of the first group for class 1 are in the middle. -/
noncomputable def halfway (c j : ℕ) : ℝ := if c = 0 then 1 else if c = 1 then (if j = 0 then 1/2 else 1) else 0

/-- The binary problem of column `j` of a table of scores, and its answer for a bag of class 1. -/
theorem table_copy (ops : EstOps τ D ℤ 2) (enc : Bool → ℤ) (w : World τ D ℤ) (sol : Solvers) (dist : Dist) (X X' : List D) (b0 b1 b2 : ℤ) (t0 t1 t2 m1 m0 v : ℝ) (hb : labelsOf [b0, b1, b2] = [0, 1])
    (h1 : meanOf (ofClass [(b0, t0), (b1, t1), (b2, t2)] 1) id = m1) (h0 : meanOf (ofClass [(b0, t0), (b1, t1), (b2, t2)] 0) id = m0) (hd : 1/1000 < |m1 - m0|) (hv : (t1 - m0) / (m1 - m0) = v) (hv0 : 0 ≤ v) (hv1 : v ≤ 1) :
    ∃ st, (ucBase ops enc w (pacClass sol dist)).fit none none X [b0, b1, b2] (some (twoColumns [t0, t1, t2])) = .ok st
      ∧ (ucBase ops enc w (pacClass sol dist)).predict st X' (some (twoColumns [t1])) = .ok [Fl.fin (1 - v), Fl.fin v] := by
  have hrun := pac_two ops enc w sol dist none none X X' [(b0, t0), (b1, t1), (b2, t2)] [t1] (by simp) hb m1 m0 h1 h0 hd
  have hm : meanOf [t1] id = t1 := by simp [meanOf]
  rw [hm, hv, min_eq_left hv1, max_eq_right hv0] at hrun
  refine ucBase_run ops enc w (pacClass sol dist) none none X X' _ _ _ _ ?_
  simp only [Option.map_some, rowsOfTwo_twoColumns]
  exact hrun

/-- **C160** is false of `OneVsRestQuantifier`: in this data set PAC answers right for every bag that differs in the prevalences only, and the decomposition with PAC answers 1/4, 3/4 and 0 for a bag of class 1. -/
theorem C160_ovr_refuted : ∃ (y : List ℕ) (R : List (Fin (labelsOf y).length → ℝ)) (bag : List (ℕ × (Fin (labelsOf y).length → ℝ))), R.length = y.length ∧ (∀ row ∈ R, IsPrev row) ∧ PriorShift (y.zip R) bag
    ∧ (∀ (σ D : Type) (ops : EstOps σ D ℕ (labelsOf y).length) (enc : Bool → ℕ) (w : World σ D ℕ) (et et' : Option ℕ) (X X' : List D) (sol : Solvers) (dist : Dist) (bag : List (ℕ × (Fin (labelsOf y).length → ℝ))),
        PriorShift (y.zip R) bag → ucRun ops enc w ⟨pacClass sol dist, et, et'⟩ X y (some (.probs R)) X' (some (.probs (bag.map Prod.snd))) = rightAnswer y bag)
    ∧ ∀ (τ D : Type) (ops : EstOps τ D ℤ 2) (enc : Bool → ℤ) (w : World τ D ℤ) (sol : Solvers) (dist : Dist) (X X' : List D), ∃ f l, ovrFit (ucBase ops enc w (pacClass sol dist)) none none X y (some (columnsOf R)) = .ok f
        ∧ ovrPredict (ucBase ops enc w (pacClass sol dist)) f X' (some (columnsOf (bag.map Prod.snd))) = .ok l ∧ l = [Fl.fin (1/4), Fl.fin (3/4), Fl.fin 0] ∧ rightAnswer y bag = .ok (some [Fl.fin 0, Fl.fin 1, Fl.fin 0]) := by
  have hprev : ∀ c, c < 3 → IsPrev fun j : Fin (labelsOf ([0, 1, 2] : List ℕ)).length => confused c j := fun c hc => by
    rw [three_labels]
    refine ⟨fun j => ?_, ?_⟩
    · show 0 ≤ confused c j.val
      unfold confused
      split_ifs <;> norm_num
    · show ∑ j : Fin 3, confused c j = 1
      rw [Fin.sum_univ_three]
      interval_cases c <;> norm_num [confused]
  refine ⟨[0, 1, 2], [fun j => confused 0 j, fun j => confused 1 j, fun j => confused 2 j], [(1, fun j => confused 1 j)], rfl, ?_, ?_, ?_, ?_⟩
  · intro row hrow
    simp only [List.mem_cons, List.not_mem_nil, or_false] at hrow
    rcases hrow with rfl | rfl | rfl
    · exact hprev 0 (by norm_num)
    · exact hprev 1 (by norm_num)
    · exact hprev 2 (by norm_num)
  · refine ⟨by simp, fun c hc => ?_⟩
    simp only [List.map_cons, List.map_nil, List.mem_cons, List.not_mem_nil, or_false] at hc
    subst hc
    exact ⟨by simp [ofClass], by simp [ofClass], fun a => rfl⟩
  · intro σ D ops enc w et et' X X' sol dist bag hs
    refine C128_pac enc w et et' X X' [0, 1, 2] (by simp) 1 (by norm_num) ops sol dist _ (by simp) (Or.inl ⟨by rw [three_labels]; simp, ?_⟩) bag hs
    have hM : (fun i j : Fin (labelsOf ([0, 1, 2] : List ℕ)).length =>
        condMean (stacked [0, 1, 2] 1) [fun j : Fin (labelsOf ([0, 1, 2] : List ℕ)).length => confused 0 j, fun j => confused 1 j, fun j => confused 2 j] (fun row => row j) (labelsOf ([0, 1, 2] : List ℕ))[i])
          = fun i j => confused i.val j.val := by
      funext i j
      obtain ⟨h, hi⟩ := three_get i
      rw [h]
      generalize i.val = k at hi ⊢
      interval_cases k <;> simp [condMean, stacked]
    rw [hM]
    have : ∀ n, n = 3 → Matrix.det (Matrix.of fun i j : Fin n => confused i.val j.val) ≠ 0 := by
      rintro _ rfl
      rw [Matrix.det_fin_three]
      simp only [Matrix.of_apply]
      show confused 0 0 * confused 1 1 * confused 2 2 - confused 0 0 * confused 1 2 * confused 2 1 - confused 0 1 * confused 1 0 * confused 2 2 + confused 0 1 * confused 1 2 * confused 2 0
        + confused 0 2 * confused 1 0 * confused 2 1 - confused 0 2 * confused 1 1 * confused 2 0 ≠ 0
      norm_num [confused]
    exact this _ (by rw [three_labels]; rfl)
  · intro τ D ops enc w sol dist X X'
    have key : ∀ i : Fin (labelsOf ([0, 1, 2] : List ℕ)).length, ∃ st, copyFit (ucBase ops enc w (pacClass sol dist)) none none X (some (columnsOf [fun j : Fin (labelsOf ([0, 1, 2] : List ℕ)).length => confused 0 j, fun j => confused 1 j, fun j => confused 2 j])) i
          (oneVsRest (labelsOf ([0, 1, 2] : List ℕ))[i] [0, 1, 2]) = .ok st
        ∧ copyPredict (ucBase ops enc w (pacClass sol dist)) st X' (some (columnsOf [fun j : Fin (labelsOf ([0, 1, 2] : List ℕ)).length => confused 1 j])) i
          = .ok [Fl.fin (1 - if i.val = 0 then 1/3 else if i.val = 1 then 1 else 0), Fl.fin (if i.val = 0 then 1/3 else if i.val = 1 then 1 else 0)] := by
      intro i
      obtain ⟨h, hi⟩ := three_get i
      unfold copyFit copyPredict
      have hu : (ucBase ops enc w (pacClass sol dist)).usesClassifiers = true := rfl
      simp only [hu, if_true, Option.map_some, columns_get, h, List.map_cons, List.map_nil, Option.bind_none]
      generalize i.val = k at hi ⊢
      have hmem : ∀ b0 b1 b2 : ℤ, ([b0, b1, b2] : List ℤ).toFinset = [0, 1].toFinset → labelsOf [b0, b1, b2] = [0, 1] := fun b0 b1 b2 h => labelsOf_eq _ _ (by decide) h
      interval_cases k
      · exact table_copy ops enc w sol dist X X' 1 0 0 _ _ _ 1 (1/4) (1/3) (hmem _ _ _ (by decide)) (by norm_num [meanOf, ofClass, confused]) (by norm_num [meanOf, ofClass, confused]) (by norm_num [abs_of_pos])
          (by norm_num [confused]) (by norm_num) (by norm_num)
      · exact table_copy ops enc w sol dist X X' 0 1 0 _ _ _ (1/2) 0 1 (hmem _ _ _ (by decide)) (by norm_num [meanOf, ofClass, confused]) (by norm_num [meanOf, ofClass, confused]) (by norm_num [abs_of_pos])
          (by norm_num [confused]) (by norm_num) (by norm_num)
      · exact table_copy ops enc w sol dist X X' 0 0 1 _ _ _ 1 0 0 (hmem _ _ _ (by decide)) (by norm_num [meanOf, ofClass, confused]) (by norm_num [meanOf, ofClass, confused]) (by norm_num [abs_of_pos])
          (by norm_num [confused]) (by norm_num) (by norm_num)
    choose st hfit hpred using key
    obtain ⟨f, e1, -, e3⟩ := ovr_run (ucBase ops enc w (pacClass sol dist)) none none X X' [0, 1, 2] _ _ (by rw [three_labels]; simp) (fun _ _ => Or.inr rfl) (fun _ h => by cases h) (fun _ h => by cases h)
      (by rintro l h; rw [← Option.some.inj h, columnsOf, List.length_ofFn]) (by rintro l h; rw [← Option.some.inj h, columnsOf, List.length_ofFn]) st hfit _ _ hpred
    have hsum : ∀ n, n = 3 → (∑ j : Fin n, if j.val = 0 then (1/3 : ℝ) else if j.val = 1 then 1 else 0) = 4/3 := by
      rintro _ rfl
      rw [Fin.sum_univ_three]
      norm_num
    have hn : (labelsOf ([0, 1, 2] : List ℕ)).length = 3 := by rw [three_labels]; rfl
    refine ⟨f, _, e1, e3, ?_, ?_⟩
    · rw [hsum _ hn, ofFn_three (fun k => Fl.fin (if (0:ℝ) < 4/3 then (if k = 0 then 1/3 else if k = 1 then 1 else 0) / (4/3) else if k = 0 then 1/3 else if k = 1 then 1 else 0)) hn]
      norm_num
    · unfold rightAnswer
      rw [three_labels]
      norm_num [freq]

/-- **C160** is false of `FrankAndHallQuantifier`: here the first class gets the prevalence 1/3 in a bag of class 1. -/
theorem C160_fh_refuted : ∃ (y : List ℕ) (R : List (Fin ((labelsOf y).length - 1) → ℝ)) (bag : List (ℕ × (Fin ((labelsOf y).length - 1) → ℝ))), R.length = y.length ∧ PriorShift (y.zip R) bag
    ∧ ∀ (τ D : Type) (ops : EstOps τ D ℤ 2) (enc : Bool → ℤ) (w : World τ D ℤ) (sol : Solvers) (dist : Dist) (X X' : List D), ∃ f l, fhqFit (ucBase ops enc w (pacClass sol dist)) none none X y (some (columnsOf R)) = .ok f
        ∧ fhqPredict (ucBase ops enc w (pacClass sol dist)) f X' (some (columnsOf (bag.map Prod.snd))) = .ok l ∧ l[0]? = some (Fl.fin (1/3)) ∧ rightAnswer y bag = .ok (some [Fl.fin 0, Fl.fin 1, Fl.fin 0]) := by
  refine ⟨[0, 1, 2], [fun j => halfway 0 j, fun j => halfway 1 j, fun j => halfway 2 j], [(1, fun j => halfway 1 j)], rfl, ?_, ?_⟩
  · refine ⟨by simp, fun c hc => ?_⟩
    simp only [List.map_cons, List.map_nil, List.mem_cons, List.not_mem_nil, or_false] at hc
    subst hc
    exact ⟨by simp [ofClass], by simp [ofClass], fun a => rfl⟩
  · intro τ D ops enc w sol dist X X'
    have hn : (labelsOf ([0, 1, 2] : List ℕ)).length = 3 := by rw [three_labels]; rfl
    have key : ∀ i : Fin ((labelsOf ([0, 1, 2] : List ℕ)).length - 1), ∃ st, copyFit (ucBase ops enc w (pacClass sol dist)) none none X
          (some (columnsOf [fun j : Fin ((labelsOf ([0, 1, 2] : List ℕ)).length - 1) => halfway 0 j, fun j => halfway 1 j, fun j => halfway 2 j])) i (groupVsRest ((labelsOf ([0, 1, 2] : List ℕ)).take (i + 1)) [0, 1, 2]) = .ok st
        ∧ copyPredict (ucBase ops enc w (pacClass sol dist)) st X' (some (columnsOf [fun j : Fin ((labelsOf ([0, 1, 2] : List ℕ)).length - 1) => halfway 1 j])) i
          = .ok [Fl.fin (1 - if i.val = 0 then 1/3 else 1), Fl.fin (if i.val = 0 then 1/3 else 1)] := by
      intro i
      have hi : i.val < 2 := by have := i.2; omega
      unfold copyFit copyPredict
      have hu : (ucBase ops enc w (pacClass sol dist)).usesClassifiers = true := rfl
      simp only [hu, if_true, Option.map_some, columns_get, three_labels, List.map_cons, List.map_nil, Option.bind_none]
      generalize i.val = k at hi ⊢
      have hmem : ∀ b0 b1 b2 : ℤ, ([b0, b1, b2] : List ℤ).toFinset = [0, 1].toFinset → labelsOf [b0, b1, b2] = [0, 1] := fun b0 b1 b2 h => labelsOf_eq _ _ (by decide) h
      interval_cases k
      · exact table_copy ops enc w sol dist X X' 1 0 0 _ _ _ 1 (1/4) (1/3) (hmem _ _ _ (by decide)) (by norm_num [meanOf, ofClass, halfway]) (by norm_num [meanOf, ofClass, halfway]) (by norm_num [abs_of_pos])
          (by norm_num [halfway]) (by norm_num) (by norm_num)
      · exact table_copy ops enc w sol dist X X' 1 1 0 _ _ _ 1 0 1 (hmem _ _ _ (by decide)) (by norm_num [meanOf, ofClass, halfway]) (by norm_num [meanOf, ofClass, halfway]) (by norm_num [abs_of_pos])
          (by norm_num [halfway]) (by norm_num) (by norm_num)
    choose st hfit hpred using key
    obtain ⟨f, x, e1, -, e3, -, henv⟩ := C52_fh_partial (ucBase ops enc w (pacClass sol dist)) none none X X' [0, 1, 2] _ _ (by rw [three_labels]; simp) (fun _ _ => Or.inr rfl) (fun _ h => by cases h) (fun _ h => by cases h)
      (by rintro l h; rw [← Option.some.inj h, columnsOf, List.length_ofFn]) (by rintro l h; rw [← Option.some.inj h, columnsOf, List.length_ofFn]) st hfit _ _ hpred
      (fun i => by split_ifs <;> norm_num) (fun i => by split_ifs <;> norm_num)
    refine ⟨f, _, e1, e3, ?_, ?_⟩
    · have h0 := C52_fh_faithful (fun i : Fin ((labelsOf ([0, 1, 2] : List ℕ)).length - 1) => if i.val = 0 then (1/3 : ℝ) else 1) (fun a b hab => by
        have : a.val ≤ b.val := hab
        by_cases hb : b.val = 0
        · simp only [hb, if_true, show a.val = 0 by omega, le_refl]
        · simp only [hb, if_false]
          split_ifs <;> norm_num) ⟨0, by omega⟩ _ (henv ⟨0, by omega⟩)
      simp only [if_true, zero_add] at h0
      rw [List.getElem?_ofFn, dif_pos (show 0 < (labelsOf ([0, 1, 2] : List ℕ)).length by omega)]
      congr 2
      rw [← h0, List.sum_take_ofFn, Finset.sum_filter, Finset.sum_eq_single_of_mem (⟨0, by omega⟩ : Fin (labelsOf ([0, 1, 2] : List ℕ)).length) (Finset.mem_univ _)]
      · rfl
      · intro c _ hc
        exact if_neg fun h => hc (Fin.ext (by show c.val = 0; omega))
    · unfold rightAnswer
      rw [three_labels]
      norm_num [freq]

/-- The hypotheses of `C160_ovr_partial` are met: three classes whose scores have mean 3/4 for their own class and 1/8 for each of the others; the bag has the three examples. -/
example : ∃ (R : List (Fin (labelsOf ([0, 1, 2] : List ℕ)).length → ℝ)) (m1 m0 : Fin (labelsOf ([0, 1, 2] : List ℕ)).length → ℝ), R.length = 3 ∧ PriorShift (([0, 1, 2] : List ℕ).zip R) (([0, 1, 2] : List ℕ).zip R)
    ∧ (∀ i : Fin (labelsOf ([0, 1, 2] : List ℕ)).length, meanOf (ofClass (([0, 1, 2] : List ℕ).zip R) (labelsOf ([0, 1, 2] : List ℕ))[i]) (fun row => row i) = m1 i)
    ∧ (∀ i j : Fin (labelsOf ([0, 1, 2] : List ℕ)).length, j ≠ i → meanOf (ofClass (([0, 1, 2] : List ℕ).zip R) (labelsOf ([0, 1, 2] : List ℕ))[j]) (fun row => row i) = m0 i) ∧ ∀ i, 1/1000 < |m1 i - m0 i| := by
  have hg : ∀ (i j : Fin (labelsOf ([0, 1, 2] : List ℕ)).length), meanOf (ofClass (([0, 1, 2] : List ℕ).zip ([fun j => if j.val = 0 then 3/4 else 1/8, fun j => if j.val = 1 then 3/4 else 1/8, fun j => if j.val = 2 then 3/4 else 1/8] :
      List (Fin (labelsOf ([0, 1, 2] : List ℕ)).length → ℝ))) (labelsOf ([0, 1, 2] : List ℕ))[j]) (fun row => row i) = if i.val = j.val then 3/4 else 1/8 := fun i j => by
    obtain ⟨h, hj⟩ := three_get j
    rw [h]
    generalize j.val = k at hj ⊢
    interval_cases k <;> simp [meanOf, ofClass]
  refine ⟨([fun j => if j.val = 0 then 3/4 else 1/8, fun j => if j.val = 1 then 3/4 else 1/8, fun j => if j.val = 2 then 3/4 else 1/8] : List (Fin (labelsOf ([0, 1, 2] : List ℕ)).length → ℝ)), fun _ => 3/4, fun _ => 1/8, by simp, ⟨by simp, fun c hc => ?_⟩, fun i => by rw [hg]; simp, fun i j h => by rw [hg, if_neg fun e => h (Fin.ext e.symm)], fun _ => by norm_num [abs_of_pos]⟩
  simp only [List.zip_cons_cons, List.zip_nil_right, List.map_cons, List.map_nil, List.mem_cons, List.not_mem_nil, or_false] at hc
  rcases hc with rfl | rfl | rfl <;> exact ⟨by simp [ofClass], by simp [ofClass], fun a => rfl⟩

/-- The hypotheses of `C160_fh_partial` are met: scores with mean 3/4 for the left group and 1/8 for the right group. -/
example : ∃ (R : List (Fin ((labelsOf ([0, 1, 2] : List ℕ)).length - 1) → ℝ)) (m1 m0 : Fin ((labelsOf ([0, 1, 2] : List ℕ)).length - 1) → ℝ), R.length = 3 ∧ PriorShift (([0, 1, 2] : List ℕ).zip R) (([0, 1, 2] : List ℕ).zip R)
    ∧ (∀ (i : Fin ((labelsOf ([0, 1, 2] : List ℕ)).length - 1)) (j : Fin (labelsOf ([0, 1, 2] : List ℕ)).length), (j : ℕ) ≤ i → meanOf (ofClass (([0, 1, 2] : List ℕ).zip R) (labelsOf ([0, 1, 2] : List ℕ))[j]) (fun row => row i) = m1 i)
    ∧ (∀ (i : Fin ((labelsOf ([0, 1, 2] : List ℕ)).length - 1)) (j : Fin (labelsOf ([0, 1, 2] : List ℕ)).length), (i : ℕ) < j → meanOf (ofClass (([0, 1, 2] : List ℕ).zip R) (labelsOf ([0, 1, 2] : List ℕ))[j]) (fun row => row i) = m0 i)
    ∧ ∀ i, 1/1000 < |m1 i - m0 i| := by
  have hg : ∀ (i : Fin ((labelsOf ([0, 1, 2] : List ℕ)).length - 1)) (j : Fin (labelsOf ([0, 1, 2] : List ℕ)).length), meanOf (ofClass (([0, 1, 2] : List ℕ).zip ([fun j => if 0 ≤ j.val then 3/4 else 1/8, fun j => if 1 ≤ j.val then 3/4 else 1/8,
      fun j => if 2 ≤ j.val then 3/4 else 1/8] : List (Fin ((labelsOf ([0, 1, 2] : List ℕ)).length - 1) → ℝ))) (labelsOf ([0, 1, 2] : List ℕ))[j]) (fun row => row i) = if j.val ≤ i.val then 3/4 else 1/8 := fun i j => by
    obtain ⟨h, hj⟩ := three_get j
    rw [h]
    generalize j.val = k at hj ⊢
    interval_cases k <;> simp [meanOf, ofClass]
  refine ⟨([fun j => if 0 ≤ j.val then 3/4 else 1/8, fun j => if 1 ≤ j.val then 3/4 else 1/8, fun j => if 2 ≤ j.val then 3/4 else 1/8] : List (Fin ((labelsOf ([0, 1, 2] : List ℕ)).length - 1) → ℝ)), fun _ => 3/4, fun _ => 1/8, by simp, ⟨by simp, fun c hc => ?_⟩, fun i j h => by rw [hg, if_pos h], fun i j h => by rw [hg, if_neg (by omega)], fun _ => by norm_num [abs_of_pos]⟩
  simp only [List.zip_cons_cons, List.zip_nil_right, List.map_cons, List.map_nil, List.mem_cons, List.not_mem_nil, or_false] at hc
  rcases hc with rfl | rfl | rfl <;> exact ⟨by simp [ofClass], by simp [ofClass], fun a => rfl⟩

end Verif.Props
