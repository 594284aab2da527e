import Verif.Spec.Bags

/-!
# Lemmas about the bag generators
-/

namespace Verif.Proof

open Verif.Model Verif.Spec

/-! ## Rounding -/

theorem roundHalfEven_bounds (x : ℝ) : x - 1/2 ≤ roundHalfEven x ∧ (roundHalfEven x : ℝ) ≤ x + 1/2 := by
  have h1 := Int.floor_le x
  have h2 := Int.lt_floor_add_one x
  unfold roundHalfEven
  split_ifs <;> push_cast <;> constructor <;> linarith

theorem roundHalfEven_mono {x y : ℝ} (h : x ≤ y) : roundHalfEven x ≤ roundHalfEven y := by
  have hf := Int.floor_le_floor h
  unfold roundHalfEven
  rcases hf.eq_or_lt with he | hlt
  · rw [he]
    split_ifs <;> first | omega | (exfalso; linarith)
  · split_ifs <;> omega

theorem roundHalfEven_nonneg {x : ℝ} (h : 0 ≤ x) : 0 ≤ roundHalfEven x := by
  have := (roundHalfEven_bounds x).1
  have h2 : (-1 : ℝ) < roundHalfEven x := by linarith
  have h3 : (-1 : ℤ) < roundHalfEven x := by exact_mod_cast h2
  omega

theorem roundHalfEven_le {x : ℝ} {n : ℤ} (h : x ≤ n) : roundHalfEven x ≤ n := by
  have := (roundHalfEven_bounds x).2
  have h2 : (roundHalfEven x : ℝ) < n + 1 := by linarith
  have h3 : roundHalfEven x < n + 1 := by exact_mod_cast h2
  omega

/-! ## Kraemer's method -/

theorem sorted_eq {l l' : List ℤ} (hp : l.Perm l') (h : l.Pairwise (· ≤ ·)) (h' : l'.Pairwise (· ≤ ·)) : l = l' :=
  hp.eq_of_pairwise (fun a b _ _ h1 h2 => le_antisymm h1 h2) h h'

theorem mergeSort_sorted (l : List ℤ) : (l.mergeSort (· ≤ ·)).Pairwise (· ≤ ·) := by
  have := List.pairwise_mergeSort (le := fun a b : ℤ => decide (a ≤ b)) (by simp; omega) (by simp; omega) l
  simpa using this

/-- The cut points in order: 0, the sorted draws, the bag size. -/
theorem kraemer_eq (draws : List ℤ) (bs : ℕ) (h : ∀ x ∈ draws, 0 ≤ x ∧ x ≤ bs) :
    kraemer draws bs = List.zipWith (fun a b => b - a) (0 :: draws.mergeSort (· ≤ ·)) (draws.mergeSort (· ≤ ·) ++ [(bs : ℤ)]) := by
  have hs : (draws ++ [0, (bs : ℤ)]).mergeSort (· ≤ ·) = 0 :: (draws.mergeSort (· ≤ ·) ++ [(bs : ℤ)]) := by
    apply sorted_eq
    · refine (List.mergeSort_perm _ _).trans ?_
      have h1 : (draws ++ [0, (bs : ℤ)]).Perm (0 :: (draws ++ [(bs : ℤ)])) := List.perm_middle
      exact h1.trans (((List.mergeSort_perm draws _).symm.append_right _).cons 0)
    · exact mergeSort_sorted _
    · rw [List.pairwise_cons, List.pairwise_append]
      refine ⟨?_, mergeSort_sorted _, by simp, ?_⟩
      · intro a ha
        rw [List.mem_append] at ha
        rcases ha with ha | ha
        · exact (h a ((List.mergeSort_perm _ _).mem_iff.1 ha)).1
        · simp at ha; omega
      · intro a ha b hb
        simp at hb
        subst hb
        exact (h a ((List.mergeSort_perm _ _).mem_iff.1 ha)).2
  unfold kraemer
  simp only [hs, List.tail_cons]
  -- the last element has no successor
  generalize draws.mergeSort (· ≤ ·) = t
  have : ∀ (a c : ℤ) (t : List ℤ), List.zipWith (fun a b => b - a) (a :: (t ++ [c])) (t ++ [c]) = List.zipWith (fun a b => b - a) (a :: t) (t ++ [c]) := by
    intro a c t
    induction t generalizing a with
    | nil => simp
    | cons b t ih => simp only [List.cons_append, List.zipWith_cons_cons, ih]
  exact this 0 bs t

/-- Differences of consecutive elements of a sorted list. -/
theorem diffs_spec (a c : ℤ) (t : List ℤ) (h : (a :: (t ++ [c])).Pairwise (· ≤ ·)) :
    (List.zipWith (fun a b => b - a) (a :: t) (t ++ [c])).length = t.length + 1
    ∧ (∀ x ∈ List.zipWith (fun a b => b - a) (a :: t) (t ++ [c]), 0 ≤ x)
    ∧ (List.zipWith (fun a b => b - a) (a :: t) (t ++ [c])).sum = c - a := by
  induction t generalizing a with
  | nil => simp at h ⊢; exact h
  | cons b t ih =>
    have h2 := (List.pairwise_cons.1 h).2
    have hab : a ≤ b := (List.pairwise_cons.1 h).1 b (by simp)
    obtain ⟨i1, i2, i3⟩ := ih b h2
    simp only [List.cons_append, List.zipWith_cons_cons, List.length_cons, List.sum_cons, List.mem_cons, i1, i3]
    refine ⟨trivial, ?_, by ring⟩
    rintro x (rfl | hx)
    · omega
    · exact i2 x hx

theorem kraemer_spec (draws : List ℤ) (bs : ℕ) (h : ∀ x ∈ draws, 0 ≤ x ∧ x ≤ bs) :
    (kraemer draws bs).length = draws.length + 1 ∧ (∀ x ∈ kraemer draws bs, 0 ≤ x) ∧ (kraemer draws bs).sum = bs := by
  rw [kraemer_eq draws bs h]
  have := diffs_spec 0 bs (draws.mergeSort (· ≤ ·)) (by
    rw [List.pairwise_cons, List.pairwise_append]
    refine ⟨?_, mergeSort_sorted _, by simp, ?_⟩
    · intro a ha
      rw [List.mem_append] at ha
      rcases ha with ha | ha
      · exact (h a ((List.mergeSort_perm _ _).mem_iff.1 ha)).1
      · simp at ha; omega
    · intro a ha b hb
      simp at hb
      subst hb
      exact (h a ((List.mergeSort_perm _ _).mem_iff.1 ha)).2)
  rw [List.length_mergeSort] at this
  simpa using this

/-- The first class gets at least the smallest possible draw. -/
theorem kraemer_head (draws : List ℤ) (bs : ℕ) (lo : ℤ) (h : ∀ x ∈ draws, 0 ≤ x ∧ x ≤ bs) (hlo : ∀ x ∈ draws, lo ≤ x) (hne : draws ≠ [])
    (x : ℤ) (hx : (kraemer draws bs).head? = some x) : lo ≤ x := by
  rw [kraemer_eq draws bs h] at hx
  cases ht : draws.mergeSort (· ≤ ·) with
  | nil =>
    have := congrArg List.length ht
    rw [List.length_mergeSort] at this
    exact absurd (List.length_eq_zero_iff.1 this) hne
  | cons b t =>
    rw [ht] at hx
    simp at hx
    have hb : b ∈ draws := (List.mergeSort_perm draws (· ≤ ·)).mem_iff.1 (by rw [ht]; simp)
    have := hlo b hb
    omega

/-- The last class gets more than what the largest possible draw leaves. -/
theorem kraemer_last (draws : List ℤ) (bs : ℕ) (hi : ℤ) (h : ∀ x ∈ draws, 0 ≤ x ∧ x ≤ bs) (hhi : ∀ x ∈ draws, x < hi) (hne : draws ≠ [])
    (x : ℤ) (hx : (kraemer draws bs).getLast? = some x) : bs - hi < x := by
  rw [kraemer_eq draws bs h] at hx
  have hne' : draws.mergeSort (· ≤ ·) ≠ [] := by
    intro ht
    have := congrArg List.length ht
    rw [List.length_mergeSort] at this
    exact hne (List.length_eq_zero_iff.1 this)
  obtain ⟨t, b, htb⟩ := List.eq_nil_or_concat (draws.mergeSort (· ≤ ·)) |>.resolve_left hne'
  rw [htb] at hx
  have hb : b ∈ draws := (List.mergeSort_perm draws (· ≤ ·)).mem_iff.1 (by rw [htb]; simp)
  have key : List.zipWith (fun a b : ℤ => b - a) (0 :: (t ++ [b])) ((t ++ [b]) ++ [(bs : ℤ)])
      = List.zipWith (fun a b : ℤ => b - a) (0 :: t) (t ++ [b]) ++ [(bs : ℤ) - b] := by
    rw [← List.cons_append]
    rw [List.zipWith_append (by simp)]
    simp
  simp only [List.concat_eq_append] at hx
  rw [key] at hx
  simp at hx
  have := hhi b hb
  omega

/-! ## Filling a bag -/

theorem mem_whereEq {α : Type*} [DecidableEq α] (y : List α) (c : α) (i : ℕ) : i ∈ whereEq y c ↔ y[i]? = some c := by
  unfold whereEq
  simp only [List.mem_filter, List.mem_range, decide_eq_true_eq, and_iff_right_iff_imp]
  intro h
  exact (List.getElem?_eq_some_iff.1 h).1

/-- The labels of a bag with the given class sizes. -/
def bagLabels {α : Type*} (cs : List (α × ℤ)) : List α := cs.flatMap fun t => List.replicate t.2.toNat t.1

theorem bagLabels_length {α : Type*} (cs : List (α × ℤ)) : (bagLabels cs).length = (cs.map fun t => t.2.toNat).sum := by
  unfold bagLabels
  induction cs with
  | nil => rfl
  | cons t cs ih => simp [ih]

/-- Filling the classes: on success the column holds, from `pos` on, examples of the classes in the given numbers. -/
theorem fillClasses_spec {G α : Type*} [LinearOrder α] (rng : Rng G) (hr : RngOk rng) (y : List α) (cs : List (α × ℤ)) (hcs : ∀ t ∈ cs, 0 ≤ t.2)
    (g g' : G) (col col' : List ℕ) (pos : ℕ) (hpos : pos ≤ col.length) (h : fillClasses rng y cs g col pos = (col', g', none)) :
    ∃ mid, (mid.map fun i => y[i]?) = (bagLabels cs).map some ∧ col' = col.take pos ++ mid ++ col.drop (pos + mid.length) := by
  induction cs generalizing g col pos with
  | nil =>
    simp only [fillClasses, Prod.mk.injEq, and_true] at h
    refine ⟨[], rfl, ?_⟩
    simp [← h.1]
  | cons t cs ih =>
    obtain ⟨c, n⟩ := t
    have hn : 0 ≤ n := hcs (c, n) (by simp)
    have hcs' : ∀ t ∈ cs, 0 ≤ t.2 := fun t ht => hcs t (List.mem_cons_of_mem _ ht)
    unfold fillClasses at h
    by_cases h0 : n ≠ 0
    · rw [if_pos h0] at h
      cases hc : rng.choice g (whereEq y c) n with
      | error e => rw [hc] at h; simp at h
      | ok r =>
        obtain ⟨xs, g1⟩ := r
        rw [hc] at h
        simp only at h
        obtain ⟨hlen, hmem⟩ := hr.choice _ _ _ _ _ hc
        have hlen1 : (fillSlice col pos xs).length = max col.length (pos + xs.length) := by
          unfold fillSlice
          simp only [List.length_append, List.length_take, List.length_drop]
          omega
        obtain ⟨mid, m1, m2⟩ := ih hcs' g1 (fillSlice col pos xs) (pos + xs.length) (by rw [hlen1]; omega) h
        refine ⟨xs ++ mid, ?_, ?_⟩
        · rw [List.map_append, m1]
          unfold bagLabels
          rw [List.flatMap_cons, List.map_append]
          congr 1
          rw [List.map_replicate]
          apply List.eq_replicate_iff.2
          refine ⟨by rw [List.length_map]; show xs.length = n.toNat; omega, ?_⟩
          intro b hb
          rw [List.mem_map] at hb
          obtain ⟨i, hi, rfl⟩ := hb
          exact (mem_whereEq y c i).1 (hmem i hi)
        · rw [m2]
          have e1 : (fillSlice col pos xs).take (pos + xs.length) = col.take pos ++ xs := by
            unfold fillSlice
            rw [List.take_append_of_le_length (by simp; omega)]
            apply List.take_of_length_le
            simp
          have e2 : (fillSlice col pos xs).drop (pos + xs.length + mid.length) = col.drop (pos + (xs ++ mid).length) := by
            unfold fillSlice
            rw [List.drop_append]
            rw [List.drop_of_length_le (by simp; omega), List.nil_append, List.drop_drop]
            congr 1
            simp only [List.length_append, List.length_take]
            omega
          rw [e1, e2, List.append_assoc (col.take pos)]
    · rw [if_neg h0] at h
      obtain ⟨mid, m1, m2⟩ := ih hcs' g col pos hpos h
      refine ⟨mid, ?_, m2⟩
      rw [m1]
      unfold bagLabels
      rw [List.flatMap_cons]
      simp only [ne_eq, Decidable.not_not] at h0
      simp [h0]

theorem count_bagLabels {α : Type*} [DecidableEq α] (cls : List α) (hnd : cls.Nodup) (ps : List ℤ) (hlen : ps.length = cls.length) (j : ℕ)
    (hj : j < cls.length) : (bagLabels (cls.zip ps)).count cls[j] = (ps[j]'(by omega)).toNat := by
  induction cls generalizing ps j with
  | nil => simp at hj
  | cons c cls ih =>
    cases ps with
    | nil => simp at hlen
    | cons n ps =>
      have hnd' := List.nodup_cons.1 hnd
      simp only [bagLabels, List.zip_cons_cons, List.flatMap_cons, List.count_append] at ih ⊢
      cases j with
      | zero =>
        simp only [List.getElem_cons_zero, List.count_replicate_self]
        have : ((cls.zip ps).flatMap fun t => List.replicate t.2.toNat t.1).count c = 0 := by
          rw [List.count_eq_zero]
          intro hm
          rw [List.mem_flatMap] at hm
          obtain ⟨t, ht, hc⟩ := hm
          have := (List.mem_replicate.1 hc).2
          exact hnd'.1 (this ▸ (List.of_mem_zip ht).1)
        omega
      | succ j =>
        simp only [List.getElem_cons_succ]
        have hne : c ≠ cls[j]'(by simpa using hj) := fun h => hnd'.1 (h ▸ List.getElem_mem _)
        rw [List.count_replicate, if_neg (by simpa using hne), zero_add]
        exact ih hnd'.2 ps (by simpa using hlen) j (by simpa using hj)

theorem labelsOf_nodup' {α : Type*} [LinearOrder α] (y : List α) : (labelsOf y).Nodup := Finset.sort_nodup _ _

theorem mem_labelsOf' {α : Type*} [LinearOrder α] (y : List α) (a : α) : a ∈ labelsOf y ↔ a ∈ y := by
  unfold labelsOf
  simp

theorem npUnique_eq {α : Type*} [LinearOrder α] (y : List α) : npUnique y = labelsOf y := rfl

/-- A complete column is a bag. -/
theorem isBag_of_fill {G α : Type*} [LinearOrder α] (rng : Rng G) (hr : RngOk rng) (y : List α) (ps : List ℤ) (hps : ∀ x ∈ ps, 0 ≤ x)
    (hlen : ps.length = (labelsOf y).length) (bs : ℕ) (hbs : 0 < bs) (hsum : ps.sum = bs) (g g' : G) (col col' : List ℕ) (hcol : col.length = bs)
    (h : fillClasses rng y ((labelsOf y).zip ps) g col 0 = (col', g', none)) :
    IsBag y bs (ps.map fun n : ℤ => Fl.fin (n : ℝ) / Fl.fin (bs : ℝ)) col' ∧ ∀ j (hj : j < (labelsOf y).length), (bagCount y col' (labelsOf y)[j] : ℤ) = ps[j]'(by omega) := by
  obtain ⟨mid, m1, m2⟩ := fillClasses_spec rng hr y _ (fun t ht => hps _ (List.of_mem_zip ht).2) g g' col col' 0 (by omega) h
  have hzip : ((labelsOf y).zip ps).map (fun t => t.2.toNat) = ps.map Int.toNat := by
    rw [show (fun t : α × ℤ => t.2.toNat) = Int.toNat ∘ Prod.snd from rfl, ← List.map_map, List.map_snd_zip (by omega)]
  have hnat : ∀ l : List ℤ, (∀ x ∈ l, 0 ≤ x) → ((l.map Int.toNat).sum : ℤ) = l.sum := by
    intro l hl
    induction l with
    | nil => rfl
    | cons a l ih =>
      simp only [List.map_cons, List.sum_cons]
      rw [Nat.cast_add, ih fun x hx => hl x (List.mem_cons_of_mem _ hx)]
      have := hl a (by simp)
      omega
  have htot : (bagLabels ((labelsOf y).zip ps)).length = bs := by
    rw [bagLabels_length, hzip]
    have := hnat ps hps
    rw [hsum] at this
    exact_mod_cast this
  have hmid : mid.length = bs := by
    have := congrArg List.length m1
    simpa [htot] using this
  have hcol' : col' = mid := by
    rw [m2, List.take_zero, List.nil_append, zero_add, List.drop_of_length_le (by omega), List.append_nil]
  have hcount : ∀ j (hj : j < (labelsOf y).length), (bagLabels ((labelsOf y).zip ps)).count (labelsOf y)[j] = (ps[j]'(by omega)).toNat :=
    fun j hj => count_bagLabels _ (labelsOf_nodup' y) ps hlen j hj
  refine ⟨⟨by rw [hcol', hmid], bagLabels ((labelsOf y).zip ps), by rw [hcol', m1], ?_⟩, ?_⟩
  · apply List.ext_getElem (by simp [hlen])
    intro j h1 h2
    have hj : j < (labelsOf y).length := by simpa using h2
    have hnn : 0 ≤ ps[j]'(by omega) := hps _ (List.getElem_mem _)
    simp only [List.getElem_map]
    have h3 : ((bagLabels ((labelsOf y).zip ps)).count (labelsOf y)[j] : ℝ) = ((ps[j]'(by omega) : ℤ) : ℝ) := by
      rw [hcount j hj]
      have : (((ps[j]'(by omega)).toNat : ℤ) : ℝ) = ((ps[j]'(by omega) : ℤ) : ℝ) := by rw [Int.toNat_of_nonneg hnn]
      exact_mod_cast this
    rw [freq, htot, h3, Fl.fin_div _ (by exact_mod_cast hbs.ne')]
  · intro j hj
    have : bagCount y col' (labelsOf y)[j] = (bagLabels ((labelsOf y).zip ps)).count (labelsOf y)[j] := by
      unfold bagCount
      rw [hcol']
      have e : (mid.countP fun i => decide (y[i]? = some (labelsOf y)[j])) = (mid.map fun i => y[i]?).count (some (labelsOf y)[j]) := by
        rw [List.count_eq_countP, List.countP_map]
        apply List.countP_congr
        intro i _
        simp
      rw [e, m1, List.count_map_of_injective _ _ (Option.some_injective _)]
    rw [this, hcount j hj]
    exact Int.toNat_of_nonneg (hps _ (List.getElem_mem _))

theorem npUnique_ne_nil {α : Type*} [LinearOrder α] {y : List α} (hy : y ≠ []) : 0 < (labelsOf y).length := by
  obtain ⟨a, ha⟩ := List.exists_mem_of_ne_nil y hy
  exact List.length_pos_of_mem ((mem_labelsOf' y a).2 ha)

/-! ## Loops -/

/-- Writing column `k` of the arrays. -/
theorem getD_set_eq {β : Type*} (l : List β) (k : ℕ) (a d : β) (hk : k < l.length) : (l.set k a).getD k d = a := by
  simp [List.getD, hk]

theorem getD_set_ne {β : Type*} (l : List β) (k i : ℕ) (a d : β) (h : k ≠ i) : (l.set k a).getD i d = l.getD i d := by
  simp [List.getD, h]

/-- The while loop of the uniform method: if every accepted bag satisfies `P`, all bags do. -/
theorem uniformLoop_spec {G α : Type*} [LinearOrder α] (rng : Rng G) (y classes : List α) (bs nBags : ℕ) (mins : Option (List ℤ)) (low high : ℤ)
    (P : List Fl → List ℕ → Prop)
    (hP : ∀ g g1 g2 draws col col', rng.randint g low high (classes.length - 1) = .ok (draws, g1) → middleOk (kraemer draws bs) mins = true →
      col.length = bs → fillClasses rng y (classes.zip (kraemer draws bs)) g1 col 0 = (col', g2, none) →
      P ((kraemer draws bs).map fun n : ℤ => Fl.fin (n : ℝ) / Fl.fin (bs : ℝ)) col')
    (fuel nBag : ℕ) (g g' : G) (b b' : Bags) (h1 : b.prevs.length = nBags) (h2 : b.idx.length = nBags)
    (hdone : ∀ k < nBag, P (b.prevs.getD k []) (b.idx.getD k [])) (htodo : ∀ k, nBag ≤ k → k < nBags → (b.idx.getD k []).length = bs)
    (h : uniformLoop rng y classes bs nBags mins low high fuel nBag g b = some (b', g', none)) :
    b'.prevs.length = nBags ∧ b'.idx.length = nBags ∧ ∀ k < nBags, P (b'.prevs.getD k []) (b'.idx.getD k []) := by
  induction fuel generalizing nBag g b with
  | zero =>
    unfold uniformLoop at h
    split_ifs at h with hlt
    · simp only [Option.some.injEq, Prod.mk.injEq, and_true] at h
      obtain ⟨rfl, -⟩ := h
      exact ⟨h1, h2, fun k hk => hdone k (by omega)⟩
  | succ fuel ih =>
    unfold uniformLoop at h
    split_ifs at h with hlt
    · simp only at h
      cases hd : rng.randint g low high (classes.length - 1) with
      | error e => rw [hd] at h; simp at h
      | ok r =>
        obtain ⟨draws, g1⟩ := r
        rw [hd] at h
        simp only at h
        split_ifs at h with hm
        · cases hf : fillClasses rng y (classes.zip (kraemer draws bs)) g1 (b.idx.getD nBag []) 0 with
          | mk col r =>
            obtain ⟨g2, e⟩ := r
            rw [hf] at h
            cases e with
            | some e => simp at h
            | none =>
              simp only at h
              refine ih (nBag + 1) g2 _ (by simpa using h1) (by simpa using h2) ?_ ?_ h
              · intro k hk
                by_cases hkn : k = nBag
                · subst hkn
                  rw [getD_set_eq _ _ _ _ (by omega), getD_set_eq _ _ _ _ (by omega)]
                  exact hP _ _ _ _ _ _ hd hm (htodo k le_rfl hlt) hf
                · rw [getD_set_ne _ _ _ _ _ (Ne.symm hkn), getD_set_ne _ _ _ _ _ (Ne.symm hkn)]
                  exact hdone k (by omega)
              · intro k hk1 hk2
                show ((b.idx.set nBag col).getD k []).length = bs
                rw [getD_set_ne _ _ _ _ _ (by omega)]
                exact htodo k (by omega) hk2
        · exact ih nBag g1 b h1 h2 hdone htodo h
    · simp only [Option.some.injEq, Prod.mk.injEq, and_true] at h
      obtain ⟨rfl, -⟩ := h
      exact ⟨h1, h2, fun k hk => hdone k (by omega)⟩

theorem zeroBags_lengths (nc bs nBags : ℕ) : (zeroBags nc bs nBags).prevs.length = nBags ∧ (zeroBags nc bs nBags).idx.length = nBags
    ∧ ∀ k < nBags, ((zeroBags nc bs nBags).idx.getD k []).length = bs := by
  refine ⟨by simp [zeroBags], by simp [zeroBags], fun k hk => ?_⟩
  simp [zeroBags, List.getD, hk]

/-! ## Dirichlet -/

theorem dirichletCounts_spec (bs : ℕ) (l : List ℝ) (hl : l ≠ []) (hnn : ∀ x ∈ l, 0 ≤ x) (pos : ℕ) (hpos : pos ≤ bs) :
    (dirichletCounts bs l pos).length = l.length ∧ (∀ x ∈ dirichletCounts bs l pos, 0 ≤ x) ∧ (dirichletCounts bs l pos).sum = bs - pos := by
  induction l generalizing pos with
  | nil => exact absurd rfl hl
  | cons p l ih =>
    cases l with
    | nil => simp [dirichletCounts]; omega
    | cons p2 l =>
      unfold dirichletCounts
      have hp : 0 ≤ roundHalfEven (p * bs) := roundHalfEven_nonneg (mul_nonneg (hnn p (by simp)) (Nat.cast_nonneg bs))
      set n := min ((bs : ℤ) - pos) (roundHalfEven (p * bs)) with hn
      have hn0 : 0 ≤ n := le_min (by omega) hp
      have hn1 : n ≤ (bs : ℤ) - pos := min_le_left _ _
      obtain ⟨i1, i2, i3⟩ := ih (by simp) (fun x hx => hnn x (List.mem_cons_of_mem _ hx)) (pos + n.toNat) (by omega)
      refine ⟨by simp only [List.length_cons] at i1 ⊢; rw [i1], ?_, ?_⟩
      · intro x hx
        rcases List.mem_cons.1 hx with rfl | hx
        · exact hn0
        · exact i2 x hx
      · rw [List.sum_cons, i3]
        push_cast
        omega

theorem dirichletLoop_spec {G α : Type*} [LinearOrder α] (rng : Rng G) (y classes : List α) (bs : ℕ) (draws : List (List ℝ))
    (P : List Fl → List ℕ → Prop)
    (hP : ∀ g g2 draw col col', draw ∈ draws → col.length = bs → fillClasses rng y (classes.zip (dirichletCounts bs draw 0)) g col 0 = (col', g2, none) →
      P ((dirichletCounts bs draw 0).map fun n : ℤ => Fl.fin (n : ℝ) / Fl.fin (bs : ℝ)) col')
    (nBag : ℕ) (g g' : G) (b b' : Bags) (nBags : ℕ) (hn : nBag + draws.length = nBags) (h1 : b.prevs.length = nBags) (h2 : b.idx.length = nBags)
    (hdone : ∀ k < nBag, P (b.prevs.getD k []) (b.idx.getD k [])) (htodo : ∀ k, nBag ≤ k → k < nBags → (b.idx.getD k []).length = bs)
    (h : dirichletLoop rng y classes bs draws nBag g b = (b', g', none)) :
    b'.prevs.length = nBags ∧ b'.idx.length = nBags ∧ ∀ k < nBags, P (b'.prevs.getD k []) (b'.idx.getD k []) := by
  induction draws generalizing nBag g b with
  | nil =>
    simp only [dirichletLoop, Prod.mk.injEq, and_true] at h
    obtain ⟨rfl, -⟩ := h
    exact ⟨h1, h2, fun k hk => hdone k (by simp at hn; omega)⟩
  | cons draw draws ih =>
    simp only [dirichletLoop] at h
    cases hf : fillClasses rng y (classes.zip (dirichletCounts bs draw 0)) g (b.idx.getD nBag []) 0 with
    | mk col r =>
      obtain ⟨g2, e⟩ := r
      rw [hf] at h
      cases e with
      | some e => simp at h
      | none =>
        simp only at h
        simp only [List.length_cons] at hn
        refine ih (fun g g2 dr col col' hm => hP g g2 dr col col' (List.mem_cons_of_mem _ hm)) (nBag + 1) g2 _ (by omega) (by simpa using h1)
          (by simpa using h2) ?_ ?_ h
        · intro k hk
          by_cases hkn : k = nBag
          · subst hkn
            rw [getD_set_eq _ _ _ _ (by omega), getD_set_eq _ _ _ _ (by omega)]
            exact hP _ _ _ _ _ (by simp) (htodo k le_rfl (by omega)) hf
          · rw [getD_set_ne _ _ _ _ _ (Ne.symm hkn), getD_set_ne _ _ _ _ _ (Ne.symm hkn)]
            exact hdone k (by omega)
        · intro k hk1 hk2
          show ((b.idx.set nBag col).getD k []).length = bs
          rw [getD_set_ne _ _ _ _ _ (by omega)]
          exact htodo k (by omega) hk2

/-! ## Covariate shift -/

theorem covLoop_spec {G α : Type*} [LinearOrder α] (rng : Rng G) (y classes : List α) (bs : ℕ) (sim : ℕ → List ℝ) (centers : List ℤ)
    (P : List Fl → List ℕ → Prop)
    (hP : ∀ g g2 c col, c ∈ centers → rng.choiceP g ((sim c.toNat).map (· / (sim c.toNat).sum)) bs = .ok (col, g2) → P (prevsOf y classes bs col) col)
    (nBag : ℕ) (g g' : G) (b b' : Bags) (nBags : ℕ) (hn : nBag + centers.length = nBags) (h1 : b.prevs.length = nBags) (h2 : b.idx.length = nBags)
    (hdone : ∀ k < nBag, P (b.prevs.getD k []) (b.idx.getD k []))
    (h : covLoop rng y classes bs sim centers nBag g b = (b', g', none)) :
    b'.prevs.length = nBags ∧ b'.idx.length = nBags ∧ ∀ k < nBags, P (b'.prevs.getD k []) (b'.idx.getD k []) := by
  induction centers generalizing nBag g b with
  | nil =>
    simp only [covLoop, Prod.mk.injEq, and_true] at h
    obtain ⟨rfl, -⟩ := h
    exact ⟨h1, h2, fun k hk => hdone k (by simp at hn; omega)⟩
  | cons c cs ih =>
    simp only [covLoop] at h
    cases hf : rng.choiceP g ((sim c.toNat).map (· / (sim c.toNat).sum)) bs with
    | error e => rw [hf] at h; simp at h
    | ok r =>
      obtain ⟨col, g2⟩ := r
      rw [hf] at h
      simp only at h
      simp only [List.length_cons] at hn
      refine ih (fun g g2 c col hm => hP g g2 c col (List.mem_cons_of_mem _ hm)) (nBag + 1) g2 _ (by omega) (by simpa using h1)
        (by simpa using h2) ?_ h
      intro k hk
      by_cases hkn : k = nBag
      · subst hkn
        rw [getD_set_eq _ _ _ _ (by omega), getD_set_eq _ _ _ _ (by omega)]
        exact hP _ _ _ _ (by simp) hf
      · rw [getD_set_ne _ _ _ _ _ (Ne.symm hkn), getD_set_ne _ _ _ _ _ (Ne.symm hkn)]
        exact hdone k (by omega)

end Verif.Proof
