import Verif.Props.Bags2

/-!
# C82 with minimum prevalences: exactly when `generate_bags` comes back
-/

namespace Verif.Props

open Verif.Model Verif.Spec Verif.Proof

variable {G α : Type*} [LinearOrder α]

/-- Calling `randint(lo, hi, n)` again and again from the state `g`, at some time it returns `target`. -/
inductive EventuallyDraws (rng : Rng G) (lo hi : ℤ) (n : ℕ) (target : List ℤ) : G → Prop
  | now {g g'} : rng.randint g lo hi n = .ok (target, g') → EventuallyDraws rng lo hi n target g
  | later {g l g'} : rng.randint g lo hi n = .ok (l, g') → EventuallyDraws rng lo hi n target g' → EventuallyDraws rng lo hi n target g

/-- From every state, every array that `randint` may return is returned at some time; so do, with probability one, independent draws. -/
def FairRandint (rng : Rng G) : Prop := ∀ (lo hi : ℤ) (n : ℕ) (target : List ℤ), target.length = n → (∀ x ∈ target, lo ≤ x ∧ x < hi) → ∀ g, EventuallyDraws rng lo hi n target g

/-- `p` are the minimum prevalences asked for: a number for all the classes or an array with one for each of them, accepted by `generate_bags`. -/
def MinimaAre (mp : MinPrev) {n : ℕ} (p : Fin n → ℝ) : Prop :=
  (∃ x, mp = .scalar x ∧ 0 ≤ x ∧ x ≤ 1 ∧ p = fun _ => x) ∨ (mp = .vec (List.ofFn p) ∧ (∀ j, 0 ≤ p j) ∧ ∑ j, p j ≤ 1)

theorem MinimaAre.check {mp : MinPrev} {n : ℕ} {p : Fin n → ℝ} (h : MinimaAre mp p) : checkMinPrev mp = none := by
  rcases h with ⟨x, rfl, h0, h1, -⟩ | ⟨rfl, h0, h1⟩
  · simp only [checkMinPrev]
    exact if_neg (by push Not; exact ⟨h1, h0⟩)
  · simp only [checkMinPrev, List.sum_ofFn]
    rw [if_neg (not_lt.2 h1), if_neg]
    rintro ⟨x, hx, hx'⟩
    obtain ⟨j, rfl⟩ := List.mem_ofFn.1 hx
    exact absurd (h0 j) (not_le.2 hx')

theorem MinimaAre.bounds {mp : MinPrev} {n : ℕ} {p : Fin (n + 3) → ℝ} (h : MinimaAre mp p) (bs : ℕ) (m : Fin (n + 3) → ℤ) (hm : ∀ j, IsRounded ((bs : ℝ) * p j) (m j)) :
    uniformBounds mp (n + 3) bs = .ok (some (List.ofFn m), m 0, (bs : ℤ) - m (Fin.last _)) ∧ ∀ j, 0 ≤ m j := by
  have e : ∀ j, m j = roundHalfEven (p j * bs) := fun j => by
    rw [mul_comm]
    exact isRounded_unique (hm j) (roundHalfEven_isRounded _)
  have h0 : ∀ j, 0 ≤ p j := by
    rcases h with ⟨x, rfl, h0, -, rfl⟩ | ⟨-, h0, -⟩
    · exact fun _ => h0
    · exact h0
  refine ⟨?_, fun j => by rw [e]; exact roundHalfEven_nonneg (mul_nonneg (h0 j) (Nat.cast_nonneg _))⟩
  obtain rfl : m = fun j => roundHalfEven (p j * bs) := funext e
  unfold uniformBounds
  rcases h with ⟨x, rfl, -, -, rfl⟩ | ⟨rfl, -, -⟩
  · simp only
    rw [if_neg (by omega), List.ofFn_const]
  · simp only
    rw [if_neg (by omega), List.map_ofFn, List.head?_eq_getElem?, List.getLast?_eq_getElem?, List.getElem?_ofFn, List.getElem?_ofFn]
    simp [Function.comp_def, Fin.last]

/-- The draws that give every class but the last its minimum. -/
theorem tight_draws {n : ℕ} (m : Fin (n + 3) → ℤ) (h0 : ∀ j, 0 ≤ m j) (bs : ℕ) (hs : ∑ j, m j < bs) :
    ∃ draws : List ℤ, draws.length = n + 2 ∧ (∀ x ∈ draws, m 0 ≤ x ∧ x < (bs : ℤ) - m (Fin.last _)) ∧ middleOk (kraemer draws bs) (some (List.ofFn m)) = true := by
  set f : ℕ → ℤ := fun i => if h : i < n + 3 then m ⟨i, h⟩ else 0 with hf
  have hf0 : ∀ i, 0 ≤ f i := fun i => by
    rw [hf]
    simp only
    split_ifs
    · exact h0 _
    · exact le_rfl
  let S : ℕ → ℤ := fun i => ∑ j ∈ Finset.range i, f j
  have hmono : Monotone S := monotone_nat_of_le_succ fun i => by
    show S i ≤ ∑ j ∈ Finset.range (i + 1), f j
    rw [Finset.sum_range_succ]
    have := hf0 i
    linarith
  have hsum : S (n + 2) + m (Fin.last _) < bs := by
    have e1 : ∑ j, m j = S (n + 3) := by
      show _ = ∑ j ∈ Finset.range (n + 3), f j
      rw [Finset.sum_range]
      exact Finset.sum_congr rfl fun j _ => by simp [hf]
    have e2 : S (n + 3) = S (n + 2) + f (n + 2) := Finset.sum_range_succ _ _
    have e3 : f (n + 2) = m (Fin.last _) := by
      simp only [hf]
      rw [dif_pos (by omega)]
      rfl
    linarith
  have hS1 : S 1 = m 0 := by
    show ∑ j ∈ Finset.range 1, f j = _
    simp [hf]
  let draws : List ℤ := (List.range (n + 2)).map fun i => S (i + 1)
  have hr : ∀ x ∈ draws, m 0 ≤ x ∧ x < (bs : ℤ) - m (Fin.last _) := by
    intro x hx
    obtain ⟨i, hi, rfl⟩ := List.mem_map.1 hx
    rw [List.mem_range] at hi
    refine ⟨?_, ?_⟩
    · rw [← hS1]
      exact hmono (by omega)
    · have := hmono (show i + 1 ≤ n + 2 by omega)
      linarith
  have hsorted : draws.mergeSort (· ≤ ·) = draws := by
    refine sorted_eq (List.mergeSort_perm _ _) (mergeSort_sorted _) ?_
    refine List.Pairwise.map _ (fun a b (hab : a < b) => hmono (by omega)) List.pairwise_lt_range
  refine ⟨draws, by simp [draws], hr, ?_⟩
  rw [kraemer_eq draws bs fun x hx => ⟨(h0 0).trans (hr x hx).1, by have := (hr x hx).2; have := h0 (Fin.last _); omega⟩, hsorted]
  unfold middleOk
  rw [List.all_eq_true]
  intro t ht
  obtain ⟨i, hi⟩ := List.getElem?_of_mem ht
  rw [List.getElem?_zip_eq_some] at hi
  obtain ⟨h1, h2⟩ := hi
  rw [List.getElem?_dropLast] at h1 h2
  split_ifs at h1 with hl1
  split_ifs at h2 with hl2
  rw [List.getElem?_drop] at h1 h2
  have hi : i < n + 1 := by
    simp at hl2
    omega
  have g1 : t.1 = S (i + 2) - S (i + 1) := by
    have a1 : (0 :: draws)[1 + i]? = some (S (i + 1)) := by
      rw [add_comm, List.getElem?_cons_succ]
      simp [draws, show i < n + 2 by omega]
    have a2 : (draws ++ [(bs : ℤ)])[1 + i]? = some (S (i + 2)) := by
      rw [add_comm, List.getElem?_append_left (by simp [draws]; omega)]
      simp [draws, show i < n + 1 by omega]
    rw [List.getElem?_zipWith, a1, a2] at h1
    exact (Option.some.inj h1).symm
  have g2 : t.2 = f (i + 1) := by
    rw [List.getElem?_ofFn, dif_pos (by omega)] at h2
    rw [← Option.some.inj h2]
    simp only [hf]
    rw [dif_pos (by omega)]
    congr 2
    omega
  have g3 : S (i + 2) = S (i + 1) + f (i + 1) := Finset.sum_range_succ _ _
  simp [g1, g2, g3]

theorem checkXy_ok {d : BagData α} (hy : d.y ≠ []) (hX : d.lenX = none ∨ d.lenX = some d.y.length) : checkXy d = none := by
  unfold checkXy
  rcases hX with h | h
  · rw [h]
  · rw [h]
    exact if_pos ⟨rfl, fun h0 => hy (List.length_eq_zero_iff.1 h0)⟩

/-- What `generate_bags` is once its arguments are accepted. -/
theorem priorGenerate_uniform (rng : Rng G) (s : PriorGen G) (hs : s.bags = none) (hm : s.method = .uniform) (hrs : s.rs ≠ .invalid) (glob : G) (d : BagData α)
    (hxy : checkXy d = none) (hmp : checkMinPrev s.minPrev = none) (mins : Option (List ℤ)) (low high : ℤ)
    (hub : uniformBounds s.minPrev (labelsOf d.y).length (s.bagSize.getD d.y.length) = .ok (mins, low, high)) : ∃ (g : G) (upd : Bags → G → PriorGen G), ∀ fuel,
    priorGenerate rng fuel s glob d = (uniformLoop rng d.y (labelsOf d.y) (s.bagSize.getD d.y.length) s.nBags mins low high fuel 0 g (zeroBags (labelsOf d.y).length (s.bagSize.getD d.y.length) s.nBags)).map fun r =>
      (upd r.1 r.2.1, glob, match r.2.2 with | some e => .error e | none => .ok r.1) := by
  have core : ∀ fuel (s0 : PriorGen G) (g : G), s0.minPrev = s.minPrev → s0.nBags = s.nBags → generateUniform rng fuel s0 (s.bagSize.getD d.y.length) g d
      = (uniformLoop rng d.y (labelsOf d.y) (s.bagSize.getD d.y.length) s.nBags mins low high fuel 0 g (zeroBags (labelsOf d.y).length (s.bagSize.getD d.y.length) s.nBags)).map fun r =>
        ({ s0 with bags := some r.1, rs := .obj r.2.1 }, r.2.2) := by
    intro fuel s0 g h1 h2
    unfold generateUniform
    rw [h1, hmp]
    simp only [hxy, npUnique_eq]
    rw [hub]
    simp only [h2]
  unfold priorGenerate
  rw [hs]
  simp only
  cases hrs' : s.rs with
  | invalid => exact absurd hrs' hrs
  | seed n =>
    simp only [hm]
    refine ⟨rng.ofSeed n, fun b g => ⟨s.nBags, some (s.bagSize.getD d.y.length), .uniform, s.alphas, s.minPrev, .obj g, some b⟩, fun fuel => ?_⟩
    rw [core fuel _ (rng.ofSeed n) (by rfl) (by rfl), Option.map_map]
    congr 1
    funext r
    rcases r with ⟨b, g, _ | e⟩ <;> rfl
  | obj g =>
    simp only [hm]
    refine ⟨g, fun b g => ⟨s.nBags, some (s.bagSize.getD d.y.length), .uniform, s.alphas, s.minPrev, .obj g, some b⟩, fun fuel => ?_⟩
    rw [core fuel _ g (by rfl) (by rfl), Option.map_map]
    congr 1
    funext r
    rcases r with ⟨b, g, _ | e⟩ <;> rfl

/-- The loop ends when a combination that is accepted is drawn again and again. -/
theorem uniformLoop_ends (rng : Rng G) (hr : RngOk rng) (ht : RngTotal rng) (y : List α) (bs nBags : ℕ) (mins : Option (List ℤ)) (low high : ℤ) (hlow : 0 ≤ low) (hhigh : high ≤ bs) (target : List ℤ)
    (hev : ∀ g, EventuallyDraws rng low high ((labelsOf y).length - 1) target g) (hok : middleOk (kraemer target bs) mins = true) :
    ∀ (k nBag : ℕ), nBags ≤ nBag + k → ∀ g b, ∃ fuel b' g', uniformLoop rng y (labelsOf y) bs nBags mins low high fuel nBag g b = some (b', g', none) := by
  intro k
  induction k with
  | zero =>
    intro nBag h g b
    refine ⟨0, b, g, ?_⟩
    unfold uniformLoop
    rw [if_neg (by omega)]
  | succ k ih =>
    intro nBag h g b
    by_cases hlt : nBag < nBags
    swap
    · refine ⟨0, b, g, ?_⟩
      unfold uniformLoop
      rw [if_neg hlt]
    have accept : ∀ g l g1, rng.randint g low high ((labelsOf y).length - 1) = .ok (l, g1) → middleOk (kraemer l bs) mins = true →
        ∃ fuel b' g', uniformLoop rng y (labelsOf y) bs nBags mins low high fuel nBag g b = some (b', g', none) := by
      intro g l g1 hd hmid
      obtain ⟨-, hd2⟩ := hr.randint _ _ _ _ _ _ hd
      obtain ⟨-, knn, -⟩ := kraemer_spec l bs fun x hx => ⟨hlow.trans (hd2 x hx).1, (hd2 x hx).2.le.trans hhigh⟩
      obtain ⟨col, g2, hfill⟩ := fillClasses_total rng ht y ((labelsOf y).zip (kraemer l bs)) (fun t ht => knn _ (List.of_mem_zip ht).2)
        (fun t ht => (mem_labelsOf' _ _).1 (List.of_mem_zip ht).1) g1 (b.idx.getD nBag []) 0
      obtain ⟨fuel, b', g', hrec⟩ := ih (nBag + 1) (by omega) g2 ⟨b.prevs.set nBag ((kraemer l bs).map fun n : ℤ => Fl.fin (n : ℝ) / Fl.fin (bs : ℝ)), b.idx.set nBag col⟩
      refine ⟨fuel + 1, b', g', ?_⟩
      rw [uniformLoop, if_pos hlt]
      simp only [hd]
      rw [if_pos hmid, hfill]
      exact hrec
    induction hev g with
    | now hd => exact accept _ _ _ hd hok
    | @later g l g1 hd _ ih2 =>
      by_cases hmid : middleOk (kraemer l bs) mins = true
      · exact accept _ _ _ hd hmid
      · obtain ⟨fuel, b', g', hrec⟩ := ih2
        refine ⟨fuel + 1, b', g', ?_⟩
        rw [uniformLoop, if_pos hlt]
        simp only [hd]
        rw [if_neg hmid]
        exact hrec

section
variable (rng : Rng G) (hr : RngOk rng) (ht : RngTotal rng) (s : PriorGen G) (hs : s.bags = none) (hm : s.method = .uniform) (hrs : s.rs ≠ .invalid) (glob : G) (d : BagData α)
  (hX : d.lenX = none ∨ d.lenX = some d.y.length) {n : ℕ} (hcls : (labelsOf d.y).length = n + 3) (p : Fin (n + 3) → ℝ) (hp : MinimaAre s.minPrev p) (m : Fin (n + 3) → ℤ)
  (hround : ∀ j, IsRounded ((s.bagSize.getD d.y.length : ℝ) * p j) (m j))

include hr ht hs hm hrs hX hcls hp hround

/-- **C82**, three or more classes: when the minimum numbers of examples add up to less than the size of the bag, a fair generator brings `generate_bags` back with bags. -/
theorem C82_attainable_partial (hf : FairRandint rng) (hsum : ∑ j, m j < (s.bagSize.getD d.y.length : ℕ)) : ∃ fuel s' b, priorGenerate rng fuel s glob d = some (s', glob, .ok b) := by
  have hy : d.y ≠ [] := by
    rintro h
    rw [h] at hcls
    simp [labelsOf] at hcls
  obtain ⟨hub, h0⟩ := hp.bounds _ m hround
  obtain ⟨target, h1, h2, h3⟩ := tight_draws m h0 _ hsum
  have hlen : target.length = (labelsOf d.y).length - 1 := by rw [h1, hcls]; rfl
  have hE := uniformLoop_ends rng hr ht d.y _ s.nBags _ _ _ (h0 0) (by have := h0 (Fin.last _); omega) target (hf _ _ _ target hlen h2) h3 s.nBags 0 (by omega)
  obtain ⟨g, upd, hu⟩ := priorGenerate_uniform rng s hs hm hrs glob d (checkXy_ok hy hX) hp.check _ _ _ (by rw [hcls]; exact hub)
  obtain ⟨fuel, b, g', hl⟩ := hE g (zeroBags (labelsOf d.y).length (s.bagSize.getD d.y.length) s.nBags)
  refine ⟨fuel, upd b g', b, ?_⟩
  rw [hu, hl]
  rfl

/-- **C82 is false**, three or more classes: when the minimum numbers of examples add up to the size of the bag or more, and those of the first and the last class do not, `generate_bags` never comes back,
whatever the generator. -/
theorem C82_unattainable_refuted (hn : 0 < s.nBags) (hsum : ((s.bagSize.getD d.y.length : ℕ) : ℤ) ≤ ∑ j, m j) (hends : m 0 + m (Fin.last _) < (s.bagSize.getD d.y.length : ℕ)) :
    ∀ fuel, priorGenerate rng fuel s glob d = none := by
  have hy : d.y ≠ [] := by
    rintro h
    rw [h] at hcls
    simp [labelsOf] at hcls
  obtain ⟨hub, h0⟩ := hp.bounds _ m hround
  obtain ⟨g, upd, hu⟩ := priorGenerate_uniform rng s hs hm hrs glob d (checkXy_ok hy hX) hp.check _ _ _ (by rw [hcls]; exact hub)
  set bs := s.bagSize.getD d.y.length
  have loop : ∀ fuel g b, uniformLoop rng d.y (labelsOf d.y) bs s.nBags (some (List.ofFn m)) (m 0) ((bs : ℤ) - m (Fin.last _)) fuel 0 g b = none := by
    intro fuel
    induction fuel with
    | zero =>
      intro g b
      unfold uniformLoop
      rw [if_pos hn]
    | succ fuel ih =>
      intro g b
      rw [uniformLoop, if_pos hn]
      obtain ⟨⟨draws, g1⟩, hd⟩ := (ht.randint g (m 0) ((bs : ℤ) - m (Fin.last _)) ((labelsOf d.y).length - 1)).2 (Or.inl (by omega))
      simp only [hd]
      rw [if_neg]
      · exact ih g1 b
      intro hmid
      obtain ⟨hd1, hd2⟩ := hr.randint _ _ _ _ _ _ hd
      rw [hcls] at hd1
      have hrange : ∀ x ∈ draws, 0 ≤ x ∧ x ≤ (bs : ℤ) := fun x hx => ⟨(h0 0).trans (hd2 x hx).1, by have := (hd2 x hx).2; have := h0 (Fin.last _); omega⟩
      obtain ⟨klen, knn, ksum⟩ := kraemer_spec draws bs hrange
      have hl : (kraemer draws bs).length = n + 3 := by omega
      have hne : draws ≠ [] := by
        rintro rfl
        simp at hd1
      -- every class has its minimum, and the last one has more
      have hall : ∀ j : Fin (n + 3), m j ≤ (kraemer draws bs)[j.1]'(by omega) := by
        intro j
        have := kraemer_min s.minPrev (n + 3) bs hp.check ?_ (by omega) _ _ _ hub draws hd1 hd2 hmid j.1 j.2 _ (List.getElem?_eq_getElem (by omega))
        · refine le_trans (le_of_eq ?_) this
          refine isRounded_unique (hround j) ?_
          have e : minFor s.minPrev j.1 = p j := by
            rcases hp with ⟨x, h1, -, -, h2⟩ | ⟨h1, -, -⟩
            · rw [h1, h2]
              rfl
            · rw [h1]
              show (List.ofFn p).getD j.1 0 = p j
              rw [List.getD_eq_getElem?_getD, List.getElem?_ofFn, dif_pos j.2]
              rfl
          rw [e]
          exact roundHalfEven_isRounded _
        · rcases hp with ⟨x, h1, -, -, -⟩ | ⟨h1, -, -⟩
          · rw [h1]
            rfl
          · rw [h1]
            simp [minCount]
      have hlast : m (Fin.last _) < (kraemer draws bs)[n + 2]'(by omega) := by
        have := kraemer_last draws bs _ hrange (fun x hx => (hd2 x hx).2) hne ((kraemer draws bs)[n + 2]'(by omega)) (by
          rw [List.getLast?_eq_getElem?, show (kraemer draws bs).length - 1 = n + 2 by omega]
          exact List.getElem?_eq_getElem _)
        omega
      have hsum2 : ∑ j : Fin (n + 3), (kraemer draws bs)[j.1]'(by omega) = bs := by
        rw [← ksum]
        conv_rhs => rw [← List.ofFn_getElem (xs := kraemer draws bs)]
        rw [List.sum_ofFn]
        exact Fintype.sum_equiv (finCongr hl.symm) _ _ fun j => rfl
      have : ∑ j, m j < ∑ j : Fin (n + 3), (kraemer draws bs)[j.1]'(by omega) := Finset.sum_lt_sum (fun j _ => hall j) ⟨Fin.last _, Finset.mem_univ _, hlast⟩
      omega
  intro fuel
  rw [hu, loop]
  rfl

omit hr in
/-- **C82**, three or more classes: when the minimum numbers of examples of the first and the last class leave nothing to draw, `generate_bags` raises ValueError. -/
theorem C82_ends_rejected_partial (hn : 0 < s.nBags) (hends : ((s.bagSize.getD d.y.length : ℕ) : ℤ) ≤ m 0 + m (Fin.last _)) (fuel : ℕ) (hfuel : 0 < fuel) :
    ∃ s', priorGenerate rng fuel s glob d = some (s', glob, .error .valueError) := by
  have hy : d.y ≠ [] := by
    rintro h
    rw [h] at hcls
    simp [labelsOf] at hcls
  obtain ⟨hub, h0⟩ := hp.bounds _ m hround
  obtain ⟨g, upd, hu⟩ := priorGenerate_uniform rng s hs hm hrs glob d (checkXy_ok hy hX) hp.check _ _ _ (by rw [hcls]; exact hub)
  obtain ⟨fuel, rfl⟩ : ∃ k, fuel = k + 1 := ⟨fuel - 1, by omega⟩
  cases hd : rng.randint g (m 0) ((s.bagSize.getD d.y.length : ℕ) - m (Fin.last _)) ((labelsOf d.y).length - 1) with
  | ok r => exact absurd ((ht.randint _ _ _ _).1 ⟨r, hd⟩) (by omega)
  | error e =>
    have := ht.randint_err _ _ _ _ _ hd
    subst this
    refine ⟨upd (zeroBags (labelsOf d.y).length (s.bagSize.getD d.y.length) s.nBags) g, ?_⟩
    rw [hu, uniformLoop, if_pos hn]
    simp only [hd]
    rfl

end

theorem kraemer_length (draws : List ℤ) (bs : ℕ) : (kraemer draws bs).length = draws.length + 1 := by
  simp [kraemer]

/-- **C82**: with the Dirichlet method, without minimum prevalences or with at most two classes `generate_bags` comes back, with the bags or an exception, after as many iterations as bags at most. -/
theorem C82_comes_back_partial (rng : Rng G) (hr : RngOk rng) (fuel : ℕ) (s : PriorGen G) (glob : G) (d : BagData α) (hc : s.method ≠ .uniform ∨ s.minPrev = .none ∨ (labelsOf d.y).length ≤ 2)
    (hfuel : s.nBags ≤ fuel) : ∃ r, priorGenerate rng fuel s glob d = some r := by
  have core : ∀ (s0 : PriorGen G) (bs : ℕ) (g : G), s0.nBags = s.nBags → (s0.minPrev = .none ∨ (labelsOf d.y).length ≤ 2) → ∃ r, generateUniform rng fuel s0 bs g d = some r := by
    intro s0 bs g hn hc
    unfold generateUniform
    cases checkMinPrev s0.minPrev with
    | some e => exact ⟨_, rfl⟩
    | none =>
      cases checkXy d with
      | some e => exact ⟨_, rfl⟩
      | none =>
        simp only [npUnique_eq]
        cases hub : uniformBounds s0.minPrev (labelsOf d.y).length bs with
        | error e => exact ⟨_, rfl⟩
        | ok t =>
          obtain ⟨mins, low, high⟩ := t
          simp only
          have hmid : ∀ draws : List ℤ, draws.length = (labelsOf d.y).length - 1 → middleOk (kraemer draws bs) mins = true := by
            intro draws hd
            rcases hc with h | h
            · rw [h] at hub
              simp only [uniformBounds, Except.ok.injEq, Prod.mk.injEq] at hub
              rw [← hub.1]
              rfl
            · have : ((kraemer draws bs).drop 1).dropLast = [] := by
                refine List.length_eq_zero_iff.1 ?_
                rw [List.length_dropLast, List.length_drop, kraemer_length]
                omega
              cases mins with
              | none => rfl
              | some ms =>
                unfold middleOk
                rw [this]
                rfl
          have loop : ∀ fuel nBag g b, s0.nBags ≤ nBag + fuel → ∃ r, uniformLoop rng d.y (labelsOf d.y) bs s0.nBags mins low high fuel nBag g b = some r := by
            intro fuel
            induction fuel with
            | zero =>
              intro nBag g b h
              unfold uniformLoop
              rw [if_neg (by omega)]
              exact ⟨_, rfl⟩
            | succ fuel ih =>
              intro nBag g b h
              unfold uniformLoop
              split_ifs
              · simp only
                cases hd : rng.randint g low high ((labelsOf d.y).length - 1) with
                | error e => exact ⟨_, rfl⟩
                | ok t =>
                  obtain ⟨draws, g1⟩ := t
                  simp only
                  rw [if_pos (hmid draws (hr.randint _ _ _ _ _ _ hd).1)]
                  rcases fillClasses rng d.y ((labelsOf d.y).zip (kraemer draws bs)) g1 (b.idx.getD nBag []) 0 with ⟨col, g2, _ | e⟩
                  · exact ih _ _ _ (by omega)
                  · exact ⟨_, rfl⟩
              · exact ⟨_, rfl⟩
          obtain ⟨r, hl⟩ := loop fuel 0 g (zeroBags (labelsOf d.y).length bs s0.nBags) (by omega)
          rw [hl]
          exact ⟨_, rfl⟩
  unfold priorGenerate
  split
  · exact ⟨_, rfl⟩
  · simp only
    split
    · exact ⟨_, rfl⟩
    · rename_i g _
      cases hm : s.method with
      | uniform =>
        simp only
        obtain ⟨r, h⟩ := core { s with rs := .obj g, bagSize := some (s.bagSize.getD d.y.length), method := .uniform } (s.bagSize.getD d.y.length) g rfl (hc.resolve_left (by simp [hm]))
        rw [h]
        exact ⟨_, rfl⟩
      | dirichlet => exact ⟨_, rfl⟩
      | other => exact ⟨_, rfl⟩

/-- **C82** for the mixed generator (the covariate one is a total function, `covGenerate`). -/
theorem C82_mixed_partial (rng : Rng G) (hr : RngOk rng) (fuel : ℕ) (s : MixGen G) (glob : G) (d : BagData α) (sim : ℕ → List ℝ)
    (hc : s.method ≠ .uniform ∨ s.minPrev = .none ∨ (labelsOf d.y).length ≤ 2) (hfuel : s.nBags ≤ fuel) : ∃ r, mixGenerate rng fuel s glob d sim = some r := by
  unfold mixGenerate
  split
  · exact ⟨_, rfl⟩
  · split
    · exact ⟨_, rfl⟩
    · rename_i bs _
      obtain ⟨r, h⟩ := C82_comes_back_partial rng hr fuel ⟨s.nBags / 2, some bs, s.method, s.alphas, s.minPrev, s.rs, none⟩ glob d hc ((Nat.div_le_self _ _).trans hfuel)
      simp only
      rw [h]
      exact ⟨_, rfl⟩

/-! ## Non-vacuity -/

/-- A fair generator: `randint` writes the number of calls so far in base `hi - lo`. -/
noncomputable def cycleRng : Rng ℕ where
  ofSeed n := n.toNat
  randint g lo hi n := if lo < hi ∨ n = 0 then .ok ((List.range n).map fun i => lo + ((g / (hi - lo).toNat ^ i % (hi - lo).toNat : ℕ) : ℤ), g + 1) else .error .valueError
  choice g pool n := match pool with
    | [] => .error .valueError
    | i :: _ => if 0 ≤ n then .ok (List.replicate n.toNat i, g) else .error .valueError
  choiceP g p n := match p with
    | [] => .error .valueError
    | _ :: _ => .ok (List.replicate n 0, g)
  dirichlet g a n := match a with
    | [] => .error .valueError
    | _ :: t => .ok (List.replicate n (1 :: List.replicate t.length 0), g)

theorem cycleRng_ok : RngOk cycleRng where
  randint := by
    intro g lo hi n l g' h
    simp only [cycleRng] at h
    split_ifs at h with hc
    simp only [Except.ok.injEq, Prod.mk.injEq] at h
    obtain ⟨rfl, -⟩ := h
    refine ⟨by simp, fun x hx => ?_⟩
    obtain ⟨i, hi', rfl⟩ := List.mem_map.1 hx
    have hlt : lo < hi := hc.resolve_right fun h => by simp [h] at hi'
    have := Nat.mod_lt (g / (hi - lo).toNat ^ i) (show 0 < (hi - lo).toNat by omega)
    omega
  choice := by
    intro g pool n l g' h
    cases pool with
    | nil => simp [cycleRng] at h
    | cons i t =>
      simp only [cycleRng] at h
      split_ifs at h with hc
      simp only [Except.ok.injEq, Prod.mk.injEq] at h
      obtain ⟨rfl, -⟩ := h
      refine ⟨by rw [List.length_replicate]; omega, fun x hx => ?_⟩
      obtain ⟨-, rfl⟩ := List.mem_replicate.1 hx
      simp
  choiceP := by
    intro g p n l g' h
    cases p with
    | nil => simp [cycleRng] at h
    | cons i t =>
      simp only [cycleRng, Except.ok.injEq, Prod.mk.injEq] at h
      obtain ⟨rfl, -⟩ := h
      refine ⟨by simp, fun x hx => ?_⟩
      obtain ⟨-, rfl⟩ := List.mem_replicate.1 hx
      simp
  dirichlet := by
    intro g a n l g' h
    cases a with
    | nil => simp [cycleRng] at h
    | cons i t =>
      simp only [cycleRng, Except.ok.injEq, Prod.mk.injEq] at h
      obtain ⟨rfl, -⟩ := h
      refine ⟨by simp, fun x hx => ?_⟩
      obtain ⟨-, rfl⟩ := List.mem_replicate.1 hx
      simp +contextual [List.mem_replicate, or_imp]

theorem cycleRng_total : RngTotal cycleRng where
  randint := by
    intro g lo hi n
    simp only [cycleRng]
    split_ifs with h <;> simp [h]
  randint_err := by
    intro g lo hi n e h
    simp only [cycleRng] at h
    split_ifs at h with hc
    simpa using h.symm
  choice := by
    intro g pool n h h0
    cases pool with
    | nil => exact absurd rfl h
    | cons i t =>
      simp only [cycleRng]
      rw [if_pos h0]
      exact ⟨_, rfl⟩
  choiceP := by
    intro g p n h
    cases p with
    | nil => exact absurd rfl h
    | cons i t => exact ⟨_, rfl⟩
  dirichlet := by
    intro g a n h _
    cases a with
    | nil => exact absurd rfl h
    | cons i t => exact ⟨_, rfl⟩

/-- Every list of digits is written by some number, and by numbers as large as one likes. -/
theorem digits_exist (R : ℕ) (hR : 0 < R) (ds : List ℕ) (hd : ∀ x ∈ ds, x < R) : ∃ N, N < R ^ ds.length ∧ ∀ k i, i < ds.length → (N + k * R ^ ds.length) / R ^ i % R = ds.getD i 0 := by
  induction ds with
  | nil => exact ⟨0, by simp, fun k i hi => absurd hi (by simp)⟩
  | cons x ds ih =>
    obtain ⟨N, h1, h2⟩ := ih fun y hy => hd y (List.mem_cons_of_mem _ hy)
    have hx := hd x List.mem_cons_self
    refine ⟨x + R * N, ?_, fun k i hi => ?_⟩
    · rw [List.length_cons, pow_succ]
      nlinarith
    · have e : x + R * N + k * R ^ (x :: ds).length = x + R * (N + k * R ^ ds.length) := by
        rw [List.length_cons, pow_succ]
        ring
      rw [e]
      cases i with
      | zero => simp [Nat.mod_eq_of_lt hx]
      | succ i =>
        rw [pow_succ', ← Nat.div_div_eq_div_mul, Nat.add_mul_div_left _ _ hR, Nat.div_eq_of_lt hx, zero_add, h2 k i (by simpa using hi)]
        simp

theorem cycleRng_fair : FairRandint cycleRng := by
  intro lo hi n target hlen ht
  have later : ∀ k g, (∃ g', cycleRng.randint (g + k) lo hi n = .ok (target, g')) → (lo < hi ∨ n = 0) → EventuallyDraws cycleRng lo hi n target g := by
    intro k
    induction k with
    | zero => rintro g ⟨g', h⟩ _; exact .now h
    | succ k ih =>
      rintro g ⟨g', h⟩ hc
      refine .later (l := (List.range n).map fun i => lo + ((g / (hi - lo).toNat ^ i % (hi - lo).toNat : ℕ) : ℤ)) (g' := g + 1) ?_ (ih (g + 1) ⟨g', ?_⟩ hc)
      · simp only [cycleRng]
        rw [if_pos hc]
      · rw [show g + 1 + k = g + (k + 1) by ring]
        exact h
  intro g
  rcases Nat.eq_zero_or_pos n with rfl | hn
  · obtain rfl := List.length_eq_zero_iff.1 hlen
    exact later 0 g ⟨g + 1, by simp [cycleRng]⟩ (Or.inr rfl)
  have hlt : lo < hi := by
    have := ht _ (List.getElem_mem (show 0 < target.length by omega))
    omega
  set R := (hi - lo).toNat with hR
  have hR0 : 0 < R := by omega
  obtain ⟨N, h1, h2⟩ := digits_exist R hR0 (target.map fun x => (x - lo).toNat) (by
    intro x hx
    obtain ⟨z, hz, rfl⟩ := List.mem_map.1 hx
    have := ht z hz
    omega)
  rw [List.length_map, hlen] at h1 h2
  have hpow : 1 ≤ R ^ n := Nat.one_le_pow _ _ hR0
  have hge : g ≤ N + g * R ^ n := by nlinarith
  refine later (N + g * R ^ n - g) g ⟨N + g * R ^ n + 1, ?_⟩ (Or.inl hlt)
  rw [show g + (N + g * R ^ n - g) = N + g * R ^ n by omega]
  simp only [cycleRng]
  rw [if_pos (Or.inl hlt)]
  congr 2
  refine List.ext_getElem (by simp [hlen]) fun i hi1 hi2 => ?_
  rw [List.getElem_map, List.getElem_range, ← hR, h2 g i (by omega), List.getD_eq_getElem?_getD, List.getElem?_map, List.getElem?_eq_getElem hi2]
  have := ht _ (List.getElem_mem hi2)
  simp only [Option.map_some, Option.getD_some]
  omega

theorem abc_labels : labelsOf [0, 1, 2, 2] = [0, 1, 2] := labelsOf_eq _ _ (by decide) (by decide)

/-- Three classes, bags of 100 examples and a minimum of 0.2 each: `generate_bags` comes back. -/
example : ∃ fuel s' b, priorGenerate cycleRng fuel ⟨7, some 100, .uniform, .none, .scalar (1/5), .seed 3, none⟩ 0 (⟨[0, 1, 2, 2], some 4⟩ : BagData ℕ) = some (s', 0, .ok b) :=
  C82_attainable_partial (n := 0) cycleRng cycleRng_ok cycleRng_total ⟨7, some 100, .uniform, .none, .scalar (1/5), .seed 3, none⟩ rfl rfl (by simp) 0 (⟨[0, 1, 2, 2], some 4⟩ : BagData ℕ) (Or.inr rfl)
    (by simp only [abc_labels]; rfl) (fun _ => 1/5) (Or.inl ⟨1/5, rfl, by norm_num, by norm_num, rfl⟩) (fun _ => 20) (fun j => by norm_num [IsRounded]) cycleRng_fair (by simp)

/-- Minimum prevalences 0.25, 0.5 and 0.25, which are accepted: it never comes back, although a bag with exactly these prevalences exists. -/
example : ∀ fuel, priorGenerate cycleRng fuel ⟨7, some 100, .uniform, .none, .vec (List.ofFn ![1/4, 1/2, 1/4]), .seed 3, none⟩ 0 (⟨[0, 1, 2, 2], some 4⟩ : BagData ℕ) = none :=
  C82_unattainable_refuted (n := 0) cycleRng cycleRng_ok cycleRng_total ⟨7, some 100, .uniform, .none, .vec (List.ofFn ![1/4, 1/2, 1/4]), .seed 3, none⟩ rfl rfl (by simp) 0
    (⟨[0, 1, 2, 2], some 4⟩ : BagData ℕ) (Or.inr rfl) (by simp only [abc_labels]; rfl) ![1/4, 1/2, 1/4] (Or.inr ⟨rfl, fun j => by fin_cases j <;> simp, by simp [Fin.sum_univ_three]; norm_num⟩) ![25, 50, 25]
    (fun j => by fin_cases j <;> norm_num [IsRounded]) (by simp) (by simp [Fin.sum_univ_three]) (by simp [Fin.last])

/-- A minimum of 0.6 for each of three classes is rejected. -/
example : ∃ s', priorGenerate cycleRng 1 ⟨7, some 100, .uniform, .none, .scalar (3/5), .seed 3, none⟩ 0 (⟨[0, 1, 2, 2], some 4⟩ : BagData ℕ) = some (s', 0, .error .valueError) :=
  C82_ends_rejected_partial (n := 0) cycleRng cycleRng_total ⟨7, some 100, .uniform, .none, .scalar (3/5), .seed 3, none⟩ rfl rfl (by simp) 0 (⟨[0, 1, 2, 2], some 4⟩ : BagData ℕ) (Or.inr rfl)
    (by simp only [abc_labels]; rfl) (fun _ => 3/5) (Or.inl ⟨3/5, rfl, by norm_num, by norm_num, rfl⟩) (fun _ => 60) (fun j => by norm_num [IsRounded]) (by simp) (by simp) 1 (by simp)

example := C82_comes_back_partial cycleRng cycleRng_ok 7 ⟨7, some 100, .uniform, .none, .scalar (3/5), .seed 3, none⟩ 0 (⟨[0, 1, 1], some 3⟩ : BagData ℕ)
  (Or.inr (Or.inr (by rw [labelsOf_eq [0, 1, 1] [0, 1] (by decide) (by decide)]; decide))) le_rfl

end Verif.Props
