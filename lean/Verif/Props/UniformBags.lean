import Verif.Props.Bags
import Mathlib.Data.Fintype.Perm

/-!
# C140: which bags the method 'Uniform' can produce, and how often
-/

namespace Verif.Props

open Verif.Model Verif.Spec Verif.Proof

/-- The ends of the classes, when a bag lists its examples class by class, `counts` examples of each: the partial sums of `counts`, starting with `a` and without the total. -/
def endsFrom : ℤ → List ℤ → List ℤ
  | _, [] => []
  | _, [_] => []
  | a, c :: d :: r => (a + c) :: endsFrom (a + c) (d :: r)

/-- The numbers of examples of each class in a bag of `bs` examples. -/
structure IsCounts (bs : ℕ) (counts : List ℤ) : Prop where
  nonneg : ∀ c ∈ counts, 0 ≤ c
  total : counts.sum = bs

/-- In how many ways `m` independent draws from `0, ..., bs - 1`, all equally likely, lead to these numbers of examples. -/
def ways (m bs : ℕ) (counts : List ℤ) : ℕ := (Finset.univ.filter fun d : Fin m → Fin bs => kraemer (List.ofFn fun i => ((d i : ℕ) : ℤ)) bs = counts).card

theorem diffs_iff (t : List ℤ) (a c : ℤ) (counts : List ℤ) (hlen : counts.length = t.length + 1) (hsum : counts.sum = c - a) :
    List.zipWith (fun a b => b - a) (a :: t) (t ++ [c]) = counts ↔ t = endsFrom a counts := by
  induction t generalizing a counts with
  | nil =>
    match counts, hlen with
    | [x], _ =>
      simp at hsum
      simp [endsFrom, hsum]
  | cons b t ih =>
    match counts, hlen with
    | x :: y :: r, hlen =>
      simp only [List.cons_append, List.zipWith_cons_cons, endsFrom, List.cons.injEq]
      constructor
      · rintro ⟨h1, h2⟩
        have hb : b = a + x := by omega
        subst hb
        refine ⟨rfl, (ih (a + x) (y :: r) (by simpa using hlen) ?_).1 h2⟩
        rw [List.sum_cons] at hsum
        omega
      · rintro ⟨rfl, h2⟩
        refine ⟨by omega, (ih (a + x) (y :: r) (by simpa using hlen) ?_).2 h2⟩
        rw [List.sum_cons] at hsum
        omega

theorem endsFrom_length (a : ℤ) (counts : List ℤ) : (endsFrom a counts).length = counts.length - 1 := by
  induction counts generalizing a with
  | nil => rfl
  | cons c r ih =>
    cases r with
    | nil => rfl
    | cons d r => simp [endsFrom, ih]

theorem endsFrom_ge (a : ℤ) (counts : List ℤ) (h : ∀ c ∈ counts, 0 ≤ c) : ∀ x ∈ endsFrom a counts, a ≤ x := by
  induction counts generalizing a with
  | nil => simp [endsFrom]
  | cons c r ih =>
    cases r with
    | nil => simp [endsFrom]
    | cons d r =>
      intro x hx
      simp only [endsFrom, List.mem_cons] at hx
      have hc := h c (by simp)
      rcases hx with rfl | hx
      · omega
      · have := ih (a + c) (fun e he => h e (List.mem_cons_of_mem _ he)) x hx
        omega

theorem endsFrom_sorted (a : ℤ) (counts : List ℤ) (h : ∀ c ∈ counts, 0 ≤ c) : (endsFrom a counts).Pairwise (· ≤ ·) := by
  induction counts generalizing a with
  | nil => simp [endsFrom]
  | cons c r ih =>
    cases r with
    | nil => simp [endsFrom]
    | cons d r =>
      simp only [endsFrom, List.pairwise_cons]
      exact ⟨endsFrom_ge _ _ fun e he => h e (List.mem_cons_of_mem _ he), ih _ fun e he => h e (List.mem_cons_of_mem _ he)⟩

/-- The ends of the classes are before the last class. -/
theorem endsFrom_le (a : ℤ) (counts : List ℤ) (h : ∀ c ∈ counts, 0 ≤ c) (z : ℤ) (hz : counts.getLast? = some z) : ∀ x ∈ endsFrom a counts, x ≤ a + counts.sum - z := by
  induction counts generalizing a with
  | nil => simp [endsFrom]
  | cons c r ih =>
    cases r with
    | nil => simp [endsFrom]
    | cons d r =>
      intro x hx
      rw [List.getLast?_cons_cons] at hz
      have hz0 : z ≤ (d :: r).sum := by
        exact List.single_le_sum (fun e he => h e (List.mem_cons_of_mem _ he)) z (List.mem_of_getLast? hz)
      simp only [endsFrom, List.mem_cons] at hx
      rw [List.sum_cons]
      rcases hx with rfl | hx
      · omega
      · have := ih (a + c) (fun e he => h e (List.mem_cons_of_mem _ he)) hz x hx
        omega

theorem endsFrom_nodup (a : ℤ) (counts : List ℤ) (h : ∀ c ∈ counts, 0 ≤ c) (hmid : ∀ c ∈ (counts.drop 1).dropLast, 0 < c) : (endsFrom a counts).Nodup := by
  induction counts generalizing a with
  | nil => simp [endsFrom]
  | cons c r ih =>
    cases r with
    | nil => simp [endsFrom]
    | cons d r =>
      have hr : ∀ e ∈ d :: r, 0 ≤ e := fun e he => h e (List.mem_cons_of_mem _ he)
      cases r with
      | nil => simp [endsFrom]
      | cons e r =>
        simp only [List.drop_succ_cons, List.drop_zero, List.dropLast_cons₂, List.mem_cons] at hmid
        have hd : 0 < d := hmid d (Or.inl rfl)
        rw [endsFrom, List.nodup_cons]
        refine ⟨fun hm => ?_, ih _ hr fun x hx => hmid x (Or.inr (by simpa using hx))⟩
        rw [endsFrom, List.mem_cons] at hm
        rcases hm with hm | hm
        · omega
        · have := endsFrom_ge _ (e :: r) (fun x hx => hr x (List.mem_cons_of_mem _ hx)) _ hm
          omega

/-- **C140** (what the draws mean): the draws lead to `counts` examples of each class exactly if they are, in some order, the ends of the classes. -/
theorem C140_draws_iff (bs : ℕ) (counts draws : List ℤ) (hc : IsCounts bs counts) (hlen : counts.length = draws.length + 1) (hd : ∀ x ∈ draws, 0 ≤ x ∧ x < bs) :
    kraemer draws bs = counts ↔ draws.Perm (endsFrom 0 counts) := by
  rw [kraemer_eq draws bs fun x hx => ⟨(hd x hx).1, (hd x hx).2.le⟩, diffs_iff _ _ _ _ (by simpa using hlen) (by simpa using hc.total)]
  constructor
  · intro h
    rw [← h]
    exact (List.mergeSort_perm _ _).symm
  · intro h
    exact sorted_eq ((List.mergeSort_perm _ _).trans h) (mergeSort_sorted _) (endsFrom_sorted _ _ hc.nonneg)

theorem ways_eq (m bs : ℕ) (counts : List ℤ) (hc : IsCounts bs counts) (hlen : counts.length = m + 1) :
    ways m bs counts = (Finset.univ.filter fun d : Fin m → Fin bs => (List.ofFn fun i => ((d i : ℕ) : ℤ)).Perm (endsFrom 0 counts)).card := by
  unfold ways
  congr 1
  refine Finset.filter_congr fun d _ => C140_draws_iff bs counts _ hc (by simpa using hlen) fun x hx => ?_
  obtain ⟨i, rfl⟩ := (List.mem_ofFn' _ _).1 hx
  exact ⟨Int.natCast_nonneg _, Int.ofNat_lt.2 (d i).2⟩

/-- **C140, partial**: all the numbers of examples with at least one example of each class but the first are equally likely: `m!` of the `bs ^ m` draws lead to each of them. -/
theorem C140_equally_likely_partial (m bs : ℕ) (counts : List ℤ) (hc : IsCounts bs counts) (hlen : counts.length = m + 1) (hpos : ∀ c ∈ counts.drop 1, 0 < c) : ways m bs counts = m.factorial := by
  rw [ways_eq m bs counts hc hlen]
  set L := endsFrom 0 counts with hL
  have hLlen : L.length = m := by rw [hL, endsFrom_length, hlen, Nat.add_sub_cancel]
  have hnd : L.Nodup := endsFrom_nodup 0 counts hc.nonneg fun c h => hpos c (List.mem_of_mem_dropLast h)
  have hlt : ∀ x ∈ L, 0 ≤ x ∧ x < bs := by
    intro x hx
    refine ⟨endsFrom_ge 0 counts hc.nonneg x hx, ?_⟩
    have hm : m ≠ 0 := by
      rintro rfl
      rw [List.length_eq_zero_iff.1 hLlen] at hx
      simp at hx
    obtain ⟨z, hz⟩ : ∃ z, counts.getLast? = some z := by
      cases h : counts.getLast? with
      | none =>
        rw [List.getLast?_eq_none_iff] at h
        simp [h] at hlen
      | some z => exact ⟨z, rfl⟩
    have hz' : 0 < z := by
      refine hpos z (List.mem_of_getLast? ?_)
      rw [List.getLast?_drop, if_neg (by omega), hz]
    have := endsFrom_le 0 counts hc.nonneg z hz x hx
    rw [hc.total] at this
    omega
  have hget : ∀ i : Fin m, 0 ≤ L[(i : ℕ)]'(by rw [hLlen]; exact i.2) ∧ L[(i : ℕ)]'(by rw [hLlen]; exact i.2) < bs := fun i => hlt _ (List.getElem_mem _)
  let f : Equiv.Perm (Fin m) → Fin m → Fin bs := fun σ i => ⟨(L[(σ i : ℕ)]'(by rw [hLlen]; exact (σ i).2)).toNat, by have := hget (σ i); omega⟩
  have hf : ∀ σ i, (((f σ i : Fin bs) : ℕ) : ℤ) = L[(σ i : ℕ)]'(by rw [hLlen]; exact (σ i).2) := fun σ i => Int.toNat_of_nonneg (hget (σ i)).1
  have hinj : Function.Injective f := by
    intro σ τ h
    ext i
    have h1 := congrArg (fun x : Fin bs => ((x : ℕ) : ℤ)) (congrFun h i)
    simp only [hf] at h1
    exact (hnd.getElem_inj_iff).1 h1
  have hcast : L = List.ofFn fun i : Fin m => L[(i : ℕ)]'(by rw [hLlen]; exact i.2) := by
    refine List.ext_getElem (by simp [hLlen]) fun i h1 h2 => by simp
  have himg : (Finset.univ.filter fun d : Fin m → Fin bs => (List.ofFn fun i => ((d i : ℕ) : ℤ)).Perm L) = Finset.univ.image f := by
    ext d
    simp only [Finset.mem_filter, Finset.mem_univ, true_and, Finset.mem_image]
    constructor
    · intro h
      have hdn : Function.Injective fun i => ((d i : ℕ) : ℤ) := List.nodup_ofFn.1 (h.nodup_iff.2 hnd)
      have hmem : ∀ i, ∃ j : Fin m, L[(j : ℕ)]'(by rw [hLlen]; exact j.2) = ((d i : ℕ) : ℤ) := by
        intro i
        obtain ⟨j, hj, e⟩ := List.getElem_of_mem (h.mem_iff.1 ((List.mem_ofFn' _ _).2 ⟨i, rfl⟩))
        exact ⟨⟨j, by omega⟩, e⟩
      choose σ hσ using hmem
      have hσi : Function.Injective σ := by
        intro i j hij
        refine hdn ?_
        simp only []
        rw [← hσ i, ← hσ j]
        congr 2
      refine ⟨Equiv.ofBijective σ (Finite.injective_iff_bijective.1 hσi), ?_⟩
      funext i
      have := hf (Equiv.ofBijective σ (Finite.injective_iff_bijective.1 hσi)) i
      refine Fin.ext (Int.ofNat_inj.1 (this.trans ?_))
      exact hσ i
    · rintro ⟨σ, rfl⟩
      simp only [hf]
      have := Equiv.Perm.ofFn_comp_perm σ fun i : Fin m => L[(i : ℕ)]'(by rw [hLlen]; exact i.2)
      rw [← hcast] at this
      exact this
  rw [himg, Finset.card_image_of_injective _ hinj, Finset.card_univ, Fintype.card_perm, Fintype.card_fin]

/-- **C140, partial** (two classes): each number of examples of the first class, except all of them, is equally likely. -/
theorem C140_two_classes_partial (bs a : ℕ) (ha : a < bs) : ways 1 bs [(a : ℤ), bs - a] = 1 :=
  C140_equally_likely_partial 1 bs _ ⟨by simp; omega, by simp⟩ rfl (by simp; omega)

/-- **C140, refuted** (three classes): bags without the class in the middle are half as likely as bags of the same size with all the classes. -/
theorem C140_three_classes_refuted (bs a b c : ℕ) (h : a + b + c = bs) (hc : 0 < c) : ways 2 bs [(a : ℤ), b, c] = if b = 0 then 1 else 2 := by
  have hcnt : IsCounts bs [(a : ℤ), b, c] := ⟨by simp, by simp; omega⟩
  split
  · next hb =>
    subst hb
    rw [ways_eq 2 bs _ hcnt rfl, Finset.card_eq_one]
    refine ⟨fun _ => ⟨a, by omega⟩, ?_⟩
    ext d
    rw [Finset.mem_singleton, Finset.mem_filter]
    constructor
    · rintro ⟨-, hp⟩
      funext i
      have := hp.mem_iff.1 ((List.mem_ofFn' _ _).2 ⟨i, rfl⟩)
      refine Fin.ext ?_
      simp [endsFrom] at this
      exact this
    · rintro rfl
      simp [List.ofFn_succ, endsFrom]
  · next hb => exact C140_equally_likely_partial 2 bs _ hcnt rfl (by simp; omega)

/-- Every number of examples of each class with at least one example of the last class can be drawn. -/
theorem C140_reachable_partial (m bs : ℕ) (counts : List ℤ) (hc : IsCounts bs counts) (hlen : counts.length = m + 1) (z : ℤ) (hz : counts.getLast? = some z) (hpos : 0 < z) :
    0 < ways m bs counts := by
  rw [ways_eq m bs counts hc hlen, Finset.card_pos]
  have hLlen : (endsFrom 0 counts).length = m := by rw [endsFrom_length, hlen, Nat.add_sub_cancel]
  have hlt : ∀ x ∈ endsFrom 0 counts, 0 ≤ x ∧ x < bs := by
    intro x hx
    have := endsFrom_le 0 counts hc.nonneg z hz x hx
    rw [hc.total] at this
    exact ⟨endsFrom_ge 0 counts hc.nonneg x hx, by omega⟩
  have hget : ∀ i : Fin m, 0 ≤ (endsFrom 0 counts)[(i : ℕ)]'(by rw [hLlen]; exact i.2) ∧ (endsFrom 0 counts)[(i : ℕ)]'(by rw [hLlen]; exact i.2) < bs := fun i => hlt _ (List.getElem_mem _)
  refine ⟨fun i => ⟨((endsFrom 0 counts)[(i : ℕ)]'(by rw [hLlen]; exact i.2)).toNat, by have := hget i; omega⟩, Finset.mem_filter.2 ⟨Finset.mem_univ _, List.Perm.of_eq ?_⟩⟩
  refine List.ext_getElem (by simp [hLlen]) fun i h1 h2 => ?_
  have := (hget ⟨i, by omega⟩).1
  simp at this ⊢
  exact this

section
variable {G α : Type*} [LinearOrder α]

/-- The prevalences of the bags of a call are those of its draws. -/
theorem uniform_draws (rng : Rng G) (fuel : ℕ) (s : PriorGen G) (hs : s.bags = none) (hm : s.method = .uniform) (hmin : s.minPrev = .none) (glob : G) (d : BagData α)
    (s' : PriorGen G) (glob' : G) (b : Bags) (h : priorGenerate rng fuel s glob d = some (s', glob', .ok b)) :
    ∃ g g', (s.rs = .obj g ∨ ∃ n, s.rs = .seed n ∧ g = rng.ofSeed n) ∧ uniformLoop rng d.y (labelsOf d.y) (s.bagSize.getD d.y.length) s.nBags none 0 (s.bagSize.getD d.y.length) fuel 0 g
      (zeroBags (labelsOf d.y).length (s.bagSize.getD d.y.length) s.nBags) = some (b, g', none) := by
  unfold priorGenerate at h
  rw [hs] at h
  simp only at h
  have core : ∀ (s0 : PriorGen G) (g : G), s0.minPrev = s.minPrev → s0.nBags = s.nBags → ∀ r, generateUniform rng fuel s0 (s.bagSize.getD d.y.length) g d = some r →
      (match r.2, r.1.bags with
        | some e, _ => (Except.error e : Except Err Bags)
        | none, some b => .ok b
        | none, none => .error .typeError) = .ok b →
      ∃ g', uniformLoop rng d.y (labelsOf d.y) (s.bagSize.getD d.y.length) s.nBags none 0 (s.bagSize.getD d.y.length) fuel 0 g
        (zeroBags (labelsOf d.y).length (s.bagSize.getD d.y.length) s.nBags) = some (b, g', none) := by
    intro s0 g hs1 hs2 r hgen hres
    unfold generateUniform at hgen
    rw [hs1, hs2, hmin] at hgen
    simp only [checkMinPrev, uniformBounds] at hgen
    cases hcx : checkXy d with
    | some e =>
      rw [hcx] at hgen
      simp only [Option.some.injEq] at hgen
      subst hgen
      simp at hres
    | none =>
      rw [hcx] at hgen
      simp only [npUnique_eq] at hgen
      cases hl : uniformLoop rng d.y (labelsOf d.y) (s.bagSize.getD d.y.length) s.nBags none 0 (s.bagSize.getD d.y.length) fuel 0 g (zeroBags (labelsOf d.y).length (s.bagSize.getD d.y.length) s.nBags) with
      | none => rw [hl] at hgen; simp at hgen
      | some t =>
        obtain ⟨bb, g', err⟩ := t
        rw [hl] at hgen
        simp only [Option.map_some, Option.some.injEq] at hgen
        subst hgen
        cases err with
        | some e => simp at hres
        | none =>
          simp only [Except.ok.injEq] at hres
          subst hres
          exact ⟨g', rfl⟩
  cases hrs : s.rs with
  | invalid => rw [hrs] at h; simp at h
  | seed n =>
    rw [hrs] at h
    simp only [hm] at h
    rw [Option.map_eq_some_iff] at h
    obtain ⟨r, hr1, hr2⟩ := h
    simp only [Prod.mk.injEq] at hr2
    obtain ⟨g', hg'⟩ := core _ _ (by exact rfl) (by exact rfl) r hr1 hr2.2.2
    exact ⟨_, g', .inr ⟨n, rfl, rfl⟩, hg'⟩
  | obj g =>
    rw [hrs] at h
    simp only [hm] at h
    rw [Option.map_eq_some_iff] at h
    obtain ⟨r, hr1, hr2⟩ := h
    simp only [Prod.mk.injEq] at hr2
    obtain ⟨g', hg'⟩ := core _ _ (by exact rfl) (by exact rfl) r hr1 hr2.2.2
    exact ⟨g, g', .inl rfl, hg'⟩

/-- **C140** (from the draws to the bag): a bag has the prevalences that its draws give. -/
theorem C140_one_bag (rng : Rng G) (fuel : ℕ) (s : PriorGen G) (hs : s.bags = none) (hm : s.method = .uniform) (hmin : s.minPrev = .none) (hn : s.nBags = 1) (g : G) (hg : s.rs = .obj g) (glob : G) (d : BagData α)
    (draws : List ℤ) (g1 : G) (hdraws : rng.randint g 0 (s.bagSize.getD d.y.length) ((labelsOf d.y).length - 1) = .ok (draws, g1)) (s' : PriorGen G) (glob' : G) (b : Bags)
    (h : priorGenerate rng fuel s glob d = some (s', glob', .ok b)) :
    b.prevs = [(kraemer draws (s.bagSize.getD d.y.length)).map fun n : ℤ => Fl.fin (n : ℝ) / Fl.fin ((s.bagSize.getD d.y.length : ℕ) : ℝ)] := by
  obtain ⟨g', g'', hg', hl⟩ := uniform_draws rng fuel s hs hm hmin glob d s' glob' b h
  obtain rfl : g' = g := by
    rcases hg' with h1 | ⟨n, h1, -⟩ <;> rw [hg] at h1 <;> cases h1
    rfl
  rw [hn] at hl
  cases fuel with
  | zero => simp [uniformLoop] at hl
  | succ fuel =>
    rw [uniformLoop] at hl
    simp only [Nat.lt_one_iff, if_true, hdraws, middleOk] at hl
    split at hl
    · simp at hl
    · rw [uniformLoop.eq_def] at hl
      simp at hl
      rw [← hl.1]
      simp [zeroBags]

/-- **C140, refuted**: whatever the random numbers, no bag is without examples of the last class. -/
theorem C140_last_class_refuted (rng : Rng G) (hr : RngOk rng) (fuel : ℕ) (s : PriorGen G) (hs : s.bags = none) (hm : s.method = .uniform) (hmin : s.minPrev = .none) (glob : G) (d : BagData α)
    (hd : 2 ≤ (labelsOf d.y).length) (hbs : 0 < s.bagSize.getD d.y.length) (s' : PriorGen G) (glob' : G) (b : Bags) (h : priorGenerate rng fuel s glob d = some (s', glob', .ok b)) :
    ∀ k < s.nBags, ∃ x : ℝ, 0 < x ∧ (b.prevs.getD k []).getLast? = some (Fl.fin x) := by
  obtain ⟨g, g', -, hl⟩ := uniform_draws rng fuel s hs hm hmin glob d s' glob' b h
  obtain ⟨z1, z2, z3⟩ := zeroBags_lengths (labelsOf d.y).length (s.bagSize.getD d.y.length) s.nBags
  refine (uniformLoop_spec rng d.y (labelsOf d.y) _ s.nBags none 0 _ (fun prevs _ => ∃ x : ℝ, 0 < x ∧ prevs.getLast? = some (Fl.fin x)) ?_ fuel 0 g g' _ b z1 z2 (by omega) (fun k _ hk => z3 k hk) hl).2.2
  intro g g1 g2 draws col col' hrand _ hcol hfill
  obtain ⟨hd1, hd2⟩ := hr.randint _ _ _ _ _ _ hrand
  have hrange : ∀ x ∈ draws, 0 ≤ x ∧ x ≤ ((s.bagSize.getD d.y.length : ℕ) : ℤ) := fun x hx => ⟨(hd2 x hx).1, (hd2 x hx).2.le⟩
  have hne : draws ≠ [] := by
    rintro rfl
    simp at hd1
    omega
  have hk : kraemer draws (s.bagSize.getD d.y.length) ≠ [] := by
    intro h
    have := (kraemer_spec draws _ hrange).1
    simp [h] at this
  obtain ⟨z, hz⟩ : ∃ z, (kraemer draws (s.bagSize.getD d.y.length)).getLast? = some z := by
    cases h : (kraemer draws (s.bagSize.getD d.y.length)).getLast? with
    | none => exact absurd (List.getLast?_eq_none_iff.1 h) hk
    | some z => exact ⟨z, rfl⟩
  have hzpos := kraemer_last draws _ _ hrange (fun x hx => (hd2 x hx).2) hne z hz
  have hz0 : (0 : ℝ) < z := by
    have : 0 < z := by omega
    exact_mod_cast this
  have hb0 : (0 : ℝ) < ((s.bagSize.getD d.y.length : ℕ) : ℝ) := by exact_mod_cast hbs
  refine ⟨z / ((s.bagSize.getD d.y.length : ℕ) : ℝ), div_pos hz0 hb0, ?_⟩
  rw [List.getLast?_map, hz]
  simp only [Option.map_some]
  rw [Fl.fin_div _ hb0.ne']

end

/-- Non-vacuity: bags of ten examples, three classes. -/
example : ways 2 10 [3, 0, 7] = 1 ∧ ways 2 10 [3, 2, 5] = 2 ∧ ways 2 10 [0, 2, 8] = 2 :=
  ⟨C140_three_classes_refuted 10 3 0 7 (by norm_num) (by norm_num), C140_three_classes_refuted 10 3 2 5 (by norm_num) (by norm_num), C140_three_classes_refuted 10 0 2 8 (by norm_num) (by norm_num)⟩

end Verif.Props
