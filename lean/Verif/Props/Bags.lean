import Verif.Proof.Bags
import Verif.Props.Baselines
import Mathlib.Data.Rat.Floor

/-!
# Bag generators: C37 - C42, C82
-/

namespace Verif.Props

open Verif.Model Verif.Spec Verif.Proof

variable {G α : Type*} [LinearOrder α]

/-- The prevalences of a nonempty bag are a valid prevalence vector. -/
theorem IsBag.prev {y : List α} {size : ℕ} {prevs : List Fl} {idx : List ℕ} (h : IsBag y size prevs idx) (hs : 0 < size) :
    ∃ v : Fin (labelsOf y).length → ℝ, IsPrev v ∧ prevs = List.ofFn fun j => Fl.fin (v j) := by
  obtain ⟨h1, ls, h2, h3⟩ := h
  have hlen : ls.length = size := by
    have := congrArg List.length h2
    simp only [List.length_map] at this
    omega
  have hsub : ∀ a ∈ ls, a ∈ labelsOf y := by
    intro a ha
    have : some a ∈ ls.map some := List.mem_map_of_mem ha
    rw [← h2, List.mem_map] at this
    obtain ⟨i, _, hi⟩ := this
    exact (mem_labelsOf' y a).2 (List.mem_of_getElem? hi)
  refine ⟨fun j => freq ls (labelsOf y)[j], ⟨fun j => div_nonneg (Nat.cast_nonneg _) (Nat.cast_nonneg _), ?_⟩, ?_⟩
  · unfold freq
    rw [← Finset.sum_div, div_eq_one_iff_eq (by rw [hlen]; exact_mod_cast hs.ne')]
    have := sum_count_of_subset (labelsOf y) (labelsOf_nodup' y) ls hsub
    exact_mod_cast this
  · rw [h3]
    apply List.ext_getElem <;> simp

/-! ## C37, C38 -/

/-- The bounds are inside the bag. -/
theorem uniformBounds_range (mp : MinPrev) (nc bs : ℕ) (hmp : checkMinPrev mp = none) (mins : Option (List ℤ)) (low high : ℤ)
    (h : uniformBounds mp nc bs = .ok (mins, low, high)) : 0 ≤ low ∧ high ≤ bs := by
  have hbs : (0:ℝ) ≤ bs := Nat.cast_nonneg bs
  unfold uniformBounds at h
  cases mp with
  | none =>
    simp only [Except.ok.injEq, Prod.mk.injEq] at h
    omega
  | scalar x =>
    simp only [checkMinPrev] at hmp
    have hx : 0 ≤ x ∧ x ≤ 1 := by
      by_contra hc
      rw [if_pos] at hmp
      · cases hmp
      · by_contra hd
        push Not at hd
        exact hc ⟨hd.2, hd.1⟩
    simp only at h
    split_ifs at h with h2
    · simp only [Except.ok.injEq, Prod.mk.injEq] at h
      obtain ⟨-, rfl, rfl⟩ := h
      refine ⟨roundHalfEven_nonneg (mul_nonneg hbs hx.1), ?_⟩
      have : (⌊(bs : ℝ) * (1 - x)⌋ : ℝ) ≤ bs := (Int.floor_le _).trans (by nlinarith)
      exact_mod_cast this
    · simp only [Except.ok.injEq, Prod.mk.injEq] at h
      obtain ⟨-, rfl, rfl⟩ := h
      have := roundHalfEven_nonneg (mul_nonneg hx.1 hbs)
      omega
  | vec l =>
    have hx : ∀ x ∈ l, 0 ≤ x := by
      simp only [checkMinPrev] at hmp
      split_ifs at hmp with h1 h2
      intro x hx
      by_contra hc
      exact h2 ⟨x, hx, not_le.1 hc⟩
    simp only at h
    split_ifs at h with h2
    · cases h0 : l[0]? with
      | none => rw [h0] at h; simp at h
      | some x0 =>
        cases h1 : l[1]? with
        | none => rw [h0, h1] at h; simp at h
        | some x1 =>
          rw [h0, h1] at h
          simp only [Except.ok.injEq, Prod.mk.injEq] at h
          obtain ⟨-, rfl, rfl⟩ := h
          have k0 := hx x0 (List.mem_of_getElem? h0)
          have k1 := hx x1 (List.mem_of_getElem? h1)
          refine ⟨roundHalfEven_nonneg (mul_nonneg hbs k0), ?_⟩
          have : (⌊(bs : ℝ) * (1 - x1)⌋ : ℝ) ≤ bs := (Int.floor_le _).trans (by nlinarith)
          exact_mod_cast this
    · have hm : ∀ m ∈ l.map (fun x => roundHalfEven (x * bs)), 0 ≤ m := by
        intro m hm
        rw [List.mem_map] at hm
        obtain ⟨x, hxl, rfl⟩ := hm
        exact roundHalfEven_nonneg (mul_nonneg (hx x hxl) hbs)
      cases h0 : (l.map fun x => roundHalfEven (x * bs)).head? with
      | none => rw [h0] at h; simp at h
      | some a =>
        cases h1 : (l.map fun x => roundHalfEven (x * bs)).getLast? with
        | none => rw [h0, h1] at h; simp at h
        | some b =>
          rw [h0, h1] at h
          simp only [Except.ok.injEq, Prod.mk.injEq] at h
          obtain ⟨-, rfl, rfl⟩ := h
          have k0 := hm a (List.mem_of_mem_head? (by rw [h0]; rfl))
          have k1 := hm b (List.mem_of_mem_getLast? (by rw [h1]; rfl))
          omega

/-- The minimum prevalence asked for the class at position `j`. -/
noncomputable def minFor : MinPrev → ℕ → ℝ
  | .none, _ => 0
  | .scalar x, _ => x
  | .vec l, j => l.getD j 0

/-- Number of minima given, if they are given per class. -/
def minCount (nc : ℕ) : MinPrev → ℕ
  | .vec l => l.length
  | _ => nc

/-- Every accepted combination meets the minima. -/
theorem kraemer_min (mp : MinPrev) (nc bs : ℕ) (hmp : checkMinPrev mp = none) (hlenm : minCount nc mp = nc) (hnc : 0 < nc) (mins : Option (List ℤ)) (low high : ℤ)
    (h : uniformBounds mp nc bs = .ok (mins, low, high)) (draws : List ℤ) (hd : draws.length = nc - 1) (hr : ∀ x ∈ draws, low ≤ x ∧ x < high)
    (hm : middleOk (kraemer draws bs) mins = true) (j : ℕ) (hj : j < nc) (n : ℤ) (hn : (kraemer draws bs)[j]? = some n) :
    roundHalfEven ((bs : ℝ) * minFor mp j) ≤ n := by
  have hbs : (0:ℝ) ≤ bs := Nat.cast_nonneg bs
  obtain ⟨hlo, hhi⟩ := uniformBounds_range mp nc bs hmp mins low high h
  have hrange : ∀ x ∈ draws, 0 ≤ x ∧ x ≤ (bs : ℤ) := fun x hx => ⟨by have := hr x hx; omega, by have := hr x hx; omega⟩
  obtain ⟨klen, knn, ksum⟩ := kraemer_spec draws bs hrange
  have hn0 : 0 ≤ n := knn n (List.mem_of_getElem? hn)
  have hn0' : (0:ℝ) ≤ n := by exact_mod_cast hn0
  have below : ∀ z : ℝ, z ≤ n → roundHalfEven z ≤ n := by
    intro z hz
    have := (roundHalfEven_bounds z).2
    have h1 : (roundHalfEven z : ℝ) < n + 1 := by linarith
    have h2 : roundHalfEven z < n + 1 := by exact_mod_cast h1
    omega
  -- the only class of a one-class problem gets everything
  have one : nc = 1 → n = bs := by
    intro h1
    have hd0 : draws = [] := List.length_eq_zero_iff.1 (by omega)
    have hl1 : (kraemer draws bs).length = 1 := by rw [klen, hd0]; rfl
    obtain ⟨a, ha⟩ := List.length_eq_one_iff.1 hl1
    rw [ha] at hn ksum
    have hj0 : j = 0 := by omega
    subst hj0
    simp at hn ksum
    omega
  -- first, last and middle classes
  have first : 1 < nc → j = 0 → low ≤ n := by
    intro h1 h0
    subst h0
    refine kraemer_head draws bs low hrange (fun x hx => (hr x hx).1) ?_ n (by rw [List.head?_eq_getElem?]; exact hn)
    intro he; rw [he] at hd; simp at hd; omega
  have last : 1 < nc → j = nc - 1 → (bs : ℤ) - high < n := by
    intro h1 h0
    refine kraemer_last draws bs high hrange (fun x hx => (hr x hx).2) ?_ n ?_
    · intro he; rw [he] at hd; simp at hd; omega
    · rw [List.getLast?_eq_getElem?, klen, hd, ← hn, h0]
      rfl
  have middle : ∀ ms, mins = some ms → ms.length = nc → 0 < j → j < nc - 1 → ∀ m, ms[j]? = some m → m ≤ n := by
    intro ms h1 h2 h3 h4 m h5
    rw [h1] at hm
    unfold middleOk at hm
    rw [List.all_eq_true] at hm
    have hk1 : ((kraemer draws bs).drop 1).dropLast[j - 1]? = some n := by
      rw [List.getElem?_dropLast, if_pos (by rw [List.length_drop, klen]; omega), List.getElem?_drop, ← hn]
      congr 1
      omega
    have hk2 : (ms.drop 1).dropLast[j - 1]? = some m := by
      rw [List.getElem?_dropLast, if_pos (by rw [List.length_drop, h2]; omega), List.getElem?_drop, ← h5]
      congr 1
      omega
    have hmem : (n, m) ∈ ((kraemer draws bs).drop 1).dropLast.zip (ms.drop 1).dropLast := by
      apply List.mem_of_getElem? (i := j - 1)
      rw [List.getElem?_zip_eq_some]
      exact ⟨hk1, hk2⟩
    have := hm _ hmem
    simpa using this
  unfold uniformBounds at h
  cases mp with
  | none => simp only [minFor, mul_zero]; exact below 0 hn0'
  | scalar x =>
    simp only [minFor]
    simp only at h
    have hx : x ≤ 1 := by
      simp only [checkMinPrev] at hmp
      by_contra hc
      rw [if_pos (Or.inl (not_le.1 hc))] at hmp
      cases hmp
    split_ifs at h with h2
    · simp only [Except.ok.injEq, Prod.mk.injEq] at h
      obtain ⟨-, rfl, rfl⟩ := h
      by_cases hj0 : j = 0
      · exact first (by omega) hj0
      · have h3 := last (by omega) (by omega)
        have h4 : ((bs : ℤ) : ℝ) - (⌊(bs : ℝ) * (1 - x)⌋ : ℝ) < n := by exact_mod_cast h3
        have h5 := Int.floor_le ((bs : ℝ) * (1 - x))
        push_cast at h4
        exact below _ (by nlinarith)
    · simp only [Except.ok.injEq, Prod.mk.injEq] at h
      obtain ⟨h6, h7, h8⟩ := h
      by_cases h1 : nc = 1
      · have := one h1
        have h9 : (n : ℝ) = bs := by rw [this]; push_cast; rfl
        exact below _ (by rw [h9]; nlinarith)
      · have hge : roundHalfEven (x * bs) ≤ n := by
          by_cases hj0 : j = 0
          · rw [h7]; exact first (by omega) hj0
          · by_cases hj1 : j = nc - 1
            · have := last (by omega) hj1
              omega
            · refine middle _ h6.symm (by simp) (by omega) (by omega) _ ?_
              rw [List.getElem?_replicate, if_pos hj]
        rwa [mul_comm] at hge
  | vec l =>
    simp only [minFor]
    simp only [minCount] at hlenm
    simp only at h
    have hjl : j < l.length := by omega
    rw [show l.getD j 0 = l[j] by simp [List.getD, hjl]]
    have hsum : l[j] ≤ 1 := by
      simp only [checkMinPrev] at hmp
      split_ifs at hmp with h1 h2
      push Not at h1
      refine le_trans ?_ h1
      refine List.single_le_sum (fun x hx => ?_) _ (List.getElem_mem hjl)
      by_contra hc
      exact h2 ⟨x, hx, not_le.1 hc⟩
    split_ifs at h with h2
    · have hl2 : l.length = 2 := by omega
      obtain ⟨x0, x1, rfl⟩ := List.length_eq_two.1 hl2
      simp only [List.getElem?_cons_zero, List.getElem?_cons_succ, Except.ok.injEq, Prod.mk.injEq] at h
      obtain ⟨-, rfl, rfl⟩ := h
      have hj2 : j = 0 ∨ j = 1 := by omega
      rcases hj2 with rfl | rfl
      · exact first (by omega) rfl
      · have h3 := last (by omega) (by omega)
        have h4 : ((bs : ℤ) : ℝ) - (⌊(bs : ℝ) * (1 - x1)⌋ : ℝ) < n := by exact_mod_cast h3
        have h5 := Int.floor_le ((bs : ℝ) * (1 - x1))
        push_cast at h4
        simp only [List.getElem_cons_succ, List.getElem_cons_zero]
        exact below _ (by nlinarith)
    · by_cases h1 : nc = 1
      · have := one h1
        have h9 : (n : ℝ) = bs := by rw [this]; push_cast; rfl
        exact below _ (by rw [h9]; nlinarith)
      · have hhead : (l.map fun x => roundHalfEven (x * bs)).head? = some (roundHalfEven (l[0] * bs)) := by
          rw [List.head?_eq_getElem?, List.getElem?_map, List.getElem?_eq_getElem (by omega)]; rfl
        have hlast : (l.map fun x => roundHalfEven (x * bs)).getLast? = some (roundHalfEven ((l[nc - 1]'(by omega)) * bs)) := by
          rw [List.getLast?_eq_getElem?, List.getElem?_map, List.length_map, List.getElem?_eq_getElem (by omega)]; simp [hlenm]
        rw [hhead, hlast] at h
        simp only [Except.ok.injEq, Prod.mk.injEq] at h
        obtain ⟨h6, h7, h8⟩ := h
        have hge : roundHalfEven (l[j] * bs) ≤ n := by
          by_cases hj0 : j = 0
          · subst hj0; rw [h7]; exact first (by omega) rfl
          · by_cases hj1 : j = nc - 1
            · have := last (by omega) hj1
              subst hj1
              omega
            · refine middle _ h6.symm (by simp [hlenm]) (by omega) (by omega) _ ?_
              rw [List.getElem?_map, List.getElem?_eq_getElem hjl]; rfl
        rwa [mul_comm] at hge

/-- Everything about the bags of the uniform method. -/
theorem uniform_bags (rng : Rng G) (hr : RngOk rng) (fuel : ℕ) (s : PriorGen G) (hs : s.bags = none) (hmeth : s.method = .uniform) (glob : G) (d : BagData α)
    (hy : d.y ≠ []) (bs : ℕ) (hbs : bs = s.bagSize.getD d.y.length) (hbs0 : 0 < bs) (s' : PriorGen G) (glob' : G) (b : Bags)
    (h : priorGenerate rng fuel s glob d = some (s', glob', .ok b)) :
    AreBags d.y bs s.nBags b ∧ (minCount (labelsOf d.y).length s.minPrev = (labelsOf d.y).length →
      ∀ k < s.nBags, ∀ j (hj : j < (labelsOf d.y).length), roundHalfEven ((bs : ℝ) * minFor s.minPrev j) ≤ bagCount d.y (b.idx.getD k []) (labelsOf d.y)[j]) := by
  unfold priorGenerate at h
  rw [hs] at h
  simp only at h
  have hnc := npUnique_ne_nil hy
  -- the generator
  have core : ∀ (s0 : PriorGen G) (g : G), s0.minPrev = s.minPrev → s0.nBags = s.nBags → ∀ r, generateUniform rng fuel s0 bs g d = some r →
      (match r.2, r.1.bags with
        | some e, _ => (Except.error e : Except Err Bags)
        | none, some b => .ok b
        | none, none => .error .typeError) = .ok b →
      AreBags d.y bs s.nBags b ∧ (minCount (labelsOf d.y).length s.minPrev = (labelsOf d.y).length →
        ∀ k < s.nBags, ∀ j (hj : j < (labelsOf d.y).length), roundHalfEven ((bs : ℝ) * minFor s.minPrev j) ≤ bagCount d.y (b.idx.getD k []) (labelsOf d.y)[j]) := by
    intro s0 g hs1 hs2 r hgen hres
    unfold generateUniform at hgen
    rw [hs1, hs2] at hgen
    cases hcm : checkMinPrev s.minPrev with
    | some e =>
      rw [hcm] at hgen
      simp only [Option.some.injEq] at hgen
      subst hgen
      simp at hres
    | none =>
      rw [hcm] at hgen
      simp only at hgen
      cases hcx : checkXy d with
      | some e =>
        rw [hcx] at hgen
        simp only [Option.some.injEq] at hgen
        subst hgen
        simp at hres
      | none =>
        rw [hcx] at hgen
        simp only at hgen
        cases hub : uniformBounds s.minPrev (npUnique d.y).length bs with
        | error e =>
          rw [hub] at hgen
          simp only [Option.some.injEq] at hgen
          subst hgen
          simp at hres
        | ok r3 =>
          obtain ⟨mins, low, high⟩ := r3
          rw [hub] at hgen
          simp only at hgen
          rw [npUnique_eq] at hub hgen
          obtain ⟨hlo, hhi⟩ := uniformBounds_range _ _ _ hcm _ _ _ hub
          cases hl : uniformLoop rng d.y (labelsOf d.y) bs s.nBags mins low high fuel 0 g (zeroBags (labelsOf d.y).length bs s.nBags) with
          | none => rw [hl] at hgen; simp at hgen
          | some t =>
            obtain ⟨bb, g', err⟩ := t
            rw [hl] at hgen
            simp only [Option.map_some, Option.some.injEq] at hgen
            subst hgen
            cases err with
            | some e => simp at hres
            | none =>
              simp only [Except.ok.injEq] at hres
              subst hres
              obtain ⟨z1, z2, z3⟩ := zeroBags_lengths (labelsOf d.y).length bs s.nBags
              set P : List Fl → List ℕ → Prop := fun prevs idx => IsBag d.y bs prevs idx ∧ (minCount (labelsOf d.y).length s.minPrev = (labelsOf d.y).length →
                  ∀ j (hj : j < (labelsOf d.y).length), roundHalfEven ((bs : ℝ) * minFor s.minPrev j) ≤ bagCount d.y idx (labelsOf d.y)[j]) with hPdef
              suffices hP : ∀ g g1 g2 draws col col', rng.randint g low high ((labelsOf d.y).length - 1) = .ok (draws, g1) →
                  middleOk (kraemer draws bs) mins = true → col.length = bs →
                  fillClasses rng d.y ((labelsOf d.y).zip (kraemer draws bs)) g1 col 0 = (col', g2, none) →
                  P ((kraemer draws bs).map fun n : ℤ => Fl.fin (n : ℝ) / Fl.fin (bs : ℝ)) col' by
                obtain ⟨f1, f2, f3⟩ := uniformLoop_spec rng d.y (labelsOf d.y) bs s.nBags mins low high P hP
                  fuel 0 g g' _ bb z1 z2 (by omega) (fun k _ hk => z3 k hk) hl
                exact ⟨⟨f1, f2, fun k hk => (f3 k hk).1⟩, fun hmc k hk => (f3 k hk).2 hmc⟩
              intro g g1 g2 draws col col' hrand hmid hcol hfill
              obtain ⟨hd1, hd2⟩ := hr.randint _ _ _ _ _ _ hrand
              have hrange : ∀ x ∈ draws, 0 ≤ x ∧ x ≤ (bs : ℤ) := fun x hx => ⟨by have := hd2 x hx; omega, by have := hd2 x hx; omega⟩
              obtain ⟨klen, knn, ksum⟩ := kraemer_spec draws bs hrange
              have klen' : (kraemer draws bs).length = (labelsOf d.y).length := by rw [klen, hd1]; omega
              obtain ⟨q1, q2⟩ := isBag_of_fill rng hr d.y _ knn klen' bs hbs0 ksum g1 g2 col col' hcol hfill
              refine ⟨q1, fun hmc j hj => ?_⟩
              have := kraemer_min s.minPrev (labelsOf d.y).length bs hcm hmc hnc mins low high hub draws hd1 hd2 hmid j hj
                ((kraemer draws bs)[j]'(by omega)) (List.getElem?_eq_getElem (by omega))
              rw [← q2 j hj] at this
              exact_mod_cast this
  cases hrs : s.rs with
  | invalid => rw [hrs] at h; simp at h
  | seed n =>
    rw [hrs] at h
    simp only [hmeth, ← hbs] at h
    rw [Option.map_eq_some_iff] at h
    obtain ⟨r, hr1, hr2⟩ := h
    simp only [Prod.mk.injEq] at hr2
    exact core _ _ (by exact rfl) (by exact rfl) r hr1 hr2.2.2
  | obj g =>
    rw [hrs] at h
    simp only [hmeth, ← hbs] at h
    rw [Option.map_eq_some_iff] at h
    obtain ⟨r, hr1, hr2⟩ := h
    simp only [Prod.mk.injEq] at hr2
    exact core _ _ (by exact rfl) (by exact rfl) r hr1 hr2.2.2

/-- Everything about the bags of the Dirichlet method. -/
theorem dirichlet_bags (rng : Rng G) (hr : RngOk rng) (fuel : ℕ) (s : PriorGen G) (hs : s.bags = none) (hmeth : s.method = .dirichlet) (glob : G) (d : BagData α)
    (hy : d.y ≠ []) (bs : ℕ) (hbs : bs = s.bagSize.getD d.y.length) (hbs0 : 0 < bs) (s' : PriorGen G) (glob' : G) (b : Bags)
    (h : priorGenerate rng fuel s glob d = some (s', glob', .ok b)) : AreBags d.y bs s.nBags b := by
  unfold priorGenerate at h
  rw [hs] at h
  simp only at h
  have hnc := npUnique_ne_nil hy
  have core : ∀ (s0 : PriorGen G) (g : G), s0.nBags = s.nBags → ∀ r, generateDirichlet rng s0 bs g glob d = r →
      (match r.2.2, r.1.bags with
        | some e, _ => (Except.error e : Except Err Bags)
        | none, some b => .ok b
        | none, none => .error .typeError) = .ok b →
      AreBags d.y bs s.nBags b := by
    intro s0 g hs2 r hgen hres
    unfold generateDirichlet at hgen
    cases hcx : checkXy d with
    | some e =>
      rw [hcx] at hgen
      simp only at hgen
      subst hgen
      simp at hres
    | none =>
      rw [hcx] at hgen
      simp only at hgen
      -- from the alphas on
      have rest : ∀ al : List ℝ, al.length = (labelsOf d.y).length →
          (match rng.dirichlet glob al s0.nBags with
            | .error e => (({ s0 with alphas := .vec al } : PriorGen G), glob, some e)
            | .ok (draws, glob) =>
              ({ s0 with alphas := .vec al, bags := some (dirichletLoop rng d.y (npUnique d.y) bs draws 0 g ⟨draws.map fun r => r.map Fl.fin, List.replicate s0.nBags (List.replicate bs 0)⟩).1, rs := .obj (dirichletLoop rng d.y (npUnique d.y) bs draws 0 g ⟨draws.map fun r => r.map Fl.fin, List.replicate s0.nBags (List.replicate bs 0)⟩).2.1 }, glob,
                (dirichletLoop rng d.y (npUnique d.y) bs draws 0 g ⟨draws.map fun r => r.map Fl.fin, List.replicate s0.nBags (List.replicate bs 0)⟩).2.2)) = r →
          AreBags d.y bs s.nBags b := by
        intro al hal hgen
        cases hdir : rng.dirichlet glob al s0.nBags with
        | error e =>
          rw [hdir] at hgen
          simp only at hgen
          subst hgen
          simp at hres
        | ok t =>
          obtain ⟨draws, glob2⟩ := t
          rw [hdir] at hgen
          simp only at hgen
          obtain ⟨hd1, hd2⟩ := hr.dirichlet _ _ _ _ _ hdir
          rw [npUnique_eq] at hgen
          cases hl : dirichletLoop rng d.y (labelsOf d.y) bs draws 0 g ⟨draws.map fun r => r.map Fl.fin, List.replicate s0.nBags (List.replicate bs 0)⟩ with
          | mk bb t =>
            obtain ⟨g', err⟩ := t
            rw [hl] at hgen
            simp only at hgen
            subst hgen
            cases err with
            | some e => simp at hres
            | none =>
              simp only [Except.ok.injEq] at hres
              subst hres
              refine dirichletLoop_spec rng d.y (labelsOf d.y) bs draws (IsBag d.y bs) ?_ 0 g g' _ bb s.nBags (by omega) (by simp; omega) (by simp; omega)
                (by omega) ?_ hl
              · intro g g2 draw col col' hmem hcol hfill
                obtain ⟨e1, e2, e3⟩ := hd2 draw hmem
                have hne : draw ≠ [] := by intro he; rw [he] at e1; simp at e1; omega
                obtain ⟨c1, c2, c3⟩ := dirichletCounts_spec bs draw hne e2 0 (by omega)
                exact (isBag_of_fill rng hr d.y _ c2 (by omega) bs hbs0 (by rw [c3]; simp) g g2 col col' hcol hfill).1
              · intro k _ hk
                simp [List.getD, hs2, hk]
      cases hal : s0.alphas with
      | none =>
        rw [hal] at hgen
        simp only at hgen
        subst hgen
        simp at hres
      | scalar x =>
        rw [hal] at hgen
        simp only at hgen
        exact rest (List.replicate (npUnique d.y).length x) (by simp [npUnique_eq]) hgen
      | vec l =>
        rw [hal] at hgen
        simp only at hgen
        by_cases hlen : l.length = (npUnique d.y).length
        · rw [if_pos hlen] at hgen
          simp only at hgen
          exact rest l hlen hgen
        · rw [if_neg hlen] at hgen
          simp only at hgen
          subst hgen
          simp at hres
  cases hrs : s.rs with
  | invalid => rw [hrs] at h; simp at h
  | seed n =>
    rw [hrs] at h
    simp only [hmeth, ← hbs, Option.some.injEq, Prod.mk.injEq] at h
    exact core ({ s with rs := .obj _, bagSize := some bs, method := .dirichlet, bags := none } : PriorGen G) _ (by exact rfl) _ (by exact rfl) h.2.2
  | obj g =>
    rw [hrs] at h
    simp only [hmeth, ← hbs, Option.some.injEq, Prod.mk.injEq] at h
    exact core ({ s with rs := .obj _, bagSize := some bs, method := .dirichlet, bags := none } : PriorGen G) _ (by exact rfl) _ (by exact rfl) h.2.2

/-- **C37**. For every data set, both methods, every random stream: if a new `PriorShift_BagGenerator` returns, it
returns `n_bags` bags of `bag_size` valid indexes whose reported prevalences are the class frequencies of the
indexed labels, and form a valid prevalence vector. -/
theorem C37_prior_shift_bags (rng : Rng G) (hr : RngOk rng) (fuel : ℕ) (s : PriorGen G) (hs : s.bags = none) (glob : G) (d : BagData α)
    (hy : d.y ≠ []) (hbs : 0 < s.bagSize.getD d.y.length) (s' : PriorGen G) (glob' : G) (b : Bags)
    (h : priorGenerate rng fuel s glob d = some (s', glob', .ok b)) :
    AreBags d.y (s.bagSize.getD d.y.length) s.nBags b ∧
    ∀ k < s.nBags, ∃ v : Fin (labelsOf d.y).length → ℝ, IsPrev v ∧ b.prevs.getD k [] = List.ofFn fun j => Fl.fin (v j) := by
  have hb : AreBags d.y (s.bagSize.getD d.y.length) s.nBags b := by
    cases hm : s.method with
    | uniform => exact (uniform_bags rng hr fuel s hs hm glob d hy _ rfl hbs s' glob' b h).1
    | dirichlet => exact dirichlet_bags rng hr fuel s hs hm glob d hy _ rfl hbs s' glob' b h
    | other =>
      unfold priorGenerate at h
      rw [hs] at h
      simp only [hm] at h
      cases hrs : s.rs <;> rw [hrs] at h <;> simp at h
  exact ⟨hb, fun k hk => IsBag.prev (hb.2.2 k hk) hbs⟩

/-- The model's rounding is rounding to the nearest integer, ties to even. -/
theorem roundHalfEven_isRounded (x : ℝ) : IsRounded x (roundHalfEven x) := by
  have h1 := Int.floor_le x
  have h2 := Int.lt_floor_add_one x
  unfold IsRounded roundHalfEven
  split_ifs with a b c
  · refine ⟨abs_le.2 ⟨by linarith, by linarith⟩, fun h => ?_⟩
    rw [abs_of_nonneg (by linarith)] at h
    linarith
  · push_cast
    refine ⟨abs_le.2 ⟨by linarith, by linarith⟩, fun h => ?_⟩
    rw [abs_of_nonpos (by linarith)] at h
    linarith
  · have : x - ⌊x⌋ = 1/2 := by linarith
    rw [this]
    exact ⟨by rw [abs_of_pos] <;> norm_num, fun _ => c⟩
  · have : x - ⌊x⌋ = 1/2 := by linarith
    push_cast
    refine ⟨abs_le.2 ⟨by linarith, by linarith⟩, fun _ => ?_⟩
    exact Int.even_add_one.2 c

theorem isRounded_unique {x : ℝ} {m n : ℤ} (hm : IsRounded x m) (hn : IsRounded x n) : m = n := by
  by_contra hne
  obtain ⟨h1, h2⟩ := hm
  obtain ⟨h3, h4⟩ := hn
  have b1 := abs_le.1 h1
  have b2 := abs_le.1 h3
  have d1 : (m : ℝ) - n ≤ 1 := by linarith
  have d2 : (n : ℝ) - m ≤ 1 := by linarith
  have d1' : m - n ≤ 1 := by exact_mod_cast d1
  have d2' : n - m ≤ 1 := by exact_mod_cast d2
  rcases lt_or_gt_of_ne hne with hlt | hlt
  · have he : n = m + 1 := by omega
    subst he
    push_cast at *
    have e1 := h2 (by rw [abs_of_nonneg (by linarith)]; linarith)
    have e2 := h4 (by rw [abs_of_nonpos (by linarith)]; linarith)
    exact Int.even_add_one.1 e2 e1
  · have he : m = n + 1 := by omega
    subst he
    push_cast at *
    have e1 := h4 (by rw [abs_of_nonneg (by linarith)]; linarith)
    have e2 := h2 (by rw [abs_of_nonpos (by linarith)]; linarith)
    exact Int.even_add_one.1 e2 e1

/-- **C38**. With the uniform method and a minimum prevalence, common to all classes or one per class, every class
has in every bag at least `round(min_prevalence * bag_size)` examples, so at least `min_prevalence * bag_size - 1/2`. -/
theorem C38_min_prevalence (rng : Rng G) (hr : RngOk rng) (fuel : ℕ) (s : PriorGen G) (hs : s.bags = none) (hm : s.method = .uniform) (glob : G) (d : BagData α)
    (hy : d.y ≠ []) (hbs : 0 < s.bagSize.getD d.y.length) (s' : PriorGen G) (glob' : G) (b : Bags)
    (h : priorGenerate rng fuel s glob d = some (s', glob', .ok b))
    (p : Fin (labelsOf d.y).length → ℝ) (hp : (∃ x, s.minPrev = .scalar x ∧ p = fun _ => x) ∨ s.minPrev = .vec (List.ofFn p)) :
    ∀ k < s.nBags, ∀ j, (∀ m : ℤ, IsRounded ((s.bagSize.getD d.y.length : ℝ) * p j) m → m ≤ bagCount d.y (b.idx.getD k []) (labelsOf d.y)[j])
      ∧ (s.bagSize.getD d.y.length : ℝ) * p j - 1/2 ≤ bagCount d.y (b.idx.getD k []) (labelsOf d.y)[j] := by
  intro k hk j
  have hround : roundHalfEven ((s.bagSize.getD d.y.length : ℝ) * p j) ≤ bagCount d.y (b.idx.getD k []) (labelsOf d.y)[j] := by
    have := (uniform_bags rng hr fuel s hs hm glob d hy _ rfl hbs s' glob' b h).2
    rcases hp with ⟨x, h1, h2⟩ | h1
    · rw [h1] at this
      have := this rfl k hk j j.2
      simp only [minFor] at this
      rw [h2]
      exact this
    · rw [h1] at this
      have := this (by simp [minCount]) k hk j j.2
      simp only [minFor] at this
      simpa [List.getD] using this
  refine ⟨fun m hm => ?_, ?_⟩
  · rw [isRounded_unique hm (roundHalfEven_isRounded _)]
    exact hround
  · have h1 := (roundHalfEven_bounds ((s.bagSize.getD d.y.length : ℝ) * p j)).1
    have h2 : ((roundHalfEven ((s.bagSize.getD d.y.length : ℝ) * p j) : ℤ) : ℝ) ≤ (bagCount d.y (b.idx.getD k []) (labelsOf d.y)[j] : ℝ) := by exact_mod_cast hround
    linarith

/-! ## Termination: C82 -/

theorem fillClasses_total (rng : Rng G) (ht : RngTotal rng) (y : List α) (cs : List (α × ℤ)) (h0 : ∀ t ∈ cs, 0 ≤ t.2) (hy : ∀ t ∈ cs, t.1 ∈ y) (g : G)
    (col : List ℕ) (pos : ℕ) : ∃ col' g', fillClasses rng y cs g col pos = (col', g', none) := by
  induction cs generalizing g col pos with
  | nil => exact ⟨col, g, rfl⟩
  | cons t cs ih =>
    obtain ⟨c, n⟩ := t
    have ih' := ih (fun t ht => h0 t (List.mem_cons_of_mem _ ht)) (fun t ht => hy t (List.mem_cons_of_mem _ ht))
    unfold fillClasses
    split_ifs with hn
    · have hne : whereEq y c ≠ [] := by
        obtain ⟨i, hi⟩ := List.getElem?_of_mem (hy (c, n) (by simp))
        exact List.ne_nil_of_mem ((mem_whereEq y c i).2 hi)
      obtain ⟨⟨xs, g1⟩, hc⟩ := ht.choice g _ n hne (h0 (c, n) (by simp))
      rw [hc]
      exact ih' _ _ _
    · exact ih' _ _ _

/-- **C82, partial**: without minimum prevalences, a generator that only raises when it must, and enough iterations
(one per bag), the uniform method returns bags. -/
theorem C82_uniform_returns_partial (rng : Rng G) (hr : RngOk rng) (ht : RngTotal rng) (fuel : ℕ) (s : PriorGen G) (hs : s.bags = none) (hm : s.method = .uniform)
    (hmin : s.minPrev = .none) (hrs : s.rs ≠ .invalid) (hfuel : s.nBags ≤ fuel) (glob : G) (d : BagData α) (hy : d.y ≠ []) (hx : d.lenX = none ∨ d.lenX = some d.y.length)
    (hbs : 0 < s.bagSize.getD d.y.length) : ∃ s' b, priorGenerate rng fuel s glob d = some (s', glob, .ok b) := by
  set bs := s.bagSize.getD d.y.length with hbsd
  have hnc := npUnique_ne_nil hy
  have hxy : checkXy d = none := by
    unfold checkXy
    rcases hx with h | h
    · rw [h]
    · rw [h]
      exact if_pos ⟨rfl, fun h0 => hy (List.length_eq_zero_iff.1 h0)⟩
  -- the loop ends
  have loop : ∀ fuel nBag g b, s.nBags ≤ nBag + fuel → ∃ b' g', uniformLoop rng d.y (labelsOf d.y) bs s.nBags none 0 bs fuel nBag g b = some (b', g', none) := by
    intro fuel
    induction fuel with
    | zero =>
      intro nBag g b h
      unfold uniformLoop
      rw [if_neg (by omega)]
      exact ⟨b, g, rfl⟩
    | succ fuel ih =>
      intro nBag g b h
      unfold uniformLoop
      split_ifs with hlt
      · simp only
        obtain ⟨⟨draws, g1⟩, hd⟩ := (ht.randint g 0 bs ((labelsOf d.y).length - 1)).2 (Or.inl (by exact_mod_cast hbs))
        rw [hd]
        simp only [middleOk, if_true]
        obtain ⟨hd1, hd2⟩ := hr.randint _ _ _ _ _ _ hd
        obtain ⟨klen, knn, -⟩ := kraemer_spec draws bs (fun x hx => ⟨(hd2 x hx).1, (hd2 x hx).2.le⟩)
        obtain ⟨col, g2, hf⟩ := fillClasses_total rng ht d.y ((labelsOf d.y).zip (kraemer draws bs)) (fun t ht => knn _ (List.of_mem_zip ht).2)
          (fun t ht => (mem_labelsOf' _ _).1 (List.of_mem_zip ht).1) g1 (b.idx.getD nBag []) 0
        rw [hf]
        exact ih _ _ _ (by omega)
      · exact ⟨b, g, rfl⟩
  have core : ∀ (s0 : PriorGen G) (g : G), s0.minPrev = .none → s0.nBags = s.nBags →
      ∃ r b, generateUniform rng fuel s0 bs g d = some (r, none) ∧ r.bags = some b := by
    intro s0 g h1 h2
    unfold generateUniform
    rw [h1]
    simp only [checkMinPrev, hxy, uniformBounds, npUnique_eq, h2]
    obtain ⟨b', g', hl⟩ := loop fuel 0 g (zeroBags (labelsOf d.y).length bs s.nBags) (by omega)
    rw [hl]
    exact ⟨_, b', rfl, rfl⟩
  unfold priorGenerate
  rw [hs]
  simp only
  cases hrs' : s.rs with
  | invalid => exact absurd hrs' hrs
  | seed n =>
    simp only [hm, ← hbsd]
    obtain ⟨r, b, h1, h2⟩ := core ({ s with rs := .obj (rng.ofSeed n), bagSize := some bs, method := .uniform, bags := none } : PriorGen G) (rng.ofSeed n) hmin rfl
    rw [h1]
    exact ⟨r, b, by simp [h2]⟩
  | obj g =>
    simp only [hm, ← hbsd]
    obtain ⟨r, b, h1, h2⟩ := core ({ s with rs := .obj g, bagSize := some bs, method := .uniform, bags := none } : PriorGen G) g hmin rfl
    rw [h1]
    exact ⟨r, b, by simp [h2]⟩

/-- **C82 is false** of the code: with three or more classes, a common minimum prevalence that is accepted but cannot
be met (`n_classes * (bag_size * x - 1/2) > bag_size`) makes `generate_bags` loop for ever, for every generator. -/
theorem C82_infeasible_minimum_refuted (rng : Rng G) (hr : RngOk rng) (ht : RngTotal rng) (s : PriorGen G) (hs : s.bags = none) (hm : s.method = .uniform)
    (x : ℝ) (hx0 : 0 ≤ x) (hx1 : x ≤ 1) (hmin : s.minPrev = .scalar x) (hrs : s.rs ≠ .invalid) (hn : 0 < s.nBags) (glob : G) (d : BagData α)
    (hX : d.lenX = none ∨ d.lenX = some d.y.length) (hcls : 3 ≤ (labelsOf d.y).length) (bs : ℕ) (hbs : s.bagSize = some bs)
    (hinf : (bs : ℝ) < (labelsOf d.y).length * (bs * x - 1/2)) (hlow : bs * x + 1/2 < (bs : ℝ) / 2) :
    ∀ fuel, priorGenerate rng fuel s glob d = none := by
  intro fuel
  have hxy : checkXy d = none := by
    unfold checkXy
    rcases hX with h | h
    · rw [h]
    · rw [h]
      refine if_pos ⟨rfl, fun h0 => ?_⟩
      rw [List.length_eq_zero_iff] at h0
      rw [h0] at hcls
      simp [labelsOf] at hcls
  have hchk : checkMinPrev s.minPrev = none := by
    rw [hmin]
    simp only [checkMinPrev]
    exact if_neg (by push Not; exact ⟨hx1, hx0⟩)
  set nc := (labelsOf d.y).length with hncd
  set m := roundHalfEven (x * bs) with hmd
  have hub : uniformBounds s.minPrev nc bs = .ok (some (List.replicate nc m), m, (bs : ℤ) - m) := by
    rw [hmin]
    simp only [uniformBounds]
    rw [if_neg (by omega)]
  have hlt : m < (bs : ℤ) - m := by
    have := (roundHalfEven_bounds (x * bs)).2
    have h2 : (m : ℝ) < ((bs : ℤ) : ℝ) - m := by push_cast; linarith
    exact_mod_cast h2
  have hrange := uniformBounds_range s.minPrev nc bs hchk _ _ _ hub
  have loop : ∀ fuel g b, uniformLoop rng d.y (labelsOf d.y) bs s.nBags (some (List.replicate nc m)) m ((bs : ℤ) - m) fuel 0 g b = none := by
    intro fuel
    induction fuel with
    | zero =>
      intro g b
      unfold uniformLoop
      rw [if_pos hn]
    | succ fuel ih =>
      intro g b
      unfold uniformLoop
      rw [if_pos hn]
      simp only
      obtain ⟨⟨draws, g1⟩, hd⟩ := (ht.randint g m ((bs : ℤ) - m) (nc - 1)).2 (Or.inl hlt)
      rw [hd]
      simp only
      obtain ⟨hd1, hd2⟩ := hr.randint _ _ _ _ _ _ hd
      rw [if_neg]
      · exact ih g1 b
      · intro hmid
        obtain ⟨klen, knn, ksum⟩ := kraemer_spec draws bs (fun x hx => ⟨by have := hd2 x hx; omega, by have := hd2 x hx; omega⟩)
        have hall : ∀ n ∈ kraemer draws bs, (bs : ℝ) * x - 1/2 ≤ n := by
          intro n hn
          obtain ⟨j, hj⟩ := List.getElem?_of_mem hn
          have hj' : j < nc := by
            have := (List.getElem?_eq_some_iff.1 hj).1
            omega
          have := kraemer_min s.minPrev nc bs hchk (by rw [hmin]; rfl) (by omega) _ _ _ hub draws hd1 hd2 hmid j hj' n hj
          rw [hmin] at this
          have h1 : ((roundHalfEven (bs * minFor (.scalar x) j) : ℤ) : ℝ) ≤ n := by exact_mod_cast this
          have h2 := (roundHalfEven_bounds (bs * minFor (.scalar x) j)).1
          simp only [minFor] at h1 h2
          linarith
        have hsum : ∀ l : List ℤ, (∀ n ∈ l, (bs : ℝ) * x - 1/2 ≤ n) → (l.length : ℝ) * (bs * x - 1/2) ≤ (l.sum : ℤ) := by
          intro l hl
          induction l with
          | nil => simp
          | cons a l ih =>
            have h1 := ih fun n hn => hl n (List.mem_cons_of_mem _ hn)
            have h2 := hl a (by simp)
            simp only [List.length_cons, List.sum_cons]
            push_cast at h1 ⊢
            linarith
        have h3 := hsum _ hall
        rw [ksum, klen, hd1] at h3
        have h4 : nc - 1 + 1 = nc := by omega
        rw [h4] at h3
        push_cast at h3
        linarith
  have core : ∀ (s0 : PriorGen G) (g : G), s0.minPrev = s.minPrev → s0.nBags = s.nBags → generateUniform rng fuel s0 bs g d = none := by
    intro s0 g h1 h2
    unfold generateUniform
    rw [h1, hchk]
    simp only [hxy, npUnique_eq]
    rw [hub]
    simp only [h2]
    rw [loop]
    rfl
  unfold priorGenerate
  rw [hs]
  simp only
  cases hrs' : s.rs with
  | invalid => exact absurd hrs' hrs
  | seed n =>
    simp only [hm, hbs, Option.getD_some]
    rw [core _ _ (by exact rfl) (by exact rfl)]
    rfl
  | obj g =>
    simp only [hm, hbs, Option.getD_some]
    rw [core _ _ (by exact rfl) (by exact rfl)]
    rfl

/-! ## C39 -/

/-- **C39 is false** of the code: once `generate_bags` has returned, every later call returns the same arrays, whatever
data it is given. They are not bags of the new data when it has another number of classes. -/
theorem C39_second_call_refuted (rng : Rng G) (hr : RngOk rng) (fuel : ℕ) (s : PriorGen G) (hs : s.bags = none) (glob : G) (d : BagData α)
    (hy : d.y ≠ []) (hbs : 0 < s.bagSize.getD d.y.length) (hn : 0 < s.nBags) (s' : PriorGen G) (glob' : G) (b : Bags)
    (h : priorGenerate rng fuel s glob d = some (s', glob', .ok b)) (fuel' : ℕ) (glob2 : G) (d' : BagData α) (hd' : (labelsOf d'.y).length ≠ (labelsOf d.y).length) :
    priorGenerate rng fuel' s' glob2 d' = some (s', glob2, .ok b) ∧ ∀ size n, 0 < n → ¬ AreBags d'.y size n b := by
  have hA := (C37_prior_shift_bags rng hr fuel s hs glob d hy hbs s' glob' b h).1
  refine ⟨?_, ?_⟩
  · -- the bags are stored in the object
    have hst : s'.bags = some b := by
      unfold priorGenerate at h
      rw [hs] at h
      simp only at h
      cases hrs : s.rs with
      | invalid => rw [hrs] at h; simp at h
      | seed m =>
        rw [hrs] at h
        simp only at h
        cases hm : s.method with
        | other => rw [hm] at h; simp at h
        | uniform =>
          rw [hm] at h
          simp only at h
          rw [Option.map_eq_some_iff] at h
          obtain ⟨⟨r1, r2⟩, -, h2⟩ := h
          simp only [Prod.mk.injEq] at h2
          obtain ⟨rfl, -, h3⟩ := h2
          cases r2 with
          | some e => simp at h3
          | none =>
            cases hb : r1.bags with
            | none => rw [hb] at h3; simp at h3
            | some b0 => rw [hb] at h3; simp only [Except.ok.injEq] at h3; rw [h3]
        | dirichlet =>
          rw [hm] at h
          simp only [Option.some.injEq, Prod.mk.injEq] at h
          obtain ⟨h1, -, h3⟩ := h
          rw [h1] at h3
          revert h3
          generalize (generateDirichlet rng _ _ _ _ d).2.2 = o
          intro h3
          cases o with
          | some e => simp at h3
          | none =>
            cases hb : s'.bags with
            | none => rw [hb] at h3; simp at h3
            | some b0 => rw [hb] at h3; simp only [Except.ok.injEq] at h3; rw [h3]
      | obj m =>
        rw [hrs] at h
        simp only at h
        cases hm : s.method with
        | other => rw [hm] at h; simp at h
        | uniform =>
          rw [hm] at h
          simp only at h
          rw [Option.map_eq_some_iff] at h
          obtain ⟨⟨r1, r2⟩, -, h2⟩ := h
          simp only [Prod.mk.injEq] at h2
          obtain ⟨rfl, -, h3⟩ := h2
          cases r2 with
          | some e => simp at h3
          | none =>
            cases hb : r1.bags with
            | none => rw [hb] at h3; simp at h3
            | some b0 => rw [hb] at h3; simp only [Except.ok.injEq] at h3; rw [h3]
        | dirichlet =>
          rw [hm] at h
          simp only [Option.some.injEq, Prod.mk.injEq] at h
          obtain ⟨h1, -, h3⟩ := h
          rw [h1] at h3
          revert h3
          generalize (generateDirichlet rng _ _ _ _ d).2.2 = o
          intro h3
          cases o with
          | some e => simp at h3
          | none =>
            cases hb : s'.bags with
            | none => rw [hb] at h3; simp at h3
            | some b0 => rw [hb] at h3; simp only [Except.ok.injEq] at h3; rw [h3]
    unfold priorGenerate
    rw [hst]
  · intro size n hn' hA'
    obtain ⟨-, ls, -, h1⟩ := hA.2.2 0 hn
    obtain ⟨-, ls', -, h2⟩ := hA'.2.2 0 hn'
    rw [h1] at h2
    have := congrArg List.length h2
    simp only [List.length_map] at this
    exact hd' this.symm

/-- **C39**, what holds: the first call that returns gives bags of its own data. -/
theorem C39_first_call_partial (rng : Rng G) (hr : RngOk rng) (fuel : ℕ) (s : PriorGen G) (hs : s.bags = none) (glob : G) (d : BagData α)
    (hy : d.y ≠ []) (hbs : 0 < s.bagSize.getD d.y.length) (s' : PriorGen G) (glob' : G) (b : Bags)
    (h : priorGenerate rng fuel s glob d = some (s', glob', .ok b)) : AreBags d.y (s.bagSize.getD d.y.length) s.nBags b :=
  (C37_prior_shift_bags rng hr fuel s hs glob d hy hbs s' glob' b h).1

/-! ## C40 -/

/-- A generator that has been asked for bags of two classes with minimum prevalence 1/2 raises ValueError, having
stored arrays of zeros. -/
theorem half_raises (rng : Rng G) (ht : RngTotal rng) (fuel : ℕ) (hfuel : 0 < fuel) (s : PriorGen G) (hs : s.bags = none) (hm : s.method = .uniform)
    (hmin : s.minPrev = .scalar (1/2)) (hrs : s.rs ≠ .invalid) (hn : 0 < s.nBags) (glob : G) (d : BagData α)
    (hX : d.lenX = none ∨ d.lenX = some d.y.length) (hcls : (labelsOf d.y).length = 2) (bs : ℕ) (hbs : s.bagSize = some bs) :
    ∃ s', priorGenerate rng fuel s glob d = some (s', glob, .error .valueError) ∧ s'.bags = some (zeroBags 2 bs s.nBags) := by
  have hxy : checkXy d = none := by
    unfold checkXy
    rcases hX with h | h
    · rw [h]
    · rw [h]
      refine if_pos ⟨rfl, fun h0 => ?_⟩
      rw [List.length_eq_zero_iff] at h0
      rw [h0] at hcls
      simp [labelsOf] at hcls
  have hchk : checkMinPrev s.minPrev = none := by
    rw [hmin]
    simp only [checkMinPrev]
    exact if_neg (by norm_num)
  obtain ⟨lo, hi, hub, hle⟩ : ∃ lo hi : ℤ, uniformBounds s.minPrev 2 bs = .ok (none, lo, hi) ∧ hi ≤ lo := by
    refine ⟨roundHalfEven (bs * (1/2)), ⌊(bs : ℝ) * (1 - 1/2)⌋, by rw [hmin]; simp [uniformBounds], ?_⟩
    have h1 := (roundHalfEven_bounds (bs * (1/2))).1
    unfold roundHalfEven
    rw [show (1:ℝ) - 1/2 = 1/2 by norm_num]
    split_ifs <;> omega
  have herr : ∀ g, rng.randint g lo hi 1 = .error .valueError := by
    intro g
    cases hr : rng.randint g lo hi 1 with
    | error e => rw [ht.randint_err _ _ _ _ _ hr]
    | ok r =>
      have := (ht.randint g lo hi 1).1 ⟨r, hr⟩
      omega
  have core : ∀ (s0 : PriorGen G) (g : G), s0.minPrev = s.minPrev → s0.nBags = s.nBags →
      generateUniform rng fuel s0 bs g d = some ({ s0 with bags := some (zeroBags 2 bs s.nBags), rs := .obj g }, some .valueError) := by
    intro s0 g h1 h2
    unfold generateUniform
    rw [h1, hchk]
    simp only [hxy, npUnique_eq, hcls]
    rw [hub]
    simp only [h2]
    obtain ⟨fuel, rfl⟩ : ∃ f, fuel = f + 1 := ⟨fuel - 1, by omega⟩
    unfold uniformLoop
    rw [if_pos hn]
    simp only [hcls, herr]
    rfl
  unfold priorGenerate
  rw [hs]
  simp only
  cases hrs' : s.rs with
  | invalid => exact absurd hrs' hrs
  | seed n =>
    simp only [hm, hbs, Option.getD_some]
    rw [core _ _ (by exact rfl) (by exact rfl)]
    exact ⟨_, rfl, rfl⟩
  | obj g =>
    simp only [hm, hbs, Option.getD_some]
    rw [core _ _ (by exact rfl) (by exact rfl)]
    exact ⟨_, rfl, rfl⟩

theorem not_areBags_zero (y : List α) (nc bs n size m : ℕ) (hn : 0 < n) (hm : 0 < m) (hs : 0 < size) : ¬ AreBags y size m (zeroBags nc bs n) := by
  intro h
  obtain ⟨v, hv, he⟩ := IsBag.prev (h.2.2 0 hm) hs
  have h0 : (zeroBags nc bs n).prevs.getD 0 [] = List.replicate nc (Fl.fin 0) := by simp [zeroBags, List.getD, hn]
  rw [h0] at he
  have hz : ∀ j, v j = 0 := by
    intro j
    have hmem : Fl.fin (v j) ∈ List.ofFn fun j => Fl.fin (v j) := List.mem_ofFn.2 ⟨j, rfl⟩
    rw [← he] at hmem
    exact Fl.fin.inj (List.mem_replicate.1 hmem).2
  have := hv.2
  simp [hz] at this

/-- **C40 is false** of the code: for every data set with two classes and minimum prevalence 1/2 the first call raises
ValueError, but the next call returns, whatever its data, arrays of zeros that are not bags. -/
theorem C40_failed_call_refuted (rng : Rng G) (ht : RngTotal rng) (fuel : ℕ) (hfuel : 0 < fuel) (s : PriorGen G) (hs : s.bags = none) (hm : s.method = .uniform)
    (hmin : s.minPrev = .scalar (1/2)) (hrs : s.rs ≠ .invalid) (hn : 0 < s.nBags) (glob : G) (d : BagData α)
    (hX : d.lenX = none ∨ d.lenX = some d.y.length) (hcls : (labelsOf d.y).length = 2) (bs : ℕ) (hbs : s.bagSize = some bs) (hbs0 : 0 < bs) :
    ∃ s', priorGenerate rng fuel s glob d = some (s', glob, .error .valueError) ∧
      ∀ fuel' glob' (d' : BagData α), ∃ b, priorGenerate rng fuel' s' glob' d' = some (s', glob', .ok b) ∧ ¬ AreBags d'.y bs s.nBags b := by
  obtain ⟨s', h1, h2⟩ := half_raises rng ht fuel hfuel s hs hm hmin hrs hn glob d hX hcls bs hbs
  refine ⟨s', h1, fun fuel' glob' d' => ⟨zeroBags 2 bs s.nBags, ?_, not_areBags_zero _ _ _ _ _ _ hn hn hbs0⟩⟩
  unfold priorGenerate
  rw [h2]

/-- **C40 is false** also for failures that store no arrays: `bag_size=None` is replaced by the size of the failed call's
data, so that a later call returns bags of that size and not of its own. -/
theorem C40_bag_size_refuted (rng : Rng G) (hr : RngOk rng) (fuel : ℕ) (s : PriorGen G) (hs : s.bags = none) (hsize : s.bagSize = none)
    (hrs : s.rs ≠ .invalid) (hm : s.method = .uniform) (hmin : s.minPrev = .none) (glob : G) (d : BagData α) (n : ℕ) (hX : d.lenX = some n) (hne : n ≠ d.y.length)
    (hy : d.y ≠ []) :
    ∃ s', priorGenerate rng fuel s glob d = some (s', glob, .error .valueError) ∧ s'.bags = none ∧
      ∀ fuel' glob' (d' : BagData α) s'' glob'' b, d'.y ≠ [] → priorGenerate rng fuel' s' glob' d' = some (s'', glob'', .ok b) → AreBags d'.y d.y.length s.nBags b := by
  have hxy : checkXy d = some .valueError := by
    unfold checkXy
    rw [hX]
    simp only
    exact if_neg fun h => hne h.1
  have core : ∀ (s0 : PriorGen G) (g : G), s0.minPrev = .none → generateUniform rng fuel s0 d.y.length g d = some (s0, some .valueError) := by
    intro s0 g h1
    unfold generateUniform
    rw [h1]
    simp only [checkMinPrev, hxy]
  have fin : ∀ g : G, ∀ fuel' glob' (d' : BagData α) s'' glob'' b, d'.y ≠ [] →
      priorGenerate rng fuel' ({ s with rs := .obj g, bagSize := some d.y.length, method := .uniform, bags := none } : PriorGen G) glob' d' = some (s'', glob'', .ok b) →
      AreBags d'.y d.y.length s.nBags b := by
    intro g fuel' glob' d' s'' glob'' b hy' h
    exact (C37_prior_shift_bags rng hr fuel' ({ s with rs := .obj g, bagSize := some d.y.length, method := .uniform, bags := none } : PriorGen G) rfl glob' d' hy'
      (List.length_pos_iff.2 hy) s'' glob'' b h).1
  unfold priorGenerate
  rw [hs]
  simp only
  cases hrs' : s.rs with
  | invalid => exact absurd hrs' hrs
  | seed m =>
    simp only [hm, hsize, Option.getD_none]
    rw [core _ _ (by exact hmin)]
    exact ⟨_, rfl, rfl, fin _⟩
  | obj g =>
    simp only [hm, hsize, Option.getD_none]
    rw [core _ _ (by exact hmin)]
    exact ⟨_, rfl, rfl, fin _⟩

/-- **C40, partial**: with the uniform method and an explicit bag size, a call that fails before the arrays are
allocated leaves no trace: later calls do what they would have done without it. -/
theorem C40_early_failure_partial (rng : Rng G) (fuel : ℕ) (s : PriorGen G) (hs : s.bags = none) (bs : ℕ) (hsize : s.bagSize = some bs) (hm : s.method = .uniform)
    (glob : G) (d : BagData α) (s' : PriorGen G) (glob' : G) (e : Err) (h : priorGenerate rng fuel s glob d = some (s', glob', .error e)) (hs' : s'.bags = none) :
    glob' = glob ∧ ∀ fuel' glob2 (d' : BagData α), (priorGenerate rng fuel' s' glob2 d').map (fun r => r.2) = (priorGenerate rng fuel' s glob2 d').map (fun r => r.2) := by
  -- what `generateUniform` leaves when it stores no arrays
  have core : ∀ (s0 r : PriorGen G) (g : G) (o : Option Err), generateUniform rng fuel s0 bs g d = some (r, o) → r.bags = none → s0.bags = none → r = s0 := by
    intro s0 r g o h hb hb0
    unfold generateUniform at h
    cases h1 : checkMinPrev s0.minPrev with
    | some e => rw [h1] at h; simp only [Option.some.injEq, Prod.mk.injEq] at h; exact h.1.symm
    | none =>
      rw [h1] at h
      simp only at h
      cases h2 : checkXy d with
      | some e => rw [h2] at h; simp only [Option.some.injEq, Prod.mk.injEq] at h; exact h.1.symm
      | none =>
        rw [h2] at h
        simp only at h
        cases h3 : uniformBounds s0.minPrev (npUnique d.y).length bs with
        | error e => rw [h3] at h; simp only [Option.some.injEq, Prod.mk.injEq] at h; exact h.1.symm
        | ok t =>
          rw [h3] at h
          simp only at h
          rw [Option.map_eq_some_iff] at h
          obtain ⟨q, -, hq⟩ := h
          simp only [Prod.mk.injEq] at hq
          rw [← hq.1] at hb
          simp at hb
  cases hrs : s.rs with
  | invalid =>
    unfold priorGenerate at h
    rw [hs] at h
    simp only [hrs, Option.some.injEq, Prod.mk.injEq] at h
    obtain ⟨rfl, rfl, -⟩ := h
    exact ⟨rfl, fun _ _ _ => rfl⟩
  | seed n =>
    unfold priorGenerate at h
    rw [hs] at h
    simp only [hrs, hm, hsize, Option.getD_some] at h
    rw [Option.map_eq_some_iff] at h
    obtain ⟨⟨r, o⟩, h1, h2⟩ := h
    simp only [Prod.mk.injEq] at h2
    obtain ⟨rfl, rfl, -⟩ := h2
    have := core _ _ _ _ h1 hs' rfl
    refine ⟨rfl, fun fuel' glob2 d' => ?_⟩
    rw [this]
    unfold priorGenerate
    simp only [hs, hrs, hm, hsize, Option.getD_some]
  | obj g =>
    unfold priorGenerate at h
    rw [hs] at h
    simp only [hrs, hm, hsize, Option.getD_some] at h
    rw [Option.map_eq_some_iff] at h
    obtain ⟨⟨r, o⟩, h1, h2⟩ := h
    simp only [Prod.mk.injEq] at h2
    obtain ⟨rfl, rfl, -⟩ := h2
    have := core _ _ _ _ h1 hs' rfl
    refine ⟨rfl, fun fuel' glob2 d' => ?_⟩
    rw [this]
    unfold priorGenerate
    simp only [hs, hrs, hm, hsize, Option.getD_some]

end Verif.Props
