import Verif.Props.Bags
import Mathlib.Data.List.GetD

/-!
# Bag generators: C41, C42, and concrete generators for C37 - C42 and C82
-/

namespace Verif.Props

open Verif.Model Verif.Spec Verif.Proof

variable {G α : Type*} [LinearOrder α]

/-! ## C42 -/

theorem isBag_of_prevsOf (y : List α) (bs : ℕ) (hbs : 0 < bs) (col : List ℕ) (hlen : col.length = bs) (hcol : ∀ i ∈ col, i < y.length) :
    IsBag y bs (prevsOf y (labelsOf y) bs col) col := by
  obtain ⟨ls, hls⟩ : ∃ ls : List α, (col.map fun i => y[i]?) = ls.map some := by
    clear hlen
    induction col with
    | nil => exact ⟨[], rfl⟩
    | cons i col ih =>
      obtain ⟨ls, h⟩ := ih fun j hj => hcol j (List.mem_cons_of_mem _ hj)
      refine ⟨y[i]'(hcol i (by simp)) :: ls, ?_⟩
      rw [List.map_cons, List.map_cons, h, List.getElem?_eq_getElem (hcol i (by simp))]
  refine ⟨hlen, ls, hls, ?_⟩
  have hl : ls.length = bs := by
    have := congrArg List.length hls
    simp only [List.length_map] at this
    omega
  unfold prevsOf
  apply List.map_congr_left
  intro c _
  have e : (col.countP fun i => decide (y[i]? = some c)) = ls.count c := by
    have e1 : (col.countP fun i => decide (y[i]? = some c)) = (col.map fun i => y[i]?).count (some c) := by
      rw [List.count_eq_countP, List.countP_map]
      apply List.countP_congr
      intro i _
      simp
    rw [e1, hls, List.count_map_of_injective _ _ (Option.some_injective _)]
  have e' : (col.countP fun i => @decide (y[i]? = some c) (Classical.propDecidable _)) = ls.count c := by
    rw [← e]
    apply List.countP_congr
    intro i _
    simp
  rw [freq, hl, ← Fl.fin_div _ (by exact_mod_cast hbs.ne')]
  congr 2
  norm_cast

/-- **C42** for `CovariateShift_BagGenerator`: what a fresh generator returns are `n_bags` bags of the data, of `bag_size`
examples (of as many as the data set has, by default). -/
theorem C42_covariate_bags (rng : Rng G) (hr : RngOk rng) (s : CovGen G) (hs : s.bags = none) (d : BagData α) (sim : ℕ → List ℝ)
    (hsim : ∀ i < d.y.length, (sim i).length = d.y.length) (hbs : 0 < s.bagSize.getD d.y.length) (s' : CovGen G) (b : Bags)
    (h : covGenerate rng s d sim = (s', .ok b)) : AreBags d.y (s.bagSize.getD d.y.length) s.nBags b := by
  unfold covGenerate at h
  rw [hs] at h
  simp only at h
  split at h
  · simp at h
  rename_i g _
  cases hX : d.lenX with
  | none => rw [hX] at h; simp at h
  | some n =>
    rw [hX] at h
    simp only at h
    split_ifs at h with hn
    · obtain ⟨rfl, hn0⟩ := hn
      cases hc : rng.randint g 0 d.y.length s.nBags with
      | error e => rw [hc] at h; simp at h
      | ok r =>
        obtain ⟨centers, g1⟩ := r
        rw [hc] at h
        simp only at h
        obtain ⟨hc1, hc2⟩ := hr.randint _ _ _ _ _ _ hc
        obtain ⟨z1, z2, -⟩ : (zeroBags (npUnique d.y).length (s.bagSize.getD d.y.length) s.nBags).prevs.length = s.nBags ∧
            (zeroBags (npUnique d.y).length (s.bagSize.getD d.y.length) s.nBags).idx.length = s.nBags ∧ True := by simp [zeroBags]
        have hspec := covLoop_spec rng d.y (npUnique d.y) (s.bagSize.getD d.y.length) sim centers
          (fun p col => IsBag d.y (s.bagSize.getD d.y.length) p col) ?_ 0 g1
        · cases hl : covLoop rng d.y (npUnique d.y) (s.bagSize.getD d.y.length) sim centers 0 g1 (zeroBags (npUnique d.y).length (s.bagSize.getD d.y.length) s.nBags) with
          | mk b1 r =>
            obtain ⟨g2, o⟩ := r
            rw [hl] at h
            simp only [Prod.mk.injEq] at h
            obtain ⟨-, h⟩ := h
            cases o with
            | some e => simp at h
            | none =>
              simp only [Except.ok.injEq] at h
              subst h
              exact hspec _ _ _ s.nBags (by omega) z1 z2 (fun k hk => absurd hk (by omega)) hl
        · intro g g2 c col hcm hch
          obtain ⟨h1, h2⟩ := hr.choiceP _ _ _ _ _ hch
          have hcr := hc2 c hcm
          have hlt : c.toNat < d.y.length := by omega
          exact isBag_of_prevsOf d.y _ hbs col h1 fun i hi => by
            have := h2 i hi
            rw [List.length_map, hsim _ hlt] at this
            exact this
    · simp at h

/-- **C42** for `PriorAndCovariateShift_BagGenerator`, with an explicit bag size: what a fresh generator returns are exactly `n_bags`
bags of the data. -/
theorem C42_mixed_bags_partial (rng : Rng G) (hr : RngOk rng) (fuel : ℕ) (s : MixGen G) (hs : s.bags = none) (glob : G) (d : BagData α) (hy : d.y ≠ [])
    (sim : ℕ → List ℝ) (hsim : ∀ i < d.y.length, (sim i).length = d.y.length) (bs : ℕ) (hbs : s.bagSize = some bs) (hbs0 : 0 < bs)
    (s' : MixGen G) (glob' : G) (b : Bags) (h : mixGenerate rng fuel s glob d sim = some (s', glob', .ok b)) : AreBags d.y bs s.nBags b := by
  unfold mixGenerate at h
  rw [hs, hbs] at h
  simp only at h
  rw [Option.map_eq_some_iff] at h
  obtain ⟨⟨s1, gl1, o1⟩, h1, h2⟩ := h
  cases o1 with
  | error e => simp at h2
  | ok b1 =>
    have hA := (C37_prior_shift_bags rng hr fuel ⟨s.nBags / 2, some bs, s.method, s.alphas, s.minPrev, s.rs, none⟩ rfl glob d hy hbs0 s1 gl1 b1 h1).1
    simp only [Option.getD_some] at hA
    simp only at h2
    generalize hc : covGenerate rng _ d sim = c at h2
    obtain ⟨c1, c2⟩ := c
    cases c2 with
      | error e => simp at h2
      | ok b2 =>
        simp only [Prod.mk.injEq, Except.ok.injEq] at h2
        obtain ⟨-, -, rfl⟩ := h2
        have hB := C42_covariate_bags rng hr _ (by exact rfl) d sim hsim (by exact hbs0) _ _ hc
        simp only [Option.getD_some] at hB
        obtain ⟨a1, a2, a3⟩ := hA
        obtain ⟨c1, c2, c3⟩ := hB
        refine ⟨by simp only [List.length_append]; omega, by simp only [List.length_append]; omega, ?_⟩
        intro k hk
        by_cases hk1 : k < s.nBags / 2
        · rw [List.getD_append _ _ _ _ (by omega), List.getD_append _ _ _ _ (by omega)]
          exact a3 k hk1
        · rw [List.getD_append_right _ _ _ _ (by omega), List.getD_append_right _ _ _ _ (by omega), a1, a2]
          exact c3 _ (by omega)

/-- **C42 is false** of the mixed generator with its default bag size: it raises TypeError for all data. -/
theorem C42_mixed_default_size_refuted (rng : Rng G) (fuel : ℕ) (s : MixGen G) (hs : s.bags = none) (hsize : s.bagSize = none) (glob : G) (d : BagData α)
    (sim : ℕ → List ℝ) : mixGenerate rng fuel s glob d sim = some (s, glob, .error .typeError) := by
  unfold mixGenerate
  rw [hs, hsize]

/-! ## A concrete generator -/

/-- A random number generator that returns the lowest admissible values; its Dirichlet draws put all the mass on the first class
or, if the state is `false`, on the last. -/
noncomputable def lazyRng : Rng Bool where
  ofSeed n := n != 0
  randint g lo hi n := if lo < hi ∨ n = 0 then .ok (List.replicate n lo, g) else .error .valueError
  choice g pool n := match pool with
    | [] => .error .valueError
    | i :: _ => if 0 ≤ n then .ok (List.replicate n.toNat i, g) else .error .valueError
  choiceP g p n := match p with
    | [] => .error .valueError
    | _ :: _ => .ok (List.replicate n 0, g)
  dirichlet g a n := match a with
    | [] => .error .valueError
    | _ :: t => .ok (List.replicate n (if g then 1 :: List.replicate t.length 0 else List.replicate t.length 0 ++ [1]), g)

theorem lazyRng_ok : RngOk lazyRng where
  randint := by
    intro g lo hi n l g' h
    simp only [lazyRng] at h
    split_ifs at h with hc
    simp only [Except.ok.injEq, Prod.mk.injEq] at h
    obtain ⟨rfl, -⟩ := h
    refine ⟨by simp, fun x hx => ?_⟩
    obtain ⟨h0, rfl⟩ := List.mem_replicate.1 hx
    exact ⟨le_rfl, hc.resolve_right h0⟩
  choice := by
    intro g pool n l g' h
    cases pool with
    | nil => simp [lazyRng] at h
    | cons i t =>
      simp only [lazyRng] at h
      split_ifs at h with hc
      simp only [Except.ok.injEq, Prod.mk.injEq] at h
      obtain ⟨rfl, -⟩ := h
      refine ⟨by rw [List.length_replicate]; omega, fun x hx => ?_⟩
      obtain ⟨-, rfl⟩ := List.mem_replicate.1 hx
      simp
  choiceP := by
    intro g p n l g' h
    cases p with
    | nil => simp [lazyRng] at h
    | cons i t =>
      simp only [lazyRng, Except.ok.injEq, Prod.mk.injEq] at h
      obtain ⟨rfl, -⟩ := h
      refine ⟨by simp, fun x hx => ?_⟩
      obtain ⟨-, rfl⟩ := List.mem_replicate.1 hx
      simp
  dirichlet := by
    intro g a n l g' h
    cases a with
    | nil => simp [lazyRng] at h
    | cons i t =>
      simp only [lazyRng, Except.ok.injEq, Prod.mk.injEq] at h
      obtain ⟨rfl, -⟩ := h
      refine ⟨by simp, fun x hx => ?_⟩
      obtain ⟨-, rfl⟩ := List.mem_replicate.1 hx
      cases g <;> simp +contextual [List.mem_replicate, or_imp]

theorem lazyRng_total : RngTotal lazyRng where
  randint := by
    intro g lo hi n
    simp only [lazyRng]
    split_ifs with h <;> simp [h]
  randint_err := by
    intro g lo hi n e h
    simp only [lazyRng] at h
    split_ifs at h with hc
    simpa using h.symm
  choice := by
    intro g pool n h h0
    cases pool with
    | nil => exact absurd rfl h
    | cons i t =>
      simp only [lazyRng]
      rw [if_pos h0]
      exact ⟨_, rfl⟩
  choiceP := by
    intro g p n h
    cases p with
    | nil => exact absurd rfl h
    | cons i t => exact ⟨_, rfl⟩
  dirichlet := by
    intro g a n h _
    cases a with
    | nil => exact absurd rfl h
    | cons i t => exact ⟨_, rfl⟩

/-- C37, C38, C39, C82: the hypotheses are met by a call that returns. -/
example : ∃ s' b, priorGenerate lazyRng 5 ⟨5, some 4, .uniform, .none, .none, .seed 3, none⟩ true (⟨[0, 1, 1], some 3⟩ : BagData ℕ) = some (s', true, .ok b) ∧
    AreBags [0, 1, 1] 4 5 b := by
  obtain ⟨s', b, h⟩ := C82_uniform_returns_partial lazyRng lazyRng_ok lazyRng_total 5 ⟨5, some 4, .uniform, .none, .none, .seed 3, none⟩ rfl rfl rfl (by simp)
    le_rfl true (⟨[0, 1, 1], some 3⟩ : BagData ℕ) (by simp) (Or.inr rfl) (by simp)
  exact ⟨s', b, h, (C37_prior_shift_bags lazyRng lazyRng_ok 5 _ rfl true _ (by simp) (by simp) s' true b h).1⟩

/-- C82: a minimum prevalence of 2/5 for three classes and bags of 100 examples. -/
example : ∀ fuel, priorGenerate lazyRng fuel ⟨5, some 100, .uniform, .none, .scalar (2/5), .seed 3, none⟩ true (⟨[0, 1, 2], some 3⟩ : BagData ℕ) = none :=
  C82_infeasible_minimum_refuted lazyRng lazyRng_ok lazyRng_total _ rfl rfl (2/5) (by norm_num) (by norm_num) rfl (by simp) (by norm_num) true _ (Or.inr rfl)
    (by rw [labelsOf_eq [0, 1, 2] [0, 1, 2] (by decide) (by decide)]; decide) 100 rfl
    (by rw [labelsOf_eq [0, 1, 2] [0, 1, 2] (by decide) (by decide)]; norm_num) (by norm_num)

/-- C40: the first call raises, the second returns zeros. -/
example : ∃ s', priorGenerate lazyRng 7 ⟨5, some 10, .uniform, .none, .scalar (1/2), .seed 3, none⟩ true (⟨[0, 1, 1], some 3⟩ : BagData ℕ) = some (s', true, .error .valueError) ∧
      ∀ fuel' glob' (d' : BagData ℕ), ∃ b, priorGenerate lazyRng fuel' s' glob' d' = some (s', glob', .ok b) ∧ ¬ AreBags d'.y 10 5 b :=
  C40_failed_call_refuted lazyRng lazyRng_total 7 (by norm_num) ⟨5, some 10, .uniform, .none, .scalar (1/2), .seed 3, none⟩ rfl rfl rfl (by simp) (by norm_num) true _
    (Or.inr rfl) (by rw [labelsOf_eq [0, 1, 1] [0, 1] (by decide) (by decide)]; decide) 10 rfl (by norm_num)

/-! ## C41 -/

/-- **C41, partial**: with the uniform method the bags do not depend on the global random generator, and two generators with
the same parameters return the same. -/
theorem C41_uniform_reproducible_partial (rng : Rng G) (fuel : ℕ) (s s2 : PriorGen G) (heq : s2 = s) (hs : s.bags = none) (seed : ℤ) (_hrs : s.rs = .seed seed) (hm : s.method = .uniform)
    (glob glob2 : G) (d : BagData α) :
    (priorGenerate rng fuel s glob d).map (fun r => r.2.2) = (priorGenerate rng fuel s2 glob2 d).map (fun r => r.2.2) := by
  subst heq
  unfold priorGenerate
  rw [hs]
  cases hrs : s2.rs <;> simp only [hm, Option.map_map, Option.map_some] <;> rfl

/-- **C41**, mixed generator with the uniform method. -/
theorem C41_mixed_uniform_reproducible_partial (rng : Rng G) (fuel : ℕ) (s s2 : MixGen G) (heq : s2 = s) (hs : s.bags = none) (seed : ℤ) (hrs : s.rs = .seed seed) (hm : s.method = .uniform)
    (glob glob2 : G) (d : BagData α) (sim : ℕ → List ℝ) :
    (mixGenerate rng fuel s glob d sim).map (fun r => r.2.2) = (mixGenerate rng fuel s2 glob2 d sim).map (fun r => r.2.2) := by
  subst heq
  unfold mixGenerate
  rw [hs]
  cases hbs : s2.bagSize with
  | none => rfl
  | some bs =>
    simp only [Option.map_map, hrs]
    have := C41_uniform_reproducible_partial rng fuel ⟨s2.nBags / 2, some bs, s2.method, s2.alphas, s2.minPrev, .seed seed, none⟩ _ rfl rfl seed rfl hm glob glob2 d
    revert this
    generalize priorGenerate rng fuel _ glob d = o1
    generalize priorGenerate rng fuel _ glob2 d = o2
    intro this
    cases o1 with
    | none => cases o2 with
      | none => rfl
      | some r => simp at this
    | some r1 => cases o2 with
      | none => simp at this
      | some r2 =>
        simp only [Option.map_some, Option.some.injEq] at this
        simp only [Option.map_some, Function.comp, ← this]
        congr 1
        cases r1.2.2 with
        | error e => rfl
        | ok b => simp only; cases (covGenerate rng _ d sim).2 <;> rfl

/-- **C41 is false** of the Dirichlet method: two generators with the same parameters and the same integer seed return
different bags when the state of the global generator differs. -/
theorem C41_dirichlet_refuted : ∃ (rng : Rng Bool) (s : PriorGen Bool) (d : BagData ℕ) (s1 s2 : PriorGen Bool) (b1 b2 : Bags),
    RngOk rng ∧ RngTotal rng ∧ s.rs = .seed 3 ∧ s.bags = none ∧
    priorGenerate rng 0 s true d = some (s1, true, .ok b1) ∧ priorGenerate rng 0 s false d = some (s2, false, .ok b2) ∧ b1.prevs ≠ b2.prevs := by
  have hl : labelsOf ([0, 1] : List ℕ) = [0, 1] := labelsOf_eq [0, 1] [0, 1] (by decide) (by decide)
  have hr1 : roundHalfEven 1 = 1 := by
    unfold roundHalfEven
    norm_num
  have hr0 : roundHalfEven 0 = 0 := by
    unfold roundHalfEven
    norm_num
  obtain ⟨s1, h1⟩ : ∃ s1, priorGenerate lazyRng 0 ⟨1, some 1, .dirichlet, .scalar 1, .none, .seed 3, none⟩ true (⟨[0, 1], some 2⟩ : BagData ℕ) =
      some (s1, true, .ok ⟨[[Fl.fin 1 / Fl.fin 1, Fl.fin 0 / Fl.fin 1]], [[0]]⟩) := by
    simp [priorGenerate, generateDirichlet, checkXy, npUnique_eq, hl, lazyRng, dirichletLoop, dirichletCounts, hr1, hr0, fillClasses, whereEq, fillSlice, List.range_succ]
  obtain ⟨s2, h2⟩ : ∃ s2, priorGenerate lazyRng 0 ⟨1, some 1, .dirichlet, .scalar 1, .none, .seed 3, none⟩ false (⟨[0, 1], some 2⟩ : BagData ℕ) =
      some (s2, false, .ok ⟨[[Fl.fin 0 / Fl.fin 1, Fl.fin 1 / Fl.fin 1]], [[1]]⟩) := by
    simp [priorGenerate, generateDirichlet, checkXy, npUnique_eq, hl, lazyRng, dirichletLoop, dirichletCounts, hr1, hr0, fillClasses, whereEq, fillSlice, List.range_succ]
  refine ⟨lazyRng, _, _, s1, s2, _, _, lazyRng_ok, lazyRng_total, rfl, rfl, h1, h2, ?_⟩
  simp only [ne_eq, List.cons.injEq, and_true]
  rw [Fl.fin_div _ one_ne_zero, Fl.fin_div _ one_ne_zero]
  norm_num

/-- C42: the hypotheses are met by calls that return. -/
example : ∃ s' b, covGenerate lazyRng ⟨5, some 4, .seed 3, none⟩ (⟨[0, 1, 1], some 3⟩ : BagData ℕ) (fun _ => [1, 1, 1]) = (s', .ok b) ∧
    AreBags [0, 1, 1] 4 5 b := by
  have h : ∃ s' b, covGenerate lazyRng ⟨5, some 4, .seed 3, none⟩ (⟨[0, 1, 1], some 3⟩ : BagData ℕ) (fun _ => [1, 1, 1]) = (s', .ok b) := by
    simp [covGenerate, lazyRng, covLoop, List.replicate]
  obtain ⟨s', b, h⟩ := h
  exact ⟨s', b, h, C42_covariate_bags lazyRng lazyRng_ok _ rfl _ _ (by simp) (by simp) _ _ h⟩

end Verif.Props
