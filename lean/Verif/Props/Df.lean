import Verif.Proof.Df
import Verif.Props.Solve
import Verif.Props.Energy

/-!
# Histogram representations: C43 - C46, C83, C84, and Friedman's representation: C54
-/

namespace Verif.Props

open Verif.Model Verif.Spec Verif.Proof

variable {α : Type*} [DecidableEq α]

/-! ## C46 -/

/-- **C46**, equal width: the cut points of a nonempty sample (or of a given range) run from -inf to +inf in order. -/
theorem C46_equal_width (ppf : ℝ → EReal) (x : List ℝ) (y classes : List α) (n : ℕ) (hn : 0 < n) (range : Option (ℝ × ℝ))
    (hr0 : range = none → x ≠ []) (hr : ∀ r, range = some r → r.1 ≤ r.2) :
    ∃ cuts, computeBincuts ppf x y classes n .equalWidth range = .ok cuts ∧ CutsOk cuts := by
  obtain ⟨a, b, hab, h⟩ : ∃ a b : ℝ, a ≤ b ∧ binRange x range = some (a, b) := by
    unfold binRange
    cases range with
    | some r => exact ⟨r.1, r.2, hr r rfl, rfl⟩
    | none =>
      cases h1 : x.min? with
      | none => exact absurd (List.min?_eq_none_iff.1 h1) (hr0 rfl)
      | some a =>
        cases h2 : x.max? with
        | none => exact absurd (List.max?_eq_none_iff.1 h2) (hr0 rfl)
        | some b =>
          have ha := List.min?_mem h1
          exact ⟨a, b, (List.max?_le_iff h2).1 le_rfl a ha, rfl⟩
  unfold computeBincuts
  simp only
  rw [h]
  simp only
  obtain ⟨e, he, hm⟩ := binEdges_mono hn hab
  rw [he]
  exact ⟨_, rfl, cutsOk_of_inner hn (fun i => e i) fun i j _ hij _ => hm i j hij⟩

/-- **C46**, equal count, for fewer bins than twice the number of examples. -/
theorem C46_equal_count (ppf : ℝ → EReal) (x : List ℝ) (y classes : List α) (n : ℕ) (hn : 0 < n) (hx : n < 2 * x.length) (range : Option (ℝ × ℝ)) :
    ∃ cuts, computeBincuts ppf x y classes n .equalCount range = .ok cuts ∧ CutsOk cuts := by
  have hnr : (0:ℝ) < n := by exact_mod_cast hn
  have hxr : (n:ℝ) < 2 * x.length := by exact_mod_cast hx
  set s := x.mergeSort (· ≤ ·) with hs
  have hlen : s.length = x.length := List.length_mergeSort x
  have hsorted : s.Pairwise (· ≤ ·) := by
    have := List.pairwise_mergeSort (le := fun a b : ℝ => decide (a ≤ b)) (fun a b c h1 h2 => by simp only [decide_eq_true_eq] at *; exact h1.trans h2)
      (fun a b => by simp only [Bool.or_eq_true, decide_eq_true_eq]; exact le_total a b) x
    exact this.imp fun h => by simpa using h
  -- the cut points are inside the sample
  set cp : Fin (n + 1) → ℕ := fun i => (roundHalfEven ((x.length : ℝ) * (i : ℕ) / n)).toNat with hcp
  have hcut : ∀ i : Fin (n + 1), 0 < i → i < Fin.last n → 1 ≤ roundHalfEven ((x.length : ℝ) * (i : ℕ) / n) ∧ roundHalfEven ((x.length : ℝ) * (i : ℕ) / n) ≤ (x.length : ℤ) - 1 := by
    intro i h0 hl
    have hi1 : (1:ℝ) ≤ ((i : ℕ) : ℝ) := by
      have : 0 < (i : ℕ) := h0
      exact_mod_cast this
    have hi2 : ((i : ℕ) : ℝ) ≤ (n : ℝ) - 1 := by
      have h1 : (i : ℕ) < n := hl
      have : (i : ℕ) + 1 ≤ n := h1
      have : (((i : ℕ) + 1 : ℕ) : ℝ) ≤ n := by exact_mod_cast this
      push_cast at this
      linarith
    have l1 : (1/2:ℝ) < (x.length : ℝ) * (i : ℕ) / n := by
      rw [lt_div_iff₀ hnr]
      nlinarith
    have l2 : (x.length : ℝ) * (i : ℕ) / n < (x.length : ℝ) - 1/2 := by
      rw [div_lt_iff₀ hnr]
      nlinarith
    obtain ⟨b1, b2⟩ := roundHalfEven_bounds ((x.length : ℝ) * (i : ℕ) / n)
    constructor
    · have : (0:ℝ) < roundHalfEven ((x.length : ℝ) * (i : ℕ) / n) := by linarith
      have : (0:ℤ) < roundHalfEven ((x.length : ℝ) * (i : ℕ) / n) := by exact_mod_cast this
      omega
    · have : (roundHalfEven ((x.length : ℝ) * (i : ℕ) / n) : ℝ) < ((x.length : ℤ) : ℝ) := by push_cast; linarith
      have : roundHalfEven ((x.length : ℝ) * (i : ℕ) / n) < (x.length : ℤ) := by exact_mod_cast this
      omega
  -- the value of an inner cut point
  set e : Fin (n + 1) → ℝ := fun i => (s.getD (cp i - 1) 0 + s.getD (cp i) 0) / 2 with he
  refine ⟨fun i => if i = Fin.last n then (⊤ : EReal) else if i = 0 then ⊥ else (e i : EReal), ?_, cutsOk_of_inner hn e ?_⟩
  · unfold computeBincuts
    simp only
    rw [seqFin_ok]
    intro i
    by_cases h1 : i = Fin.last n
    · simp [h1]
    · by_cases h0 : i = 0
      · rw [if_neg h1, if_pos h0, if_neg h1, if_pos h0]
      · rw [if_neg h1, if_neg h0, if_neg h1, if_neg h0]
        obtain ⟨c1, c2⟩ := hcut i (Fin.pos_iff_ne_zero.2 h0) (lt_of_le_of_ne (Fin.le_last i) h1)
        have hcpi : (cp i : ℤ) = roundHalfEven ((x.length : ℝ) * (i : ℕ) / n) := by
          rw [hcp]
          exact Int.toNat_of_nonneg (by omega)
        have p1 : pyIndex s (roundHalfEven ((x.length : ℝ) * (i : ℕ) / n)) = .ok (s.getD (cp i) 0) := by
          rw [← hcpi, pyIndex_nonneg s (cp i) (by omega)]
          rw [List.getD_eq_getElem _ _ (by omega)]
        have p2 : pyIndex s (roundHalfEven ((x.length : ℝ) * (i : ℕ) / n) - 1) = .ok (s.getD (cp i - 1) 0) := by
          have : roundHalfEven ((x.length : ℝ) * (i : ℕ) / n) - 1 = ((cp i - 1 : ℕ) : ℤ) := by omega
          rw [this, pyIndex_nonneg s (cp i - 1) (by omega), List.getD_eq_getElem _ _ (by omega)]
        rw [← hs, p1, p2]
  · intro i j h0 hij hl
    have hi := hcut i h0 (lt_of_le_of_lt hij hl)
    have hj := hcut j (lt_of_lt_of_le h0 hij) hl
    have hij' : ((i : ℕ) : ℝ) ≤ (j : ℕ) := by exact_mod_cast hij
    have hmono : roundHalfEven ((x.length : ℝ) * (i : ℕ) / n) ≤ roundHalfEven ((x.length : ℝ) * (j : ℕ) / n) := roundHalfEven_mono (by gcongr)
    have hc : cp i ≤ cp j := by simp only [hcp]; omega
    have hcj : cp j < s.length := by simp only [hcp]; omega
    have get_mono : ∀ a b, a ≤ b → b < s.length → s.getD a 0 ≤ s.getD b 0 := by
      intro a b hab hb
      rw [List.getD_eq_getElem _ _ (by omega), List.getD_eq_getElem _ _ hb]
      rcases hab.eq_or_lt with rfl | hlt
      · exact le_rfl
      · exact List.pairwise_iff_getElem.1 hsorted a b (by omega) hb hlt
    have g1 := get_mono (cp i - 1) (cp j - 1) (by omega) (by omega)
    have g2 := get_mono (cp i) (cp j) hc hcj
    simp only [he]
    linarith

/-- **C46, partial**: normal cut points, when the estimated standard deviation is not null. -/
theorem C46_normal_partial (ppf : ℝ → EReal) (hp : NormPpf ppf) (x : List ℝ) (hx : x ≠ []) (y classes : List α) (hxy : x.length = y.length) (n : ℕ) (hn : 0 < n)
    (hstd : 0 < (normalParams x y classes).2) (range : Option (ℝ × ℝ)) :
    ∃ cuts, computeBincuts ppf x y classes n .normal range = .ok cuts ∧ CutsOk cuts := by
  obtain ⟨cuts, h1, h2⟩ := normalCuts_ok hp hn _ hstd
  exact ⟨cuts, by simp [computeBincuts, hxy, hx, h1], h2⟩

/-- **C46, partial**: binormal cut points, when the estimated standard deviation is not null. -/
theorem C46_binormal_partial (ppf : ℝ → EReal) (hp : NormPpf ppf) (x : List ℝ) (y classes : List α) (hc : classes.length = 2) (hxy : x.length = y.length) (n : ℕ) (hn : 0 < n)
    (hstd : 0 < (binormalParams x y classes).2) (range : Option (ℝ × ℝ)) :
    ∃ cuts, computeBincuts ppf x y classes n .binormal range = .ok cuts ∧ CutsOk cuts := by
  obtain ⟨cuts, h1, h2⟩ := normalCuts_ok hp hn _ hstd
  exact ⟨cuts, by simp [computeBincuts, hxy, hc, h1], h2⟩

theorem average_const (v : ℝ) (l : List ℝ) (w : List ℝ) (hl : l.length = w.length) (hv : ∀ u ∈ l, u = v) (hw : w.sum ≠ 0) : npAverage (l.zip w) = v := by
  unfold npAverage
  have e : ∀ (l w : List ℝ), l.length = w.length → (∀ u ∈ l, u = v) → ((l.zip w).map fun t => t.1 * t.2).sum = v * w.sum ∧ ((l.zip w).map Prod.snd).sum = w.sum := by
    intro l w h hv
    induction l generalizing w with
    | nil => cases w with
      | nil => simp
      | cons a w => simp at h
    | cons b l ih =>
      cases w with
      | nil => simp at h
      | cons a w =>
        obtain ⟨i1, i2⟩ := ih w (by simpa using h) fun u hu => hv u (List.mem_cons_of_mem _ hu)
        simp only [List.zip_cons_cons, List.map_cons, List.sum_cons, i1, i2, hv b (by simp)]
        exact ⟨by ring, trivial⟩
  obtain ⟨h1, h2⟩ := e l w hl hv
  rw [h1, h2, mul_div_assoc, div_self hw, mul_one]

/-- The normal cut points of a constant sample. -/
theorem normal_constant_cuts (ppf : ℝ → EReal) (v : ℝ) (N : ℕ) (hN : 0 < N) (y classes : List α) (hy : y.length = N) (n : ℕ) (hn : 0 < n)
    (range : Option (ℝ × ℝ)) :
    computeBincuts ppf (List.replicate N v) y classes n .normal range =
      .ok fun i : Fin (n + 1) => ((linspace (0 - 1/2) (0 + 1/2) n i : ℝ) : EReal) := by
  have hstd : (normalParams (List.replicate N v) y classes).2 = 0 := by
    unfold normalParams
    simp only [List.length_replicate]
    set w := y.map fun c => if c ∈ classes then (N : ℝ) / (y.count c : ℝ) else 1 with hw
    have hwl : w.length = N := by rw [hw, List.length_map, hy]
    have hpos : ∀ u ∈ w, 0 < u := by
      intro u hu
      rw [hw, List.mem_map] at hu
      obtain ⟨c, hc, rfl⟩ := hu
      split_ifs
      · have : 0 < y.count c := List.count_pos_iff.2 hc
        have h1 : (0:ℝ) < y.count c := by exact_mod_cast this
        have h2 : (0:ℝ) < N := by exact_mod_cast hN
        positivity
      · norm_num
    have hsum : 0 < w.sum := by
      cases hw' : w with
      | nil => rw [hw'] at hwl; simp at hwl; omega
      | cons a l =>
        rw [List.sum_cons]
        have h1 := hpos a (by rw [hw']; simp)
        have h2 : 0 ≤ l.sum := List.sum_nonneg fun u hu => (hpos u (by rw [hw']; simp [hu])).le
        linarith
    have hmu : npAverage ((List.replicate N v).zip w) = v :=
      average_const v _ _ (by simp [hwl]) (fun u hu => (List.mem_replicate.1 hu).2) hsum.ne'
    rw [hmu]
    have h0 : npAverage (((List.replicate N v).map fun u => (u - v) ^ 2).zip w) = 0 := by
      apply average_const 0 _ _ (by simp [hwl]) _ hsum.ne'
      intro u hu
      rw [List.mem_map] at hu
      obtain ⟨u', hu', rfl⟩ := hu
      rw [(List.mem_replicate.1 hu').2]
      simp
    rw [h0, Real.sqrt_zero]
  unfold computeBincuts
  simp only
  rw [if_neg (by simp [hy]), if_neg (by simp; omega)]
  unfold normalCuts
  rw [if_neg (by rw [hstd]; exact lt_irrefl 0)]
  unfold binEdges
  rw [if_neg hn.ne', if_neg (lt_irrefl _), if_pos rfl]
  rfl

/-- **C46 is false** of the normal strategy on a constant sample: the cut points run from -1/2 to 1/2, wherever the sample is. -/
theorem C46_normal_constant_refuted (ppf : ℝ → EReal) (v : ℝ) (N : ℕ) (hN : 0 < N) (y classes : List α) (hy : y.length = N) (n : ℕ) (hn : 0 < n)
    (range : Option (ℝ × ℝ)) :
    ∃ cuts, computeBincuts ppf (List.replicate N v) y classes n .normal range = .ok cuts ∧ cuts 0 = ((-1/2 : ℝ) : EReal) ∧ cuts (Fin.last n) = ((1/2 : ℝ) : EReal) ∧ ¬ CutsOk cuts := by
  have hnr : (0:ℝ) < n := by exact_mod_cast hn
  refine ⟨_, normal_constant_cuts ppf v N hN y classes hy n hn range, ?_, ?_, ?_⟩
  · simp only [linspace, Fin.val_zero]
    congr 1
    norm_num
  · simp only [linspace, Fin.val_last]
    congr 1
    field_simp
    norm_num
  · intro h
    have := h.first
    simp at this

/-! ## C43, C44 -/

theorem dfFit_eq (ppf : ℝ → EReal) {D : Type*} {nd : ℕ} (kind : CumKind) (cfg : DfCfg) (range : Option (ℝ × ℝ)) (att : Fin nd → D → ℝ)
    (classes y yExt : List α) (rows : List D) (hlen : yExt.length = rows.length) (cuts : Fin nd → Fin (cfg.nBins + 1) → EReal)
    (hcuts : ∀ d, computeBincuts ppf (rows.map (att d)) y classes cfg.nBins cfg.strategy range = .ok (cuts d)) (hm : ∀ d, Monotone (cuts d)) :
    dfFit ppf kind cfg range att classes y yExt rows = .ok ⟨cuts, fun i c => accumulate kind cfg.f
      (fun d b => ((selectRows yExt rows classes[c]).map fun r => binInd (cuts d) b (att d r)).sum / (selectRows yExt rows classes[c]).length) i⟩ := by
  unfold dfFit
  have h1 : seqFin (fun d => computeBincuts ppf (rows.map (att d)) y classes cfg.nBins cfg.strategy range) = .ok cuts := (seqFin_ok _ _).2 hcuts
  rw [h1]
  simp only
  rw [if_neg (by simpa using hlen)]
  have h2 : seqFin (fun c : Fin classes.length => histBlocks att cuts (selectRows yExt rows classes[c])) =
      .ok fun c d b => ((selectRows yExt rows classes[c]).map fun r => binInd (cuts d) b (att d r)).sum / (selectRows yExt rows classes[c]).length :=
    (seqFin_ok _ _).2 fun c => histBlocks_eq att cuts hm _
  rw [h2]

theorem dfTest_eq {D : Type*} {nd nc : ℕ} (kind : CumKind) (cfg : DfCfg) (att : Fin nd → D → ℝ) (fit : DfFit nd cfg.nBins nc) (hm : ∀ d, Monotone (fit.cuts d)) (rows : List D) :
    dfTest kind cfg att fit rows = .ok (accumulate kind cfg.f fun d b => (rows.map fun r => binInd (fit.cuts d) b (att d r)).sum / rows.length) := by
  unfold dfTest
  rw [histBlocks_eq att _ hm]
  rfl

theorem selectRows_ne_nil {P : Type*} (y : List α) (rows : List P) (h : y.length = rows.length) (c : α) (hc : c ∈ y) : selectRows y rows c ≠ [] := by
  have := selectRows_length y rows h c
  have h2 : 0 < y.count c := List.count_pos_iff.2 hc
  intro h0
  rw [h0] at this
  simp at this
  omega

theorem binShare_isPrev {nb : ℕ} (hnb : 0 < nb) {cuts : Fin (nb + 1) → EReal} (h : CutsOk cuts) {xs : List ℝ} (hx : xs ≠ []) : IsPrev (binShare cuts xs) := by
  have := block_isPrev hnb cuts h xs hx id
  simp only [id] at this
  have e : (fun b => (xs.map fun r => binInd cuts b r).sum / (xs.length : ℝ)) = binShare cuts xs := funext fun b => binInd_share cuts h b xs
  rwa [e] at this

theorem block_pdf (kind : CumKind) {nd nb : ℕ} (v : Fin nd → Fin nb → ℝ) (d : Fin nd) : blockOf (accumulate kind .pdf v) d = v d := blockOf_stack v d

theorem block_cdf {nd nb : ℕ} (v : Fin nd → Fin nb → ℝ) (d : Fin nd) : blockOf (accumulate .perBlock .cdf v) d = cumsum (v d) :=
  blockOf_stack (fun d => cumsum (v d)) d

/-- What `fit` and `predict` compute when the cut points are right: the shares of the bins. -/
theorem df_repr (ppf : ℝ → EReal) {D : Type*} {nd : ℕ} (kind : CumKind) (cfg : DfCfg) (range : Option (ℝ × ℝ)) (att : Fin nd → D → ℝ)
    (classes y yExt : List α) (rows : List D) (hlen : yExt.length = rows.length)
    (hcuts : ∀ d, ∃ cuts, computeBincuts ppf (rows.map (att d)) y classes cfg.nBins cfg.strategy range = .ok cuts ∧ CutsOk cuts) :
    ∃ fit, dfFit ppf kind cfg range att classes y yExt rows = .ok fit ∧ (∀ d, CutsOk (fit.cuts d))
      ∧ (∀ c, (fun i => fit.train i c) = accumulate kind cfg.f fun d => binShare (fit.cuts d) ((classRows yExt rows classes[c]).map (att d)))
      ∧ ∀ test : List D, dfTest kind cfg att fit test = .ok (accumulate kind cfg.f fun d => binShare (fit.cuts d) (test.map (att d))) := by
  choose cuts hc1 hc2 using hcuts
  refine ⟨_, dfFit_eq ppf kind cfg range att classes y yExt rows hlen cuts hc1 fun d => (hc2 d).mono, hc2, fun c => ?_, fun test => ?_⟩
  · funext i
    show accumulate kind cfg.f _ i = accumulate kind cfg.f _ i
    congr 1
    funext d b
    rw [← binInd_share _ (hc2 d), List.map_map, List.length_map]
    rfl
  · rw [dfTest_eq kind cfg att _ (fun d => (hc2 d).mono) test]
    congr 2
    funext d b
    rw [← binInd_share _ (hc2 d), List.map_map, List.length_map]
    rfl

/-- The bin strategies whose cut points always span the whole line. -/
def SpanningStrategy (cfg : DfCfg) (N : ℕ) : Prop := cfg.strategy = .equalWidth ∨ (cfg.strategy = .equalCount ∧ cfg.nBins < 2 * N)

theorem spanning_cuts (ppf : ℝ → EReal) (cfg : DfCfg) (hnb : 0 < cfg.nBins) (x : List ℝ) (hx : x ≠ []) (hs : SpanningStrategy cfg x.length) (y classes : List α) (range : Option (ℝ × ℝ))
    (hr : ∀ r, range = some r → r.1 ≤ r.2) : ∃ cuts, computeBincuts ppf x y classes cfg.nBins cfg.strategy range = .ok cuts ∧ CutsOk cuts := by
  rcases hs with h | ⟨h, hN⟩
  · rw [h]
    exact C46_equal_width ppf x y classes cfg.nBins hnb range (fun _ => hx) hr
  · rw [h]
    exact C46_equal_count ppf x y classes cfg.nBins hnb hN range

theorem classRows_ne_nil' (y : List α) {P : Type*} (rows : List P) (h : y.length = rows.length) (c : α) (hc : c ∈ y) : classRows y rows c ≠ [] :=
  classRows_ne_nil y rows h c hc

theorem df_pdf (ppf : ℝ → EReal) {D : Type*} {nd : ℕ} (kind : CumKind) (cfg : DfCfg) (hf : cfg.f = .pdf) (hnb : 0 < cfg.nBins) (range : Option (ℝ × ℝ)) (att : Fin nd → D → ℝ)
    (classes y yExt : List α) (rows : List D) (hlen : yExt.length = rows.length) (hcl : ∀ c ∈ classes, c ∈ yExt)
    (hcuts : ∀ d, ∃ cuts, computeBincuts ppf (rows.map (att d)) y classes cfg.nBins cfg.strategy range = .ok cuts ∧ CutsOk cuts) :
    ∃ fit, dfFit ppf kind cfg range att classes y yExt rows = .ok fit ∧ (∀ d, CutsOk (fit.cuts d))
      ∧ (∀ c d, blockOf (fun i => fit.train i c) d = binShare (fit.cuts d) ((classRows yExt rows classes[c]).map (att d)) ∧ IsPrev (blockOf (fun i => fit.train i c) d))
      ∧ ∀ test : List D, test ≠ [] → ∃ q, dfTest kind cfg att fit test = .ok q ∧ ∀ d, blockOf q d = binShare (fit.cuts d) (test.map (att d)) ∧ IsPrev (blockOf q d) := by
  obtain ⟨fit, h1, h2, h3, h4⟩ := df_repr ppf kind cfg range att classes y yExt rows hlen hcuts
  refine ⟨fit, h1, h2, fun c d => ?_, fun test ht => ⟨_, h4 test, fun d => ?_⟩⟩
  · have e : blockOf (fun i => fit.train i c) d = binShare (fit.cuts d) ((classRows yExt rows classes[c]).map (att d)) := by
      rw [h3 c, hf, block_pdf]
    refine ⟨e, ?_⟩
    rw [e]
    exact binShare_isPrev hnb (h2 d) (by simpa using classRows_ne_nil yExt rows hlen _ (hcl _ (List.getElem_mem _)))
  · have e : blockOf (accumulate kind cfg.f fun d => binShare (fit.cuts d) (test.map (att d))) d = binShare (fit.cuts d) (test.map (att d)) := by
      rw [hf, block_pdf]
    refine ⟨e, ?_⟩
    rw [e]
    exact binShare_isPrev hnb (h2 d) (by simpa using ht)

/-- **C43** for `DFX`: with PDFs and equal-width or equal-count bins, the block of a feature in the column of a class holds the shares of
the class examples in the bins, and is a probability distribution; so is every block of the representation of any nonempty
testing bag. -/
theorem C43_dfx_distributions (ppf : ℝ → EReal) {nf : ℕ} (cfg : DfCfg) (hf : cfg.f = .pdf) (hnb : 0 < cfg.nBins) (classes y : List α) (X : List (Fin nf → ℝ)) (hX : X ≠ [])
    (hlen : y.length = X.length) (hcl : ∀ c ∈ classes, c ∈ y) (hs : SpanningStrategy cfg X.length) :
    ∃ fit, dfxFit ppf cfg classes y X = .ok fit ∧ (∀ d, CutsOk (fit.cuts d))
      ∧ (∀ c d, blockOf (fun i => fit.train i c) d = binShare (fit.cuts d) ((classRows y X classes[c]).map fun x => x d) ∧ IsPrev (blockOf (fun i => fit.train i c) d))
      ∧ ∀ test : List (Fin nf → ℝ), test ≠ [] → ∃ q, dfxTest cfg fit test = .ok q ∧ ∀ d, blockOf q d = binShare (fit.cuts d) (test.map fun x => x d) ∧ IsPrev (blockOf q d) :=
  df_pdf ppf .perBlock cfg hf hnb none (fun (d : Fin nf) (row : Fin nf → ℝ) => row d) classes y y X hlen hcl
    fun d => spanning_cuts ppf cfg hnb _ (by simpa using hX) (by simpa using hs) y classes none (by simp)

/-- **C43** for `DFy`: the same for the columns of the predictions (one column if there are two classes). `yExt` are the labels of the
predictions, in which all the classes appear. -/
theorem C43_dfy_distributions (ppf : ℝ → EReal) (cfg : DfCfg) (hf : cfg.f = .pdf) (hnb : 0 < cfg.nBins) (classes y yExt : List α) (preds : List (Fin classes.length → ℝ)) (hX : preds ≠ [])
    (hlen : yExt.length = preds.length) (hcl : ∀ c ∈ classes, c ∈ yExt) (hs : SpanningStrategy cfg preds.length) :
    ∃ fit, dfyFit ppf cfg classes y yExt preds = .ok fit ∧ (∀ d, CutsOk (fit.cuts d))
      ∧ (∀ c d, blockOf (fun i => fit.train i c) d = binShare (fit.cuts d) ((classRows yExt preds classes[c]).map (dfyAtt classes.length d)) ∧ IsPrev (blockOf (fun i => fit.train i c) d))
      ∧ ∀ test : List (Fin classes.length → ℝ), test ≠ [] → ∃ q, dfyTest cfg fit test = .ok q ∧ ∀ d, blockOf q d = binShare (fit.cuts d) (test.map (dfyAtt classes.length d)) ∧ IsPrev (blockOf q d) :=
  df_pdf ppf .whole cfg hf hnb (some (0, 1)) (dfyAtt classes.length) classes y yExt preds hlen hcl
    fun d => spanning_cuts ppf cfg hnb _ (by simpa using hX) (by simpa using hs) y classes _ (by rintro r h; cases h; norm_num)

/-- **C43, partial**: `DFX` with normal bins, when no feature is constant. -/
theorem C43_dfx_normal_partial (ppf : ℝ → EReal) (hp : NormPpf ppf) {nf : ℕ} (cfg : DfCfg) (hf : cfg.f = .pdf) (hnb : 0 < cfg.nBins) (classes y : List α) (X : List (Fin nf → ℝ)) (hX : X ≠ [])
    (hlen : y.length = X.length) (hcl : ∀ c ∈ classes, c ∈ y) (hs : cfg.strategy = .normal) (hstd : ∀ d, 0 < (normalParams (X.map fun r => r d) y classes).2) :
    ∃ fit, dfxFit ppf cfg classes y X = .ok fit ∧ (∀ d, CutsOk (fit.cuts d))
      ∧ (∀ c d, blockOf (fun i => fit.train i c) d = binShare (fit.cuts d) ((classRows y X classes[c]).map fun x => x d) ∧ IsPrev (blockOf (fun i => fit.train i c) d))
      ∧ ∀ test : List (Fin nf → ℝ), test ≠ [] → ∃ q, dfxTest cfg fit test = .ok q ∧ ∀ d, blockOf q d = binShare (fit.cuts d) (test.map fun x => x d) ∧ IsPrev (blockOf q d) :=
  df_pdf ppf .perBlock cfg hf hnb none (fun (d : Fin nf) (row : Fin nf → ℝ) => row d) classes y y X hlen hcl
    fun d => by rw [hs]; exact C46_normal_partial ppf hp _ (by simpa using hX) y classes (by simpa using hlen.symm) cfg.nBins hnb (hstd d) none

/-- **C43, partial**: `DFy` with binormal bins and one prediction per example, when the predictions are not constant inside the classes. -/
theorem C43_dfy_binormal_partial (ppf : ℝ → EReal) (hp : NormPpf ppf) (cfg : DfCfg) (hf : cfg.f = .pdf) (hnb : 0 < cfg.nBins) (classes y : List α) (h2 : classes.length = 2)
    (preds : List (Fin classes.length → ℝ)) (hlen : y.length = preds.length) (hcl : ∀ c ∈ classes, c ∈ y) (hs : cfg.strategy = .binormal)
    (hstd : ∀ d, 0 < (binormalParams (preds.map (dfyAtt classes.length d)) y classes).2) :
    ∃ fit, dfyFit ppf cfg classes y y preds = .ok fit ∧ (∀ d, CutsOk (fit.cuts d))
      ∧ (∀ c d, blockOf (fun i => fit.train i c) d = binShare (fit.cuts d) ((classRows y preds classes[c]).map (dfyAtt classes.length d)) ∧ IsPrev (blockOf (fun i => fit.train i c) d))
      ∧ ∀ test : List (Fin classes.length → ℝ), test ≠ [] → ∃ q, dfyTest cfg fit test = .ok q ∧ ∀ d, blockOf q d = binShare (fit.cuts d) (test.map (dfyAtt classes.length d)) ∧ IsPrev (blockOf q d) :=
  df_pdf ppf .whole cfg hf hnb (some (0, 1)) (dfyAtt classes.length) classes y y preds hlen hcl
    fun d => by rw [hs]; exact C46_binormal_partial ppf hp _ y classes h2 (by simpa using hlen.symm) cfg.nBins hnb (hstd d) _

/-- **C43 is false** of normal bins on a constant feature: a data set whose only feature is always 1 is represented by zeros. -/
theorem C43_constant_feature_refuted (ppf : ℝ → EReal) (cfg : DfCfg) (hf : cfg.f = .pdf) (hnb : 0 < cfg.nBins) (hs : cfg.strategy = .normal) (classes y : List α) (hy : y ≠ [])
    (hcl : ∀ c ∈ classes, c ∈ y) :
    ∃ fit, dfxFit ppf cfg classes y (List.replicate y.length fun _ : Fin 1 => (1:ℝ)) = .ok fit ∧ ∀ i c, fit.train i c = 0 := by
  have hN : 0 < y.length := List.length_pos_iff.2 hy
  have hnr : (0:ℝ) < cfg.nBins := by exact_mod_cast hnb
  have h1 := normal_constant_cuts ppf 1 y.length hN y classes rfl cfg.nBins hnb none
  set cuts : Fin (cfg.nBins + 1) → EReal := fun i => ((linspace (0 - 1/2) (0 + 1/2) cfg.nBins i : ℝ) : EReal) with hcuts
  have h3 : cuts (Fin.last _) = ((1/2 : ℝ) : EReal) := by
    simp only [hcuts, linspace, Fin.val_last]
    congr 1
    field_simp
    norm_num
  have hmono : Monotone cuts := by
    intro i j hij
    simp only [hcuts]
    exact_mod_cast linspace_mono (by norm_num) cfg.nBins (by exact_mod_cast hij)
  refine ⟨_, dfFit_eq ppf .perBlock cfg none (fun (d : Fin 1) (row : Fin 1 → ℝ) => row d) classes y y _ (by simp) (fun _ => cuts) (fun d => by rw [hs]; simpa using h1) (fun _ => hmono), ?_⟩
  intro i c
  simp only [hf, accumulate, stackBlocks]
  rw [div_eq_zero_iff]
  left
  apply List.sum_eq_zero
  intro u hu
  rw [List.mem_map] at hu
  obtain ⟨r, hr, rfl⟩ := hu
  have hr1 : r = fun _ => (1:ℝ) := by
    unfold selectRows at hr
    rw [List.mem_map] at hr
    obtain ⟨t, ht, rfl⟩ := hr
    exact (List.mem_replicate.1 (List.of_mem_zip (List.mem_of_mem_filter ht)).2).2
  rw [hr1]
  have hbig : ∀ i, cuts i ≤ ((1/2 : ℝ) : EReal) := fun i => h3 ▸ hmono (Fin.le_last i)
  have hnlt : ∀ i, ¬ ((1 : ℝ) : EReal) ≤ cuts i := fun i h => by
    have := h.trans (hbig i)
    rw [EReal.coe_le_coe_iff] at this
    norm_num at this
  have hnl : ∀ i, ¬ ((1 : ℝ) : EReal) < cuts i := fun i h => hnlt i h.le
  unfold binInd cumInd
  simp only [hnlt, hnl, if_false, ite_self, sub_self]

/-- **C44** for `DFX`: with CDFs the block of a feature holds the shares of the class examples below the cut points; it is nondecreasing and ends
at 1. The same for any nonempty testing bag. -/
theorem C44_dfx_cdf (ppf : ℝ → EReal) {nf : ℕ} (cfg : DfCfg) (hf : cfg.f = .cdf) (hnb : 0 < cfg.nBins) (classes y : List α) (X : List (Fin nf → ℝ)) (hX : X ≠ [])
    (hlen : y.length = X.length) (hcl : ∀ c ∈ classes, c ∈ y) (hs : SpanningStrategy cfg X.length) :
    ∃ fit, dfxFit ppf cfg classes y X = .ok fit ∧ (∀ d, CutsOk (fit.cuts d))
      ∧ (∀ c d, blockOf (fun i => fit.train i c) d = cdfShare (fit.cuts d) ((classRows y X classes[c]).map fun x => x d) ∧ IsCdf (blockOf (fun i => fit.train i c) d))
      ∧ ∀ test : List (Fin nf → ℝ), test ≠ [] → ∃ q, dfxTest cfg fit test = .ok q ∧ ∀ d, blockOf q d = cdfShare (fit.cuts d) (test.map fun x => x d) ∧ IsCdf (blockOf q d) := by
  obtain ⟨fit, h1, h2, h3, h4⟩ := df_repr ppf .perBlock cfg none (fun (d : Fin nf) (row : Fin nf → ℝ) => row d) classes y y X hlen
    fun d => spanning_cuts ppf cfg hnb _ (by simpa using hX) (by simpa using hs) y classes none (by simp)
  refine ⟨fit, h1, h2, fun c d => ?_, fun test ht => ⟨_, h4 test, fun d => ?_⟩⟩
  · have e : blockOf (fun i => fit.train i c) d = cumsum (binShare (fit.cuts d) ((classRows y X classes[c]).map fun x => x d)) := by
      rw [h3 c, hf, block_cdf]
    refine ⟨by rw [e, cumsum_binShare _ (h2 d)], ?_⟩
    rw [e]
    exact cumsum_isCdf (binShare_isPrev hnb (h2 d) (by simpa using classRows_ne_nil y X hlen _ (hcl _ (List.getElem_mem _))))
  · have e : blockOf (accumulate .perBlock cfg.f fun d => binShare (fit.cuts d) (test.map fun x => x d)) d = cumsum (binShare (fit.cuts d) (test.map fun x => x d)) := by
      rw [hf, block_cdf]
    refine ⟨by rw [e, cumsum_binShare _ (h2 d)], ?_⟩
    rw [e]
    exact cumsum_isCdf (binShare_isPrev hnb (h2 d) (by simpa using ht))

/-- The values of `DFy` with CDFs: the blocks of previous descriptors are added. -/
theorem dfy_cdf (ppf : ℝ → EReal) (cfg : DfCfg) (hf : cfg.f = .cdf) (hnb : 0 < cfg.nBins) (classes y yExt : List α) (preds : List (Fin classes.length → ℝ)) (hX : preds ≠ [])
    (hlen : yExt.length = preds.length) (hcl : ∀ c ∈ classes, c ∈ yExt) (hs : SpanningStrategy cfg preds.length) :
    ∃ fit, dfyFit ppf cfg classes y yExt preds = .ok fit ∧ (∀ d, CutsOk (fit.cuts d))
      ∧ (∀ (c : Fin classes.length) d b, blockOf (fun i => fit.train i c) d b = (d : ℕ) + cdfShare (fit.cuts d) ((classRows yExt preds classes[c]).map (dfyAtt classes.length d)) b)
      ∧ (∀ (c : Fin classes.length) d, IsPrev (binShare (fit.cuts d) ((classRows yExt preds classes[c]).map (dfyAtt classes.length d))))
      ∧ ∀ test : List (Fin classes.length → ℝ), test ≠ [] → ∃ q, dfyTest cfg fit test = .ok q ∧
          ∀ d b, blockOf q d b = (d : ℕ) + cdfShare (fit.cuts d) (test.map (dfyAtt classes.length d)) b := by
  obtain ⟨fit, h1, h2, h3, h4⟩ := df_repr ppf .whole cfg (some (0, 1)) (dfyAtt classes.length) classes y yExt preds hlen
    fun d => spanning_cuts ppf cfg hnb _ (by simpa using hX) (by simpa using hs) y classes _ (by rintro r h; cases h; norm_num)
  have key : ∀ v : Fin (nDescriptors classes.length) → Fin cfg.nBins → ℝ, (∀ d, IsPrev (v d)) → ∀ d b, blockOf (accumulate .whole cfg.f v) d b = (d : ℕ) + cumsum (v d) b := by
    intro v hv d b
    rw [hf]
    have := cumsum_stack v d b
    refine this.trans ?_
    congr 1
    simp only [fun d' => (hv d').2]
    rw [Finset.sum_boole]
    congr 1
    have : (Finset.univ.filter fun d' : Fin (nDescriptors classes.length) => d' < d) = Finset.Iio d := by ext; simp
    rw [this, Fin.card_Iio]
  have hp : ∀ (c : Fin classes.length) d, IsPrev (binShare (fit.cuts d) ((classRows yExt preds classes[c]).map (dfyAtt classes.length d))) := fun c d =>
    binShare_isPrev hnb (h2 d) (by simpa using classRows_ne_nil yExt preds hlen _ (hcl _ (List.getElem_mem c.2)))
  refine ⟨fit, h1, h2, fun c d b => ?_, hp, fun test ht => ⟨_, h4 test, fun d b => ?_⟩⟩
  · rw [h3 c, key _ (hp c), cumsum_binShare _ (h2 d)]
  · rw [key _ (fun d => binShare_isPrev hnb (h2 d) (by simpa using ht)), cumsum_binShare _ (h2 d)]

/-- **C44, partial**, `DFy` with two classes (one descriptor). -/
theorem C44_dfy_binary_partial (ppf : ℝ → EReal) (cfg : DfCfg) (hf : cfg.f = .cdf) (hnb : 0 < cfg.nBins) (classes y yExt : List α) (h2 : classes.length = 2) (preds : List (Fin classes.length → ℝ)) (hX : preds ≠ [])
    (hlen : yExt.length = preds.length) (hcl : ∀ c ∈ classes, c ∈ yExt) (hs : SpanningStrategy cfg preds.length) :
    ∃ fit, dfyFit ppf cfg classes y yExt preds = .ok fit ∧ (∀ d, CutsOk (fit.cuts d))
      ∧ (∀ c d, blockOf (fun i => fit.train i c) d = cdfShare (fit.cuts d) ((classRows yExt preds classes[c]).map (dfyAtt classes.length d)) ∧ IsCdf (blockOf (fun i => fit.train i c) d))
      ∧ ∀ test : List (Fin classes.length → ℝ), test ≠ [] → ∃ q, dfyTest cfg fit test = .ok q ∧
          ∀ d, blockOf q d = cdfShare (fit.cuts d) (test.map (dfyAtt classes.length d)) ∧ IsCdf (blockOf q d) := by
  obtain ⟨fit, h1, hc, h3, h4, h5⟩ := dfy_cdf ppf cfg hf hnb classes y yExt preds hX hlen hcl hs
  have hd : ∀ d : Fin (nDescriptors classes.length), (d : ℕ) = 0 := fun d => by
    have := d.2
    simp only [nDescriptors, h2, if_true] at this
    omega
  refine ⟨fit, h1, hc, fun c d => ?_, fun test ht => ?_⟩
  · have e : blockOf (fun i => fit.train i c) d = cdfShare (fit.cuts d) ((classRows yExt preds classes[c]).map (dfyAtt classes.length d)) := by
      funext b
      rw [h3 c d b, hd d]
      simp
    refine ⟨e, ?_⟩
    rw [e, ← cumsum_binShare _ (hc d)]
    exact cumsum_isCdf (h4 c d)
  · obtain ⟨q, g1, g2⟩ := h5 test ht
    refine ⟨q, g1, fun d => ?_⟩
    have e : blockOf q d = cdfShare (fit.cuts d) (test.map (dfyAtt classes.length d)) := by
      funext b
      rw [g2 d b, hd d]
      simp
    refine ⟨e, ?_⟩
    rw [e, ← cumsum_binShare _ (hc d)]
    exact cumsum_isCdf (binShare_isPrev hnb (hc d) (by simpa using ht))

/-- **C44 is false** of `DFy` with three or more classes: for every training set, the block of descriptor `d` ends at `d + 1`, in the columns of the classes and
in the representation of every testing bag, so no block after the first is a cumulative distribution. -/
theorem C44_dfy_multiclass_refuted (ppf : ℝ → EReal) (cfg : DfCfg) (hf : cfg.f = .cdf) (hnb : 0 < cfg.nBins) (classes y yExt : List α) (preds : List (Fin classes.length → ℝ)) (hX : preds ≠ [])
    (hlen : yExt.length = preds.length) (hcl : ∀ c ∈ classes, c ∈ yExt) (hs : SpanningStrategy cfg preds.length) (h3 : 3 ≤ classes.length) :
    ∃ fit, dfyFit ppf cfg classes y yExt preds = .ok fit ∧ nDescriptors classes.length = classes.length
      ∧ (∀ c d (b : Fin cfg.nBins), (b : ℕ) + 1 = cfg.nBins → blockOf (fun i => fit.train i c) d b = (d : ℕ) + 1)
      ∧ (∀ c (d : Fin (nDescriptors classes.length)), 0 < (d : ℕ) → ¬ IsCdf (blockOf (fun i => fit.train i c) d))
      ∧ ∀ test : List (Fin classes.length → ℝ), test ≠ [] → ∃ q, dfyTest cfg fit test = .ok q ∧ ∀ d (b : Fin cfg.nBins), (b : ℕ) + 1 = cfg.nBins → blockOf q d b = (d : ℕ) + 1 := by
  obtain ⟨fit, h1, hc, g3, g4, g5⟩ := dfy_cdf ppf cfg hf hnb classes y yExt preds hX hlen hcl hs
  have hlast : ∀ c d (b : Fin cfg.nBins), (b : ℕ) + 1 = cfg.nBins → blockOf (fun i => fit.train i c) d b = (d : ℕ) + 1 := by
    intro c d b hb
    rw [g3 c d b, ← cumsum_binShare _ (hc d), (cumsum_isCdf (g4 c d)).last b hb]
  refine ⟨fit, h1, by unfold nDescriptors; rw [if_neg (by omega)], hlast, fun c d hd hcdf => ?_, fun test ht => ?_⟩
  · have e1 := hlast c d ⟨cfg.nBins - 1, by omega⟩ (by simp; omega)
    rw [hcdf.last _ (by simp; omega)] at e1
    have : (0:ℝ) < (d : ℕ) := by exact_mod_cast hd
    linarith
  · obtain ⟨q, k1, k2⟩ := g5 test ht
    refine ⟨q, k1, fun d b hb => ?_⟩
    rw [k2 d b, ← cumsum_binShare _ (hc d), (cumsum_isCdf (binShare_isPrev hnb (hc d) (by simpa using ht))).last b hb]

/-! ## C45 -/

theorem histBlocks_mono {D : Type*} {nd nb : ℕ} {att : Fin nd → D → ℝ} {cuts : Fin nd → Fin (nb + 1) → EReal} {rows : List D} {v : Fin nd → Fin nb → ℝ}
    (h : histBlocks att cuts rows = .ok v) (d : Fin nd) : Monotone (cuts d) := by
  have := (seqFin_ok _ _).1 h d
  unfold npHistogram at this
  split_ifs at this with hm
  · exact Fin.monotone_iff_le_succ.2 hm
  · simp [Except.map] at this

theorem df_mixture (ppf : ℝ → EReal) {D : Type*} {nd : ℕ} (kind : CumKind) (cfg : DfCfg) (range : Option (ℝ × ℝ)) (att : Fin nd → D → ℝ)
    (classes y yExt : List α) (rows : List D) (hne : rows ≠ []) (hnd : classes.Nodup) (hcl : ∀ a, a ∈ classes ↔ a ∈ yExt) (fit : DfFit nd cfg.nBins classes.length)
    (hfit : dfFit ppf kind cfg range att classes y yExt rows = .ok fit) :
    ∃ q, dfTest kind cfg att fit rows = .ok q ∧ ∀ i, q i = ∑ c, fit.train i c * freq yExt classes[c] := by
  unfold dfFit at hfit
  split at hfit
  · cases hfit
  · rename_i cuts hcuts
    split_ifs at hfit with hlen
    split at hfit
    · cases hfit
    · rename_i v hv
      rw [not_not] at hlen
      cases hfit
      have hv' := (seqFin_ok _ _).1 hv
      have hpos : 0 < classes.length := by
        rw [List.length_pos_iff]
        rintro rfl
        cases hy : yExt with
        | nil => rw [hy] at hlen; exact hne (List.length_eq_zero_iff.1 hlen.symm)
        | cons a l => have := (hcl a).2 (by rw [hy]; simp); simp at this
      have hm : ∀ d, Monotone (cuts d) := fun d => histBlocks_mono (hv' ⟨0, hpos⟩) d
      refine ⟨_, dfTest_eq kind cfg att _ hm rows, fun i => ?_⟩
      rw [← accumulate_mixture kind cfg.f v (fun c => freq yExt classes[c]) i]
      congr 1
      funext d b
      rw [← mean_mixture yExt rows hlen (fun c : Fin classes.length => classes[c]) (getElem_inj_of_nodup hnd)
        (fun a ha => exists_getElem_of_mem ((hcl a).2 ha)) (fun c => (hcl _).1 (List.getElem_mem _))]
      apply Finset.sum_congr rfl
      intro c _
      have := histBlocks_eq att cuts hm (selectRows yExt rows classes[c])
      rw [hv' c] at this
      simp only [Except.ok.injEq] at this
      rw [this]

/-- **C45** for `DFX` (PDF or CDF, every bin strategy): the representation of the training bag is the mixture of the class representations with the
training prevalences as weights. -/
theorem C45_dfx_mixture (ppf : ℝ → EReal) {nf : ℕ} (cfg : DfCfg) (classes y : List α) (X : List (Fin nf → ℝ)) (hne : X ≠ []) (hnd : classes.Nodup) (hcl : ∀ a, a ∈ classes ↔ a ∈ y)
    (fit : DfFit nf cfg.nBins classes.length) (hfit : dfxFit ppf cfg classes y X = .ok fit) :
    ∃ q, dfxTest cfg fit X = .ok q ∧ ∀ i, q i = ∑ c, fit.train i c * freq y classes[c] :=
  df_mixture ppf .perBlock cfg none _ classes y y X hne hnd hcl fit hfit

/-- **C45** for `DFy` (PDF or CDF, every bin strategy, any number of classes); `yExt` are the labels of the training predictions. -/
theorem C45_dfy_mixture (ppf : ℝ → EReal) (cfg : DfCfg) (classes y yExt : List α) (preds : List (Fin classes.length → ℝ)) (hne : preds ≠ []) (hnd : classes.Nodup)
    (hcl : ∀ a, a ∈ classes ↔ a ∈ yExt) (fit : DfFit (nDescriptors classes.length) cfg.nBins classes.length) (hfit : dfyFit ppf cfg classes y yExt preds = .ok fit) :
    ∃ q, dfyTest cfg fit preds = .ok q ∧ ∀ i, q i = ∑ c, fit.train i c * freq yExt classes[c] :=
  df_mixture ppf .whole cfg _ _ classes y yExt preds hne hnd hcl fit hfit

theorem freq_isPrev (y classes : List α) (hy : y ≠ []) (hnd : classes.Nodup) (hcl : ∀ a, a ∈ classes ↔ a ∈ y) : IsPrev fun c : Fin classes.length => freq y classes[c] := by
  refine ⟨fun c => by unfold freq; positivity, ?_⟩
  have := mean_mixture y y rfl (fun c : Fin classes.length => classes[c]) (getElem_inj_of_nodup hnd)
    (fun a ha => exists_getElem_of_mem ((hcl a).2 ha)) (fun c => (hcl _).1 (List.getElem_mem _)) (fun _ => 1)
  have hl : (y.length : ℝ) ≠ 0 := by exact_mod_cast (List.length_pos_iff.2 hy).ne'
  simp only [List.map_const', List.sum_replicate, nsmul_eq_mul, mul_one, div_self hl] at this
  rw [← this]
  apply Finset.sum_congr rfl
  intro c _
  have : ((selectRows y y classes[c]).length : ℝ) ≠ 0 := by
    rw [selectRows_length y y rfl]
    exact_mod_cast (List.count_pos_iff.2 ((hcl _).1 (List.getElem_mem c.2))).ne'
  rw [div_self this, one_mul]

/-- **C45**: at weights that reproduce the testing distribution all the losses are zero: L1, squared L2 and squared Hellinger distance. -/
theorem C45_zero_loss {m n : ℕ} (T : Matrix (Fin m) (Fin n) ℝ) (q : Fin m → ℝ) (p : Fin n → ℝ) (h : ∀ i, q i = ∑ c, T i c * p c) :
    cvxObjective .l1 T q p = 0 ∧ l2Loss T q p = 0 ∧ hellingerSq q (fun i => ∑ c, T i c * p c) = 0 := by
  refine ⟨?_, ?_, ?_⟩
  · unfold cvxObjective
    apply Finset.sum_eq_zero
    intro k _
    rw [h k]
    simp [Matrix.mulVec, dotProduct]
  · unfold l2Loss
    apply Finset.sum_eq_zero
    intro k _
    rw [h k]
    ring
  · unfold hellingerSq
    apply Finset.sum_eq_zero
    intro k _
    rw [h k]
    ring

/-- **C45**, consequence for `DFX` and `DFy` with distance 'L1' and an exact solver: predicting the training bag gives prevalences that reproduce its
representation exactly; if different prevalences give different mixtures, the training prevalences. -/
theorem C45_l1_training_bag (sv : CvxSolver) (hsv : ExactCvx sv) (qp : QPSolver) (tol : ℝ) {m nc : ℕ} (hn : 0 < nc) (T : Matrix (Fin m) (Fin nc) ℝ) (hT : ∀ k j, 0 ≤ T k j)
    (par : QPParams nc (nc + 1)) (q : Fin m → ℝ) (p : Fin nc → ℝ) (hp : IsPrev p) (h : ∀ i, q i = ∑ c, T i c * p c) :
    ∃ x, dfSolve sv qp tol .l1 T par q = .ok (some ⟨nc, x⟩) ∧ IsPrev x ∧ (∀ i, ∑ c, T i c * x c = q i) ∧ (Identifiable T → x = p) := by
  have hq : ∀ k, 0 ≤ q k := fun k => by rw [h k]; exact mulVec_nonneg hT hp k
  obtain ⟨pr, x, h1, _, hx, hopt⟩ := C73_solve_l1_optimal sv hsv hn T q hq none
  have hz : ∑ k, |q k - ∑ j, T k j * x j| = 0 := by
    apply le_antisymm _ (Finset.sum_nonneg fun k _ => abs_nonneg _)
    refine (hopt p hp).trans (le_of_eq (Finset.sum_eq_zero fun k _ => ?_))
    rw [h k, sub_self, abs_zero]
  have he : ∀ i, ∑ c, T i c * x c = q i := by
    intro i
    have := (Finset.sum_eq_zero_iff_of_nonneg fun k _ => abs_nonneg _).1 hz i (Finset.mem_univ i)
    rw [abs_eq_zero] at this
    linarith
  refine ⟨x, ?_, hx, he, fun hid => hid x p hx hp fun k => by rw [he k, h k]⟩
  unfold dfSolve
  simp only [Option.map_none] at h1
  simp [h1, Except.map]

/-- **C45** for the energy methods: the energy distance between the training bag and the mixture of its classes is zero at the training prevalences. -/
theorem C45_energy {P : Type*} {n : ℕ} (d : P → P → ℝ) (hd : ∀ x y, d x y = d y x) (cls : Fin (n + 1) → α) (hinj : Function.Injective cls) (y : List α) (rows : List P) (hlen : y.length = rows.length)
    (hcl : ∀ a, (∃ c, cls c = a) ↔ a ∈ y) :
    energyLoss d (fun i => classRows y rows (cls i)) rows (fun i => freq y (cls i)) - avgDist d rows rows = 0 := by
  have hne : ∀ c, cls c ∈ y := fun c => (hcl _).1 ⟨c, rfl⟩
  have mm := fun f : P → ℝ => mean_mixture y rows hlen cls hinj (fun a ha => (hcl a).2 ha) hne f
  have havg : ∀ A B : List P, avgDist d A B = (B.map fun b => (A.map fun a => d a b).sum / A.length).sum / B.length := by
    intro A B
    have h1 : avgDist d A B = avgDist d B A := by
      show sumDist d A B / _ = sumDist d B A / _
      rw [sumDist_comm d hd, mul_comm]
    rw [h1]
    unfold avgDist
    have : (B.map fun b => (A.map fun a => d a b).sum / (A.length : ℝ)) = (B.map fun b => (A.map fun a => d b a).sum / (A.length : ℝ)) := by
      simp only [hd]
    rw [this]
    have h2 : (B.map fun b => (A.map fun a => d b a).sum / (A.length : ℝ)).sum = (B.map fun b => (A.map fun a => d b a).sum).sum / A.length := by
      simp only [div_eq_mul_inv]
      rw [List.sum_map_mul_right]
    rw [h2, div_div, mul_comm (A.length : ℝ)]
  have hK : ∀ A, avgDist d A rows = ∑ j, avgDist d A (classRows y rows (cls j)) * freq y (cls j) := by
    intro A
    rw [havg A rows, ← mm]
    apply Finset.sum_congr rfl
    intro c _
    rw [havg]
    rfl
  have hsym : ∀ A B : List P, avgDist d A B = avgDist d B A := by
    intro A B
    show sumDist d A B / _ = sumDist d B A / _
    rw [sumDist_comm d hd, mul_comm]
  unfold energyLoss
  have e1 : ∑ i, ∑ j, freq y (cls i) * freq y (cls j) * avgDist d (classRows y rows (cls i)) (classRows y rows (cls j)) =
      ∑ i, freq y (cls i) * avgDist d (classRows y rows (cls i)) rows := by
    apply Finset.sum_congr rfl
    intro i _
    rw [hK, Finset.mul_sum]
    exact Finset.sum_congr rfl fun j _ => by ring
  have e2 : avgDist d rows rows = ∑ i, freq y (cls i) * avgDist d (classRows y rows (cls i)) rows := by
    rw [hK rows]
    exact Finset.sum_congr rfl fun j _ => by rw [hsym, mul_comm]
  rw [e1, ← e2]
  ring

/-! ## C54 -/

open Classical in
/-- The share of a bag whose score for class `i` reaches `t`. -/
noncomputable def reachShare {nc : ℕ} (i : Fin nc) (t : ℝ) (rows : List (Fin nc → ℝ)) : ℝ :=
  (rows.countP fun r => decide (t ≤ r i) : ℕ) / rows.length

theorem meanRows_friedman {nc : ℕ} (prevs : Fin nc → ℝ) (rows : List (Fin nc → ℝ)) (i : Fin nc) :
    meanRows (rows.map (friedmanRow prevs)) i = reachShare i (prevs i) rows := by
  unfold meanRows reachShare
  rw [List.length_map, List.map_map]
  congr 1
  induction rows with
  | nil => simp
  | cons a l ih =>
    rw [List.map_cons, List.sum_cons, ih, List.countP_cons]
    simp only [Function.comp, friedmanRow]
    by_cases hc : prevs i ≤ a i
    · rw [if_pos hc, if_pos (decide_eq_true hc)]; push_cast; ring
    · rw [if_neg hc, if_neg (by rwa [decide_eq_true_eq])]; push_cast; ring

theorem reachShare_mem {nc : ℕ} (i : Fin nc) (t : ℝ) (rows : List (Fin nc → ℝ)) : 0 ≤ reachShare i t rows ∧ reachShare i t rows ≤ 1 := by
  unfold reachShare
  refine ⟨by positivity, div_le_one_of_le₀ ?_ (by positivity)⟩
  exact_mod_cast List.countP_le_length

/-- **C54**: `FriedmanME.fit` succeeds when there is a label for every prediction; the entry of class `c` for descriptor `i` is the share of its examples whose score
for class `i` reaches the prevalence of class `i` in `y`; all the entries are in `[0, 1]`; a testing bag is represented by the shares of its examples; and the
training predictions by the mixture of the columns with the prevalences as weights. -/
theorem C54_friedman (classes y yExt : List α) (preds : List (Fin classes.length → ℝ)) (hlen : yExt.length = preds.length) (hnd : classes.Nodup) (hcl : ∀ a, a ∈ classes ↔ a ∈ yExt) :
    ∃ fit, friedmanFit classes y yExt preds = .ok fit ∧ (∀ i, fit.prevs i = freq y classes[i])
      ∧ (∀ i c, fit.train i c = reachShare i (freq y classes[i]) (classRows yExt preds classes[c]) ∧ 0 ≤ fit.train i c ∧ fit.train i c ≤ 1)
      ∧ (∀ test i, friedmanTest fit test i = reachShare i (freq y classes[i]) test)
      ∧ ∀ i, friedmanTest fit preds i = ∑ c, fit.train i c * freq yExt classes[c] := by
  refine ⟨_, if_neg (by simpa using hlen), fun i => rfl, fun i c => ?_, fun test i => meanRows_friedman _ _ _, fun i => ?_⟩
  · have e : meanRows ((selectRows yExt preds classes[c]).map (friedmanRow fun j : Fin classes.length => (y.count classes[j] : ℝ) / y.length)) i =
        reachShare i (freq y classes[i]) (classRows yExt preds classes[c]) := meanRows_friedman _ _ _
    refine ⟨e, ?_, ?_⟩
    · exact (reachShare_mem _ _ _).1.trans_eq e.symm
    · exact e.trans_le (reachShare_mem _ _ _).2
  · unfold friedmanTest meanRows
    simp only [List.map_map, List.length_map]
    exact (mean_mixture yExt preds hlen (fun c : Fin classes.length => classes[c]) (getElem_inj_of_nodup hnd)
      (fun a ha => exists_getElem_of_mem ((hcl a).2 ha)) (fun c => (hcl _).1 (List.getElem_mem _)) _).symm

/-! ## C83, C84 -/

/-- **C83 is false**: when the training predictions are not one per example (predictions of a repeated cross-validation) `DFy` with normal or binormal bins raises an IndexError,
for every training set with two classes; with equal-width bins the same predictions are accepted. -/
theorem C83_repeated_predictions_refuted (ppf : ℝ → EReal) (cfg : DfCfg) (classes y yExt : List α) (h2 : classes.length = 2) (preds : List (Fin classes.length → ℝ)) (hlen : yExt.length = preds.length)
    (hrep : y.length ≠ preds.length) (hs : cfg.strategy = .normal ∨ cfg.strategy = .binormal) :
    dfyFit ppf cfg classes y yExt preds = .error .indexError := by
  have hc : ∀ d, computeBincuts ppf (preds.map (dfyAtt classes.length d)) y classes cfg.nBins cfg.strategy (some (0, 1)) = .error .indexError := by
    intro d
    rcases hs with h | h
    · rw [h]; unfold computeBincuts; simp [Ne.symm hrep]
    · rw [h]; unfold computeBincuts; simp [Ne.symm hrep, h2]
  unfold dfyFit dfFit
  have : seqFin (fun d => computeBincuts ppf (preds.map (dfyAtt classes.length d)) y classes cfg.nBins cfg.strategy (some (0, 1))) = .error .indexError := by
    exact seqFin_error _ (by unfold nDescriptors; split_ifs <;> omega) _ (hc _)
  rw [this]

/-- **C83, partial**: with equal-width bins, or equal-count bins and no more bins than predictions, any number of predictions is accepted if `fit` has a label for each. -/
theorem C83_repeated_predictions_partial (ppf : ℝ → EReal) (cfg : DfCfg) (hnb : 0 < cfg.nBins) (classes y yExt : List α) (preds : List (Fin classes.length → ℝ)) (hX : preds ≠ [])
    (hlen : yExt.length = preds.length) (hs : SpanningStrategy cfg preds.length) : ∃ fit, dfyFit ppf cfg classes y yExt preds = .ok fit := by
  obtain ⟨fit, h1, -⟩ := df_repr ppf .whole cfg (some (0, 1)) (dfyAtt classes.length) classes y yExt preds hlen
    fun d => spanning_cuts ppf cfg hnb _ (by simpa using hX) (by simpa using hs) y classes _ (by rintro r h; cases h; norm_num)
  exact ⟨fit, h1⟩

/-- **C84, partial**: with the distances 'HD', 'L1', 'L2', and with a distance function for two classes, the answer has one entry per class. -/
theorem C84_one_entry_per_class_partial (sv : CvxSolver) (qp : QPSolver) (tol : ℝ) {m nc : ℕ} (distance : DfDistance m) (T : Matrix (Fin m) (Fin nc) ℝ) (par : QPParams nc (nc + 1)) (q : Fin m → ℝ)
    (hd : nc = 2 ∨ ∀ d, distance ≠ .fn d) (v : Vec) (h : dfSolve sv qp tol distance T par q = .ok (some v)) : v.1 = nc := by
  have hcvx : ∀ loss, (solveCvx sv loss ⟨m, nc, T⟩ ⟨m, q⟩ none).map (fun r => some r.2) = .ok (some v) → v.1 = nc := by
    intro loss h
    unfold solveCvx at h
    simp only at h
    split at h
    · simp [Except.map] at h
    · simp only [Except.map, Except.ok.injEq, Option.some.injEq] at h
      rw [← h]
  cases distance with
  | hd => exact hcvx _ h
  | l1 => exact hcvx _ h
  | l2 =>
    unfold dfSolve at h
    simp only at h
    cases hs : solveL2 qp T q par with
    | error e => rw [hs] at h; simp [Except.map] at h
    | ok x =>
      rw [hs] at h
      simp only [Except.map, Except.ok.injEq, Option.some.injEq] at h
      rw [← h]
  | fn d =>
    rcases hd with hd | hd
    · unfold dfSolve at h
      simp only at h
      rw [dif_pos (by omega)] at h
      generalize globalSearch d _ q tol none true = g at h
      cases g with
      | error e => simp [Except.map] at h
      | ok r =>
        simp only [Except.map, Except.ok.injEq] at h
        cases hr : r.2 with
        | none => rw [hr] at h; simp at h
        | some p =>
          rw [hr] at h
          simp only [Option.map_some, Option.some.injEq] at h
          rw [← h, hd]
    · exact absurd rfl (hd d)

/-- **C84 is false** of a distance function with more than two classes: an answer has always two entries, `1 - p` and `p`;
and with the distance `v, q ↦ v 0` and the columns `0, 1, 5` there is an answer. -/
theorem C84_callable_refuted (sv : CvxSolver) (qp : QPSolver) (tol : ℝ) (htol : 0 < tol) :
    (∀ {m nc : ℕ} (d : (Fin m → ℝ) → (Fin m → ℝ) → Fl) (T : Matrix (Fin m) (Fin nc) ℝ) (par : QPParams nc (nc + 1)) (q : Fin m → ℝ) (v : Vec),
      dfSolve sv qp tol (.fn d) T par q = .ok (some v) → ∃ p, v = ⟨2, ![1 - p, p]⟩)
    ∧ ∃ (T : Matrix (Fin 1) (Fin 3) ℝ) (d : (Fin 1 → ℝ) → (Fin 1 → ℝ) → Fl) (par : QPParams 3 4) (q : Fin 1 → ℝ) (p : ℝ),
      dfSolve sv qp tol (.fn d) T par q = .ok (some ⟨2, ![1 - p, p]⟩) := by
  constructor
  · intro m nc d T par q v h
    unfold dfSolve at h
    simp only at h
    split_ifs at h with hnc
    generalize globalSearch d _ q tol none true = g at h
    cases g with
    | error e => simp [Except.map] at h
    | ok r =>
      simp only [Except.map, Except.ok.injEq] at h
      cases hr : r.2 with
      | none => rw [hr] at h; simp at h
      | some p =>
        rw [hr] at h
        simp only [Option.map_some, Option.some.injEq] at h
        exact ⟨p, h.symm⟩
  · obtain ⟨p, h1, -, -⟩ := C33_global_search_unimodal_partial (fun x => x) tol tol 0 htol ⟨le_rfl, zero_le_one⟩
      (by intro a ha b hb hab; simp at ha hb; linarith) (fun a _ b _ hab => hab) (Or.inl (by norm_num)) (fun x _ y _ h => h)
    refine ⟨!![0, 1, 5], fun v _ => Fl.fin (v 0), ⟨0, fun _ _ => 0, fun _ => 0⟩, fun _ => 0, p, ?_⟩
    unfold dfSolve
    simp only
    rw [dif_pos (by norm_num)]
    unfold globalSearch at h1 ⊢
    simp only at h1 ⊢
    have e : ∀ x : ℝ, mixtureOfPdfs x (fun i : Fin 1 => !![(0:ℝ), 1, 5] i ⟨1, by norm_num⟩) (fun i => !![(0:ℝ), 1, 5] i ⟨0, by norm_num⟩) 0 = x := by
      intro x
      simp [mixtureOfPdfs]
    simp only [e]
    generalize globalCore _ _ = g at h1 ⊢
    cases g with
    | error e => simp [Except.map] at h1
    | ok r =>
      simp only [Except.map, Except.ok.injEq, Prod.mk.injEq, true_and] at h1
      rw [h1]
      rfl

/-! ## Concrete cases -/

/-- A function with the properties used of the normal quantile function. -/
example : ∃ ppf, NormPpf ppf := by
  refine ⟨fun x => if x ≤ 0 then ⊥ else if 1 ≤ x then ⊤ else (x : EReal), by simp, by norm_num, ?_⟩
  intro a b h0 hab h1
  split_ifs <;> first | exact bot_le | exact le_top | exact le_rfl | (exfalso; linarith) | exact_mod_cast hab

/-- A training set that meets the hypotheses of C43 and C44 for `DFX`: six rows, two features, three classes, four equal-count bins. -/
example : ∃ (cfg : DfCfg) (classes y : List ℕ) (X : List (Fin 2 → ℝ)), cfg.f = .cdf ∧ 0 < cfg.nBins ∧ X ≠ [] ∧ y.length = X.length ∧ (∀ c ∈ classes, c ∈ y)
    ∧ SpanningStrategy cfg X.length ∧ classes.Nodup ∧ (∀ a, a ∈ classes ↔ a ∈ y) :=
  ⟨⟨.cdf, 4, .equalCount⟩, [1, 2, 3], [2, 1, 3, 3, 1, 2], [![1, 0], ![2, 5], ![1, 1], ![0, -3], ![7, 2], ![2, 2]], rfl, by norm_num, by simp, rfl, by simp, Or.inr ⟨rfl, by simp⟩, by decide,
    fun a => by simp; omega⟩

/-- A training set that meets the hypotheses of C43, C44 and C83 for `DFy`: three classes, six predictions for three examples. -/
example : ∃ (cfg : DfCfg) (classes y yExt : List ℕ) (preds : List (Fin classes.length → ℝ)), cfg.f = .cdf ∧ 0 < cfg.nBins ∧ preds ≠ [] ∧ yExt.length = preds.length
    ∧ y.length ≠ preds.length ∧ (∀ c ∈ classes, c ∈ yExt) ∧ SpanningStrategy cfg preds.length ∧ 3 ≤ classes.length :=
  ⟨⟨.cdf, 8, .equalWidth⟩, [1, 2, 3], [2, 1, 3], [2, 1, 3, 2, 1, 3], [![0.2, 0.5, 0.3], ![1, 0, 0], ![0, 0, 1], ![0.3, 0.3, 0.4], ![0.5, 0.5, 0], ![0, 0.1, 0.9]], rfl, by norm_num, by simp, rfl,
    by simp, by simp, Or.inl rfl, le_rfl⟩

/-- A sample whose normal and binormal deviations are positive. -/
example : 0 < (normalParams [(0:ℝ), 2] [1, 1] [1]).2 ∧ 0 < (binormalParams [(0:ℝ), 2, 1, 1] [1, 1, 2, 2] [1, 2]).2 := by
  constructor
  · simp only [normalParams, npAverage]
    apply Real.sqrt_pos.2
    norm_num [List.count_cons]
  · simp only [binormalParams, npStd, npMean, selectRows]
    norm_num [List.filter_cons]

/-- Friedman: three labelled predictions. -/
example : ∃ (classes yExt : List ℕ) (preds : List (Fin classes.length → ℝ)), yExt.length = preds.length ∧ classes.Nodup ∧ ∀ a, a ∈ classes ↔ a ∈ yExt :=
  ⟨[1, 2], [2, 1, 2], [![0.2, 0.8], ![1, 0], ![0.4, 0.6]], rfl, by decide, fun a => by simp; omega⟩

end Verif.Props
