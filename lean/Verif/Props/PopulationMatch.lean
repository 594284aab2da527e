import Verif.Props.Population
import Verif.Props.Certain
import Mathlib.Analysis.Convex.StdSimplex

/-!
# C165, second part: the methods that look for the closest mixture
-/

namespace Verif.Props

open Verif.Model Verif.Spec Verif.Proof
open MeasureTheory ProbabilityTheory Filter Topology

/-- Prevalences of the closest mixture, when the representations of the classes and of the bag converge. -/
theorem closest_converges {E : Type*} {m n : ℕ} {distance : DfDistance m} {dist : (Fin m → ℝ) → (Fin m → ℝ) → ℝ} (hD : namedDistance distance = some dist) (T : Fin m → Fin n → ℝ) (hT : ∀ i j, 0 ≤ T i j) (hid : Identifiable T)
    (p : Fin n → ℝ) (hp : IsPrev p) (Tn : ℕ → Fin m → Fin n → ℝ) (hTn : ∀ i j, Tendsto (fun s => Tn s i j) atTop (𝓝 (T i j))) (q : ℕ → Fin m → ℝ) (hq : ∀ i, Tendsto (fun s => q s i) atTop (𝓝 (mixtureOf T p i)))
    (ans : ℕ × ℕ → Except E (Option (List Fl)))
    (hans : ∀ᶠ s : ℕ × ℕ in atTop, ∃ x, ans s = .ok (some (realList x)) ∧ IsPrev x ∧ dist (q s.2) (mixtureOf (Tn s.1) x) ≤ dist (q s.2) (mixtureOf (Tn s.1) p)) :
    ∃ x : ℕ × ℕ → Fin n → ℝ, (∀ᶠ s in atTop, ans s = .ok (some (List.ofFn fun i => Fl.fin (x s i)))) ∧ Tendsto x atTop (𝓝 p) := by
  classical
  obtain ⟨κ, hκ0, hκ⟩ := C137_constant hD T hT hid
  set good : ℕ × ℕ → (Fin n → ℝ) → Prop := fun s x => ans s = .ok (some (realList x)) ∧ IsPrev x ∧ dist (q s.2) (mixtureOf (Tn s.1) x) ≤ dist (q s.2) (mixtureOf (Tn s.1) p) with hgood
  set x : ℕ × ℕ → Fin n → ℝ := fun s => if hs : ∃ x, good s x then hs.choose else p with hx
  have hspec : ∀ᶠ s in atTop, good s (x s) := by
    filter_upwards [hans] with s hs
    have : x s = hs.choose := dif_pos hs
    rw [this]
    exact hs.choose_spec
  have hprev : ∀ s, IsPrev (x s) := fun s => by
    by_cases hs : ∃ x, good s x
    · rw [show x s = hs.choose from dif_pos hs]
      exact hs.choose_spec.2.1
    · rw [show x s = p from dif_neg hs]
      exact hp
  refine ⟨x, hspec.mono fun s hs => hs.1, ?_⟩
  have hcont : Continuous fun v : (Fin m → ℝ) × (Fin m → ℝ) => dist v.1 v.2 := by
    cases distance with
    | fn d => cases hD
    | l1 => obtain rfl := Option.some.inj hD; unfold totalError; fun_prop
    | l2 => obtain rfl := Option.some.inj hD; unfold euclidean; fun_prop
    | hd => obtain rfl := Option.some.inj hD; unfold hellingerDist; fun_prop
  rw [tendsto_iff_ultrafilter]
  intro U hU
  have hmem : ∀ s, x s ∈ stdSimplex ℝ (Fin n) := fun s => ⟨(hprev s).1, (hprev s).2⟩
  obtain ⟨z, hz, hzlim⟩ := (isCompact_stdSimplex ℝ (Fin n)).ultrafilter_le_nhds (U.map x) (by
    rw [le_principal_iff]
    exact Filter.mem_map.2 (Eventually.of_forall hmem))
  have hxz : Tendsto x U (𝓝 z) := hzlim
  have hqU : Tendsto (fun s : ℕ × ℕ => q s.2) U (𝓝 (mixtureOf T p)) := tendsto_pi_nhds.2 fun i => (tendsto_both (hq i)).2.mono_left hU
  have hmix : ∀ {z : ℕ × ℕ → Fin n → ℝ} {z' : Fin n → ℝ}, Tendsto z U (𝓝 z') → Tendsto (fun s : ℕ × ℕ => mixtureOf (Tn s.1) (z s)) U (𝓝 (mixtureOf T z')) := fun {z z'} hz =>
    tendsto_pi_nhds.2 fun i => tendsto_finsetSum _ fun j _ => ((tendsto_both (hTn i j)).1.mono_left hU).mul ((tendsto_pi_nhds.1 hz) j)
  have h1 : Tendsto (fun s : ℕ × ℕ => dist (q s.2) (mixtureOf (Tn s.1) (x s))) U (𝓝 (dist (mixtureOf T p) (mixtureOf T z))) := (hcont.tendsto _).comp (hqU.prodMk_nhds (hmix hxz))
  have h2 : Tendsto (fun s : ℕ × ℕ => dist (q s.2) (mixtureOf (Tn s.1) p)) U (𝓝 (dist (mixtureOf T p) (mixtureOf T p))) := (hcont.tendsto _).comp (hqU.prodMk_nhds (hmix tendsto_const_nhds))
  have h3 : dist (mixtureOf T p) (mixtureOf T z) ≤ 0 := by
    have := le_of_tendsto_of_tendsto h1 h2 (hU (hspec.mono fun s hs => hs.2.2))
    rwa [named_self hD] at this
  have h4 := (hκ p z hp ⟨hz.1, hz.2⟩).trans (mul_nonpos_of_nonneg_of_nonpos hκ0 h3)
  have h5 : z = p := by
    funext i
    have h6 := (Finset.single_le_sum (f := fun i => |p i - z i|) (fun i _ => abs_nonneg _) (Finset.mem_univ i)).trans h4
    have := abs_eq_zero.1 (le_antisymm h6 (abs_nonneg _))
    linarith
  rw [← h5]
  exact hxz

/-- Matrices with independent columns form an open set. -/
theorem eventually_injective {m n : ℕ} (T : Fin m → Fin n → ℝ) (hT : ∀ x : Fin n → ℝ, (∀ i, ∑ j, T i j * x j = 0) → x = 0) (Tn : ℕ → Fin m → Fin n → ℝ) (hTn : ∀ i j, Tendsto (fun s => Tn s i j) atTop (𝓝 (T i j))) :
    ∀ᶠ s in atTop, ∀ x : Fin n → ℝ, (∀ i, ∑ j, Tn s i j * x j = 0) → x = 0 := by
  have hdet : ∀ A : Matrix (Fin m) (Fin n) ℝ, (A.transpose * A).det ≠ 0 ↔ ∀ x : Fin n → ℝ, (∀ i, ∑ j, A i j * x j = 0) → x = 0 := fun A => by
    constructor
    · intro h x hx
      by_contra hne
      refine h (Matrix.exists_mulVec_eq_zero_iff.1 ⟨x, hne, ?_⟩)
      have : A.mulVec x = 0 := funext hx
      rw [← Matrix.mulVec_mulVec, this, Matrix.mulVec_zero]
    · intro h h0
      obtain ⟨x, hne, hx⟩ := Matrix.exists_mulVec_eq_zero_iff.2 h0
      refine hne (h x fun i => ?_)
      rw [← Matrix.mulVec_mulVec] at hx
      have h1 : x ⬝ᵥ (A.transpose.mulVec (A.mulVec x)) = (A.mulVec x) ⬝ᵥ (A.mulVec x) := by
        rw [Matrix.dotProduct_mulVec, Matrix.vecMul_transpose]
      rw [hx, dotProduct_zero] at h1
      exact congrFun (dotProduct_self_eq_zero.1 h1.symm) i
  have hlim : Tendsto (fun s => ((Matrix.of (Tn s)).transpose * Matrix.of (Tn s)).det) atTop (𝓝 ((Matrix.of T).transpose * Matrix.of T).det) := by
    have hc : Continuous fun A : Matrix (Fin m) (Fin n) ℝ => (A.transpose * A).det := by fun_prop
    exact (hc.tendsto _).comp (tendsto_pi_nhds.2 fun i => tendsto_pi_nhds.2 fun j => hTn i j)
  filter_upwards [hlim.eventually (isOpen_ne.mem_nhds ((hdet (Matrix.of T)).2 hT))] with s hs
  exact (hdet (Matrix.of (Tn s))).1 hs

section
variable {σ D α : Type} {k : ℕ} [LinearOrder α] (enc : Bool → α) (w : World σ D α) (et et' : Option ℕ) (X Xt : List D) (cs : List α) (y : List α) (hl : labelsOf y = cs) (hy : y ≠ [])
include hl hy

theorem aco_at (ops : EstOps σ D α k) (sv : CvxSolver) (hsv : ExactCvx sv) (P : List α) (hP : P.length = y.length) (hPy : ∀ a ∈ P, a ∈ cs) (Q : List α) (hQ : Q ≠ []) (p : Fin cs.length → ℝ) (hp : IsPrev p) :
    ∃ x, ucRun ops enc w ⟨acoClass sv, et, et'⟩ X y (some (.crisp P)) Xt (some (.crisp Q)) = .ok (some (realList x)) ∧ IsPrev x
      ∧ totalError (fun i : Fin cs.length => ∑ l, if l ≤ i then meanOf Q fun b => if b = cs[l] then (1:ℝ) else 0 else 0)
          (mixtureOf (fun i j : Fin cs.length => ∑ l, if l ≤ i then meanOf (ofClass (y.zip P) cs[j]) fun b => if b = cs[l] then (1:ℝ) else 0 else 0) x)
        ≤ totalError (fun i : Fin cs.length => ∑ l, if l ≤ i then meanOf Q fun b => if b = cs[l] then (1:ℝ) else 0 else 0)
          (mixtureOf (fun i j : Fin cs.length => ∑ l, if l ≤ i then meanOf (ofClass (y.zip P) cs[j]) fun b => if b = cs[l] then (1:ℝ) else 0 else 0) p) := by
  subst hl
  have hcm := fun i j => class_mean_crisp y 1 P (by simp [stacked, hP]) i j
  simp only [show stacked y 1 = y by simp [stacked]] at hcm
  simp only [hcm]
  obtain ⟨x, hx1, hx2, hx3⟩ := aco_closest enc w et et' X Xt y hy 1 one_pos ops sv hsv P (by simp [hP]) (fun a ha => (mem_labelsOf _ _).1 (hPy a ha)) _ rfl Q hQ
  refine ⟨x, hx1, hx2, ?_⟩
  have hf : ∀ l : Fin (labelsOf y).length, freq Q (labelsOf y)[l] = meanOf Q fun b => if b = (labelsOf y)[l] then (1:ℝ) else 0 := fun l => congrFun (freqs_mean (labelsOf y) Q) l
  have := hx3 p hp
  simp only [hf] at this
  exact this

end

section
variable {Ω : Type*} [MeasurableSpace Ω] {μ : Measure Ω} [IsProbabilityMeasure μ]
variable {σ D α : Type} {k : ℕ} [LinearOrder α] [MeasurableSpace α] [MeasurableSingletonClass α] (enc : Bool → α) (w : World σ D α) (et et' : Option ℕ) (X Xt : List D)
  (cs : List α) (hcs : cs.Pairwise (· < ·)) (π p : Fin cs.length → ℝ) (hπ : IsPrev π) (hpos : ∀ c, 0 < π c) (hp : IsPrev p)
include hcs hπ hpos hp

/-- **C165** for ACOrdinal: different prevalences have to give different accumulated rates. -/
theorem C165_aco (ops : EstOps σ D α k) (sv : CvxSolver) (hsv : ExactCvx sv) (ν : Fin cs.length → Measure α) (hν : ∀ c, IsProbabilityMeasure (ν c)) (hsup : ∀ c, ν c {a | a ∈ cs}ᶜ = 0)
    (hid : Identifiable fun i j : Fin cs.length => ∑ l, if l ≤ i then (ν j).real {cs[l]} else 0) (W Z : ℕ → Ω → α × α) (hW : Population μ cs π ν W) (hZ : Population μ cs p ν Z) :
    LearnsAndConverges μ W Z p fun y P bag => ucRun ops enc w ⟨acoClass sv, et, et'⟩ X y (some (.crisp P)) Xt (some (.crisp bag)) := by
  filter_upwards [population_facts hcs hπ hpos hp hν (measurable_labels cs) hsup (F := fun (j : Fin cs.length) b => if b = cs[j] then (1:ℝ) else 0) (fun j => (indicator_facts cs[j] (ν j) (hν j)).1)
    (fun j c => (indicator_facts cs[j] (ν c) (hν c)).2.1) hW hZ] with ω hω
  obtain ⟨h1, h2, h3, h4, -⟩ := hω
  simp only [(indicator_facts _ _ (hν _)).2.2] at h1 h2
  refine closest_converges (distance := .l1) rfl (fun i j : Fin cs.length => ∑ l, if l ≤ i then (ν j).real {cs[l]} else 0) (fun i j => Finset.sum_nonneg fun l _ => by split_ifs <;> positivity) hid p hp
    (fun n i j => ∑ l, if l ≤ i then meanOf (ofClass (firstExamples W n ω) cs[j]) fun b => if b = cs[l] then (1:ℝ) else 0 else 0) (fun i j => tendsto_finsetSum _ fun l _ => ?_)
    (fun n i => ∑ l, if l ≤ i then meanOf ((firstExamples Z n ω).map Prod.snd) fun b => if b = cs[l] then (1:ℝ) else 0 else 0) (fun i => ?_) _ ?_
  · by_cases hli : l ≤ i
    · simp only [if_pos hli]
      exact h1 j l
    · simp only [if_neg hli]
      exact tendsto_const_nhds
  · have e : mixtureOf (fun i j : Fin cs.length => ∑ l, if l ≤ i then (ν j).real {cs[l]} else 0) p i = ∑ l, if l ≤ i then ∑ c, p c * (ν c).real {cs[l]} else 0 := by
      unfold mixtureOf
      simp only [Finset.sum_mul]
      rw [Finset.sum_comm]
      refine Finset.sum_congr rfl fun l _ => ?_
      by_cases hli : l ≤ i
      · simp only [if_pos hli, mul_comm]
      · simp only [if_neg hli, zero_mul, Finset.sum_const_zero]
    rw [e]
    refine tendsto_finsetSum _ fun l _ => ?_
    by_cases hli : l ≤ i
    · simp only [if_pos hli]
      exact h2 l
    · simp only [if_neg hli]
      exact tendsto_const_nhds
  · filter_upwards [eventually_both (h3.and (eventually_gt_atTop 0)) (eventually_gt_atTop 0)] with s hs
    have := aco_at enc w et et' X Xt cs _ hs.1.1 (by simpa using firstExamples_ne W hs.1.2 ω) ops sv hsv _ (by simp) (h4 s.1) ((firstExamples Z s.2 ω).map Prod.snd) (by simpa using firstExamples_ne Z hs.2 ω) p hp
    rwa [zip_unzip] at this

end


/-! ## DFy, with bins of equal width -/

/-- The cut points of the bins of equal width of [0, 1]. -/
noncomputable def widthCuts (n : ℕ) : Fin (n + 1) → EReal := fun i => if i = Fin.last n then ⊤ else if i = 0 then ⊥ else ((linspace 0 1 n i : ℝ) : EReal)

theorem computeBincuts_width (ppf : ℝ → EReal) {α : Type*} [DecidableEq α] (x : List ℝ) (y classes : List α) (n : ℕ) (hn : 0 < n) :
    computeBincuts ppf x y classes n .equalWidth (some (0, 1)) = .ok (widthCuts n) := by
  simp only [computeBincuts, binRange, binEdges]
  rw [if_neg (show ¬ n = 0 by omega), if_neg (show ¬ (1:ℝ) < 0 by norm_num), if_neg (show ¬ (0:ℝ) = 1 by norm_num)]
  rfl

theorem widthCuts_ok (n : ℕ) (hn : 0 < n) : CutsOk (widthCuts n) := by
  obtain ⟨cuts, h1, h2⟩ := C46_equal_width (α := ℕ) (fun _ => 0) [] [] [] n hn (some (0, 1)) (by simp) (by rintro r h; cases h; norm_num)
  rw [computeBincuts_width _ _ _ _ n hn] at h1
  rwa [← Except.ok.inj h1] at h2

theorem mem_width (n : ℕ) (b : Fin n) (v : ℝ) : (widthCuts n b.castSucc ≤ (v : EReal) ∧ (v : EReal) < widthCuts n b.succ) ↔ v ∈ widthBin n b := by
  have h1 : widthCuts n b.castSucc ≤ (v : EReal) ↔ ((b : ℕ) ≠ 0 → (b : ℕ) / (n : ℝ) ≤ v) := by
    unfold widthCuts
    rw [if_neg (Fin.castSucc_lt_last b).ne]
    by_cases h0 : (b : ℕ) = 0
    · rw [if_pos (Fin.ext (by simpa using h0))]
      simp [h0]
    · rw [if_neg (fun h => h0 (by simpa using congrArg Fin.val h)), EReal.coe_le_coe_iff]
      simp only [linspace, Fin.val_castSucc, h0, ne_eq, not_false_eq_true, forall_true_left]
      rw [show (0:ℝ) + ((b : ℕ) : ℝ) * ((1 - 0) / n) = (b : ℕ) / (n : ℝ) by ring]
  have h2 : (v : EReal) < widthCuts n b.succ ↔ ((b : ℕ) + 1 ≠ n → v < ((b : ℕ) + 1) / (n : ℝ)) := by
    unfold widthCuts
    by_cases h0 : (b : ℕ) + 1 = n
    · rw [if_pos (Fin.ext (by simpa using h0))]
      simp [h0, EReal.coe_lt_top]
    · rw [if_neg (fun h => h0 (by simpa using congrArg Fin.val h)), if_neg (Fin.succ_ne_zero b), EReal.coe_lt_coe_iff]
      simp only [linspace, Fin.val_succ, h0, ne_eq, not_false_eq_true, forall_true_left]
      rw [show (0:ℝ) + (((b : ℕ) + 1 : ℕ) : ℝ) * ((1 - 0) / n) = ((b : ℕ) + 1) / (n : ℝ) by push_cast; ring]
  rw [h1, h2]
  rfl

open Classical in
theorem share_mean {R : Type*} (n : ℕ) (rows : List R) (f : R → ℝ) (b : Fin n) : binShare (widthCuts n) (rows.map f) b = meanOf rows fun r => if f r ∈ widthBin n b then (1:ℝ) else 0 := by
  unfold binShare meanOf
  simp only [mem_width n, List.length_map]
  congr 1
  induction rows with
  | nil => simp
  | cons a l ih =>
    simp only [List.map_cons, List.countP_cons, List.sum_cons]
    rw [← ih]
    by_cases h : f a ∈ widthBin n b
    · simp [h, add_comm]
    · simp [h]

theorem measurable_widthBin (n : ℕ) (b : Fin n) : MeasurableSet (widthBin n b) := by
  have : widthBin n b = {v | (b : ℕ) ≠ 0 → (b : ℕ) / (n : ℝ) ≤ v} ∩ {v | (b : ℕ) + 1 ≠ n → v < ((b : ℕ) + 1) / (n : ℝ)} := rfl
  rw [this]
  refine MeasurableSet.inter ?_ ?_
  · by_cases h : (b : ℕ) = 0
    · simp [h]
    · simp only [ne_eq, h, not_false_eq_true, forall_true_left]
      exact measurableSet_Ici
  · by_cases h : (b : ℕ) + 1 = n
    · simp [h]
    · simp only [ne_eq, h, not_false_eq_true, forall_true_left]
      exact measurableSet_Iio

open Classical in
theorem sum_widthBin (n : ℕ) (hn : 0 < n) (v : ℝ) : ∑ b : Fin n, (if v ∈ widthBin n b then (1:ℝ) else 0) = 1 := by
  refine Eq.trans ?_ (binShare_isPrev hn (widthCuts_ok n hn) (xs := [v]) (by simp)).2
  refine Finset.sum_congr rfl fun b _ => ?_
  have := share_mean n [v] id b
  simp only [List.map_id] at this
  rw [this]
  simp [meanOf]

open Classical in
theorem sum_share (n : ℕ) (hn : 0 < n) {R : Type*} (rows : List R) (hr : rows ≠ []) (f : R → ℝ) : ∑ b : Fin n, meanOf rows (fun r => if f r ∈ widthBin n b then (1:ℝ) else 0) = 1 := by
  refine Eq.trans ?_ (binShare_isPrev hn (widthCuts_ok n hn) (xs := rows.map f) (by simpa using hr)).2
  exact Finset.sum_congr rfl fun b _ => (share_mean n rows f b).symm

/-- The probabilities of the bins add up to one. -/
theorem sum_binProb {R : Type*} [MeasurableSpace R] (ν : Measure R) (hν : IsProbabilityMeasure ν) (n : ℕ) (hn : 0 < n) (f : R → ℝ) (hf : Measurable f) : ∑ b : Fin n, ν.real {r | f r ∈ widthBin n b} = 1 := by
  classical
  have h1 : ∀ b : Fin n, ν.real {r | f r ∈ widthBin n b} = ∫ r, (if f r ∈ widthBin n b then (1:ℝ) else 0) ∂ν := fun b => by
    have hm : MeasurableSet {r | f r ∈ widthBin n b} := hf (measurable_widthBin n b)
    rw [← integral_indicator_one hm]
    refine integral_congr_ae (Eventually.of_forall fun r => ?_)
    simp [Set.indicator_apply]
  simp only [h1]
  rw [← integral_finsetSum]
  · simp only [sum_widthBin n hn]
    simp
  · intro b _
    refine (integrable_const (1:ℝ)).mono' ?_ (Eventually.of_forall fun r => ?_)
    · exact (Measurable.ite (hf (measurable_widthBin n b)) measurable_const measurable_const).aestronglyMeasurable
    · split_ifs <;> simp

open Classical in
theorem binInd_facts {R : Type*} [MeasurableSpace R] (ν : Measure R) (hν : IsProbabilityMeasure ν) (n : ℕ) (b : Fin n) (f : R → ℝ) (hf : Measurable f) :
    Measurable (fun r => if f r ∈ widthBin n b then (1:ℝ) else 0) ∧ Integrable (fun r => if f r ∈ widthBin n b then (1:ℝ) else 0) ν ∧ ∫ r, (if f r ∈ widthBin n b then (1:ℝ) else 0) ∂ν = ν.real {r | f r ∈ widthBin n b} := by
  have hm : MeasurableSet {r | f r ∈ widthBin n b} := hf (measurable_widthBin n b)
  have h0 : Measurable (fun r => if f r ∈ widthBin n b then (1:ℝ) else 0) := Measurable.ite hm measurable_const measurable_const
  refine ⟨h0, (integrable_const (1:ℝ)).mono' h0.aestronglyMeasurable (Eventually.of_forall fun r => ?_), ?_⟩
  · split_ifs <;> simp
  · rw [← integral_indicator_one hm]
    refine integral_congr_ae (Eventually.of_forall fun r => ?_)
    simp [Set.indicator_apply]

theorem prev_length_pos {n : ℕ} {p : Fin n → ℝ} (hp : IsPrev p) : 0 < n := by
  rcases Nat.eq_zero_or_pos n with rfl | h
  · have := hp.2
    simp at this
  · exact h

/-- With columns of the same positive total, different mixtures are independent columns. -/
theorem injective_of_identifiable {m n : ℕ} (T : Fin m → Fin n → ℝ) (t : ℝ) (ht : t ≠ 0) (hs : ∀ j, ∑ i, T i j = t) (hid : Identifiable T) (x : Fin n → ℝ) (hx : ∀ i, ∑ j, T i j * x j = 0) : x = 0 := by
  have hsum : ∑ j, x j = 0 := by
    have : ∑ i, ∑ j, T i j * x j = 0 := Finset.sum_eq_zero fun i _ => hx i
    rw [Finset.sum_comm] at this
    simp only [← Finset.sum_mul, hs] at this
    rw [← Finset.mul_sum] at this
    exact (mul_eq_zero.1 this).resolve_left ht
  rcases Nat.eq_zero_or_pos n with rfl | hn
  · exact Subsingleton.elim _ _
  set S := ∑ j, |x j| with hS
  have hn' : (0:ℝ) < n := by exact_mod_cast hn
  by_cases hS0 : S = 0
  · funext j
    have := (Finset.sum_eq_zero_iff_of_nonneg fun j _ => abs_nonneg (x j)).1 hS0 j (Finset.mem_univ j)
    exact abs_eq_zero.1 this
  have hSp : 0 < S := lt_of_le_of_ne (Finset.sum_nonneg fun j _ => abs_nonneg _) (Ne.symm hS0)
  have hle : ∀ j, |x j| ≤ S := fun j => Finset.single_le_sum (f := fun j => |x j|) (fun j _ => abs_nonneg _) (Finset.mem_univ j)
  have hu : IsPrev fun _ : Fin n => 1 / (n : ℝ) := ⟨fun _ => by positivity, by simp [hn'.ne']⟩
  have hv : IsPrev fun j : Fin n => 1 / (n : ℝ) + x j / (n * S) := by
    refine ⟨fun j => ?_, ?_⟩
    · have h1 : -(x j) ≤ S := (neg_le_abs _).trans (hle j)
      change 0 ≤ 1 / (n : ℝ) + x j / (n * S)
      rw [show 1 / (n : ℝ) + x j / (n * S) = (S + x j) / (n * S) by field_simp]
      exact div_nonneg (by linarith) (by positivity)
    · have h1 : ∑ j, x j / (n * S) = 0 := by rw [← Finset.sum_div, hsum, zero_div]
      rw [Finset.sum_add_distrib, h1, add_zero]
      exact hu.2
  have := hid _ _ hu hv fun i => by
    simp only [mul_add, Finset.sum_add_distrib]
    have : ∑ j, T i j * (x j / (n * S)) = (∑ j, T i j * x j) / (n * S) := by
      rw [Finset.sum_div]
      exact Finset.sum_congr rfl fun j _ => by ring
    rw [this, hx i]
    simp
  funext j
  have h1 := congrFun this j
  have h2 : x j / (n * S) = 0 := by linarith
  exact (div_eq_zero_iff.1 h2).resolve_right (mul_pos hn' hSp).ne'

theorem cumsum_inj {m : ℕ} {v w : Fin m → ℝ} (h : cumsum v = cumsum w) : v = w := by
  cases m with
  | zero => exact Subsingleton.elim _ _
  | succ m =>
    funext i
    induction i using Fin.cases with
    | zero => simpa [cumsum_zero] using congrFun h 0
    | succ b =>
      have h1 := congrFun h b.succ
      rw [cumsum_castSucc, cumsum_castSucc, congrFun h b.castSucc] at h1
      linarith

theorem accumulate_inj (f : DistFun) {nd nb : ℕ} {v w : Fin nd → Fin nb → ℝ} (h : accumulate .whole f v = accumulate .whole f w) : v = w := by
  have hst : stackBlocks v = stackBlocks w := by
    cases f with
    | pdf => exact h
    | cdf => exact cumsum_inj h
  funext d
  have := congrArg (fun u => blockOf u d) hst
  simpa [blockOf_stack] using this

section
variable {σ D α : Type} {k : ℕ} [LinearOrder α] (enc : Bool → α) (w : World σ D α) (et et' : Option ℕ) (X Xt : List D) (cs : List α) (y : List α) (hl : labelsOf y = cs) (hy : y ≠ [])
include hl hy

open Classical in
theorem dfy_at (ops : EstOps σ D α cs.length) (sv : CvxSolver) (hsv : ExactCvx sv) (qp : QPSolver) (hqp : ExactQP qp) (ppf : ℝ → EReal) (la : LinAlg cs.length) (hla : ExactLinAlg la) (fuel : ℕ) (tol : ℝ)
    (cfg : DfCfg) (hnb : 0 < cfg.nBins) (hw : cfg.strategy = .equalWidth) (distance : DfDistance (nDescriptors cs.length * cfg.nBins)) {dist : (Fin (nDescriptors cs.length * cfg.nBins) → ℝ) → (Fin (nDescriptors cs.length * cfg.nBins) → ℝ) → ℝ}
    (hD : namedDistance distance = some dist) (P : List (Fin cs.length → ℝ)) (hP : P.length = y.length)
    (hd : Solvable distance fun i (c : Fin cs.length) => accumulate .whole cfg.f (fun d b => meanOf (ofClass (y.zip P) cs[c]) fun row => if dfyAtt cs.length d row ∈ widthBin cfg.nBins b then (1:ℝ) else 0) i)
    (Q : List (Fin cs.length → ℝ)) (p : Fin cs.length → ℝ) (hp : IsPrev p) :
    ∃ x, ucRun ops enc w ⟨dfyClass ppf sv qp la (fuel + 1) tol cfg distance, et, et'⟩ X y (some (.probs P)) Xt (some (.probs Q)) = .ok (some (realList x)) ∧ IsPrev x
      ∧ dist (accumulate .whole cfg.f fun d b => meanOf Q fun row => if dfyAtt cs.length d row ∈ widthBin cfg.nBins b then (1:ℝ) else 0)
          (mixtureOf (fun i (c : Fin cs.length) => accumulate .whole cfg.f (fun d b => meanOf (ofClass (y.zip P) cs[c]) fun row => if dfyAtt cs.length d row ∈ widthBin cfg.nBins b then (1:ℝ) else 0) i) x)
        ≤ dist (accumulate .whole cfg.f fun d b => meanOf Q fun row => if dfyAtt cs.length d row ∈ widthBin cfg.nBins b then (1:ℝ) else 0)
          (mixtureOf (fun i (c : Fin cs.length) => accumulate .whole cfg.f (fun d b => meanOf (ofClass (y.zip P) cs[c]) fun row => if dfyAtt cs.length d row ∈ widthBin cfg.nBins b then (1:ℝ) else 0) i) p) := by
  subst hl
  have hst : stacked y 1 = y := by simp [stacked]
  have hc : ∀ d : Fin (nDescriptors (labelsOf y).length), computeBincuts ppf (P.map (dfyAtt (labelsOf y).length d)) y (labelsOf y) cfg.nBins cfg.strategy (some (0, 1)) = .ok (widthCuts cfg.nBins) := fun d => by
    rw [hw]
    exact computeBincuts_width ppf _ _ _ _ hnb
  obtain ⟨fit, h1, -, h3, h4⟩ := df_repr ppf .whole cfg (some (0, 1)) (dfyAtt (labelsOf y).length) (labelsOf y) y y P hP.symm fun d => ⟨_, hc d, widthCuts_ok _ hnb⟩
  have hcut : ∀ d, fit.cuts d = widthCuts cfg.nBins := fun d => by
    have := dfFit_cuts ppf .whole cfg (some (0, 1)) _ _ _ _ _ fit h1 d
    rw [hc d] at this
    exact (Except.ok.inj this).symm
  have ht : fit.train = fun i (c : Fin (labelsOf y).length) => accumulate .whole cfg.f (fun d b => meanOf (ofClass (y.zip P) (labelsOf y)[c]) fun row => if dfyAtt (labelsOf y).length d row ∈ widthBin cfg.nBins b then (1:ℝ) else 0) i := by
    funext i c
    have := congrFun (h3 c) i
    rw [this]
    congr 1
    funext d b
    rw [hcut d, share_mean]
    rfl
  have hfit : dfyFit ppf cfg (labelsOf y) y (stacked y 1) P = .ok fit := by rw [hst]; exact h1
  obtain ⟨q, x, hq, hx1, hx2, hx3⟩ := dfy_closest enc w et et' X Xt y hy 1 ops sv hsv qp hqp ppf la hla fuel tol cfg distance hD P (by simp [hP]) fit hfit (by rw [ht]; exact hd) Q
  refine ⟨x, hx1, hx2, ?_⟩
  have := hx3 p hp
  have hq' : q = accumulate .whole cfg.f fun d b => meanOf Q fun row => if dfyAtt (labelsOf y).length d row ∈ widthBin cfg.nBins b then (1:ℝ) else 0 := by
    have h5 := (h4 Q).symm.trans hq
    rw [← Except.ok.inj h5]
    congr 1
    funext d b
    rw [hcut d, share_mean]
  rw [ht, hq'] at this
  exact this

end

section
variable {Ω : Type*} [MeasurableSpace Ω] {μ : Measure Ω} [IsProbabilityMeasure μ]
variable {σ D α : Type} {k : ℕ} [LinearOrder α] [MeasurableSpace α] [MeasurableSingletonClass α] (enc : Bool → α) (w : World σ D α) (et et' : Option ℕ) (X Xt : List D)
  (cs : List α) (hcs : cs.Pairwise (· < ·)) (π p : Fin cs.length → ℝ) (hπ : IsPrev π) (hpos : ∀ c, 0 < π c) (hp : IsPrev p)
include hcs hπ hpos hp

/-- **C165** for DFy (HDy) with bins of equal width and distribution 'PDF', and, with distance 'L1', also 'CDF' (MMy): different prevalences have to give different probabilities of the bins. -/
theorem C165_dfy (ops : EstOps σ D α cs.length) (sv : CvxSolver) (hsv : ExactCvx sv) (qp : QPSolver) (hqp : ExactQP qp) (ppf : ℝ → EReal) (la : LinAlg cs.length) (hla : ExactLinAlg la) (fuel : ℕ) (tol : ℝ)
    (cfg : DfCfg) (hnb : 0 < cfg.nBins) (hw : cfg.strategy = .equalWidth) (distance : DfDistance (nDescriptors cs.length * cfg.nBins)) (hn : ∀ d, distance ≠ .fn d) (hcdf : cfg.f = .cdf → distance = .l1)
    (ν : Fin cs.length → Measure (Fin cs.length → ℝ)) (hν : ∀ c, IsProbabilityMeasure (ν c))
    (hid : ∀ a b, IsPrev a → IsPrev b → (∀ d v, ∑ c, a c * (ν c).real {row | dfyAtt cs.length d row ∈ widthBin cfg.nBins v} = ∑ c, b c * (ν c).real {row | dfyAtt cs.length d row ∈ widthBin cfg.nBins v}) → a = b)
    (W Z : ℕ → Ω → α × (Fin cs.length → ℝ)) (hW : Population μ cs π ν W) (hZ : Population μ cs p ν Z) :
    LearnsAndConverges μ W Z p fun y P bag => ucRun ops enc w ⟨dfyClass ppf sv qp la (fuel + 1) tol cfg distance, et, et'⟩ X y (some (.probs P)) Xt (some (.probs bag)) := by
  classical
  have hatt : ∀ d, Measurable (dfyAtt cs.length d) := fun d => measurable_pi_apply _
  filter_upwards [population_facts hcs hπ hpos hp hν MeasurableSet.univ (by simp) (F := fun (t : Fin (nDescriptors cs.length) × Fin cfg.nBins) row => if dfyAtt cs.length t.1 row ∈ widthBin cfg.nBins t.2 then (1:ℝ) else 0)
    (fun t => (binInd_facts (ν (⟨0, prev_length_pos hp⟩)) (hν _) cfg.nBins t.2 _ (hatt t.1)).1) (fun t c => (binInd_facts (ν c) (hν c) cfg.nBins t.2 _ (hatt t.1)).2.1) hW hZ] with ω hω
  obtain ⟨h1, h2, h3, -, -⟩ := hω
  simp only [(binInd_facts _ (hν _) cfg.nBins _ _ (hatt _)).2.2] at h1 h2
  obtain ⟨dist, hD⟩ : ∃ dist, namedDistance distance = some dist := by
    cases distance with
    | fn d => exact absurd rfl (hn d)
    | l1 => exact ⟨_, rfl⟩
    | l2 => exact ⟨_, rfl⟩
    | hd => exact ⟨_, rfl⟩
  set T : Fin (nDescriptors cs.length * cfg.nBins) → Fin cs.length → ℝ := fun i c => accumulate .whole cfg.f (fun d b => (ν c).real {row | dfyAtt cs.length d row ∈ widthBin cfg.nBins b}) i with hTdef
  have hmix : ∀ x, mixtureOf T x = accumulate .whole cfg.f fun d b => ∑ c, x c * (ν c).real {row | dfyAtt cs.length d row ∈ widthBin cfg.nBins b} := fun x => by
    funext i
    have := accumulate_mixture .whole cfg.f (fun c d b => (ν c).real {row | dfyAtt cs.length d row ∈ widthBin cfg.nBins b}) x i
    simp only [mul_comm _ (x _)] at this ⊢
    rw [this]
    unfold mixtureOf
    exact Finset.sum_congr rfl fun c _ => mul_comm _ _
  have hT0 : ∀ i c, 0 ≤ T i c := fun i c => by
    simp only [hTdef, accumulate]
    cases cfg.f with
    | pdf => exact measureReal_nonneg
    | cdf =>
      refine Finset.sum_nonneg fun l _ => ?_
      split_ifs
      · exact measureReal_nonneg
      · exact le_rfl
  have hId : Identifiable T := fun a b ha hb hab => by
    refine hid a b ha hb fun d v => ?_
    have h4 : mixtureOf T a = mixtureOf T b := funext hab
    rw [hmix, hmix] at h4
    exact congrFun (congrFun (accumulate_inj cfg.f h4) d) v
  set Tn : ℕ → Fin (nDescriptors cs.length * cfg.nBins) → Fin cs.length → ℝ := fun n i c => accumulate .whole cfg.f (fun d b => meanOf (ofClass (firstExamples W n ω) cs[c]) fun row => if dfyAtt cs.length d row ∈ widthBin cfg.nBins b then (1:ℝ) else 0) i with hTn
  have hlim : ∀ i c, Tendsto (fun n => Tn n i c) atTop (𝓝 (T i c)) := fun i c => by
    have h5 := ((continuous_apply i).comp (continuous_accumulate .whole cfg.f (nd := nDescriptors cs.length) (nb := cfg.nBins))).tendsto fun t => (ν c).real {row | dfyAtt cs.length t.1 row ∈ widthBin cfg.nBins t.2}
    exact h5.comp (tendsto_pi_nhds.2 fun t => h1 c t)
  have hqlim : ∀ i, Tendsto (fun n => accumulate .whole cfg.f (fun d b => meanOf ((firstExamples Z n ω).map Prod.snd) fun row => if dfyAtt cs.length d row ∈ widthBin cfg.nBins b then (1:ℝ) else 0) i) atTop (𝓝 (mixtureOf T p i)) := fun i => by
    rw [hmix]
    have h5 := ((continuous_apply i).comp (continuous_accumulate .whole cfg.f (nd := nDescriptors cs.length) (nb := cfg.nBins))).tendsto fun t => ∑ c, p c * (ν c).real {row | dfyAtt cs.length t.1 row ∈ widthBin cfg.nBins t.2}
    exact h5.comp (tendsto_pi_nhds.2 fun t => h2 t)
  have hnd : 0 < nDescriptors cs.length := by
    have := prev_length_pos hp
    unfold nDescriptors
    split_ifs <;> omega
  have hsolv : ∀ᶠ n in atTop, labelsOf ((firstExamples W n ω).map Prod.fst) = cs → Solvable distance (Tn n) := by
    cases distance with
    | fn d => exact absurd rfl (hn d)
    | l1 => exact Eventually.of_forall fun n _ => trivial
    | l2 =>
      have hf : cfg.f = .pdf := by
        cases hf : cfg.f with
        | pdf => rfl
        | cdf => exact absurd (hcdf hf) (by simp)
      refine (eventually_injective T (injective_of_identifiable T (nDescriptors cs.length) (by exact_mod_cast hnd.ne') (fun c => ?_) hId) Tn hlim).mono fun n hn _ => hn
      simp only [hTdef, hf, accumulate]
      rw [← finProdFinEquiv.sum_comp, Fintype.sum_prod_type]
      simp only [stackBlocks, Equiv.symm_apply_apply]
      simp only [fun d => sum_binProb (ν c) (hν c) cfg.nBins hnb (dfyAtt cs.length d) (hatt d)]
      simp
    | hd =>
      have hf : cfg.f = .pdf := by
        cases hf : cfg.f with
        | pdf => rfl
        | cdf => exact absurd (hcdf hf) (by simp)
      refine Eventually.of_forall fun n hn => ⟨nDescriptors cs.length, fun c => ?_⟩
      simp only [hTn, hf, accumulate]
      rw [← finProdFinEquiv.sum_comp, Fintype.sum_prod_type]
      simp only [stackBlocks, Equiv.symm_apply_apply]
      have hne : ofClass (firstExamples W n ω) cs[c] ≠ [] := fun h0 => by
        have hmem : cs[c] ∈ (firstExamples W n ω).map Prod.fst := (mem_labelsOf _ _).1 (by rw [hn]; exact List.getElem_mem _)
        obtain ⟨t, ht, ht1⟩ := List.mem_map.1 hmem
        have : t.2 ∈ ofClass (firstExamples W n ω) cs[c] := List.mem_map.2 ⟨t, List.mem_filter.2 ⟨ht, by simpa using ht1⟩, rfl⟩
        rw [h0] at this
        cases this
      simp only [fun d => sum_share cfg.nBins hnb _ hne (dfyAtt cs.length d)]
      simp
  refine closest_converges hD T hT0 hId p hp Tn hlim _ hqlim _ ?_
  filter_upwards [eventually_both ((h3.and hsolv).and (eventually_gt_atTop 0)) (eventually_gt_atTop 0)] with s hs
  have hsol := hs.1.1.2 hs.1.1.1
  simp only [hTn] at hsol
  have := dfy_at enc w et et' X Xt cs ((firstExamples W s.1 ω).map Prod.fst) hs.1.1.1 (by simpa using firstExamples_ne W hs.1.2 ω) ops sv hsv qp hqp ppf la hla fuel tol cfg hnb hw distance hD ((firstExamples W s.1 ω).map Prod.snd) (by simp)
    (by rw [zip_unzip]; exact hsol) ((firstExamples Z s.2 ω).map Prod.snd) p hp
  rwa [zip_unzip] at this

end


/-! ## The hypotheses can be met -/

/-- The distribution of an example: its class with the given prevalences, and what is seen of it with the distribution of its class. -/
noncomputable def exampleLaw {α β : Type*} [MeasurableSpace α] [MeasurableSpace β] (cs : List α) (p : Fin cs.length → ℝ) (ν : Fin cs.length → Measure β) : Measure (α × β) :=
  ∑ c, ENNReal.ofReal (p c) • (ν c).map fun v => (cs[c], v)

theorem exampleLaw_apply {α β : Type*} [MeasurableSpace α] [MeasurableSpace β] (cs : List α) (p : Fin cs.length → ℝ) (ν : Fin cs.length → Measure β) (s : Set (α × β)) (hs : MeasurableSet s) :
    exampleLaw cs p ν s = ∑ c, ENNReal.ofReal (p c) * ν c {v | (cs[c], v) ∈ s} := by
  unfold exampleLaw
  rw [Measure.finsetSum_apply]
  refine Finset.sum_congr rfl fun c _ => ?_
  rw [Measure.smul_apply, Measure.map_apply measurable_prodMk_left hs, smul_eq_mul]
  rfl

/-- Streams of training and test examples exist, all of them independent, whatever the classes, the prevalences and the distributions of what is seen of the examples of the classes. -/
theorem C165_streams_exist {α β : Type} [LinearOrder α] [MeasurableSpace α] [MeasurableSingletonClass α] [MeasurableSpace β] (cs : List α) (hcs : cs.Pairwise (· < ·)) (π p : Fin cs.length → ℝ) (hπ : IsPrev π) (hp : IsPrev p)
    (ν : Fin cs.length → Measure β) (hν : ∀ c, IsProbabilityMeasure (ν c)) :
    ∃ (μ : Measure (Bool × ℕ → α × β)) (_ : IsProbabilityMeasure μ), iIndepFun (fun (i : Bool × ℕ) (ω : Bool × ℕ → α × β) => ω i) μ
      ∧ Population μ cs π ν (fun i ω => ω (true, i)) ∧ Population μ cs p ν (fun i ω => ω (false, i)) := by
  have hnd : cs.Nodup := hcs.imp fun h => h.ne
  have hprob : ∀ r : Fin cs.length → ℝ, IsPrev r → IsProbabilityMeasure (exampleLaw cs r ν) := fun r hr => ⟨by
    rw [exampleLaw_apply cs r ν _ MeasurableSet.univ]
    simp only [Set.mem_univ, Set.ofPred_true, measure_univ, mul_one]
    rw [← ENNReal.ofReal_sum_of_nonneg fun c _ => hr.1 c, hr.2, ENNReal.ofReal_one]⟩
  set r : Bool → Fin cs.length → ℝ := fun b => if b then π else p with hr
  have hrp : ∀ b, IsPrev (r b) := fun b => by cases b <;> simpa [hr]
  have hinst : ∀ t : Bool × ℕ, IsProbabilityMeasure (exampleLaw cs (r t.1) ν) := fun t => hprob _ (hrp t.1)
  have hind : iIndepFun (fun (i : Bool × ℕ) (ω : Bool × ℕ → α × β) => ω i) (Measure.infinitePi fun t : Bool × ℕ => exampleLaw cs (r t.1) ν) :=
    iIndepFun_infinitePi (P := fun t : Bool × ℕ => exampleLaw cs (r t.1) ν) (X := fun _ x => x) fun _ => measurable_id
  have hpop : ∀ b, Population (Measure.infinitePi fun t : Bool × ℕ => exampleLaw cs (r t.1) ν) cs (r b) ν (fun i ω => ω (b, i)) := fun b => by
    refine ⟨fun i j hij => hind.indepFun (i := (b, i)) (j := (b, j)) (by simpa using hij), fun i => ⟨(measurable_pi_apply _).aemeasurable, (measurable_pi_apply _).aemeasurable, ?_⟩, fun c B hB => ?_⟩
    · exact ((measurePreserving_eval_infinitePi (fun t : Bool × ℕ => exampleLaw cs (r t.1) ν) (b, i)).map_eq).trans ((measurePreserving_eval_infinitePi (fun t : Bool × ℕ => exampleLaw cs (r t.1) ν) (b, 0)).map_eq).symm
    · have hms : MeasurableSet (({cs[c]} : Set α) ×ˢ B) := (measurableSet_singleton _).prod hB
      have h1 := (measurePreserving_eval_infinitePi (fun t : Bool × ℕ => exampleLaw cs (r t.1) ν) (b, 0)).measure_preimage hms.nullMeasurableSet
      have h2 : {ω : Bool × ℕ → α × β | (ω (b, 0)).1 = cs[c] ∧ (ω (b, 0)).2 ∈ B} = Function.eval (b, 0) ⁻¹' (({cs[c]} : Set α) ×ˢ B) := by
        ext ω
        simp [Set.mem_prod]
      rw [h2, h1, exampleLaw_apply cs _ ν _ hms, Finset.sum_eq_single c]
      · simp
      · intro c' _ hne
        have : {v | (cs[c'], v) ∈ ({cs[c]} : Set α) ×ˢ B} = ∅ := by
          ext v
          simp only [Set.mem_prod, Set.mem_singleton_iff, Set.mem_ofPred_eq, Set.mem_empty_iff_false, iff_false, not_and]
          intro h
          have h4 : cs[c'.1] = cs[c.1] := h
          exact absurd (Fin.ext ((List.Nodup.getElem_inj_iff hnd).1 h4)) hne
        rw [this, measure_empty, mul_zero]
      · simp
  exact ⟨_, inferInstance, hind, by simpa [hr] using hpop true, by simpa [hr] using hpop false⟩

/-- The hypotheses of the theorems hold: two classes 0 and 1, prevalences ½ in training and ⅒ and ⁹⁄₁₀ in the test, and predictions that are right with probability ¾ for the examples of class 0 and always for those of class 1. -/
example : ∃ (ν : Fin 2 → Measure ℕ), (∀ c, IsProbabilityMeasure (ν c)) ∧ (∀ c, ν c {a | a ∈ [0, 1]}ᶜ = 0) ∧ NonDegenerate (fun i j : Fin 2 => (ν i).real {([0, 1] : List ℕ)[j]})
    ∧ IsPrev ![1/2, 1/2] ∧ IsPrev ![1/10, 9/10] ∧ ([0, 1] : List ℕ).Pairwise (· < ·) := by
  refine ⟨![ENNReal.ofReal (3/4) • Measure.dirac 0 + ENNReal.ofReal (1/4) • Measure.dirac 1, Measure.dirac 1], ?_, ?_, ?_, ?_, ?_, by decide⟩
  · intro c
    fin_cases c
    · refine ⟨?_⟩
      simp only [Fin.zero_eta, Matrix.cons_val_zero, Measure.add_apply, Measure.smul_apply, measure_univ, smul_eq_mul, mul_one]
      rw [← ENNReal.ofReal_add (by norm_num) (by norm_num)]
      norm_num
    · exact inferInstanceAs (IsProbabilityMeasure (Measure.dirac 1))
  · intro c
    fin_cases c <;> simp
  · refine Or.inr ⟨rfl, ?_⟩
    simp [measureReal_def]
    norm_num
  · exact ⟨fun i => by fin_cases i <;> norm_num, by norm_num [Fin.sum_univ_two]⟩
  · exact ⟨fun i => by fin_cases i <;> norm_num, by norm_num [Fin.sum_univ_two]⟩

/-- For DFy: two classes, two bins, and posteriors of class 0 of ¾ for all the examples of class 0 and ¼ for all those of class 1. -/
example : ∃ (ν : Fin 2 → Measure (Fin 2 → ℝ)), (∀ c, IsProbabilityMeasure (ν c))
    ∧ ∀ a b : Fin 2 → ℝ, IsPrev a → IsPrev b → (∀ d v, ∑ c, a c * (ν c).real {row | dfyAtt 2 d row ∈ widthBin 2 v} = ∑ c, b c * (ν c).real {row | dfyAtt 2 d row ∈ widthBin 2 v}) → a = b := by
  refine ⟨![Measure.dirac ![3/4, 1/4], Measure.dirac ![1/4, 3/4]], fun c => ?_, fun a b ha hb h => ?_⟩
  · fin_cases c
    · exact inferInstanceAs (IsProbabilityMeasure (Measure.dirac _))
    · exact inferInstanceAs (IsProbabilityMeasure (Measure.dirac _))
  · have hm : MeasurableSet {row : Fin 2 → ℝ | dfyAtt 2 ⟨0, by simp [nDescriptors]⟩ row ∈ widthBin 2 1} := (measurable_pi_apply _) (measurable_widthBin 2 1)
    have h1 := h ⟨0, by simp [nDescriptors]⟩ 1
    simp only [Fin.sum_univ_two, Matrix.cons_val_zero, Matrix.cons_val_one, measureReal_def, Measure.dirac_apply' _ hm] at h1
    have e1 : (![3/4, 1/4] : Fin 2 → ℝ) ∈ {row : Fin 2 → ℝ | dfyAtt 2 ⟨0, by simp [nDescriptors]⟩ row ∈ widthBin 2 1} := by
      simp only [Set.mem_ofPred_eq, dfyAtt, widthBin]
      norm_num [Fin.castLE]
    have e2 : (![1/4, 3/4] : Fin 2 → ℝ) ∉ {row : Fin 2 → ℝ | dfyAtt 2 ⟨0, by simp [nDescriptors]⟩ row ∈ widthBin 2 1} := by
      simp only [Set.mem_ofPred_eq, dfyAtt, widthBin]
      norm_num [Fin.castLE]
    rw [Set.indicator_of_mem e1, Set.indicator_of_notMem e2] at h1
    simp at h1
    have h2 := ha.2
    have h3 := hb.2
    simp only [Fin.sum_univ_two] at h2 h3
    funext i
    fin_cases i
    · exact h1
    · show a 1 = b 1
      linarith

end Verif.Props
