import Verif.Proof.Ddag
import Verif.Props.FrankHall

/-!
# C66 - C68, C101: decision directed acyclic graphs
-/

namespace Verif.Props

open Verif.Model Verif.Spec Verif.Proof

variable {M D α : Type} {n : ℕ}

theorem ovoData_eq [DecidableEq α] (X : List D) (y : List α) (hXy : X.length = y.length) (a b : α) : ovoData X y a b = (ofTwo X y a b, labelsOfTwo y a b) := by
  unfold ovoData ofTwo labelsOfTwo
  have hp : (fun e : D × α => decide (e.2 = a) || decide (e.2 = b)) = fun e => decide (e.2 = a ∨ e.2 = b) := by
    funext e
    simp
  simp only [hp]
  congr 1
  have hz : y = (X.zip y).map Prod.snd := by rw [List.map_snd_zip]; omega
  conv_rhs => rw [hz, List.filter_map, List.map_map]
  rfl

section
variable [LinearOrder α] [Inhabited α] (ops : FhOps M D) (X : List D) (y : List α)

/-- The binary model trained with the examples of classes `i` and `j`. -/
def pairModel (i j : ℕ) : M := ops.fit 0 (ofTwo X y ((labelsOf y).getD i default) ((labelsOf y).getD j default)) (labelsOfTwo y ((labelsOf y).getD i default) ((labelsOf y).getD j default))

theorem ddagFit_eq (hXy : X.length = y.length) (h2 : 2 ≤ (labelsOf y).length) : ddagFit ops X y = .ok ⟨labelsOf y, (ovoPairs (labelsOf y).length).map fun p => pairModel ops X y p.1 p.2⟩ := by
  unfold ddagFit
  rw [if_neg (by simpa using hXy)]
  simp only [npUnique_eq_labelsOf]
  refine (if_neg (show ¬((labelsOf y).length ≤ 1) by omega)).trans ?_
  refine (bind_ok (mapM_ok _ _ (fun p => pairModel ops X y p.1 p.2) fun p hp => ?_) _).trans rfl
  obtain ⟨h1, h3⟩ := ovoPairs_mem _ p hp
  have e1 : (labelsOf y)[p.1]? = some ((labelsOf y).getD p.1 default) := by rw [List.getD_eq_getElem _ _ (by omega)]; exact List.getElem?_eq_getElem _
  have e2 : (labelsOf y)[p.2]? = some ((labelsOf y).getD p.2 default) := by rw [List.getD_eq_getElem _ _ (by omega)]; exact List.getElem?_eq_getElem _
  refine (bind_ok (item_ok.2 e1) _).trans ((bind_ok (item_ok.2 e2) _).trans ?_)
  rw [ovoData_eq X y hXy]
  rfl

/-- **C67**: for every pair of classes `i < j` the position where the model of the node is looked up holds the model trained with the examples of classes `i` (label 0) and `j` (label 1). -/
theorem C67_pair_model (hXy : X.length = y.length) (h2 : 2 ≤ (labelsOf y).length) : ∃ f, ddagFit ops X y = .ok f ∧ f.classes = labelsOf y ∧ ∀ i j, i < j → ∀ (hi : i < (labelsOf y).length) (hj : j < (labelsOf y).length),
    f.estimators[ddagPos (labelsOf y).length i j]? = some (ops.fit 0 (ofTwo X y (labelsOf y)[i] (labelsOf y)[j]) (labelsOfTwo y (labelsOf y)[i] (labelsOf y)[j])) := by
  refine ⟨_, ddagFit_eq ops X y hXy h2, rfl, fun i j hij hi hj => ?_⟩
  rw [List.getElem?_map, ddagPos_get _ i j hij hj]
  simp only [Option.map_some, pairModel]
  rw [List.getD_eq_getElem _ _ hi, List.getD_eq_getElem _ _ hj]

variable {ops X y}

theorem ddag_pairs (hXy : X.length = y.length) (h2 : 2 ≤ (labelsOf y).length) {f : FhFit M α} (hf : ddagFit ops X y = .ok f) {x : D} (hp : ∀ m ∈ f.estimators, IsPrevList 2 (ops.proba m x)) :
    f.classes = labelsOf y ∧ ∀ a b, a < b → b < (labelsOf y).length → (∃ m, f.estimators[ddagPos (labelsOf y).length a b]? = some m ∧ (ops.proba m x)[0]? = some (pairLeft ops X y x a b)
      ∧ (ops.proba m x)[1]? = some (pairRight ops X y x a b)) ∧ 0 ≤ pairLeft ops X y x a b ∧ 0 ≤ pairRight ops X y x a b ∧ pairLeft ops X y x a b + pairRight ops X y x a b = 1 := by
  rw [ddagFit_eq ops X y hXy h2] at hf
  cases hf
  refine ⟨rfl, fun a b hab hb => ?_⟩
  have he : ((ovoPairs (labelsOf y).length).map fun p => pairModel ops X y p.1 p.2)[ddagPos (labelsOf y).length a b]? = some (pairModel ops X y a b) := by
    rw [List.getElem?_map, ddagPos_get _ a b hab hb]
    rfl
  have hrow := hp _ (List.mem_of_getElem? he)
  have hl : pairLeft ops X y x a b = (ops.proba (pairModel ops X y a b) x).getD 0 0 := rfl
  have hr : pairRight ops X y x a b = (ops.proba (pairModel ops X y a b) x).getD 1 0 := rfl
  rw [hl, hr]
  refine ⟨⟨_, he, ?_⟩, ?_⟩
  all_goals
    generalize ops.proba (pairModel ops X y a b) x = v at hrow
    obtain ⟨h1, h2, h4⟩ := hrow
    match v, h1 with
    | [a, b], _ =>
      simp only [List.sum_cons, List.sum_nil, add_zero] at h4
      first
        | exact ⟨rfl, rfl⟩
        | exact ⟨h2 a (by simp), h2 b (by simp), h4⟩

theorem ddagRow (winner : Bool) (hXy : X.length = y.length) (h2 : 2 ≤ (labelsOf y).length) {f : FhFit M α} (hf : ddagFit ops X y = .ok f) {x : D} (hp : ∀ m ∈ f.estimators, IsPrevList 2 (ops.proba m x)) :
    ddagCompute (labelsOf y).length winner ops f.estimators x ((labelsOf y).length - 1) 0 (fun _ => 1) (fun _ => 0)
      = .ok fun c => dagProb (effLeft winner (pairLeft ops X y x)) (effRight winner (pairRight ops X y x)) ((labelsOf y).length - 1) 0 c := by
  obtain ⟨-, hk⟩ := ddag_pairs hXy h2 hf hp
  rw [ddagCompute_spec _ winner ops f.estimators x (pairLeft ops X y x) (pairRight ops X y x) _ 0 (fun a b _ hab hb => (hk a b hab (by omega)).1) _ _ fun c hc => absurd c.2 (by omega)]
  congr 1
  funext c
  ring

theorem ddagRow_prev (winner : Bool) (hXy : X.length = y.length) (h2 : 2 ≤ (labelsOf y).length) {f : FhFit M α} (hf : ddagFit ops X y = .ok f) {x : D} (hp : ∀ m ∈ f.estimators, IsPrevList 2 (ops.proba m x)) :
    IsPrev fun c : Fin (labelsOf y).length => dagProb (effLeft winner (pairLeft ops X y x)) (effRight winner (pairRight ops X y x)) ((labelsOf y).length - 1) 0 c := by
  obtain ⟨-, hk⟩ := ddag_pairs hXy h2 hf hp
  constructor
  · intro c
    exact dagProb_nonneg _ _ _ _ _ fun a b _ hab hb => eff_nonneg winner _ _ a b ⟨(hk a b hab (by omega)).2.1, (hk a b hab (by omega)).2.2.1⟩
  · rw [Fin.sum_univ_eq_sum_range (dagProb (effLeft winner (pairLeft ops X y x)) (effRight winner (pairRight ops X y x)) ((labelsOf y).length - 1) 0)]
    exact dagProb_sum _ _ _ _ _ (by omega) fun a b _ hab hb => eff_sum winner _ _ a b (hk a b hab (by omega)).2.2.2

/-- **C66**: with both methods every row is a probability distribution. -/
theorem C66_distribution (winner : Bool) (hXy : X.length = y.length) (h2 : 2 ≤ (labelsOf y).length) {f : FhFit M α} (hf : ddagFit ops X y = .ok f) (Xt : List D) (hp : ∀ m ∈ f.estimators, ∀ x ∈ Xt, IsPrevList 2 (ops.proba m x)) :
    ∃ out, ddagPredictProba (labelsOf y).length winner ops f Xt = .ok out ∧ out.length = Xt.length ∧ ∀ row ∈ out, IsPrev row := by
  refine ⟨_, mapM_ok _ _ _ fun x hx => ddagRow winner hXy h2 hf fun m hm => hp m hm x hx, by simp, fun row hr => ?_⟩
  obtain ⟨x, hx, rfl⟩ := List.mem_map.1 hr
  exact ddagRow_prev winner hXy h2 hf fun m hm => hp m hm x hx

/-- **C66**: with `full_probabilistic` the probability of a class is the sum, over all the paths from the root to its leaf, of the product of the probabilities that the models of the nodes of the path give to
the classes that are kept. -/
theorem C66_paths (hXy : X.length = y.length) (h2 : 2 ≤ (labelsOf y).length) {f : FhFit M α} (hf : ddagFit ops X y = .ok f) (Xt : List D) (hp : ∀ m ∈ f.estimators, ∀ x ∈ Xt, IsPrevList 2 (ops.proba m x)) :
    ddagPredictProba (labelsOf y).length false ops f Xt = .ok (Xt.map fun x c => dagProb (pairLeft ops X y x) (pairRight ops X y x) ((labelsOf y).length - 1) 0 c) := by
  refine mapM_ok _ _ _ fun x hx => ?_
  rw [ddagRow false hXy h2 hf fun m hm => hp m hm x hx]
  rfl

/-- **C68**: with `winner_node` the two consecutive classes reached from the root by majority decisions get the probabilities of their model; the other ones get 0. -/
theorem C68_winner_node (hXy : X.length = y.length) (h2 : 2 ≤ (labelsOf y).length) {f : FhFit M α} (hf : ddagFit ops X y = .ok f) (Xt : List D) (hp : ∀ m ∈ f.estimators, ∀ x ∈ Xt, IsPrevList 2 (ops.proba m x)) :
    ∃ out, ddagPredictProba (labelsOf y).length true ops f Xt = .ok out ∧ List.Forall₂ (fun x row => ∃ a, a = majority (pairLeft ops X y x) ((labelsOf y).length - 1) 0 ∧ a + 1 < (labelsOf y).length
      ∧ ∀ c : Fin (labelsOf y).length, row c = if (c : ℕ) = a then pairLeft ops X y x a (a + 1) else if (c : ℕ) = a + 1 then pairRight ops X y x a (a + 1) else 0) Xt out := by
  refine ⟨_, mapM_ok _ _ _ fun x hx => ddagRow true hXy h2 hf fun m hm => hp m hm x hx, ?_⟩
  rw [List.forall₂_map_right_iff, List.forall₂_same]
  intro x hx
  obtain ⟨-, hk⟩ := ddag_pairs hXy h2 hf (x := x) fun m hm => hp m hm x hx
  refine ⟨_, rfl, ?_, fun c => ?_⟩
  · have := majority_bounds (pairLeft ops X y x) ((labelsOf y).length - 1) 0 (by omega)
    omega
  · exact dagProb_winner _ _ _ 0 c (by omega) fun a b _ hab hb => (hk a b hab (by omega)).2.2.2

/-- **C101**: `predict` returns for every example the first class with the largest probability. -/
theorem C101_predict (winner : Bool) (hXy : X.length = y.length) (h2 : 2 ≤ (labelsOf y).length) {f : FhFit M α} (hf : ddagFit ops X y = .ok f) (Xt : List D) (hp : ∀ m ∈ f.estimators, ∀ x ∈ Xt, IsPrevList 2 (ops.proba m x)) :
    ∃ rows out, ddagPredictProba (labelsOf y).length winner ops f Xt = .ok rows ∧ ddagPredict winner ops f Xt = .ok out
      ∧ List.Forall₂ (fun row c => ∃ i : Fin (labelsOf y).length, IsFirstMax row i ∧ (labelsOf y)[i]? = some c) rows out := by
  obtain ⟨rows, hr, -⟩ := C66_distribution winner hXy h2 hf Xt hp
  obtain ⟨out, ho, hF⟩ := cvLabels_ok (labelsOf y) rfl (by omega) rows
  refine ⟨rows, out, hr, ?_, hF⟩
  have hcl : f.classes = labelsOf y := by
    rw [ddagFit_eq ops X y hXy h2] at hf
    cases hf
    rfl
  unfold ddagPredict
  rw [hcl]
  exact (bind_ok hr _).trans ho

/-- **C101**: when the models of a class against each of the others give it probability 1, the class gets probability 1, with both methods. -/
theorem C101_certain_class (winner : Bool) (hXy : X.length = y.length) (h2 : 2 ≤ (labelsOf y).length) {f : FhFit M α} (hf : ddagFit ops X y = .ok f) (Xt : List D) (hp : ∀ m ∈ f.estimators, ∀ x ∈ Xt, IsPrevList 2 (ops.proba m x)) :
    ∃ rows, ddagPredictProba (labelsOf y).length winner ops f Xt = .ok rows ∧ List.Forall₂ (fun x row => ∀ k : Fin (labelsOf y).length, (∀ b, (k : ℕ) < b → b < (labelsOf y).length → pairLeft ops X y x k b = 1) →
      (∀ a, a < (k : ℕ) → pairRight ops X y x a k = 1) → row k = 1) Xt rows := by
  refine ⟨_, mapM_ok _ _ _ fun x hx => ddagRow winner hXy h2 hf fun m hm => hp m hm x hx, ?_⟩
  rw [List.forall₂_map_right_iff, List.forall₂_same]
  intro x hx k hkr hkl
  obtain ⟨-, hk⟩ := ddag_pairs hXy h2 hf (x := x) fun m hm => hp m hm x hx
  have key : ∀ d i, i ≤ (k : ℕ) → (k : ℕ) ≤ i + d → i + d < (labelsOf y).length → dagProb (effLeft winner (pairLeft ops X y x)) (effRight winner (pairRight ops X y x)) d i k = 1 := by
    intro d
    induction d with
    | zero =>
      intro i h1 h3 _
      rw [dagProb_zero, if_pos (by omega)]
    | succ d ih =>
      intro i h1 h3 h4
      rw [dagProb_succ]
      have hs := eff_sum winner (pairLeft ops X y x) (pairRight ops X y x) i (i + (d + 1)) (hk i (i + (d + 1)) (by omega) h4).2.2.2
      rcases Nat.lt_or_ge i k with hik | hik
      · rcases Nat.lt_or_ge k (i + (d + 1)) with hkd | hkd
        · rw [ih i (by omega) (by omega) (by omega), ih (i + 1) (by omega) (by omega) (by omega), mul_one, mul_one, hs]
        · have hki : i + (d + 1) = k := by omega
          have hr1 : effRight winner (pairRight ops X y x) i (i + (d + 1)) = 1 := by
            unfold effRight
            rw [hki, hkl i hik]
            split_ifs
            · unfold binRight; rw [if_neg (by norm_num)]
            · rfl
          rw [dagProb_out _ _ d i k (by omega), ih (i + 1) (by omega) (by omega) (by omega), hr1]
          ring
      · have hki : i = k := by omega
        have hl1 : effLeft winner (pairLeft ops X y x) i (i + (d + 1)) = 1 := by
          unfold effLeft
          rw [hki, hkr _ (by omega) (by omega)]
          split_ifs
          · unfold binLeft; rw [if_neg (by norm_num)]
          · rfl
        rw [ih i (by omega) (by omega) (by omega), dagProb_out _ _ d (i + 1) k (by omega), hl1]
        ring
  exact key _ 0 (by omega) (by omega) (by omega)

/-- **C101**: such a class is the one predict returns. -/
theorem C101_certain_returned (winner : Bool) (hXy : X.length = y.length) (h2 : 2 ≤ (labelsOf y).length) {f : FhFit M α} (hf : ddagFit ops X y = .ok f) (Xt : List D) (hp : ∀ m ∈ f.estimators, ∀ x ∈ Xt, IsPrevList 2 (ops.proba m x)) :
    ∃ out, ddagPredict winner ops f Xt = .ok out ∧ List.Forall₂ (fun x c => ∀ k : Fin (labelsOf y).length, (∀ b, (k : ℕ) < b → b < (labelsOf y).length → pairLeft ops X y x k b = 1) →
      (∀ a, a < (k : ℕ) → pairRight ops X y x a k = 1) → c = (labelsOf y)[k]) Xt out := by
  obtain ⟨rows, hr, -, hdist⟩ := C66_distribution winner hXy h2 hf Xt hp
  obtain ⟨rows', out, hr', ho, hF⟩ := C101_predict winner hXy h2 hf Xt hp
  obtain ⟨rows'', hr'', hC⟩ := C101_certain_class winner hXy h2 hf Xt hp
  obtain rfl : rows = rows' := Except.ok.inj (hr.symm.trans hr')
  obtain rfl : rows = rows'' := Except.ok.inj (hr.symm.trans hr'')
  refine ⟨out, ho, ?_⟩
  clear hr hr' hr'' ho hf hp
  induction hC generalizing out with
  | nil => cases hF; exact .nil
  | @cons x row Xt rows hx _ ih =>
    obtain ⟨c, out, ⟨i, hi, hc⟩, hF', rfl⟩ := List.forall₂_cons_left_iff.1 hF
    refine .cons (fun k hk1 hk2 => ?_) (ih (fun r hr => hdist r (List.mem_cons_of_mem _ hr)) out hF')
    have h1 := hx k hk1 hk2
    have hd := hdist row List.mem_cons_self
    have hik : i = k := by
      by_contra hne
      have hle := hi.1 k
      have hsum : row i + row k ≤ ∑ j, row j := by
        rw [← Finset.sum_pair hne]
        exact Finset.sum_le_sum_of_subset_of_nonneg (Finset.subset_univ _) fun j _ _ => hd.1 j
      have := hd.2
      linarith
    rw [hik] at hc
    exact (Option.some.inj ((List.getElem?_eq_getElem k.2).symm.trans hc)).symm

end

/-! ## Non-vacuity -/

theorem table_ddag (q : ℕ → ℝ) : ddagFit (tableOps q) [10, 20, 30, 40] [0, 1, 2, 2] = .ok ⟨labelsOf [0, 1, 2, 2], (ovoPairs (labelsOf [0, 1, 2, 2]).length).map fun p => pairModel (tableOps q) [10, 20, 30, 40] [0, 1, 2, 2] p.1 p.2⟩ :=
  ddagFit_eq _ _ _ rfl (by rw [four_labels]; decide)

example := C66_distribution true rfl (by rw [four_labels]; decide) (table_ddag decreasing) [50, 60] fun m _ x _ => table_prev _ decreasing_bounds m x

example := C66_paths rfl (by rw [four_labels]; decide) (table_ddag decreasing) [50, 60] fun m _ x _ => table_prev _ decreasing_bounds m x

example := C67_pair_model (tableOps decreasing) [10, 20, 30, 40] [0, 1, 2, 2] rfl (by rw [four_labels]; decide)

example := C68_winner_node rfl (by rw [four_labels]; decide) (table_ddag decreasing) [50, 60] fun m _ x _ => table_prev _ decreasing_bounds m x

example := C101_predict false rfl (by rw [four_labels]; decide) (table_ddag decreasing) [50, 60] fun m _ x _ => table_prev _ decreasing_bounds m x

/-- Models that are certain of the class with the greatest label: the hypotheses of `C101_certain_class` hold for the last class. -/
example : ∀ a, a < 2 → pairRight (tableOps fun _ => 1) [10, 20, 30, 40] [0, 1, 2, 2] 50 a 2 = 1 := fun a _ => rfl

example := C101_certain_returned true rfl (by rw [four_labels]; decide) (table_ddag fun _ => 1) [50, 60] fun m _ x _ => table_prev (fun _ => 1) (fun _ => ⟨zero_le_one, le_refl _⟩) m x

/-- The model of the pair (1, 3) of five classes is the sixth one. -/
example : ddagPos 5 1 3 = 5 := rfl

end Verif.Props
