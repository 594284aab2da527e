import Verif.Props.BagOrder
import Verif.Model.Regression
import Verif.Model.Eoq

/-!
# C126 for REGX, REGy and EoQ
-/

namespace Verif.Props

open Verif.Model Verif.Spec Verif.Proof

/-- **C126** for REGX and REGy (`att` are the features or the posteriors of an example), with every regressor. -/
theorem C126_reg {D G ρ : Type} {nd nb : ℕ} (ops : RegOps ρ (nd * nb)) (w : RegWorld G ρ) (fit : RegFit ρ nd nb) (att : Fin nd → D → ℝ) {X X' : List D} (h : SameFrequencies X X') :
    regPredict ops w fit att X = regPredict ops w fit att X' := by
  unfold regPredict regTestRow
  rw [histBlocks_same _ _ h]

/-- **C126** for EoQ with quantifiers that do not use classifiers, when its members have the property: every strategy. -/
theorem C126_eoqx {Q α : Type} {nf nc : ℕ} (argsort : List Fl → List ℕ) (cfg : EoqCfg) (ops : EoqOps Q (List (Fin nf → ℝ)) α) (fit : EoqFit Q nf cfg.nBins) {X X' : List (Fin nf → ℝ)} (h : SameFrequencies X X')
    (hops : ∀ q ∈ fit.members, ops.predict q X = ops.predict q X') : eoqxPredict argsort nc cfg ops fit X = eoqxPredict argsort nc cfg ops fit X' := by
  have hr : eoqxRows nc cfg ops fit X = eoqxRows nc cfg ops fit X' := by
    unfold eoqxRows
    congr 1
    funext i
    cases hi : item fit.members i with
    | error e => rfl
    | ok q =>
      show ops.predict q X >>= storeRow nc = ops.predict q X' >>= storeRow nc
      rw [hops q (List.mem_of_getElem? (item_ok.1 hi))]
  unfold eoqxPredict eoqDistribution
  rw [hr, histBlocks_same _ _ h]

/-- Predictions of two testing bags of the same kind and with the same frequencies; with an ensemble of classifiers, the prediction of an example is what all of them say of it. -/
inductive SameEoqPreds {α : Type} {nc : ℕ} : EoqPreds α nc → EoqPreds α nc → Prop
  | crisp {l l' : List α} (h : SameFrequencies l l') : SameEoqPreds (.crisp l) (.crisp l')
  | probs {l l' : List (Fin nc → ℝ)} (h : SameFrequencies l l') : SameEoqPreds (.probs l) (.probs l')
  | ens {l l' : List (List (Fin nc → ℝ))} (h : SameFrequencies l l') : SameEoqPreds (.ens l) (.ens l')

theorem item_mapM_same {β : Type} {l l' : List (List β)} (h : SameFrequencies l l') (i : ℕ) :
    (∃ r r', l.mapM (fun rows => item rows i) = .ok r ∧ l'.mapM (fun rows => item rows i) = .ok r' ∧ SameFrequencies r r')
    ∨ (l.mapM (fun rows => item rows i) = .error .indexError ∧ l'.mapM (fun rows => item rows i) = .error .indexError) := by
  have he : ∀ (x : List β) e, item x i = .error e → e = .indexError := by
    intro x e hx
    unfold item at hx
    split at hx <;> simp_all
  rcases mapM_uniform (fun rows : List β => item rows i) .indexError he l with ⟨r, h1, h2⟩ | ⟨⟨x, hx, hxe⟩, h1⟩
  · rcases mapM_uniform (fun rows : List β => item rows i) .indexError he l' with ⟨r', h1', h2'⟩ | ⟨⟨x, hx, hxe⟩, h1'⟩
    · refine Or.inl ⟨r, r', h1, h1', SameFrequencies.of_map (f := Except.ok (ε := Err)) (fun a b hab => Except.ok.inj hab) ?_⟩
      rw [h2, h2']
      exact h.map _
    · have hx' : item x i ∈ r.map Except.ok := h2 ▸ List.mem_map_of_mem ((h.mem_iff x).2 hx)
      rw [hxe] at hx'
      simp at hx'
  · rcases mapM_uniform (fun rows : List β => item rows i) .indexError he l' with ⟨r', h1', h2'⟩ | ⟨_, h1'⟩
    · have hx' : item x i ∈ r'.map Except.ok := h2' ▸ List.mem_map_of_mem ((h.mem_iff x).1 hx)
      rw [hxe] at hx'
      simp at hx'
    · exact Or.inr ⟨h1, h1'⟩

/-- **C126** for EoQ with quantifiers that use classifiers, when its members have the property: every strategy, with one classifier or an ensemble of them. -/
theorem C126_eoqy {Q α : Type} {nc : ℕ} (argsort : List Fl → List ℕ) (cfg : EoqCfg) (ops : EoqOps Q (Preds α nc) α) (fit : EoqFit Q (nDescriptors nc) cfg.nBins)
    (hops : ∀ q ∈ fit.members, ∀ p p', SamePreds p p' → ops.predict q p = ops.predict q p')
    {p p' : EoqPreds α nc} (h : SameEoqPreds p p') : eoqyPredict argsort cfg ops fit p = eoqyPredict argsort cfg ops fit p' := by
  have hm : ∀ i, (∃ a b, p.forMember i = .ok a ∧ p'.forMember i = .ok b ∧ SamePreds a b) ∨ ∃ e, p.forMember i = .error e ∧ p'.forMember i = .error e := by
    intro i
    cases h with
    | crisp h => exact Or.inl ⟨_, _, rfl, rfl, .crisp h⟩
    | probs h => exact Or.inl ⟨_, _, rfl, rfl, .probs h⟩
    | ens h =>
      unfold EoqPreds.forMember
      rcases item_mapM_same h i with ⟨r, r', h1, h2, h3⟩ | ⟨h1, h2⟩
      · refine Or.inl ⟨.probs r, .probs r', ?_, ?_, .probs h3⟩
        · simp only [h1]; rfl
        · simp only [h2]; rfl
      · refine Or.inr ⟨.indexError, ?_, ?_⟩
        · simp only [h1]; rfl
        · simp only [h2]; rfl
  have hr : eoqyRows cfg ops fit p = eoqyRows cfg ops fit p' := by
    unfold eoqyRows
    congr 1
    funext i
    cases hi : item fit.members i with
    | error e => rfl
    | ok q =>
      show (p.forMember i >>= fun p => ops.predict q p >>= storeRow nc) = (p'.forMember i >>= fun p => ops.predict q p >>= storeRow nc)
      rcases hm i with ⟨a, b, ha, hb, hab⟩ | ⟨e, ha, hb⟩
      · rw [ha, hb]
        show ops.predict q a >>= storeRow nc = ops.predict q b >>= storeRow nc
        rw [hops q (List.mem_of_getElem? (item_ok.1 hi)) a b hab]
      · rw [ha, hb]
  have ht : eoqyTest cfg.f fit.cuts p = eoqyTest cfg.f fit.cuts p' := by
    cases h with
    | crisp h => rfl
    | probs h =>
      show eoqDistribution _ _ _ _ = eoqDistribution _ _ _ _
      unfold eoqDistribution
      rw [histBlocks_same _ _ h]
    | ens h =>
      show eoqDistribution _ _ _ _ = eoqDistribution _ _ _ _
      unfold eoqDistribution
      rw [histBlocks_same _ _ (h.map meanRows)]
  unfold eoqyPredict
  rw [hr, ht]

/-- Non-vacuity: the predictions of two classifiers for a bag, and for the same bag twice in another order. -/
example : SameEoqPreds (.ens [[![1, 0], ![0.5, 0.5]], [![0, 1], ![0, 1]]] : EoqPreds ℕ 2)
    (.ens [[![0, 1], ![0, 1]], [![0, 1], ![0, 1]], [![1, 0], ![0.5, 0.5]], [![1, 0], ![0.5, 0.5]]]) := by
  refine .ens ⟨by simp, by simp, fun a => ?_⟩
  unfold freq
  simp only [List.count_cons, List.count_nil, List.length_cons, List.length_nil]
  split_ifs <;> norm_num

end Verif.Props
