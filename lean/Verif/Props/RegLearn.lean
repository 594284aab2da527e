import Verif.Props.Regression
import Verif.Props.Eoq

/-!
# C119: what the regressors of REGX and REGy learn
-/

namespace Verif.Props

open Verif.Model Verif.Spec Verif.Proof

variable {α D G ρ : Type}

/-- The training examples of the regressor of class `c`: one for each bag, with the descriptor of the bag (the distribution of each feature, times `scale`) and the frequency of the class among the labels of the bag. -/
def TeachesClass [DecidableEq α] {nd nb : ℕ} (att : Fin nd → D → ℝ) (cuts : Fin nd → Fin (nb + 1) → EReal) (X : List D) (y : List α) (scale : ℝ) (bags : List (List ℕ)) (c : α)
    (ex : List ((Fin (nd * nb) → ℝ) × Fl)) : Prop :=
  List.Forall₂ (fun bag e => ∃ (rows : List D) (labels : List α), (bag.map fun i => X[i]?) = rows.map some ∧ (bag.map fun i => y[i]?) = labels.map some
    ∧ (∀ d, blockOf e.1 d = fun j => scale * binShare (cuts d) (rows.map (att d)) j) ∧ e.2 = .fin (freq labels c)) bags ex

/-- The user's regressor, as it is before `fit`, trained with some examples; a GLM if the user gave none. -/
def trainedWith {m : ℕ} (ops : RegOps ρ m) (regs : ℕ → ρ) (reg : Option ℕ) (ex : List ((Fin m → ℝ) × Fl)) : ρ :=
  match reg with
  | some a => ops.fit (regs a) ex
  | none => ops.glm ex

theorem regExamples_inv {m : ℕ} {dataX : List (Fin m → ℝ)} {dataY : List (List Fl)} {c : ℕ} {ex : List ((Fin m → ℝ) × Fl)} (h : regExamples dataX dataY c = .ok ex) :
    ex.length = dataX.length ∧ dataY.length = dataX.length ∧ ∀ k (hk : k < ex.length), dataX[k]? = some ex[k].1 ∧ ∃ r, dataY[k]? = some r ∧ r[c]? = some ex[k].2 := by
  unfold regExamples at h
  obtain ⟨col, hc, h⟩ := bind_inv h
  split_ifs at h with hl
  have hF := (mapM_iff _ _ _).1 hc
  obtain rfl := Except.ok.inj h
  refine ⟨by simp [hl], by rw [hF.length_eq, hl], fun k hk => ?_⟩
  simp only [List.length_zip, lt_min_iff] at hk
  refine ⟨by simp [hk.1], dataY[k]'(by rw [hF.length_eq]; exact hk.2), List.getElem?_eq_getElem _, ?_⟩
  have := hF.get (i := k) (by rw [hF.length_eq]; exact hk.2) hk.2
  simp only [List.get_eq_getElem] at this
  rw [List.getElem_zip]
  exact item_ok.1 this

variable [LinearOrder α] {ppf : ℝ → EReal} {rng : Rng G} {fuel nd : ℕ} {w w' : RegWorld G ρ} {cfg : RegCfg} {ops : RegOps ρ (nd * cfg.nBins)} {range : Option (ℝ × ℝ)} {att : Fin nd → D → ℝ} {X : List D} {y : List α}
  {fit : RegFit ρ nd cfg.nBins}

theorem examples_teach (hr : RngOk rng) (h : regFit ppf rng fuel w cfg ops range att X y = some (w', .ok fit)) (hfresh : (w.gens cfg.gen).bags = none) (hy : y ≠ [])
    (hbs : 0 < (w.gens cfg.gen).bagSize.getD y.length) (hc : ∀ d, CutsOk (fit.cuts d)) :
    ∃ b : Bags, AreBags y ((w.gens cfg.gen).bagSize.getD y.length) (w.gens cfg.gen).nBags b ∧ ∀ (c : ℕ) (hcl : c < (labelsOf y).length) (ex : List ((Fin (nd * cfg.nBins) → ℝ) × Fl)),
      regExamples fit.dataX fit.dataY c = .ok ex →
        TeachesClass att fit.cuts X y ((((w.gens cfg.gen).bagSize.getD y.length : ℕ) : ℝ) / X.length) b.idx (labelsOf y)[c] ex := by
  obtain ⟨b, hA, hY, hrow⟩ := reg_training_rows hr h hfresh hy hbs hc
  refine ⟨b, hA, fun c hcl ex he => ?_⟩
  obtain ⟨h1, h2, h3⟩ := regExamples_inv he
  have hl : b.idx.length = ex.length := by rw [hA.2.1, h1, ← h2, hY, hA.1]
  refine List.forall₂_iff_get.2 ⟨hl, fun k hk hk' => ?_⟩
  have hkn : k < (w.gens cfg.gen).nBags := by rw [← hA.2.1]; exact hk
  obtain ⟨row, rows, e1, e2, e3⟩ := hrow k hkn
  obtain ⟨-, labels, e4, e5⟩ := hA.2.2 k hkn
  obtain ⟨e6, r, e7, e8⟩ := h3 k hk'
  have hget : b.idx.getD k [] = b.idx[k] := by rw [List.getD_eq_getElem?_getD, List.getElem?_eq_getElem hk]; rfl
  rw [hget] at e2 e4
  simp only [List.get_eq_getElem]
  refine ⟨rows, labels, e2, e4, ?_, ?_⟩
  · rw [e6] at e1
    rw [Option.some.inj e1]
    exact e3
  · rw [hY] at e7
    rw [List.getD_eq_getElem?_getD, e7, Option.getD_some] at e5
    rw [e5, List.getElem?_map, List.getElem?_eq_getElem hcl] at e8
    exact (Option.some.inj e8).symm

/-- **C119**, two classes: for a new generator of bags, `predict` asks one regressor, trained with the bags and the prevalences of the second class in them; its answer, brought to the interval from 0 to 1, is the prevalence of the second class. -/
theorem C119_two_classes (hr : RngOk rng) (h : regFit ppf rng fuel w cfg ops range att X y = some (w', .ok fit)) (hfresh : (w.gens cfg.gen).bags = none) (hy : y ≠ [])
    (hbs : 0 < (w.gens cfg.gen).bagSize.getD y.length) (hc : ∀ d, CutsOk (fit.cuts d)) (h2 : (labelsOf y).length = 2) :
    ∃ (b : Bags) (ex : List ((Fin (nd * cfg.nBins) → ℝ) × Fl)), AreBags y ((w.gens cfg.gen).bagSize.getD y.length) (w.gens cfg.gen).nBags b
      ∧ TeachesClass att fit.cuts X y ((((w.gens cfg.gen).bagSize.getD y.length : ℕ) : ℝ) / X.length) b.idx ((labelsOf y)[1]'(by omega)) ex
      ∧ ∀ (bag : Fin (nd * cfg.nBins) → ℝ) (p : Fl), ops.predict (trainedWith ops w.regs cfg.reg ex) bag = p → p ≠ .nan →
        regPredictBag ops w'.regs fit bag = .ok [.fin (1 - nearestUnit p), .fin (nearestUnit p)] := by
  obtain ⟨b, hA, hT⟩ := examples_teach hr h hfresh hy hbs hc
  obtain ⟨s', glob', b', -, -, -, -, hn, hY, -, hm⟩ := regFit_inv h
  rcases fitRegressor_inv hm with ⟨-, ex, hex, hb⟩ | ⟨h2', -⟩
  · refine ⟨b, ex, hA, hT 1 (by omega) ex (hY ▸ hex), fun bag p hp h0 => ?_⟩
    have e1 : w'.regs = (regBinaryModel ops w.regs cfg.reg ex).1 := congrArg Prod.fst hb
    have e2 : fit.model = (regBinaryModel ops w.regs cfg.reg ex).2 := congrArg Prod.snd hb
    have hans := binaryAnswer_eq p h0
    unfold trainedWith at hp
    unfold regPredictBag
    rw [e1, e2]
    unfold regBinaryModel
    cases hreg : cfg.reg with
    | none => rw [hreg] at hp; simp only at hp ⊢; rw [hp, hans]
    | some a => rw [hreg] at hp; simp only [Function.update_self] at hp ⊢; rw [hp, hans]
  · exact absurd (hn.trans h2) h2'

/-- **C119**, other numbers of classes: for a new generator, `predict` asks one regressor for each class, trained with the bags and the prevalences of this class in them, and its answer counts for this class. -/
theorem C119_multiclass (hr : RngOk rng) (h : regFit ppf rng fuel w cfg ops range att X y = some (w', .ok fit)) (hfresh : (w.gens cfg.gen).bags = none) (hy : y ≠ [])
    (hbs : 0 < (w.gens cfg.gen).bagSize.getD y.length) (hc : ∀ d, CutsOk (fit.cuts d)) (h2 : (labelsOf y).length ≠ 2) :
    ∃ (b : Bags) (ex : Fin (labelsOf y).length → List ((Fin (nd * cfg.nBins) → ℝ) × Fl)), AreBags y ((w.gens cfg.gen).bagSize.getD y.length) (w.gens cfg.gen).nBags b
      ∧ (∀ c, TeachesClass att fit.cuts X y ((((w.gens cfg.gen).bagSize.getD y.length : ℕ) : ℝ) / X.length) b.idx (labelsOf y)[c] (ex c))
      ∧ ∀ (bag : Fin (nd * cfg.nBins) → ℝ) (p : Fin (labelsOf y).length → Fl), (∀ c, ops.predict (trainedWith ops w.regs cfg.reg (ex c)) bag = p c) → (∀ c, p c ≠ .nan) → (∃ c, 0 < p c) →
        regPredictBag ops w'.regs fit bag = .ok (List.ofFn fun c => .fin (nearestUnit (p c) / ∑ j, nearestUnit (p j))) := by
  obtain ⟨b, hA, hT⟩ := examples_teach hr h hfresh hy hbs hc
  obtain ⟨s', glob', b', -, -, -, -, hn, hY, -, hm⟩ := regFit_inv h
  unfold regFitRegressor at hm
  rw [if_neg (by rw [hn]; exact h2)] at hm
  obtain ⟨l, hl, hm⟩ := map_inv hm
  have hmodel : fit.model = .perClass l := (congrArg Prod.snd hm).symm
  obtain ⟨hlen, hget⟩ := mapM_range hl
  rw [hn] at hlen hget
  have hex : ∀ c : Fin (labelsOf y).length, ∃ ex, regExamples fit.dataX fit.dataY c = .ok ex ∧ l[(c : ℕ)]? = some (trainedWith ops w.regs cfg.reg ex) := by
    intro c
    obtain ⟨m, hm1, hm2⟩ := hget c c.2
    obtain ⟨ex, he, hem⟩ := map_inv hm2
    refine ⟨ex, by rw [hY]; exact he, ?_⟩
    rw [hm1, ← hem]
    rfl
  choose ex he hle using hex
  refine ⟨b, ex, hA, fun c => hT c c.2 (ex c) (he c), fun bag p hp hnn hpos => ?_⟩
  have hout : (l.map fun r => ops.predict r bag) = List.ofFn p := by
    apply List.ext_getElem (by simp [hlen])
    intro i h1 h3
    simp only [List.length_ofFn] at h3
    have := hle ⟨i, h3⟩
    rw [List.getElem?_eq_getElem (by rw [hlen]; exact h3)] at this
    rw [List.getElem_map, Option.some.inj this, hp, List.getElem_ofFn]
  have hpos' : ∃ v ∈ List.ofFn p, 0 < v := by
    obtain ⟨c, hc⟩ := hpos
    exact ⟨_, List.mem_ofFn.2 ⟨c, rfl⟩, hc⟩
  unfold regPredictBag
  rw [hmodel]
  simp only
  rw [hout, (multiAnswer_eq _ (fun v hv => by obtain ⟨c, rfl⟩ := List.mem_ofFn.1 hv; exact hnn c) hpos').2, List.map_ofFn, List.map_ofFn, List.sum_ofFn]
  rfl

/-- **C119** for REGX: the descriptors are those of the features of the examples given to `fit`. -/
theorem C119_regx_two_classes {nf : ℕ} {opsx : RegOps ρ (nf * cfg.nBins)} {Xf : List (Fin nf → ℝ)} {fitx : RegFit ρ nf cfg.nBins} (hr : RngOk rng) (h : regxFit ppf rng fuel w cfg opsx Xf y = some (w', .ok fitx))
    (hfresh : (w.gens cfg.gen).bags = none) (hy : y ≠ []) (hbs : 0 < (w.gens cfg.gen).bagSize.getD y.length) (hc : ∀ d, CutsOk (fitx.cuts d)) (h2 : (labelsOf y).length = 2) :
    ∃ (b : Bags) (ex : List ((Fin (nf * cfg.nBins) → ℝ) × Fl)), AreBags y ((w.gens cfg.gen).bagSize.getD y.length) (w.gens cfg.gen).nBags b
      ∧ TeachesClass (fun f x => x f) fitx.cuts Xf y ((((w.gens cfg.gen).bagSize.getD y.length : ℕ) : ℝ) / Xf.length) b.idx ((labelsOf y)[1]'(by omega)) ex
      ∧ ∀ (bag : Fin (nf * cfg.nBins) → ℝ) (p : Fl), opsx.predict (trainedWith opsx w.regs cfg.reg ex) bag = p → p ≠ .nan →
        regPredictBag opsx w'.regs fitx bag = .ok [.fin (1 - nearestUnit p), .fin (nearestUnit p)] :=
  C119_two_classes hr h hfresh hy hbs hc h2

/-- **C119** for REGX with any other number of classes. -/
theorem C119_regx_multiclass {nf : ℕ} {opsx : RegOps ρ (nf * cfg.nBins)} {Xf : List (Fin nf → ℝ)} {fitx : RegFit ρ nf cfg.nBins} (hr : RngOk rng) (h : regxFit ppf rng fuel w cfg opsx Xf y = some (w', .ok fitx))
    (hfresh : (w.gens cfg.gen).bags = none) (hy : y ≠ []) (hbs : 0 < (w.gens cfg.gen).bagSize.getD y.length) (hc : ∀ d, CutsOk (fitx.cuts d)) (h2 : (labelsOf y).length ≠ 2) :
    ∃ (b : Bags) (ex : Fin (labelsOf y).length → List ((Fin (nf * cfg.nBins) → ℝ) × Fl)), AreBags y ((w.gens cfg.gen).bagSize.getD y.length) (w.gens cfg.gen).nBags b
      ∧ (∀ c, TeachesClass (fun f x => x f) fitx.cuts Xf y ((((w.gens cfg.gen).bagSize.getD y.length : ℕ) : ℝ) / Xf.length) b.idx (labelsOf y)[c] (ex c))
      ∧ ∀ (bag : Fin (nf * cfg.nBins) → ℝ) (p : Fin (labelsOf y).length → Fl), (∀ c, opsx.predict (trainedWith opsx w.regs cfg.reg (ex c)) bag = p c) → (∀ c, p c ≠ .nan) → (∃ c, 0 < p c) →
        regPredictBag opsx w'.regs fitx bag = .ok (List.ofFn fun c => .fin (nearestUnit (p c) / ∑ j, nearestUnit (p j))) :=
  C119_multiclass hr h hfresh hy hbs hc h2

/-- **C119** for REGy with two classes of posteriors: the only descriptor is that of the first posterior. -/
theorem C119_regy_two_classes {opsy : RegOps ρ (1 * cfg.nBins)} {P : List (Fin 2 → ℝ)} {fity : RegFit ρ 1 cfg.nBins} (hr : RngOk rng) (h : regyFit (nc := 2) ppf rng fuel w cfg opsy P y = some (w', .ok fity))
    (hfresh : (w.gens cfg.gen).bags = none) (hy : y ≠ []) (hbs : 0 < (w.gens cfg.gen).bagSize.getD y.length) (hc : ∀ d, CutsOk (fity.cuts d)) (h2 : (labelsOf y).length = 2) :
    ∃ (b : Bags) (ex : List ((Fin (1 * cfg.nBins) → ℝ) × Fl)), AreBags y ((w.gens cfg.gen).bagSize.getD y.length) (w.gens cfg.gen).nBags b
      ∧ TeachesClass (fun _ p => p 0) fity.cuts P y ((((w.gens cfg.gen).bagSize.getD y.length : ℕ) : ℝ) / P.length) b.idx ((labelsOf y)[1]'(by omega)) ex
      ∧ ∀ (bag : Fin (1 * cfg.nBins) → ℝ) (p : Fl), opsy.predict (trainedWith opsy w.regs cfg.reg ex) bag = p → p ≠ .nan →
        regPredictBag opsy w'.regs fity bag = .ok [.fin (1 - nearestUnit p), .fin (nearestUnit p)] := by
  have hatt : (dfyAtt 2 : Fin 1 → (Fin 2 → ℝ) → ℝ) = fun _ p => p 0 := by
    funext (d : Fin 1) p
    obtain rfl : d = 0 := Subsingleton.elim _ _
    rfl
  have := C119_two_classes (cfg := cfg) (nd := 1) (ops := opsy) (fit := fity) hr h hfresh hy hbs hc h2
  rwa [hatt] at this

/-- Regressors that predict the target of the first bag, never clipped away. -/
noncomputable def firstOps (m : ℕ) : RegOps Fl m := ⟨fun _ ex => ((ex.map Prod.snd)[0]?).getD (.fin 1), fun r _ => r, fun ex => ((ex.map Prod.snd)[0]?).getD (.fin 1)⟩

noncomputable def firstWorld : RegWorld Bool Fl := ⟨fun _ => defaultGen, fun _ => .fin 0, true⟩

theorem first_fit (cfg : RegCfg) (hnb : 0 < cfg.nBins) (hst : cfg.strategy = .equalWidth) (X : List (Fin 1 → ℝ)) (y : List ℕ) (hy : y ≠ []) (hlen : X.length = y.length) :
    ∃ w' fit, regFit (fun _ => ⊥) lazyRng 1000 firstWorld cfg (firstOps (1 * cfg.nBins)) none (fun d row => row d) X y = some (w', .ok fit) ∧ ∀ d, CutsOk (fit.cuts d) :=
  regFit_returns _ lazyRng lazyRng_ok lazyRng_total 1000 firstWorld cfg _ none (.inl rfl) _ X y hy hlen hnb hst rfl rfl rfl (by simp [firstWorld, defaultGen]) le_rfl (List.length_pos_iff.2 hy)

/-- Two classes, the regressor given by the user. -/
example : ∃ (w' : RegWorld Bool Fl) (fit : RegFit Fl 1 8) (b : Bags) (ex : List ((Fin (1 * 8) → ℝ) × Fl)),
    regFit (fun _ => ⊥) lazyRng 1000 firstWorld ⟨0, 8, .equalWidth, some 4⟩ (firstOps (1 * 8)) none (fun d row => row d) [fun _ => 0, fun _ => 1, fun _ => 5] [0, 1, 1] = some (w', .ok fit)
    ∧ TeachesClass (fun d row => row d) fit.cuts [fun _ => 0, fun _ => 1, fun _ => 5] [0, 1, 1] ((3 : ℕ) / (3 : ℕ)) b.idx 1 ex := by
  obtain ⟨w', fit, h, hc⟩ := first_fit ⟨0, 8, .equalWidth, some 4⟩ (by norm_num) rfl [fun _ => 0, fun _ => 1, fun _ => 5] [0, 1, 1] (by simp) rfl
  have hl : labelsOf ([0, 1, 1] : List ℕ) = [0, 1] := labelsOf_eq _ [0, 1] (by decide) (by decide)
  obtain ⟨b, ex, -, hT, -⟩ := C119_two_classes lazyRng_ok h rfl (by simp) (by simp [firstWorld, defaultGen]) hc (by rw [hl]; rfl)
  refine ⟨w', fit, b, ex, h, ?_⟩
  simpa [hl, firstWorld, defaultGen] using hT

/-- Three classes, GLMs. -/
example : ∃ (w' : RegWorld Bool Fl) (fit : RegFit Fl 1 8) (b : Bags) (ex : List ((Fin (1 * 8) → ℝ) × Fl)),
    regFit (fun _ => ⊥) lazyRng 1000 firstWorld ⟨0, 8, .equalWidth, none⟩ (firstOps (1 * 8)) none (fun d row => row d) [fun _ => 0, fun _ => 1, fun _ => 5] [0, 1, 2] = some (w', .ok fit)
    ∧ TeachesClass (fun d row => row d) fit.cuts [fun _ => 0, fun _ => 1, fun _ => 5] [0, 1, 2] ((3 : ℕ) / (3 : ℕ)) b.idx 2 ex := by
  obtain ⟨w', fit, h, hc⟩ := first_fit ⟨0, 8, .equalWidth, none⟩ (by norm_num) rfl [fun _ => 0, fun _ => 1, fun _ => 5] [0, 1, 2] (by simp) rfl
  have hl : labelsOf ([0, 1, 2] : List ℕ) = [0, 1, 2] := labelsOf_eq _ [0, 1, 2] (by decide) (by decide)
  obtain ⟨b, ex, -, hT, -⟩ := C119_multiclass lazyRng_ok h rfl (by simp) (by simp [firstWorld, defaultGen]) hc (by rw [hl]; decide)
  refine ⟨w', fit, b, ex ⟨2, by rw [hl]; decide⟩, h, ?_⟩
  have := hT ⟨2, by rw [hl]; decide⟩
  simpa [hl, firstWorld, defaultGen] using this

end Verif.Props
