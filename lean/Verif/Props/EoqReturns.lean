import Verif.Props.EoqVotes

/-!
# C91 with estimators: when `fit` of EoQ returns
-/

namespace Verif.Props

open Verif.Model Verif.Spec Verif.Proof

variable {σ M D α G Q : Type} {nc : ℕ}

theorem eoqDistribution_pdf' {D : Type} {nd nb : ℕ} {f : DistFun} (hpdf : f = .pdf) {cuts : Fin nd → Fin (nb + 1) → EReal} (hc : ∀ d, CutsOk (cuts d)) (att : Fin nd → D → ℝ) (rows : List D) :
    ∃ v, eoqDistribution f att cuts rows = .ok v := by
  unfold eoqDistribution
  rw [histBlocks_eq _ _ fun d => (hc d).mono]
  subst hpdf
  exact ⟨_, rfl⟩

theorem mapM_const_returns {β γ : Type} (l : List γ) (x : Except Err β) (h : ∃ v, x = .ok v) : ∃ r, (l.mapM fun _ => x) = .ok r := by
  obtain ⟨v, rfl⟩ := h
  obtain ⟨r, hr, -⟩ := mapM_exists l (fun _ => (.ok v : Except Err β)) fun _ _ => ⟨v, rfl⟩
  exact ⟨r, hr⟩

theorem items_return {β : Type} {n : ℕ} (l : List β) (hl : l.length = n) (bag : List ℕ) (hi : ∀ i ∈ bag, i < n) : ∃ r, bag.mapM (item l) = .ok r := by
  obtain ⟨r, hr, -⟩ := mapM_exists bag (item l) fun i hib => by
    have := hi i hib
    exact ⟨l[i], item_ok.2 (List.getElem?_eq_getElem (by omega))⟩
  exact ⟨r, hr⟩

section
variable [LinearOrder α] {ppf : ℝ → EReal} {num : α → ℝ} {cfg : EoqCfg} {y : List α}

theorem extend_same (m : ℕ) (h : m = y.length) (bags : Option (List (List ℕ))) : eoqExtend y m cfg.nQuant bags = .ok (y, bags) := by
  subst h
  unfold eoqExtend extendLabels
  simp [bind, Except.bind, pure, Except.pure]

/-- Learning from a matrix of labels returns. -/
theorem eoqvLearn_returns (hpdf : cfg.f = .pdf) (hbs : cfg.binStrategy = .equalWidth) (hb : 0 < cfg.nBins) (ops : EoqOps Q (MemberInput α nc) α) (hops : ∀ p ys, ∃ q, ops.fit p ys = .ok q) (v : List (List α)) (hv : v ≠ [])
    (hlen : v.length = y.length) (hcols : ∀ row ∈ v, nDescriptors nc ≤ row.length) (bags : List (List ℕ)) (hl : bags.length = cfg.nQuant) (hi : ∀ bag ∈ bags, ∀ i ∈ bag, i < y.length) :
    ∃ fit, eoqvLearn ppf num cfg ops v y (some bags) = .ok fit := by
  obtain ⟨members, h1, -⟩ := mapM_exists (List.range cfg.nQuant) (fun i => bagAt (some bags) i >>= eoqvMember ops v y) fun i hir => by
    rw [List.mem_range] at hir
    have hib : i < bags.length := by omega
    obtain ⟨rows, hrows⟩ := items_return v hlen bags[i] (hi _ (List.getElem_mem hib))
    obtain ⟨ys, hys⟩ := items_return y rfl bags[i] (hi _ (List.getElem_mem hib))
    obtain ⟨q, hq⟩ := hops (.votes rows) ys
    exact ⟨q, (bind_ok (item_ok.2 (List.getElem?_eq_getElem hib)) _).trans ((bind_ok hys _).trans ((bind_ok hrows _).trans hq))⟩
  obtain ⟨rows, h2⟩ := votesRows_of_length num v hcols
  have hrows : rows ≠ [] := by
    rintro rfl
    exact hv (List.length_eq_zero_iff.1 ((mapM_iff _ _ _).1 h2).length_eq)
  have hc := fun d : Fin (nDescriptors nc) => C46_equal_width ppf (rows.map fun row => row d) y (npUnique y) cfg.nBins hb none (fun _ => by simpa using hrows) (by simp)
  choose cuts hc1 hc2 using hc
  have h3 : (seqFin fun d => computeBincuts ppf (rows.map fun row => row d) y (npUnique y) cfg.nBins cfg.binStrategy none) = .ok cuts := by
    rw [hbs]
    exact (seqFin_ok _ _).2 hc1
  obtain ⟨dists, h4⟩ := mapM_const_returns (List.range cfg.nQuant) _ (eoqDistribution_pdf' hpdf hc2 (fun d (row : Fin (nDescriptors nc) → ℝ) => row d) rows)
  exact ⟨_, (bind_ok (extend_same _ hlen _) _).trans ((bind_ok h1 _).trans ((bind_ok h2 _).trans ((bind_ok h3 _).trans ((bind_ok h4 _).trans rfl))))⟩

/-- Learning from the probabilities of an ensemble returns. -/
theorem eoqyLearn_returns (hpdf : cfg.f = .pdf) (hbs : cfg.binStrategy = .equalWidth) (hb : 0 < cfg.nBins) (ops : EoqOps Q (Preds α nc) α) (hops : ∀ p ys, ∃ q, ops.fit p ys = .ok q) (l : List (List (Fin nc → ℝ))) (hl0 : l ≠ [])
    (hlen : l.length = y.length) (hcols : ∀ rows ∈ l, cfg.nQuant ≤ rows.length) (bags : List (List ℕ)) (hl : bags.length = cfg.nQuant) (hi : ∀ bag ∈ bags, ∀ i ∈ bag, i < y.length) :
    ∃ fit, eoqyLearn ppf cfg ops (.ens l) y (some bags) = .ok fit := by
  obtain ⟨members, h1, -⟩ := mapM_exists (List.range cfg.nQuant) (fun i => bagAt (some bags) i >>= eoqyMember ops (.ens l) y i) fun i hir => by
    rw [List.mem_range] at hir
    have hib : i < bags.length := by omega
    obtain ⟨ps, hps, -⟩ := mapM_exists bags[i] (fun j => item l j >>= fun rows => item rows i) fun j hj => by
      have hj' : j < l.length := by rw [hlen]; exact hi _ (List.getElem_mem hib) j hj
      have hk : i < l[j].length := lt_of_lt_of_le hir (hcols _ (List.getElem_mem hj'))
      exact ⟨l[j][i], (bind_ok (item_ok.2 (List.getElem?_eq_getElem hj')) _).trans (item_ok.2 (List.getElem?_eq_getElem hk))⟩
    have hof : (EoqPreds.ens l : EoqPreds α nc).ofBag bags[i] i = .ok (.probs ps) := by
      unfold EoqPreds.ofBag
      simp only [hps]
      rfl
    obtain ⟨ys, hys⟩ := items_return y rfl bags[i] (hi _ (List.getElem_mem hib))
    obtain ⟨q, hq⟩ := hops (.probs ps) ys
    exact ⟨q, (bind_ok (item_ok.2 (List.getElem?_eq_getElem hib)) _).trans ((bind_ok hys _).trans ((bind_ok hof _).trans hq))⟩
  have hc := fun d : Fin (nDescriptors nc) => C46_equal_width ppf ((l.map meanRows).map (dfyAtt nc d)) y (npUnique y) cfg.nBins hb none (fun _ => by simpa using hl0) (by simp)
  choose cuts hc1 hc2 using hc
  have h3 : eoqyCuts ppf cfg.nBins cfg.binStrategy (npUnique y) y (EoqPreds.ens l : EoqPreds α nc) = .ok cuts := by
    rw [hbs]
    exact (seqFin_ok _ _).2 hc1
  obtain ⟨dists, h4⟩ := mapM_const_returns (List.range cfg.nQuant) _ (eoqDistribution_pdf' hpdf hc2 (dfyAtt nc) (l.map meanRows))
  exact ⟨_, eoqyLearn_of (extend_same (cfg := cfg) _ hlen (some bags)) h1 h3 h4⟩

variable {rng : Rng G} {fuel : ℕ} {eops : EoqEstOps σ M D α nc} {w : EoqEstWorld G σ M D α} {c : EoqEstCfg} {X : List D}

/-- With the classifiers that an ensemble holds, learning returns. -/
theorem held_learn_returns {t : EnsState M α} {models : List M} (hpdf : c.base.f = .pdf) (hbs : c.base.binStrategy = .equalWidth) (hb : 0 < c.base.nBins) (ops : EoqOps Q (MemberInput α nc) α) (hops : ∀ p ys, ∃ q, ops.fit p ys = .ok q)
    (hH : Holds t models) (hml : c.base.nQuant ≤ models.length) (hX : X ≠ []) (hXy : X.length = y.length) (bags : List (List ℕ)) (hl : bags.length = c.base.nQuant)
    (hi : ∀ bag ∈ bags, ∀ i ∈ bag, i < y.length) (hcols : ∀ m x, (eops.cv.proba m x).length = nc) (hmany : c.probabilistic = false → nDescriptors nc ≤ models.length) :
    ∃ arr fit, eoqEstPreds eops c.probabilistic (.ens t) X = .ok arr ∧ eoqArrLearn ppf num c.base ops arr y (some bags) = .ok fit := by
  cases hp : c.probabilistic with
  | true =>
    obtain ⟨refs, hr1, hr2⟩ := hH.refs
    refine ⟨.known (.ens (X.map fun x => models.map fun m (k : Fin nc) => (eops.cv.proba m x).getD k 0)), ?_⟩
    obtain ⟨fit, hfit⟩ := eoqyLearn_returns (ppf := ppf) (y := y) hpdf hbs hb (knownOps ops) (fun p ys => hops (.preds p) ys) (X.map fun x => models.map fun m (k : Fin nc) => (eops.cv.proba m x).getD k 0)
      (by simpa using hX) (by simpa using hXy) (by
        intro rows hrows
        obtain ⟨x, -, rfl⟩ := List.mem_map.1 hrows
        simpa using hml) bags hl hi
    refine ⟨fit, ?_, hfit⟩
    unfold eoqEstPreds
    simp only [if_true]
    rw [C103_predict_proba eops.cv t hH.classes refs hr1 (fun h0 => hH.ne (List.length_eq_zero_iff.1 (by rw [hr2, h0]; rfl))) models hr2 hH.model X fun m _ x _ => hcols m x]
    rfl
  | false =>
    refine ⟨.votes (X.map fun x => models.map fun m => eops.label m x), ?_⟩
    obtain ⟨fit, hfit⟩ := eoqvLearn_returns (ppf := ppf) (num := num) (y := y) hpdf hbs hb ops hops (X.map fun x => models.map fun m => eops.label m x) (by simpa using hX) (by simpa using hXy) (by
        intro rows hrows
        obtain ⟨x, -, rfl⟩ := List.mem_map.1 hrows
        rw [List.length_map]
        exact hmany hp) bags hl hi
    refine ⟨fit, ?_, hfit⟩
    unfold eoqEstPreds
    simp only
    rw [hH.predict eops.label X]
    rfl

/-- **C91, partial**: with 'PDF', bins of equal width and the bags given by the user, `fit` returns when the estimator for both sets is a new ensemble of classifiers trained in several processes: with probabilities always, and with
labels if the classifiers are at least as many as the columns that `fit` reads (one with two classes, otherwise one per class). -/
theorem C91_estimators_partial {e : ℕ} (hpdf : c.base.f = .pdf) (hbs : c.base.binStrategy = .equalWidth) (hb : 0 < c.base.nBins) (ops : EoqOps Q (MemberInput α nc) α) (hops : ∀ p ys, ∃ q, ops.fit p ys = .ok q)
    (he : c.estTrain = some e) (het : c.estTest = some e) (hnew : w.est e = .ens ensNew) (hsch : eops.sch = .processes) (hX : X ≠ []) (hXy : X.length = y.length) (bags : List (List ℕ)) (hl : bags.length = c.base.nQuant)
    (hn : 0 < c.base.nQuant) (hi : ∀ bag ∈ bags, ∀ i ∈ bag, i < y.length) (hcols : ∀ m x, (eops.cv.proba m x).length = nc) (hmany : c.probabilistic = false → nDescriptors nc ≤ bags.length) (prevs : List (List Fl)) :
    ∃ w' fit, eoqEstFit ppf rng fuel num eops w c ops X y none (some prevs) (some bags) = some (w', .ok fit) := by
  obtain ⟨models, hm, -⟩ := mapM_exists bags (ensTask eops.cv X y) fun bag hbag => by
    obtain ⟨rows, hrows⟩ := items_return X hXy bag (hi bag hbag)
    obtain ⟨ys, hys⟩ := items_return y rfl bag (hi bag hbag)
    exact ⟨eops.cv.fit rows ys, (bind_ok hrows _).trans ((bind_ok hys _).trans rfl)⟩
  obtain ⟨t, ht⟩ : ∃ t, ensFit .processes eops.cv (ensNew : EnsState M α) X y bags = .ok t := by
    unfold ensFit
    rw [if_pos (by rfl), if_neg (by simp [hXy, hX]), hm]
    exact ⟨_, rfl⟩
  obtain ⟨models', hF, hcl, hr, hmod, -, -⟩ := ens_models ht
  have hml : models'.length = c.base.nQuant := by rw [← hF.length_eq, hl]
  have hH : Holds t models' := ⟨hcl, hr, hmod, fun h0 => by rw [h0] at hml; simp at hml; omega⟩
  set w1 : EoqEstWorld G σ M D α := { bags := w.bags, est := Function.update w.est e (.ens t), log := w.log ++ [(e, X, y, some bags)] } with hw1
  have hfit1 : eoqFitEst eops { w with bags := w.bags } e X y (some bags) = (w1, .ok ()) := by
    unfold eoqFitEst
    simp only [hnew]
    rw [show eoqFitted eops (.ens ensNew) X = .ok false from rfl]
    simp only
    rw [if_neg (by simp [hXy, hX]), hsch, ht]
  have hw1e : w1.est e = .ens t := by simp [hw1]
  have hfit2 : eoqFitEst eops w1 e X y (some bags) = (w1, .ok ()) := by
    unfold eoqFitEst
    rw [hw1e]
    have : eoqFitted eops (.ens t) X = .ok true := by
      unfold eoqFitted
      simp only
      rw [hH.predict eops.label]
    rw [this]
  obtain ⟨arr, fit, ha, hfit⟩ := held_learn_returns (eops := eops) (ppf := ppf) (num := num) hpdf hbs hb ops hops hH hml.ge hX hXy bags hl hi hcols fun h => by rw [hml, ← hl]; exact hmany h
  refine ⟨w1, fit, ?_⟩
  unfold eoqEstFit eoqBags
  simp only [Option.map_some, eoqTrainPreds, he, eoqFitTest, het]
  rw [hfit1]
  simp only
  rw [hw1e, ha]
  simp only
  rw [hfit2]
  simp only
  rw [hfit]

/-- A second `fit` returns too. -/
theorem refit_returns {e : ℕ} {t : EnsState M α} {models : List M} (hpdf : c.base.f = .pdf) (hbs : c.base.binStrategy = .equalWidth) (hb : 0 < c.base.nBins) (ops : EoqOps Q (MemberInput α nc) α) (hops : ∀ p ys, ∃ q, ops.fit p ys = .ok q)
    (he : c.estTrain = some e) (het : c.estTest = some e) (ht : w.est e = .ens t) (hH : Holds t models) (hml : c.base.nQuant ≤ models.length) (hX : X ≠ []) (hXy : X.length = y.length) (bags : List (List ℕ)) (hl : bags.length = c.base.nQuant)
    (hi : ∀ bag ∈ bags, ∀ i ∈ bag, i < y.length) (hcols : ∀ m x, (eops.cv.proba m x).length = nc) (hmany : c.probabilistic = false → nDescriptors nc ≤ models.length) (prevs : List (List Fl)) :
    ∃ w' fit, eoqEstFit ppf rng fuel num eops w c ops X y none (some prevs) (some bags) = some (w', .ok fit) := by
  obtain ⟨arr, fit, ha, hfit⟩ := held_learn_returns (eops := eops) (ppf := ppf) (num := num) hpdf hbs hb ops hops hH hml hX hXy bags hl hi hcols hmany
  have hfit2 : eoqFitEst eops w e X y (some bags) = (w, .ok ()) := by
    unfold eoqFitEst
    rw [ht]
    have : eoqFitted eops (.ens t) X = .ok true := by
      unfold eoqFitted
      simp only
      rw [hH.predict eops.label]
    rw [this]
  refine ⟨w, fit, ?_⟩
  unfold eoqEstFit eoqBags
  simp only [Option.map_some, eoqTrainPreds, he, eoqFitTest, het]
  rw [show ({ w with bags := w.bags } : EoqEstWorld G σ M D α) = w from rfl, hfit2]
  simp only
  rw [ht, ha]
  simp only
  rw [hfit2]
  simp only
  rw [hfit]

end

/-! ## Examples -/

/-- Classifiers that remember the labels of their bags; they all find the parity of the examples. -/
def parityOps : EoqEstOps Unit (List ℕ) ℕ ℕ 2 := ⟨⟨fun _ => false, fun s _ _ => s, fun _ X => X, fun _ _ => []⟩, .processes, ⟨fun _ ys => ys, fun _ x => [1 - (x % 2 : ℕ), (x % 2 : ℕ)]⟩, fun _ x => x % 2⟩

/-- The same classifiers, but the labels are the first ones of their bags. -/
def headOps : EoqEstOps Unit (List ℕ) ℕ ℕ 2 := { parityOps with label := fun m _ => m.headD 0 }

def newEns : EoqEstWorld Bool Unit (List ℕ) ℕ ℕ := ⟨⟨fun _ => defaultGen, true⟩, fun _ => .ens ensNew, []⟩

/-- Members that keep the bag: its labels and its predictions. -/
def keepOps : EoqOps (MemberInput ℕ 2 × List ℕ) (MemberInput ℕ 2) ℕ := ⟨fun p ys => .ok (p, ys), fun _ _ => .ok [1, 0]⟩

theorem newEns_fits {Q : Type} (eops : EoqEstOps Unit (List ℕ) ℕ ℕ 2) (hs : eops.sch = .processes) (hcv : eops.cv = parityOps.cv) (prob : Bool) (cfg : EoqCfg) (hpdf : cfg.f = .pdf) (hbs : cfg.binStrategy = .equalWidth) (hb : 0 < cfg.nBins)
    (ops : EoqOps Q (MemberInput ℕ 2) ℕ) (hops : ∀ p ys, ∃ q, ops.fit p ys = .ok q) (bags : List (List ℕ)) (hl : bags.length = cfg.nQuant) (hn : 0 < cfg.nQuant) (hi : ∀ bag ∈ bags, ∀ i ∈ bag, i < 2) :
    ∃ w' fit, eoqEstFit (fun _ => 0) lazyRng 0 (fun a : ℕ => (a : ℝ)) eops newEns ⟨cfg, some 0, some 0, prob⟩ ops [0, 1] [0, 1] none (some []) (some bags) = some (w', .ok fit) :=
  C91_estimators_partial (X := [0, 1]) (y := [0, 1]) (c := ⟨cfg, some 0, some 0, prob⟩) hpdf hbs hb ops hops rfl rfl rfl hs (by simp) rfl bags hl hn hi (fun m x => by rw [hcv]; rfl) (fun _ => by simp [nDescriptors]; omega) []

/-- C120: an ensemble serves for both sets, and it is trained once, with the two bags. -/
example : ∃ (w' : EoqEstWorld Bool Unit (List ℕ) ℕ ℕ) (t : EnsState (List ℕ) ℕ), w'.log = [(0, [0, 1], [0, 1], some [[0, 1], [1, 0]])] ∧ w'.est 0 = .ens t := by
  obtain ⟨w', fit, h⟩ := newEns_fits parityOps rfl rfl true (pairCfg .mean) rfl rfl (by simp [pairCfg]) keepOps (fun _ _ => ⟨_, rfl⟩) [[0, 1], [1, 0]] rfl (by simp [pairCfg]) (by simp)
  obtain ⟨bags, log, h1, h2, h3⟩ := C120_trained_once (fun _ _ _ _ => rfl) (fun e p _ hp _ => by simpa [newEns] using hp.symm) (fun _ _ _ order l hc => by cases hc) h
  obtain ⟨l, t, rfl, -, ht, hc⟩ := ((h3 0).1 (.inr rfl)).2 rfl
  have hb : l = [[0, 1], [1, 0]] := by
    have : w'.bags = newEns.bags ∧ l = [[0, 1], [1, 0]] := by simpa [eoqBags] using h1.symm
    exact this.2
  refine ⟨w', t, ?_, ht⟩
  have hown : ∀ k ∈ log, k.1 = 0 := by
    intro k hk
    by_contra h0
    have := ((h3 k.1).2 (by simp [Needed]; exact fun h => h0 h.symm)).2
    unfold callsOf at this
    rw [List.map_eq_nil_iff, List.filter_eq_nil_iff] at this
    exact this k hk (by simp)
  rw [h2, show newEns.log = [] from rfl, List.nil_append]
  unfold callsOf at hc
  rw [List.filter_eq_self.2 (by simpa using fun a b hk => hown (a, b) hk)] at hc
  obtain ⟨⟨a, b⟩, rfl⟩ : ∃ k, log = [k] := List.length_eq_one_iff.1 (by simpa using congrArg List.length hc)
  have := hown (a, b) (by simp)
  simp only at this
  subst this
  simpa [hb] using hc

/-- C121. -/
example : ∃ (w' : EoqEstWorld Bool Unit (List ℕ) ℕ ℕ) (fit : EoqFit (MemberInput ℕ 2 × List ℕ) (nDescriptors 2) (pairCfg .mean).nBins), fit.members.length = 2 ∧
    ∃ w2 fit2, eoqEstFit (fun _ => 0) lazyRng 0 (fun a : ℕ => (a : ℝ)) parityOps w' ⟨pairCfg .mean, some 0, some 0, true⟩ keepOps [5, 6, 7] [1, 0, 1] none (some []) (some [[0, 1], [1, 2]]) = some (w2, .ok fit2) ∧ w2.est 0 = w'.est 0 := by
  obtain ⟨w', fit, h⟩ := newEns_fits parityOps rfl rfl true (pairCfg .mean) rfl rfl (by simp [pairCfg]) keepOps (fun _ _ => ⟨_, rfl⟩) [[0, 1], [1, 0]] rfl (by simp [pairCfg]) (by simp)
  obtain ⟨-, -, -, hml, -⟩ := C121_own_classifier_partial rfl rfl rfl rfl rfl (fun _ _ => rfl) h
  obtain ⟨wb, l, s, models, arr, hb, hF, hH, hs, -⟩ := new_ens_fit rfl rfl rfl rfl h
  have hb' : l = [[0, 1], [1, 0]] := by
    unfold eoqBags at hb
    simp only [Option.some.injEq, Prod.mk.injEq, Except.ok.injEq] at hb
    exact hb.2.symm
  have hmlen : models.length = 2 := by rw [← hF.length_eq, hb']; rfl
  obtain ⟨w2, fit2, h2⟩ := refit_returns (ppf := fun _ => 0) (rng := lazyRng) (fuel := 0) (num := fun a : ℕ => (a : ℝ)) (eops := parityOps) (c := ⟨pairCfg .mean, some 0, some 0, true⟩) (y := [1, 0, 1]) rfl rfl (by simp [pairCfg]) keepOps
    (fun _ _ => ⟨_, rfl⟩) rfl rfl hs hH (by rw [hmlen]; simp [pairCfg]) (X := [5, 6, 7]) (by simp) rfl [[0, 1], [1, 2]] rfl (by simp) (fun _ _ => rfl) (by simp) []
  obtain ⟨-, -, -, -, -, -, hk, -⟩ := C121_refit_refuted (X2 := [5, 6, 7]) (y2 := [1, 0, 1]) rfl rfl rfl rfl rfl (fun _ _ => rfl) rfl h h2
  exact ⟨w', fit, hml, w2, fit2, h2, hk⟩

theorem givenBags {w : EoqWorld Bool} {cfg : EoqCfg} {y : List ℕ} {n : ℕ} {bags : List (List ℕ)} {P : List (List ℕ) → Prop} (h : P bags) :
    ∀ wb l, eoqBags lazyRng 0 w cfg y n (some []) (some bags) = some (wb, .ok (some l)) → P l := by
  intro wb l hb
  unfold eoqBags at hb
  simp only [Option.some.injEq, Prod.mk.injEq, Except.ok.injEq] at hb
  rw [← hb.2]
  exact h

theorem two_labels : labelsOf [0, 1] = [0, 1] := labelsOf_eq _ _ (by decide) (by decide)

theorem whole_bag {bag ys : List ℕ} (hb : bag = [0, 1] ∨ bag = [1, 0]) (h : BagOf [0, 1] bag ys) : labelsOf ys = labelsOf [0, 1] := by
  have : ys = [0, 1] ∨ ys = [1, 0] := by
    unfold BagOf at h
    rcases hb with rfl | rfl
    · left
      have : ([0, 1] : List ℕ).map some = ys.map some := by simpa using h
      exact ((List.map_injective_iff.2 (Option.some_injective _)) this).symm
    · right
      have : ([1, 0] : List ℕ).map some = ys.map some := by simpa using h
      exact ((List.map_injective_iff.2 (Option.some_injective _)) this).symm
  rcases this with rfl | rfl
  · rfl
  · rw [two_labels]
    exact labelsOf_eq _ _ (by decide) (by decide)

/-- C122: both classifiers say that all the examples are of class 1, and the answer is that all are of class 0. -/
example {argsort : List Fl → List ℕ} (hs : ArgsortOk argsort) (enc : Bool → ℕ) : ∃ (w' : EoqEstWorld Bool Unit (List ℕ) ℕ ℕ) (fit : EoqFit (List ℕ) (nDescriptors 2) (pairCfg .mean).nBins),
    eoqEstPredict argsort (fun a : ℕ => (a : ℝ)) parityOps w' ⟨pairCfg .mean, some 0, some 0, false⟩ (ccMember enc) fit [1, 3, 5] none = .ok (.vec fun j : Fin 2 => .fin (if j.1 = 0 then 1 else 0)) := by
  obtain ⟨w', fit, h⟩ := newEns_fits parityOps rfl rfl false (pairCfg .mean) rfl rfl (by simp [pairCfg]) (ccMember enc) (fun _ _ => ⟨_, rfl⟩) [[0, 1], [1, 0]] rfl (by simp [pairCfg]) (by simp)
  obtain ⟨_, _, _, -, -, hans⟩ := C122_unanimous_refuted hs rfl rfl rfl rfl rfl h (by rw [two_labels]; rfl) (givenBags fun bag hb ys => whole_bag (by simpa using hb)) (by simp [pairCfg]) (by simp [pairCfg]) (by simp [pairCfg, Selects])
  exact ⟨w', fit, hans [1, 3, 5] (by simp) (fun _ _ _ _ _ _ => rfl)⟩

/-- C122: with three members and two classes, an IndexError. -/
example {argsort : List Fl → List ℕ} (enc : Bool → ℕ) : ∃ (w' : EoqEstWorld Bool Unit (List ℕ) ℕ ℕ) (fit : EoqFit (List ℕ) (nDescriptors 2) (pairCfg .mean).nBins),
    eoqEstPredict argsort (fun a : ℕ => (a : ℝ)) headOps w' ⟨{ pairCfg .mean with nQuant := 3 }, some 0, some 0, false⟩ (ccMember enc) fit [7] none = .error .indexError := by
  obtain ⟨w', fit, h⟩ := newEns_fits headOps rfl rfl false { pairCfg .mean with nQuant := 3 } rfl rfl (by simp [pairCfg]) (ccMember enc) (fun _ _ => ⟨_, rfl⟩) [[0, 1], [0, 1], [1, 0]] rfl (by simp) (by simp)
  obtain ⟨wb, l, models, hb, hF, hans⟩ := C122_predict_raises_refuted (argsort := argsort) rfl rfl rfl rfl rfl h (by simp) (givenBags fun bag hb ys => whole_bag (by simpa using hb))
  have hl : l = [[0, 1], [0, 1], [1, 0]] := by
    unfold eoqBags at hb
    simp only [Option.some.injEq, Prod.mk.injEq, Except.ok.injEq] at hb
    exact hb.2.symm
  subst hl
  obtain ⟨m0, m1, m2, rfl⟩ : ∃ m0 m1 m2, models = [m0, m1, m2] := List.length_eq_three.1 hF.length_eq.symm
  simp only [List.forall₂_cons, List.Forall₂.nil, and_true] at hF
  have hbm : ∀ bag m, IsBagModel headOps.cv [0, 1] [0, 1] bag m → (bag.map fun i => ([0, 1] : List ℕ)[i]?) = m.map some := by
    rintro bag m ⟨rows, ys, -, h2, rfl⟩
    exact h2
  have e0 : m0 = [0, 1] := ((List.map_injective_iff.2 (Option.some_injective _)) (show ([0, 1] : List ℕ).map some = m0.map some by simpa using hbm _ _ hF.1)).symm
  have e1 : m1 = [0, 1] := ((List.map_injective_iff.2 (Option.some_injective _)) (show ([0, 1] : List ℕ).map some = m1.map some by simpa using hbm _ _ hF.2.1)).symm
  have e2 : m2 = [1, 0] := ((List.map_injective_iff.2 (Option.some_injective _)) (show ([1, 0] : List ℕ).map some = m2.map some by simpa using hbm _ _ hF.2.2)).symm
  subst e0 e1 e2
  refine ⟨w', fit, hans 7 2 (by simp) (by simp) (by rw [two_labels]; rfl) ?_ ?_⟩
  · intro i hi
    have : i = 0 ∨ i = 1 := by omega
    rcases this with rfl | rfl <;> exact Nat.zero_lt_one
  · intro i hi h2
    obtain rfl : i = 2 := by simp at hi; omega
    exact le_rfl

/-- C122: with one member, the shares of the labels. -/
example {argsort : List Fl → List ℕ} (hs : ArgsortOk argsort) (enc : Bool → ℕ) : ∃ (w' : EoqEstWorld Bool Unit (List ℕ) ℕ ℕ) (fit : EoqFit (List ℕ) (nDescriptors 2) (pairCfg .mean).nBins),
    eoqEstPredict argsort (fun a : ℕ => (a : ℝ)) parityOps w' ⟨{ pairCfg .mean with nQuant := 1 }, some 0, some 0, false⟩ (ccMember enc) fit [1, 3, 4] none = .ok (.vec fun j : Fin 2 => .fin (freqs (labelsOf [0, 1]) [1, 1, 0] (j.cast (by rw [two_labels]; rfl)))) := by
  obtain ⟨w', fit, h⟩ := newEns_fits parityOps rfl rfl false { pairCfg .mean with nQuant := 1 } rfl rfl (by simp [pairCfg]) (ccMember enc) (fun _ _ => ⟨_, rfl⟩) [[0, 1]] rfl (by simp) (by simp)
  obtain ⟨-, bag, m, -, -, hans⟩ := C122_single_partial hs rfl rfl rfl rfl rfl h (by rw [two_labels]; rfl) (givenBags ⟨rfl, fun bag hb ys => whole_bag (by simp at hb; simp [hb])⟩) rfl (by simp [pairCfg]) (by simp [pairCfg, Selects])
  exact ⟨w', fit, hans [1, 3, 4] (by simp) (by simp [parityOps])⟩

/-- C122: three classes and two bags. -/
example {ppf : ℝ → EReal} {num : ℕ → ℝ} {enc : Bool → ℕ} (w' : EoqEstWorld Bool Unit (List ℕ) ℕ ℕ) (fit : EoqFit (List ℕ) (nDescriptors 3) (pairCfg .mean).nBins) (eops : EoqEstOps Unit (List ℕ) ℕ ℕ 3) (hs : eops.sch = .processes) :
    eoqEstFit ppf lazyRng 0 num eops newEns ⟨pairCfg .mean, some 0, some 0, false⟩ (ccMember enc) [0, 1, 2] [0, 1, 2] none (some []) (some [[0, 1, 2], [0, 1, 2]]) ≠ some (w', .ok fit) :=
  C122_few_members_refuted rfl rfl rfl hs le_rfl (givenBags (by simp))

end Verif.Props
