import Verif.Props.EoqEst

/-!
# C122: EoQ with crisp quantifiers and an ensemble of classifiers
-/

namespace Verif.Props

open Verif.Model Verif.Spec Verif.Proof

variable {σ M D α G Q : Type} {nc : ℕ}

theorem votesRows_length {num : α → ℝ} {v : List (List α)} {r : List (Fin (nDescriptors nc) → ℝ)} (h : votesRows nc num v = .ok r) : ∀ row ∈ v, nDescriptors nc ≤ row.length := by
  intro row hrow
  have hF := (mapM_iff _ _ _).1 h
  obtain ⟨i, hi, rfl⟩ := List.getElem_of_mem hrow
  obtain ⟨f, -, hf⟩ := forall2_get hF i _ (List.getElem?_eq_getElem hi)
  rw [seqFin_ok] at hf
  by_contra hlt
  push Not at hlt
  have := hf ⟨v[i].length, hlt⟩
  simp [item, Except.map] at this

theorem votesRows_of_length (num : α → ℝ) (v : List (List α)) (h : ∀ row ∈ v, nDescriptors nc ≤ row.length) : ∃ r, votesRows nc num v = .ok r := by
  induction v with
  | nil => exact ⟨[], rfl⟩
  | cons row v ih =>
    obtain ⟨r, hr⟩ := ih fun x hx => h x (by simp [hx])
    have hl := h row (by simp)
    have hs : seqFin (fun d : Fin (nDescriptors nc) => (item row d).map num) = .ok fun d => num (row[d.1]'(by omega)) := by
      rw [seqFin_ok]
      intro d
      have : row[d.1]? = some (row[d.1]'(by omega)) := List.getElem?_eq_getElem (by omega)
      simp [item, this, Except.map]
    refine ⟨(fun d => num (row[d.1]'(by omega))) :: r, ?_⟩
    unfold votesRows at hr ⊢
    rw [List.mapM_cons, hs, hr]
    rfl

variable [LinearOrder α] {ppf : ℝ → EReal} {rng : Rng G} {fuel : ℕ} {num : α → ℝ} {eops : EoqEstOps σ M D α nc} {w w' : EoqEstWorld G σ M D α} {c : EoqEstCfg} {X : List D} {y : List α}
  {prevs : Option (List (List Fl))} {idx : Option (List (List ℕ))}

theorem eoqvLearn_inv {cfg : EoqCfg} {ops : EoqOps Q (MemberInput α nc) α} {v : List (List α)} {bags : Option (List (List ℕ))} {fit : EoqFit Q (nDescriptors nc) cfg.nBins} (hlen : v.length = y.length)
    (h : eoqvLearn ppf num cfg ops v y bags = .ok fit) :
    ((List.range cfg.nQuant).mapM fun i => bagAt bags i >>= eoqvMember ops v y) = .ok fit.members ∧ ∃ rows, votesRows nc num v = .ok rows
      ∧ ((List.range cfg.nQuant).mapM fun _ => eoqDistribution cfg.f (fun d row => row d) fit.cuts rows) = .ok fit.dists := by
  unfold eoqvLearn at h
  obtain ⟨ext, h1, h⟩ := bind_inv h
  obtain ⟨members, h2, h⟩ := bind_inv h
  obtain ⟨rows, h3, h⟩ := bind_inv h
  obtain ⟨cuts, h4, h⟩ := bind_inv h
  obtain ⟨dists, h5, h⟩ := bind_inv h
  have hext : ext = (y, bags) := by
    unfold eoqExtend extendLabels at h1
    rw [if_pos hlen.symm] at h1
    obtain ⟨ye, hy, h1⟩ := bind_inv h1
    rw [if_pos hlen.symm] at h1
    simp only [pure, Except.pure, Except.ok.injEq] at h1 hy
    rw [← h1, hy]
  obtain rfl := Except.ok.inj h
  subst hext
  exact ⟨h2, rows, h3, h5⟩

/-- `fit` of an `EoQ` of crisp quantifiers, with a new ensemble: it has a classifier for each bag, and the members are trained with matrices of labels. -/
theorem votes_fit {e : ℕ} {ops : EoqOps Q (MemberInput α nc) α} {fit : EoqFit Q (nDescriptors nc) c.base.nBins} (hp : c.probabilistic = false) (he : c.estTrain = some e) (hnew : w.est e = .ens ensNew) (hsch : eops.sch = .processes)
    (h : eoqEstFit ppf rng fuel num eops w c ops X y none prevs idx = some (w', .ok fit)) :
    ∃ wb l s models, eoqBags rng fuel w.bags c.base y X.length prevs idx = some (wb, .ok (some l)) ∧ List.Forall₂ (IsBagModel eops.cv X y) l models ∧ Holds s models ∧ w'.est e = .ens s ∧ X.length = y.length ∧ X ≠ []
      ∧ eoqvLearn ppf num c.base ops (X.map fun x => models.map fun m => eops.label m x) y (some l) = .ok fit := by
  obtain ⟨wb, l, s, models, arr, hb, hF, hH, hs, hXy, hX, ha, hl⟩ := new_ens_fit rfl he hnew hsch h
  refine ⟨wb, l, s, models, hb, hF, hH, hs, hXy, hX, ?_⟩
  unfold eoqEstPreds at ha
  simp only [hp] at ha
  rw [hH.predict eops.label X] at ha
  obtain rfl := Except.ok.inj ha
  exact hl

/-- **C122 is false**: with three or more classes and fewer bags than classes, `fit` never returns. -/
theorem C122_few_members_refuted {e : ℕ} {ops : EoqOps Q (MemberInput α nc) α} {fit : EoqFit Q (nDescriptors nc) c.base.nBins} (hp : c.probabilistic = false) (he : c.estTrain = some e) (hnew : w.est e = .ens ensNew)
    (hsch : eops.sch = .processes) (h3 : 3 ≤ nc) (hfew : ∀ wb l, eoqBags rng fuel w.bags c.base y X.length prevs idx = some (wb, .ok (some l)) → l.length < nc) :
    eoqEstFit ppf rng fuel num eops w c ops X y none prevs idx ≠ some (w', .ok fit) := by
  intro h
  obtain ⟨wb, l, s, models, hb, hF, -, -, hXy, hX, hl⟩ := votes_fit hp he hnew hsch h
  obtain ⟨-, rows, hr, -⟩ := eoqvLearn_inv (by simpa using hXy) hl
  obtain ⟨x, X', rfl⟩ := List.exists_cons_of_ne_nil hX
  have h1 := votesRows_length hr (models.map fun m => eops.label m x) (by simp)
  rw [List.length_map, ← hF.length_eq] at h1
  have h2 := hfew wb l hb
  unfold nDescriptors at h1
  split_ifs at h1 <;> omega

/-- The position of the largest label, for equal labels. -/
theorem labelArgmax_const (row : List α) (a : α) (h : ∀ b ∈ row, b = a) (hne : row ≠ []) : labelArgmax row = some 0 := by
  obtain ⟨b, t, rfl⟩ := List.exists_cons_of_ne_nil hne
  unfold labelArgmax
  have hget : ∀ i, (b :: t).get i = a := fun i => h _ (List.get_mem _ _)
  show Option.map Fin.val ((List.finRange (t.length + 1)).argmax (b :: t).get) = some 0
  rw [List.finRange_succ, List.argmax_cons]
  cases hm : ((List.finRange t.length).map Fin.succ).argmax (b :: t).get with
  | none => rfl
  | some i =>
    have hi := hget i
    have h0 := hget 0
    simp only [List.get_eq_getElem] at hi h0
    simp_all

/-- The position of the largest label: the first one. -/
theorem labelArgmax_first (row : List α) (j : ℕ) (hj : j < row.length) (hlt : ∀ i (hi : i < j), row[i] < row[j]) (hle : ∀ i (hi : i < row.length), j ≤ i → row[i] ≤ row[j]) : labelArgmax row = some j := by
  unfold labelArgmax
  have hmem : (⟨j, hj⟩ : Fin row.length) ∈ (List.finRange row.length).argmax row.get := by
    rw [List.mem_argmax_iff]
    refine ⟨List.mem_finRange _, fun i _ => ?_, fun i _ hi => ?_⟩
    · rcases lt_or_ge i.1 j with h | h
      · exact (hlt i.1 h).le
      · exact hle i.1 i.2 h
    · simp only [List.idxOf_finRange]
      by_contra hcon
      push Not at hcon
      exact absurd (hlt i.1 hcon) (not_lt.2 hi)
  rw [Option.mem_def] at hmem
  rw [hmem]
  rfl

/-! ## The answers -/

/-- The members are the classes of the training set, when every bag has an example of every class. -/
theorem cc_members {cfg : EoqCfg} {enc : Bool → α} {v : List (List α)} {l : List (List ℕ)} {ms : List (List α)} (hall : ∀ bag ∈ l, ∀ ys, BagOf y bag ys → labelsOf ys = labelsOf y)
    (h : ((List.range cfg.nQuant).mapM fun i => bagAt (some l) i >>= eoqvMember (nc := nc) (ccMember enc) v y) = .ok ms) : ms.length = cfg.nQuant ∧ cfg.nQuant ≤ l.length ∧ ∀ q ∈ ms, q = labelsOf y := by
  have hF := (mapM_iff _ _ _).1 h
  have hlen : ms.length = cfg.nQuant := by simpa using hF.length_eq.symm
  have hget : ∀ i (hi : i < cfg.nQuant), ∃ (hl : i < l.length) (ys : List α), BagOf y l[i] ys ∧ ms[i]? = some (labelsOf ys) := by
    intro i hi
    obtain ⟨q, hq, hqq⟩ := forall2_get hF i i (by rw [List.getElem?_range hi])
    obtain ⟨bag, hb, h2⟩ := bind_inv hqq
    unfold bagAt at hb
    have hb' := item_ok.1 hb
    obtain ⟨hl, hbag⟩ := List.getElem?_eq_some_iff.1 hb'
    unfold eoqvMember at h2
    obtain ⟨ys, hy, h2⟩ := bind_inv h2
    obtain ⟨rows, -, h2⟩ := bind_inv h2
    obtain rfl := Except.ok.inj h2
    refine ⟨hl, ys, ?_, hq⟩
    rw [hbag]
    exact (mapM_item_iff _ _ _).1 hy
  refine ⟨hlen, ?_, fun q hq => ?_⟩
  · by_contra hc
    push Not at hc
    obtain ⟨hl, -⟩ := hget _ hc
    omega
  · obtain ⟨i, hi, rfl⟩ := List.getElem_of_mem hq
    obtain ⟨hl, ys, h1, h2⟩ := hget i (by omega)
    rw [List.getElem?_eq_getElem hi] at h2
    rw [Option.some.inj h2, hall _ (List.getElem_mem _) _ h1]

/-- The shares of the classes are a prevalence vector. -/
theorem shares_isPrevList (cs : List α) (hcs : cs.Nodup) (l : List α) (hne : l ≠ []) (hk : ∀ a ∈ l, a ∈ cs) : IsPrevList cs.length (cs.map fun c => (l.count c : ℝ) / (l.length : ℝ)) := by
  obtain ⟨h0, h1⟩ := freqs_isPrev cs hcs l hne hk
  refine ⟨by simp, ?_, ?_⟩
  · intro x hx
    obtain ⟨c, -, rfl⟩ := List.mem_map.1 hx
    positivity
  · rw [← h1, ← Fin.sum_univ_getElem]
    refine Fintype.sum_equiv (finCongr (by simp)) _ _ fun i => ?_
    simp [freqs, freq]

/-- The answer of an ensemble of `CC` when all the members find the same labels. -/
theorem votes_answer {e : ℕ} {argsort : List Fl → List ℕ} {enc : Bool → α} {fit : EoqFit (List α) (nDescriptors nc) c.base.nBins} {s : EnsState M α} {models : List M} {l : List (List ℕ)} {Xt : List D} {lab : List α}
    (hsort : ArgsortOk argsort) (hp : c.probabilistic = false) (het : c.estTest = some e) (hs : w'.est e = .ens s) (hH : Holds s models) (hXy : X.length = y.length) (hX : X ≠ [])
    (hl : eoqvLearn ppf num c.base (ccMember enc) (X.map fun x => models.map fun m => eops.label m x) y (some l) = .ok fit) (hall : ∀ bag ∈ l, ∀ ys, BagOf y bag ys → labelsOf ys = labelsOf y)
    (hnc : nc = (labelsOf y).length) (hn : 0 < c.base.nQuant) (hst : c.base.strategy ≠ .other) (hsel : Selects c.base.strategy → 1 ≤ roundHalfEven ((c.base.nQuant : ℝ) * c.base.pct))
    (hlab : votes2crisps (labelsOf y) (Xt.map fun x => models.map fun m => eops.label m x) = .ok lab) (hne : lab ≠ []) (hin : ∀ a ∈ lab, a ∈ labelsOf y) :
    AnswerIs c.base.strategy (eoqEstPredict argsort num eops w' c (ccMember enc) fit Xt none) fun j : Fin nc => .fin ((lab.count ((labelsOf y)[j.1]'(hnc ▸ j.2)) : ℝ) / (lab.length : ℝ)) := by
  obtain ⟨hm, rows, hr, hd⟩ := eoqvLearn_inv (by simpa using hXy) hl
  obtain ⟨hml, -, hmem⟩ := cc_members hall hm
  have htest : eoqEstPreds eops c.probabilistic (w'.est e) Xt = .ok (.votes (Xt.map fun x => models.map fun m => eops.label m x)) := by
    unfold eoqEstPreds
    rw [hs]
    simp only [hp]
    rw [hH.predict eops.label Xt]
    rfl
  unfold eoqEstPredict
  rw [het]
  simp only
  rw [bind_ok htest]
  unfold eoqArrPredict
  simp only
  set p : List ℝ := (labelsOf y).map fun c => (lab.count c : ℝ) / (lab.length : ℝ) with hpdef
  have hpv : IsPrevList nc p := by
    rw [hnc]
    exact shares_isPrevList _ (labelsOf_nodup y) lab hne hin
  have hrows : eoqvRows c.base (ccMember enc) fit (Xt.map fun x => models.map fun m => eops.label m x) = .ok (List.replicate c.base.nQuant (asVec nc p)) := by
    refine mapM_range_of (by simp) fun i hi r hr => ?_
    have hm : i < fit.members.length := by omega
    rw [(item_ok (m := fit.members)).2 (List.getElem?_eq_getElem hm)]
    show ((ccMember enc).predict fit.members[i] _ >>= storeRow nc) = _
    rw [hmem _ (List.getElem_mem hm)]
    unfold ccMember memberCrisp
    simp only
    rw [hlab]
    show storeRow nc p = _
    rw [storeRow_of_length _ hpv.1]
    rw [List.getElem?_replicate, if_pos hi] at hr
    obtain rfl := Option.some.inj hr
    rfl
  rw [bind_ok hrows]
  have := combine_const (argsort := argsort) (cfg := c.base) (rows := List.replicate c.base.nQuant (asVec nc p)) hsort (asVec_isPrev hpv) (fun r hr => (List.mem_replicate.1 hr).2) (by simp) hn hst hsel
    ((votesRows nc num (Xt.map fun x => models.map fun m => eops.label m x) >>= eoqDistribution c.base.f (fun d row => row d) fit.cuts).map (eoqDistances c.base fit)) ?_
  · convert this using 3 with j
    unfold asVec
    rw [List.getD_eq_getElem _ _ (by rw [hpv.1]; exact j.2)]
    simp [hpdef]
  · intro _
    obtain ⟨x0, X', rfl⟩ := List.exists_cons_of_ne_nil hX
    have hcols := votesRows_length hr (models.map fun m => eops.label m x0) (by simp)
    obtain ⟨r, hr'⟩ := votesRows_of_length (nc := nc) num (Xt.map fun x => models.map fun m => eops.label m x) (by
      intro row hrow
      obtain ⟨x, -, rfl⟩ := List.mem_map.1 hrow
      simpa using hcols)
    have hdl : fit.dists.length = c.base.nQuant := by
      have := ((mapM_iff _ _ _).1 hd).length_eq
      simpa using this.symm
    obtain ⟨v, hv⟩ : ∃ v, eoqDistribution c.base.f (fun d row => row d) fit.cuts rows = .ok v := by
      obtain ⟨q, -, hq⟩ := forall2_get ((mapM_iff _ _ _).1 hd) 0 0 (by rw [List.getElem?_range hn])
      exact ⟨q, hq⟩
    obtain ⟨v', hv'⟩ := eoqDistribution_total hv (fun d row => row d) r
    refine ⟨fit.dists.map fun d => c.base.dist _ v' d, by simpa using hdl, ?_⟩
    rw [bind_ok hr', hv']
    exact congrArg _ (distances_fin c.base fit v')

/-- **C122 is false**: with two or more members and classifiers that agree on every example of the testing bag, the answer is that all the examples are of the first class, whatever the labels that the classifiers give. -/
theorem C122_unanimous_refuted {e : ℕ} {argsort : List Fl → List ℕ} {enc : Bool → α} {fit : EoqFit (List α) (nDescriptors nc) c.base.nBins} (hsort : ArgsortOk argsort) (hp : c.probabilistic = false) (he : c.estTrain = some e)
    (het : c.estTest = some e) (hnew : w.est e = .ens ensNew) (hsch : eops.sch = .processes) (h : eoqEstFit ppf rng fuel num eops w c (ccMember enc) X y none prevs idx = some (w', .ok fit)) (hnc : nc = (labelsOf y).length)
    (hall : ∀ wb l, eoqBags rng fuel w.bags c.base y X.length prevs idx = some (wb, .ok (some l)) → ∀ bag ∈ l, ∀ ys, BagOf y bag ys → labelsOf ys = labelsOf y)
    (hn : 2 ≤ c.base.nQuant) (hst : c.base.strategy ≠ .other) (hsel : Selects c.base.strategy → 1 ≤ roundHalfEven ((c.base.nQuant : ℝ) * c.base.pct)) :
    ∃ wb l models, eoqBags rng fuel w.bags c.base y X.length prevs idx = some (wb, .ok (some l)) ∧ List.Forall₂ (IsBagModel eops.cv X y) l models ∧
      ∀ Xt, Xt ≠ [] → (∀ x ∈ Xt, ∀ m ∈ models, ∀ m' ∈ models, eops.label m x = eops.label m' x) →
        AnswerIs c.base.strategy (eoqEstPredict argsort num eops w' c (ccMember enc) fit Xt none) fun j : Fin nc => .fin (if j.1 = 0 then 1 else 0) := by
  obtain ⟨wb, l, s, models, hb, hF, hH, hs, hXy, hX, hl⟩ := votes_fit hp he hnew hsch h
  refine ⟨wb, l, models, hb, hF, fun Xt hXt hagree => ?_⟩
  have hall' := hall wb l hb
  have hlm : 2 ≤ models.length := by
    obtain ⟨hm, -, -, -⟩ := eoqvLearn_inv (by simpa using hXy) hl
    obtain ⟨-, h2, -⟩ := cc_members hall' hm
    have := hF.length_eq
    omega
  have hy : y ≠ [] := fun h0 => hX (List.length_eq_zero_iff.1 (by rw [hXy, h0]; rfl))
  have hcs : 0 < (labelsOf y).length := by
    obtain ⟨a, y', rfl⟩ := List.exists_cons_of_ne_nil hy
    exact List.length_pos_of_mem ((mem_labelsOf _ _).2 (by simp : a ∈ a :: y'))
  have hlab : votes2crisps (labelsOf y) (Xt.map fun x => models.map fun m => eops.label m x) = .ok (Xt.map fun _ => (labelsOf y)[0]) := by
    unfold votes2crisps
    rw [mapM_iff, List.forall₂_map_left_iff, List.forall₂_map_right_iff, List.forall₂_same]
    intro x hx
    obtain ⟨m0, m1, ms, rfl⟩ : ∃ m0 m1 ms, models = m0 :: m1 :: ms := by
      match models, hlm with
      | m0 :: m1 :: ms, _ => exact ⟨m0, m1, ms, rfl⟩
    have := labelArgmax_const ((m0 :: m1 :: ms).map fun m => eops.label m x) (eops.label m0 x) (by
      intro b hb
      obtain ⟨m, hm, rfl⟩ := List.mem_map.1 hb
      exact hagree x hx m hm m0 (by simp)) (by simp)
    simp only [List.map_cons] at this ⊢
    simp only [this]
    simp [takeLabel, List.getElem?_eq_getElem hcs]
  have hmain := votes_answer (e := e) hsort hp het hs hH hXy hX hl hall' hnc (by omega) hst hsel hlab (by simpa using hXt) (by
    intro a ha
    obtain ⟨x, -, rfl⟩ := List.mem_map.1 ha
    exact List.getElem_mem _)
  convert hmain using 3 with j
  rw [List.map_const', List.count_replicate, List.length_replicate]
  have hpos : (Xt.length : ℝ) ≠ 0 := by simpa using hXt
  by_cases hj : j.1 = 0
  · simp [hj, div_self hpos]
  · have : (labelsOf y)[0] ≠ (labelsOf y)[j.1]'(hnc ▸ j.2) := by
      intro heq
      exact hj ((List.Nodup.getElem_inj_iff (labelsOf_nodup y)).1 heq).symm
    simp [hj, this]

/-- **C122, partial**: with one bag and one member, the answer is the shares of the labels that the classifier of the bag gives. -/
theorem C122_single_partial {e : ℕ} {argsort : List Fl → List ℕ} {enc : Bool → α} {fit : EoqFit (List α) (nDescriptors nc) c.base.nBins} (hsort : ArgsortOk argsort) (hp : c.probabilistic = false) (he : c.estTrain = some e)
    (het : c.estTest = some e) (hnew : w.est e = .ens ensNew) (hsch : eops.sch = .processes) (h : eoqEstFit ppf rng fuel num eops w c (ccMember enc) X y none prevs idx = some (w', .ok fit)) (hnc : nc = (labelsOf y).length)
    (hall : ∀ wb l, eoqBags rng fuel w.bags c.base y X.length prevs idx = some (wb, .ok (some l)) → l.length = 1 ∧ ∀ bag ∈ l, ∀ ys, BagOf y bag ys → labelsOf ys = labelsOf y)
    (hn : c.base.nQuant = 1) (hst : c.base.strategy ≠ .other) (hsel : Selects c.base.strategy → 1 ≤ roundHalfEven ((c.base.nQuant : ℝ) * c.base.pct)) :
    ∃ wb bag m, eoqBags rng fuel w.bags c.base y X.length prevs idx = some (wb, .ok (some [bag])) ∧ IsBagModel eops.cv X y bag m ∧
      ∀ Xt, Xt ≠ [] → (∀ x ∈ Xt, eops.label m x ∈ y) →
        AnswerIs c.base.strategy (eoqEstPredict argsort num eops w' c (ccMember enc) fit Xt none) fun j : Fin nc => .fin (freqs (labelsOf y) (Xt.map (eops.label m)) (j.cast hnc)) := by
  obtain ⟨wb, l, s, models, hb, hF, hH, hs, hXy, hX, hl⟩ := votes_fit hp he hnew hsch h
  obtain ⟨h1, hall'⟩ := hall wb l hb
  obtain ⟨bag, rfl⟩ := List.length_eq_one_iff.1 h1
  obtain ⟨m, rfl⟩ := List.length_eq_one_iff.1 (hF.length_eq.symm.trans h1)
  refine ⟨wb, bag, m, hb, by simpa using hF, fun Xt hXt hk => ?_⟩
  have hlab : votes2crisps (labelsOf y) (Xt.map fun x => [m].map fun m => eops.label m x) = .ok (Xt.map (eops.label m)) := by
    unfold votes2crisps
    rw [mapM_iff, List.forall₂_map_left_iff, List.forall₂_map_right_iff, List.forall₂_same]
    intro x _
    rfl
  exact votes_answer (e := e) hsort hp het hs hH hXy hX hl hall' hnc (by omega) hst hsel hlab (by simpa using hXt) (by
    intro a ha
    obtain ⟨x, hx, rfl⟩ := List.mem_map.1 ha
    exact (mem_labelsOf _ _).2 (hk x hx))

/-- **C122 is false**: with more members than classes, `predict` fails with an IndexError when the largest label that the classifiers give to an example comes first from a classifier whose number is not less than the number of
classes. -/
theorem C122_predict_raises_refuted {e : ℕ} {argsort : List Fl → List ℕ} {enc : Bool → α} {fit : EoqFit (List α) (nDescriptors nc) c.base.nBins} (hp : c.probabilistic = false) (he : c.estTrain = some e)
    (het : c.estTest = some e) (hnew : w.est e = .ens ensNew) (hsch : eops.sch = .processes) (h : eoqEstFit ppf rng fuel num eops w c (ccMember enc) X y none prevs idx = some (w', .ok fit)) (hn : 0 < c.base.nQuant)
    (hall : ∀ wb l, eoqBags rng fuel w.bags c.base y X.length prevs idx = some (wb, .ok (some l)) → ∀ bag ∈ l, ∀ ys, BagOf y bag ys → labelsOf ys = labelsOf y) :
    ∃ wb l models, eoqBags rng fuel w.bags c.base y X.length prevs idx = some (wb, .ok (some l)) ∧ List.Forall₂ (IsBagModel eops.cv X y) l models ∧
      ∀ x j (hj : j < models.length), 2 ≤ models.length → (labelsOf y).length ≤ j → (∀ i (hi : i < j), eops.label models[i] x < eops.label models[j] x) → (∀ i (hi : i < models.length), j ≤ i → eops.label models[i] x ≤ eops.label models[j] x) →
        eoqEstPredict argsort num eops w' c (ccMember enc) fit [x] none = .error .indexError := by
  obtain ⟨wb, l, s, models, hb, hF, hH, hs, hXy, hX, hl⟩ := votes_fit hp he hnew hsch h
  refine ⟨wb, l, models, hb, hF, fun x j hj h2 hjn hlt hle => ?_⟩
  obtain ⟨hm, -, -, -⟩ := eoqvLearn_inv (by simpa using hXy) hl
  obtain ⟨hml, -, hmem⟩ := cc_members (hall wb l hb) hm
  have htest : eoqEstPreds eops c.probabilistic (w'.est e) [x] = .ok (.votes ([x].map fun x => models.map fun m => eops.label m x)) := by
    unfold eoqEstPreds
    rw [hs]
    simp only [hp]
    rw [hH.predict eops.label [x]]
    rfl
  unfold eoqEstPredict
  rw [het]
  simp only
  rw [bind_ok htest]
  unfold eoqArrPredict
  simp only
  have hlab : votes2crisps (labelsOf y) ([x].map fun x => models.map fun m => eops.label m x) = .error .indexError := by
    have := labelArgmax_first (models.map fun m => eops.label m x) j (by simpa using hj) (by simpa using hlt) (by simpa using hle)
    obtain ⟨m0, m1, ms, rfl⟩ : ∃ m0 m1 ms, models = m0 :: m1 :: ms := by
      match models, h2 with
      | m0 :: m1 :: ms, _ => exact ⟨m0, m1, ms, rfl⟩
    unfold votes2crisps
    simp only [List.map_cons, List.map_nil] at this ⊢
    rw [List.mapM_cons]
    simp only [this]
    have : (labelsOf y)[j]? = none := List.getElem?_eq_none hjn
    simp [takeLabel, this, bind, Except.bind]
  have hrows : eoqvRows c.base (ccMember enc) fit ([x].map fun x => models.map fun m => eops.label m x) = .error .indexError := by
    unfold eoqvRows
    obtain ⟨n, hn'⟩ : ∃ n, c.base.nQuant = n + 1 := ⟨c.base.nQuant - 1, by omega⟩
    rw [hn', List.range_succ_eq_map, List.mapM_cons]
    have hm0 : 0 < fit.members.length := by omega
    rw [bind_ok ((item_ok (m := fit.members)).2 (List.getElem?_eq_getElem hm0)), hmem _ (List.getElem_mem hm0)]
    unfold ccMember memberCrisp
    simp only
    rw [hlab]
    rfl
  rw [hrows]
  rfl

end Verif.Props
