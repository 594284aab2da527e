import Verif.Props.Experiment
import Verif.Props.MatchStability

/-!
# C164 for methods that keep their optimisation problem between bags
-/

namespace Verif.Props

open Verif.Model Verif.Spec Verif.Proof

/-- **C164**: what `predict` gets for a bag are the rows of its examples, or their predictions, of any kind. -/
theorem C164_inputs {D α : Type} {k : ℕ} (idx : List ℕ) :
    (∀ (X rows : List D), BagOf X idx rows → bagRows (α := α) (k := k) X idx = .ok (rows, none))
    ∧ (∀ l rows : List α, BagOf l idx rows → bagPreds (D := D) (k := k) (.crisp l) idx = .ok ([], some (.crisp rows)))
    ∧ (∀ l rows : List ℝ, BagOf l idx rows → bagPreds (D := D) (α := α) (k := k) (.probs1 l) idx = .ok ([], some (.probs1 rows)))
    ∧ ∀ l rows : List (Fin k → ℝ), BagOf l idx rows → bagPreds (D := D) (α := α) (.probs l) idx = .ok ([], some (.probs rows)) := by
  refine ⟨fun X rows h => ?_, fun l rows h => ?_, fun l rows h => ?_, fun l rows h => ?_⟩
  · unfold bagRows rowsAt
    simp only [(mapM_item_iff X idx rows).2 h, Except.map]
  all_goals
    unfold bagPreds rowsAt
    simp only [(mapM_item_iff l idx rows).2 h, Except.map]

/-- The attributes of a matching method between calls to `predict`: what `fit` stored, and perhaps the optimisation problem of a former call. -/
def MatchKept {F : Type} {m nc : ℕ} (f : F) (T : Matrix (Fin m) (Fin nc) ℝ) (par : Option (QPParams nc (nc + 1))) (s : MatchState F m nc) : Prop :=
  s.fitted = f ∧ s.train = T ∧ s.par = par ∧ ∃ last : Option (Fin nc → ℝ), s.problem = last.map fun l => ⟨⟨m, nc, T⟩, l⟩

theorem matchAnswer_again (sv : CvxSolver) (hsv : ExactCvx sv) (qp : QPSolver) (hqp : ExactQP qp) {F : Type} {m nc : ℕ} (hn : 0 < nc) (la : LinAlg nc) (hla : ExactLinAlg la) (fuel : ℕ) (tol : ℝ)
    (distance : DfDistance m) {D : (Fin m → ℝ) → (Fin m → ℝ) → ℝ} (hD : namedDistance distance = some D) (f : F) (T : Matrix (Fin m) (Fin nc) ℝ) (hT : ∀ k j, 0 ≤ T k j) (hd : Solvable distance T) :
    ∃ par, matchParams la (fuel + 1) distance T = .ok par ∧ ∀ s : MatchState F m nc, MatchKept f T par s → ∀ q : Fin m → ℝ, (∀ k, 0 ≤ q k) →
      ∃ x, (matchAnswer sv qp tol distance s q).2 = .ok (some (realList x)) ∧ MatchKept f T par (matchAnswer sv qp tol distance s q).1 ∧ IsPrev x ∧ ∀ p, IsPrev p → D q (mixtureOf T x) ≤ D q (mixtureOf T p) := by
  cases distance with
  | fn d => cases hD
  | l1 =>
    obtain rfl := Option.some.inj hD
    refine ⟨none, rfl, ?_⟩
    rintro ⟨f', T', par', problem, mixtures⟩ ⟨k1, k2, k3, last, k4⟩ q hq
    dsimp only at k1 k2 k3 k4
    subst k1 k2 k3 k4
    obtain ⟨⟨t, l⟩, x, h1, h2, hx, hopt⟩ := C73_solve_l1_optimal sv hsv hn T' q hq last
    cases h2
    exact ⟨x, by simp only [matchAnswer, h1], by simp only [matchAnswer, h1]; exact ⟨rfl, rfl, rfl, some l, rfl⟩, hx, hopt⟩
  | hd =>
    obtain rfl := Option.some.inj hD
    obtain ⟨c, hc⟩ := hd
    refine ⟨none, rfl, ?_⟩
    rintro ⟨f', T', par', problem, mixtures⟩ ⟨k1, k2, k3, last, k4⟩ q hq
    dsimp only at k1 k2 k3 k4
    subst k1 k2 k3 k4
    obtain ⟨⟨t, l⟩, x, h1, h2, hx, hopt⟩ := C73_solve_hd_optimal sv hsv hn T' q hq hT c hc last
    cases h2
    exact ⟨x, by simp only [matchAnswer, h1], by simp only [matchAnswer, h1]; exact ⟨rfl, rfl, rfl, some l, rfl⟩, hx, fun p hp => Real.sqrt_le_sqrt (hopt p hp)⟩
  | l2 =>
    obtain rfl := Option.some.inj hD
    obtain ⟨par, -, h1, -⟩ := C26_l2_exact qp hqp la hla hn T (fun _ => 0) fuel fun x hx => hd x fun i => congrFun hx i
    refine ⟨some par, by simp only [matchParams, h1], ?_⟩
    rintro ⟨f', T', par', problem, mixtures⟩ ⟨k1, k2, k3, last, k4⟩ q hq
    dsimp only at k1 k2 k3 k4
    subst k1 k2 k3 k4
    obtain ⟨par', x, h1', h2, hx, hopt⟩ := C26_l2_exact qp hqp la hla hn T' q fuel fun x hx => hd x fun i => congrFun hx i
    cases h1.symm.trans h1'
    refine ⟨x, by simp only [matchAnswer, h2, Except.map], ⟨rfl, rfl, rfl, last, rfl⟩, hx, fun p hp => Real.sqrt_le_sqrt ?_⟩
    refine le_of_eq_of_le (Finset.sum_congr rfl fun k _ => ?_) ((hopt p hp).trans (le_of_eq (Finset.sum_congr rfl fun k _ => ?_)))
    · unfold mixtureOf; ring
    · unfold mixtureOf; ring

section
variable {σ D α G : Type} [LinearOrder α] {k : ℕ} (ops : EstOps σ D α k) (enc : Bool → α) (w : World σ D α) (X : List D) (y : List α)

theorem ucFit_given_probs (cls : UcClass α k) (hp : cls.probabilistic = true) (hpre : cls.pre y = none) (et et' : Option ℕ) (hy : y ≠ []) (r : ℕ) (P : List (Fin k → ℝ)) (hP : P.length = r * y.length) (m : cls.S)
    (hm : cls.learn none y (fittedState cls y r (.probs P)) = .ok m) :
    ucFit ops enc w ⟨cls, et, et'⟩ (ucNew ⟨cls, et, et'⟩) X y (some (.probs P)) = (trainedWorld ops w et et' X y, ⟨fittedState cls y r (.probs P), some m⟩, none) := by
  have ht := extendLabels_tile y hy r
  rw [← hP] at ht
  have hfit : usingFit ops enc w (UcObj.cfg ⟨cls, et, et'⟩) ⟨none, none, none⟩ X y (some (.probs P)) = (trainedWorld ops w et et' X y, fittedState cls y r (.probs P), none) := by
    cases hn : cls.needsTrain <;> simp [usingFit, UcObj.cfg, hn, hp, npUnique_eq_labelsOf, trainedWorld, trainPreds, Preds.len, ht, fittedState, stacked_eq_npTile]
  simp only [ucFit, hpre, ucNew, hfit, hm]

omit [LinearOrder α] in
theorem ucPredict_given_probs (cls : UcClass α k) (hp : cls.probabilistic = true) (et et' : Option ℕ) (base : QState α k) (m : cls.S) (Xt : List D) (Q : List (Fin k → ℝ)) :
    ucPredict ops enc w ⟨cls, et, et'⟩ ⟨base, some m⟩ Xt (some (.probs Q)) = (⟨base, some (cls.answer m base (.probs Q)).1⟩, (cls.answer m base (.probs Q)).2) := by
  have : usingPredict ops enc w (UcObj.cfg ⟨cls, et, et'⟩) (base.classes.getD []) Xt (some (.probs Q)) = .ok (.probs Q) := by
    cases et' <;> simp [usingPredict, UcObj.cfg, hp]
  simp only [ucPredict, this]

theorem ucFit_given_crisp (cls : UcClass α k) (hp : cls.probabilistic = false) (hpre : cls.pre y = none) (et et' : Option ℕ) (hy : y ≠ []) (r : ℕ) (P : List α) (hP : P.length = r * y.length) (m : cls.S)
    (hm : cls.learn none y (fittedState cls y r (.crisp P)) = .ok m) :
    ucFit ops enc w ⟨cls, et, et'⟩ (ucNew ⟨cls, et, et'⟩) X y (some (.crisp P)) = (trainedWorld ops w et et' X y, ⟨fittedState cls y r (.crisp P), some m⟩, none) := by
  have ht := extendLabels_tile y hy r
  rw [← hP] at ht
  have hfit : usingFit ops enc w (UcObj.cfg ⟨cls, et, et'⟩) ⟨none, none, none⟩ X y (some (.crisp P)) = (trainedWorld ops w et et' X y, fittedState cls y r (.crisp P), none) := by
    cases hn : cls.needsTrain <;> simp [usingFit, UcObj.cfg, hn, hp, npUnique_eq_labelsOf, trainedWorld, trainPreds, probs2crisps, Except.map, Preds.len, ht, fittedState, stacked_eq_npTile]
  simp only [ucFit, hpre, ucNew, hfit, hm]

omit [LinearOrder α] in
theorem ucPredict_given_crisp (cls : UcClass α k) (hp : cls.probabilistic = false) (et et' : Option ℕ) (base : QState α k) (m : cls.S) (Xt : List D) (Q : List α) :
    ucPredict ops enc w ⟨cls, et, et'⟩ ⟨base, some m⟩ Xt (some (.crisp Q)) = (⟨base, some (cls.answer m base (.crisp Q)).1⟩, (cls.answer m base (.crisp Q)).2) := by
  have : usingPredict ops enc w (UcObj.cfg ⟨cls, et, et'⟩) (base.classes.getD []) Xt (some (.crisp Q)) = .ok (.crisp Q) := by
    cases et' <;> simp [usingPredict, UcObj.cfg, hp, probs2crisps, Except.map]
  simp only [ucPredict, this]

omit [LinearOrder α] in
/-- The loop over the bags, for a class whose attributes keep the invariant `J`. -/
theorem bagLoop_again {β : Type} (wrap : List β → Preds α k) (cls : UcClass α k) (et et' : Option ℕ) (base : QState α k)
    (hpred : ∀ m Xt Q, ucPredict ops enc w ⟨cls, et, et'⟩ ⟨base, some m⟩ Xt (some (wrap Q)) = (⟨base, some (cls.answer m base (wrap Q)).1⟩, (cls.answer m base (wrap Q)).2)) (input : List ℕ → Except Err (List D × Option (Preds α k))) (J : cls.S → Prop) (R : List Fl × List ℕ → Fl → Prop)
    (bags : List (List Fl × List ℕ))
    (h : ∀ t ∈ bags, ∃ Xt Q, input t.2 = .ok (Xt, some (wrap Q)) ∧ ∀ m, J m → ∃ a e, (cls.answer m base (wrap Q)).2 = .ok a ∧ J (cls.answer m base (wrap Q)).1 ∧ reportedError t.1 a = .ok e ∧ R t e)
    (m : cls.S) (hm : J m) : ∃ es, bagLoop ops enc w ⟨cls, et, et'⟩ input ⟨base, some m⟩ bags = .ok es ∧ List.Forall₂ R bags es := by
  induction bags generalizing m with
  | nil => exact ⟨[], rfl, .nil⟩
  | cons t rest ih =>
    obtain ⟨Xt, Q, h1, h2⟩ := h t (List.mem_cons_self ..)
    obtain ⟨a, e, h3, h4, h5, h6⟩ := h2 m hm
    obtain ⟨es, h7, h8⟩ := ih (fun t ht => h t (List.mem_cons_of_mem _ ht)) _ h4
    refine ⟨e :: es, ?_, .cons h6 h8⟩
    obtain ⟨p, idx⟩ := t
    rw [bagLoop]
    simp only [h1, bind, Except.bind, hpred m Xt Q, h3, h5, h7, pure, Except.pure]

theorem bagOf_exists {β γ : Type} {l : List β} {q : List γ} (h : q.length = l.length) {idx : List ℕ} {labels : List β} (hb : BagOf l idx labels) : ∃ rows, BagOf q idx rows ∧ rows.length = labels.length := by
  induction idx generalizing labels with
  | nil =>
    cases labels with
    | nil => exact ⟨[], rfl, rfl⟩
    | cons a l => cases hb
  | cons i idx ih =>
    cases labels with
    | nil => cases hb
    | cons a t =>
      unfold BagOf at hb
      rw [List.map_cons, List.map_cons, List.cons.injEq] at hb
      obtain ⟨rows, h1, h2⟩ := ih (labels := t) hb.2
      obtain ⟨hi, -⟩ := List.getElem?_eq_some_iff.1 hb.1
      refine ⟨q[i]'(by omega) :: rows, ?_, by simp [h2]⟩
      unfold BagOf at h1 ⊢
      rw [List.map_cons, List.map_cons, h1, List.getElem?_eq_getElem]

variable (rng : Rng G) (fuel : ℕ) (gen : PriorGen G) (glob : G) (test : BagData α) (b : Bags)

/-- The experiment with a class whose attributes change from bag to bag and keep the invariant `J`. -/
theorem experiment_again {β : Type} (wrap : List β → Preds α k) (hwrap : ∀ (l : List β) idx rows, BagOf l idx rows → bagPreds (D := D) (wrap l) idx = .ok ([], some (wrap rows))) (cls : UcClass α k) (et et' : Option ℕ)
    (hy : y ≠ []) (hg : Generated rng fuel gen glob test b) (hl : labelsOf test.y = labelsOf y) (P Q : List β) (hQ : Q.length = test.y.length) (base : QState α k) (m : cls.S) (w' : World σ D α)
    (hfit : ucFit ops enc w ⟨cls, et, et'⟩ (ucNew ⟨cls, et, et'⟩) X y (some (wrap P)) = (w', ⟨base, some m⟩, none))
    (hpred : ∀ m Xt Q, ucPredict ops enc w' ⟨cls, et, et'⟩ ⟨base, some m⟩ Xt (some (wrap Q)) = (⟨base, some (cls.answer m base (wrap Q)).1⟩, (cls.answer m base (wrap Q)).2))
    (J : cls.S → Prop) (hJ : J m) (R : List β → (Fin (labelsOf y).length → ℝ) → Prop)
    (H : ∀ m rows, J m → rows ≠ [] → (∀ r ∈ rows, r ∈ Q) → ∃ v, (cls.answer m base (wrap rows)).2 = .ok (some (realList v)) ∧ J (cls.answer m base (wrap rows)).1 ∧ R rows v) :
    ∃ es, experiment ops enc w ⟨cls, et, et'⟩ X y (some (wrap P)) rng fuel gen glob test (bagPreds (wrap Q)) = some (.ok es)
      ∧ ErrorsOf test.y b gen.nBags (gen.bagSize.getD test.y.length) (fun idx labels e => ∃ rows v, BagOf Q idx rows ∧ R rows v ∧ e = Fl.fin ((∑ j, |freqs (labelsOf y) labels j - v j|) / (labelsOf y).length)) es := by
  obtain ⟨hr, hs, hty, hbs, g', glob', hret⟩ := hg
  obtain ⟨e1, e2, e3⟩ := (C37_prior_shift_bags rng hr fuel gen hs glob test hty hbs g' glob' b hret).1
  have hn : (labelsOf y).length ≠ 0 := (labels_pos y hy).ne'
  obtain ⟨es, h1, h2⟩ := bagLoop_again ops enc w' wrap cls et et' base hpred (bagPreds (wrap Q)) J
    (fun t e => ∃ labels, BagOf test.y t.2 labels ∧ labels.length = gen.bagSize.getD test.y.length ∧ ∃ rows v, BagOf Q t.2 rows ∧ R rows v ∧ e = Fl.fin ((∑ j, |freqs (labelsOf y) labels j - v j|) / (labelsOf y).length))
    (b.prevs.zip b.idx) (fun t ht => by
      obtain ⟨i, hi, rfl⟩ := List.getElem_of_mem ht
      rw [List.length_zip, e1, e2, min_self] at hi
      obtain ⟨h1, labels, h2, h3⟩ := e3 i hi
      rw [List.getElem_zip]
      rw [List.getD_eq_getElem _ _ (by omega)] at h1 h2 h3
      have hlen : labels.length = gen.bagSize.getD test.y.length := by
        have := congrArg List.length h2
        rw [List.length_map, List.length_map] at this
        omega
      obtain ⟨rows, h4, h8⟩ := bagOf_exists (q := Q) hQ h2
      have hne : rows ≠ [] := by
        rintro rfl
        rw [← hlen, ← h8] at hbs
        cases hbs
      refine ⟨[], rows, hwrap _ _ _ h4, fun m hm => ?_⟩
      obtain ⟨v, h5, h6, h7⟩ := H m rows hm hne (fun r hr => bagOf_mem h4 hr)
      refine ⟨_, _, h5, h6, ?_, labels, h2, hlen, rows, v, h4, h7, rfl⟩
      have h3' : b.prevs[i] = realList (freqs (labelsOf y) labels) := by
        rw [h3, hl]
        unfold realList freqs
        rw [← List.ofFn_getElem_eq_map]
        rfl
      simp only
      rw [h3', reportedError_eq hn]
      rfl) m hJ
  refine ⟨es, ?_, ?_⟩
  · unfold experiment
    simp only [hfit, hret, Option.map_some, h1]
  have hlen : es.length = gen.nBags := by rw [← h2.length_eq, List.length_zip, e1, e2, min_self]
  refine ⟨hlen, e2, fun i hi hi' => ?_⟩
  have h3 := (List.forall₂_iff_get.1 h2).2 i (by rw [List.length_zip, e1, e2, min_self, ← hlen]; exact hi) hi
  simpa using h3

end

section
variable {σ D α G : Type} [LinearOrder α] (enc : Bool → α) (w : World σ D α) (X : List D) (y : List α) (rng : Rng G) (fuel : ℕ) (gen : PriorGen G) (glob : G) (test : BagData α) (b : Bags)
variable (et et' : Option ℕ) (hy : y ≠ []) (hg : Generated rng fuel gen glob test b) (hl : labelsOf test.y = labelsOf y)
include hy hg hl

/-- **C164** for FriedmanME with 'HD', 'L1' and 'L2', which keeps its optimisation problem from one bag to the next one: the error of each bag is that of prevalences
whose mixture is the closest one to the representation of that bag. -/
theorem C164_friedman (ops : EstOps σ D α (labelsOf y).length) (sv : CvxSolver) (hsv : ExactCvx sv) (qp : QPSolver) (hqp : ExactQP qp) (la : LinAlg (labelsOf y).length) (hla : ExactLinAlg la) (lfuel : ℕ) (tol : ℝ)
    (distance : DfDistance (labelsOf y).length) {dist : (Fin (labelsOf y).length → ℝ) → (Fin (labelsOf y).length → ℝ) → ℝ} (hD : namedDistance distance = some dist)
    (P Q : List (Fin (labelsOf y).length → ℝ)) (hP : P.length = y.length) (hQ : Q.length = test.y.length) (T : Fin (labelsOf y).length → Fin (labelsOf y).length → ℝ)
    (hT : T = fun i c => reachShare i (freq y (labelsOf y)[i]) (ofClass (y.zip P) (labelsOf y)[c])) (hd : Solvable distance T)
    (rep : List (Fin (labelsOf y).length → ℝ) → Fin (labelsOf y).length → ℝ) (hrep : rep = fun rows i => reachShare i (freq y (labelsOf y)[i]) rows) :
    ∃ es, experiment ops enc w ⟨friedmanClass sv qp la (lfuel + 1) tol distance, et, et'⟩ X y (some (.probs P)) rng fuel gen glob test (bagPreds (.probs Q)) = some (.ok es)
      ∧ ErrorsOf test.y b gen.nBags (gen.bagSize.getD test.y.length) (fun idx labels e => ∃ rows v, BagOf Q idx rows ∧ IsPrev v ∧ (∀ p, IsPrev p → dist (rep rows) (mixtureOf T v) ≤ dist (rep rows) (mixtureOf T p))
          ∧ e = Fl.fin ((∑ j, |freqs (labelsOf y) labels j - v j|) / (labelsOf y).length)) es := by
  have hl' : (stacked y 1).length = P.length := by rw [stacked_length, hP, one_mul]
  obtain ⟨fit, h1, -, h2, h3, -⟩ := C54_friedman (labelsOf y) y (stacked y 1) P hl' (labelsOf_nodup' y) fun a => ((mem_labelsOf' y a).trans (stacked_mem_iff y 1 one_pos a).symm)
  have hT' : fit.train = T := by
    rw [hT]
    funext i c
    rw [(h2 i c).1, stacked_one]
    rfl
  subst hT'
  obtain ⟨par, hpar, hans⟩ := matchAnswer_again sv hsv qp hqp (labels_pos y hy) la hla lfuel tol distance hD fit fit.train (fun i c => (h2 i c).2.1) hd
  have hq : ∀ rows, friedmanTest fit rows = rep rows := fun rows => by rw [hrep]; exact funext fun i => h3 rows i
  obtain ⟨es, g1, g2⟩ := experiment_again ops enc w X y rng fuel gen glob test b .probs (fun l _ _ h => bagPreds_probs l h) (friedmanClass sv qp la (lfuel + 1) tol distance) et et' hy hg hl P Q hQ _ ⟨fit, fit.train, par, none, none⟩ _
    (ucFit_given_probs ops enc w X y (friedmanClass sv qp la (lfuel + 1) tol distance) rfl rfl et et' hy 1 P (by omega) _ (by
      change (friedmanClass (k := (npUnique y).length) sv qp la (lfuel + 1) tol distance).learn none y _ = _
      have h1' : friedmanFit (npUnique y) y (stacked y 1) P = .ok fit := h1
      simp only [fittedState, friedmanClass, trainData, probRows, columnsAre_self, if_true, bind, Except.bind]
      simp only [Fin.cast_eq_self]
      have h3' : List.map (fun (r : Fin (npUnique y).length → ℝ) j => r j) P = P := List.map_id P
      rw [h3', h1']
      dsimp only
      have h2' : matchParams la (lfuel + 1) distance (fun i c => fit.train i c) = .ok par := hpar
      erw [h2']
      rfl)) (ucPredict_given_probs ops enc _ _ rfl et et' _) (MatchKept fit fit.train par) ⟨rfl, rfl, rfl, none, rfl⟩
    (fun rows v => IsPrev v ∧ ∀ p, IsPrev p → dist (rep rows) (mixtureOf fit.train v) ≤ dist (rep rows) (mixtureOf fit.train p)) (fun m rows hm _ _ => by
      obtain ⟨x, a1, a2, a3, a4⟩ := hans m hm (friedmanTest fit rows) fun i => by rw [h3]; exact (reachShare_mem _ _ _).1
      rw [hq rows] at a4
      have hf : m.fitted = fit := hm.1
      have e : ((friedmanClass sv qp la (lfuel + 1) tol distance).answer m (fittedState (friedmanClass sv qp la (lfuel + 1) tol distance) y 1 (.probs P)) (.probs rows)) = matchAnswer sv qp tol distance m (friedmanTest m.fitted rows) := rfl
      rw [e, hf]
      exact ⟨x, a1, a2, a3, a4⟩)
  refine ⟨es, g1, g2.1, g2.2.1, fun i hi hi' => ?_⟩
  obtain ⟨labels, c1, c2, rows, v, c3, ⟨c4, c5⟩, c6⟩ := g2.2.2 i hi hi'
  exact ⟨labels, c1, c2, rows, v, c3, c4, c5, c6⟩

/-- **C164** for DFy (HDy, MMy) with 'HD', 'L1' and 'L2'. -/
theorem C164_dfy (ops : EstOps σ D α (labelsOf y).length) (ppf : ℝ → EReal) (sv : CvxSolver) (hsv : ExactCvx sv) (qp : QPSolver) (hqp : ExactQP qp) (la : LinAlg (labelsOf y).length) (hla : ExactLinAlg la) (lfuel : ℕ) (tol : ℝ) (cfg : DfCfg)
    (distance : DfDistance (nDescriptors (labelsOf y).length * cfg.nBins)) {dist : (Fin (nDescriptors (labelsOf y).length * cfg.nBins) → ℝ) → (Fin (nDescriptors (labelsOf y).length * cfg.nBins) → ℝ) → ℝ} (hD : namedDistance distance = some dist)
    (P Q : List (Fin (labelsOf y).length → ℝ)) (hP : P.length = y.length) (hQ : Q.length = test.y.length) (fit : DfFit (nDescriptors (labelsOf y).length) cfg.nBins (labelsOf y).length)
    (hfit : dfyFit ppf cfg (labelsOf y) y y P = .ok fit) (hd : Solvable distance fit.train) :
    ∃ es, experiment ops enc w ⟨dfyClass ppf sv qp la (lfuel + 1) tol cfg distance, et, et'⟩ X y (some (.probs P)) rng fuel gen glob test (bagPreds (.probs Q)) = some (.ok es)
      ∧ ErrorsOf test.y b gen.nBags (gen.bagSize.getD test.y.length) (fun idx labels e => ∃ rows q v, BagOf Q idx rows ∧ dfyTest cfg fit rows = .ok q ∧ IsPrev v ∧ (∀ p, IsPrev p → dist q (mixtureOf fit.train v) ≤ dist q (mixtureOf fit.train p))
          ∧ e = Fl.fin ((∑ j, |freqs (labelsOf y) labels j - v j|) / (labelsOf y).length)) es := by
  have h0 := df_nonneg ppf .whole cfg (some (0, 1)) _ y y hy P fit hfit
  obtain ⟨par, hpar, hans⟩ := matchAnswer_again sv hsv qp hqp (labels_pos y hy) la hla lfuel tol distance hD fit fit.train (h0 []).1 hd
  obtain ⟨es, g1, g2⟩ := experiment_again ops enc w X y rng fuel gen glob test b .probs (fun l _ _ h => bagPreds_probs l h) (dfyClass ppf sv qp la (lfuel + 1) tol cfg distance) et et' hy hg hl P Q hQ _ ⟨fit, fit.train, par, none, none⟩ _
    (ucFit_given_probs ops enc w X y (dfyClass ppf sv qp la (lfuel + 1) tol cfg distance) rfl rfl et et' hy 1 P (by omega) _ (by
      have h1' : dfFit ppf .whole cfg (some (0, 1)) (dfyAtt (npUnique y).length) (npUnique y) y (stacked y 1) P = .ok fit := by
        rw [stacked_one]
        exact hfit
      change (dfyClass (k := (npUnique y).length) ppf sv qp la (lfuel + 1) tol cfg distance).learn none y _ = _
      simp only [fittedState, dfyClass, trainData, probRows, columnsAre_self, if_true, bind, Except.bind]
      simp only [h1', Fin.cast_eq_self]
      have h2 : matchParams la (lfuel + 1) distance (fun i c => fit.train i c) = .ok par := hpar
      erw [h2]
      rfl)) (ucPredict_given_probs ops enc _ _ rfl et et' _) (MatchKept fit fit.train par) ⟨rfl, rfl, rfl, none, rfl⟩
    (fun rows v => ∃ q, dfyTest cfg fit rows = .ok q ∧ IsPrev v ∧ ∀ p, IsPrev p → dist q (mixtureOf fit.train v) ≤ dist q (mixtureOf fit.train p)) (fun m rows hm _ _ => by
      obtain ⟨-, q, hq, hq0⟩ := h0 rows
      obtain ⟨x, a1, a2, a3, a4⟩ := hans m hm q hq0
      have hf : m.fitted = fit := hm.1
      have hq' : dfyTest cfg m.fitted rows = .ok q := by rw [hf]; exact hq
      have e : ((dfyClass ppf sv qp la (lfuel + 1) tol cfg distance).answer m (fittedState (dfyClass ppf sv qp la (lfuel + 1) tol cfg distance) y 1 (.probs P)) (.probs rows)) = matchAnswer sv qp tol distance m q := by
        simp only [dfyClass, probRows, bind, Except.bind, hq']
      rw [e]
      exact ⟨x, a1, a2, q, hq, a3, a4⟩)
  refine ⟨es, g1, g2.1, g2.2.1, fun i hi hi' => ?_⟩
  obtain ⟨labels, c1, c2, rows, v, c3, ⟨q, c4, c5, c6⟩, c7⟩ := g2.2.2 i hi hi'
  exact ⟨labels, c1, c2, rows, q, v, c3, c4, c5, c6, c7⟩

/-- **C164** for ACOrdinal, which keeps the problem of 'L1' too. -/
theorem C164_aco {k : ℕ} (ops : EstOps σ D α k) (sv : CvxSolver) (hsv : ExactCvx sv) (P Q : List α) (hP : P.length = y.length) (hPy : ∀ a ∈ P, a ∈ y) (hQ : Q.length = test.y.length)
    (T : Fin (labelsOf y).length → Fin (labelsOf y).length → ℝ) (hT : T = fun i j => ∑ l, if l ≤ i then condFreq y P (labelsOf y)[j] (labelsOf y)[l] else 0)
    (rep : List α → Fin (labelsOf y).length → ℝ) (hrep : rep = fun rows i => ∑ l, if l ≤ i then freq rows (labelsOf y)[l] else 0) :
    ∃ es, experiment ops enc w ⟨acoClass sv, et, et'⟩ X y (some (.crisp P)) rng fuel gen glob test (bagPreds (.crisp Q)) = some (.ok es)
      ∧ ErrorsOf test.y b gen.nBags (gen.bagSize.getD test.y.length) (fun idx labels e => ∃ rows v, BagOf Q idx rows ∧ IsPrev v ∧ (∀ p, IsPrev p → totalError (rep rows) (mixtureOf T v) ≤ totalError (rep rows) (mixtureOf T p))
          ∧ e = Fl.fin ((∑ j, |freqs (labelsOf y) labels j - v j|) / (labelsOf y).length)) es := by
  have hP' : P.length = 1 * y.length := by omega
  have hT' : T = fun i j => cumsum (fun l => cmReal y 1 P j l) i := by
    rw [hT]
    funext i j
    simp only [cumsum, cmReal, stacked_one]
  subst hT' hrep
  have hcm : confusionMatrix (npUnique y) (stacked y 1) P = .ok fun i j => ((stacked y 1).zip P).count ((npUnique y)[i], (npUnique y)[j]) := by
    unfold confusionMatrix
    rw [if_pos (by rw [stacked_length, hP'])]
  have hnr : (normalizeRows fun i j : Fin (npUnique y).length => ((stacked y 1).zip P).count ((npUnique y)[i], (npUnique y)[j])) = fun i j => Fl.fin (cmReal y 1 P i j) := normalizeRows_eq y 1 one_pos P hP' hPy
  have htr : ∀ i j : Fin (npUnique y).length, accumArr (fun l : Fin (npUnique y).length => Fl.fin (cmReal y 1 P j l)) i = Fl.fin (cumsum (fun l => cmReal y 1 P j l) i) := fun i j => congrFun (accumArr_fin (cmReal y 1 P j)) i
  set f : AcoFit α := ⟨npUnique y, fun i j => Fl.fin (cmReal y 1 P i j), fun i j => accumArr (fun l => Fl.fin (cmReal y 1 P j l)) i⟩ with hf
  obtain ⟨es, g1, g2⟩ := experiment_again ops enc w X y rng fuel gen glob test b .crisp (fun l _ _ h => bagPreds_crisp l h) (acoClass sv) et et' hy hg hl P Q hQ _ ⟨f, none⟩ _
    (ucFit_given_crisp ops enc w X y (acoClass sv) rfl rfl et et' hy 1 P (by omega) _ (by
      simp only [fittedState, acoClass, trainData, crispLabels, if_true, bind, Except.bind, hcm, pure, Except.pure, hnr]
      rfl)) (ucPredict_given_crisp ops enc _ _ rfl et et' _)
    (fun m => ∃ last : Option (Fin (npUnique y).length → ℝ), m = ⟨f, last.map fun l => ⟨⟨(npUnique y).length, (npUnique y).length, fun i j => cumsum (fun l => cmReal y 1 P j l) i⟩, l⟩⟩) ⟨none, rfl⟩
    (fun rows v => IsPrev v ∧ ∀ p, IsPrev p → totalError (fun i => ∑ l, if l ≤ i then freq rows (labelsOf y)[l] else 0) (mixtureOf (fun i j => cumsum (fun l => cmReal y 1 P j l) i) v)
      ≤ totalError (fun i => ∑ l, if l ≤ i then freq rows (labelsOf y)[l] else 0) (mixtureOf (fun i j => cumsum (fun l => cmReal y 1 P j l) i) p)) (by
      rintro m rows ⟨last, rfl⟩ hne -
      obtain ⟨⟨t, l⟩, x, h1, h2, hx, hopt⟩ := C73_solve_l1_optimal sv hsv (labels_pos y hy) (fun i j : Fin (labelsOf y).length => cumsum (fun l => cmReal y 1 P j l) i) (fun i => cumsum (freqs (npUnique y) rows) i)
        (fun i => cumsum_nonneg _ (fun l => by unfold freqs freq; positivity) i) last
      cases h2
      have htest : accumArr (classFreqs (npUnique y) rows) = fun i => Fl.fin (cumsum (freqs (npUnique y) rows) i) := by rw [classFreqs_fin _ _ hne, accumArr_fin]
      have hfin : (∀ i j : Fin (npUnique y).length, flFinite (accumArr (fun l : Fin (npUnique y).length => Fl.fin (cmReal y 1 P j l)) i)) ∧ ∀ i, flFinite (accumArr (classFreqs (npUnique y) rows) i) := by
        refine ⟨fun i j => ?_, fun i => ?_⟩
        · rw [htr]; trivial
        · rw [htest]; trivial
      have hvec : (fun i => flReal (accumArr (classFreqs (npUnique y) rows) i)) = fun i => cumsum (freqs (npUnique y) rows) i := by
        funext i
        rw [htest]
        rfl
      have hmat : (fun i j => flReal (accumArr (fun l : Fin (npUnique y).length => Fl.fin (cmReal y 1 P j l)) i)) = fun i j => cumsum (fun l => cmReal y 1 P j l) i := by
        funext i j
        exact congrArg flReal (htr i j)
      set st : WarmState (AcoFit α) := ⟨f, last.map fun l => ⟨⟨(npUnique y).length, (npUnique y).length, fun i j => cumsum (fun l => cmReal y 1 P j l) i⟩, l⟩⟩ with hst
      have e : (acoClass sv).answer (k := k) st (fittedState (acoClass sv) y 1 (.crisp P)) (.crisp rows) = acoSolve sv st (accumArr (classFreqs (npUnique y) rows)) := by
        simp only [fittedState, acoClass, crispLabels, if_true]
        exact dif_neg (not_not.2 rfl)
      have h1' : solveCvx sv .l1 ⟨(npUnique y).length, (npUnique y).length, fun i j => flReal (accumArr (fun l : Fin (npUnique y).length => Fl.fin (cmReal y 1 P j l)) i)⟩
          ⟨(npUnique y).length, fun i => flReal (accumArr (classFreqs (npUnique y) rows) i)⟩ (last.map fun l => ⟨⟨(npUnique y).length, (npUnique y).length, fun i j => cumsum (fun l => cmReal y 1 P j l) i⟩, l⟩)
          = .ok (⟨⟨(npUnique y).length, (npUnique y).length, fun i j => cumsum (fun l => cmReal y 1 P j l) i⟩, l⟩, ⟨(npUnique y).length, x⟩) :=
        (congrArg (fun T => solveCvx sv .l1 ⟨(npUnique y).length, (npUnique y).length, T⟩ ⟨(npUnique y).length, fun i => flReal (accumArr (classFreqs (npUnique y) rows) i)⟩ _) hmat).trans
          ((congrArg (fun v => solveCvx sv .l1 ⟨(npUnique y).length, (npUnique y).length, fun i j => cumsum (fun l => cmReal y 1 P j l) i⟩ ⟨(npUnique y).length, v⟩ _) hvec).trans h1)
      have e2 : acoSolve sv st (accumArr (classFreqs (npUnique y) rows)) = (⟨f, some ⟨⟨(npUnique y).length, (npUnique y).length, fun i j => cumsum (fun l => cmReal y 1 P j l) i⟩, l⟩⟩, .ok (some (realList x))) := by
        simp only [acoSolve, warmPredict]
        erw [if_pos hfin]
        dsimp only
        have h1'' : solveCvx sv .l1 ⟨st.fitted.classes.length, st.fitted.classes.length, fun i j => flReal (st.fitted.train i j)⟩ ⟨st.fitted.classes.length, fun i => flReal (accumArr (classFreqs (npUnique y) rows) i)⟩ st.problem = _ := h1'
        erw [h1'']
        rfl
      rw [e, e2]
      exact ⟨x, rfl, ⟨some l, rfl⟩, hx, fun p hp => hopt p hp⟩)
  refine ⟨es, g1, g2.1, g2.2.1, fun i hi hi' => ?_⟩
  obtain ⟨labels, c1, c2, rows, v, c3, ⟨c4, c5⟩, c6⟩ := g2.2.2 i hi hi'
  exact ⟨labels, c1, c2, rows, v, c3, c4, c5, c6⟩

/-- The number that PDFOrdinaly makes as small as possible for each name of a distance, as a function of the distribution of the bag and of the mixture: the earth mover's distance for 'EMD', the squares of the
Hellinger distance for 'HD' and of the Euclidean one for 'L2'. -/
noncomputable def ordMeasure {n : ℕ} : OrdDist → Option ((Fin n → ℝ) → (Fin n → ℝ) → ℝ)
  | .emd => some fun q m => emd m q
  | .hd => some hellingerSq
  | .l2 => some fun q m => ∑ b, (m b - q b) ^ 2
  | .other => none

/-- **C164** for PDFOrdinaly, which keeps the problems of 'EMD' and 'HD', with the two methods, three classes or more. `T` are the histograms of the expected positions of the examples of each class. -/
theorem C164_pdfo (ops : EstOps σ D α (labelsOf y).length) (h3 : 2 < (labelsOf y).length) (sv : CvxSolver) (hsv : ExactCvx sv) (qp : QPSolver) (hqp : ExactQP qp) (la : LinAlg (labelsOf y).length) (hla : ExactLinAlg la) (lfuel nBins : ℕ)
    (hb : 0 < nBins) (method : OrdMethod) (dist : OrdDist) {measure : (Fin (nBins * ((labelsOf y).length - 1)) → ℝ) → (Fin (nBins * ((labelsOf y).length - 1)) → ℝ) → ℝ} (hD : ordMeasure dist = some measure)
    (P Q : List (Fin (labelsOf y).length → ℝ)) (hP : P.length = y.length) (hQ : Q.length = test.y.length) (haP : Admissible method P) (haQ : Admissible method Q)
    (T : Fin (nBins * ((labelsOf y).length - 1)) → Fin (labelsOf y).length → ℝ) (hT : T = fun i c => positionPdf (nBins * ((labelsOf y).length - 1)) (ofClass (y.zip P) (labelsOf y)[c]) i)
    (hid : dist = .l2 → ∀ v : Fin (labelsOf y).length → ℝ, mixtureOf T v = 0 → v = 0) :
    ∃ es, experiment ops enc w ⟨pdfoClass sv qp la (lfuel + 1) nBins method dist, et, et'⟩ X y (some (.probs P)) rng fuel gen glob test (bagPreds (.probs Q)) = some (.ok es)
      ∧ ErrorsOf test.y b gen.nBags (gen.bagSize.getD test.y.length) (fun idx labels e => ∃ rows v, BagOf Q idx rows ∧ IsPrev v
          ∧ (∀ p, IsPrev p → measure (positionPdf (nBins * ((labelsOf y).length - 1)) rows) (mixtureOf T v) ≤ measure (positionPdf (nBins * ((labelsOf y).length - 1)) rows) (mixtureOf T p))
          ∧ e = Fl.fin ((∑ j, |freqs (labelsOf y) labels j - v j|) / (labelsOf y).length)) es := by
  have hlen : y.length = P.length := hP.symm
  have hcl : ∀ c : Fin (labelsOf y).length, (labelsOf y)[c] ∈ y := fun c => (mem_labelsOf y _).1 (List.getElem_mem _)
  obtain ⟨f, hf⟩ : ∃ f, pdfoFit la (lfuel + 1) nBins method dist (fun i : Fin (labelsOf y).length => (labelsOf y)[i]) y P = .ok f := ⟨_, pdfoFit_eq la (lfuel + 1) nBins method dist h3 hb (fun i : Fin (labelsOf y).length => (labelsOf y)[i]) y P hlen haP⟩
  have hTc : classPdfs (nBins * ((labelsOf y).length - 1)) (fun i : Fin (labelsOf y).length => (labelsOf y)[i]) y P = T := hT.symm
  have key : ∀ (hist : List (WarmCall (PdfoFit nBins (labelsOf y).length) (List (Fin (labelsOf y).length → ℝ)))) rows, lastFit f hist = f → rows ≠ [] → Admissible method rows →
      ∃ v : Fin (labelsOf y).length → ℝ, (pdfoPredict sv qp method dist (warmRun (pdfoQ qp method dist) sv (ordLoss dist) (warmFit f) hist) rows).2 = .ok (some ⟨_, v⟩) ∧ IsPrev v
        ∧ ∀ p, IsPrev p → measure (positionPdf (nBins * ((labelsOf y).length - 1)) rows) (mixtureOf T v) ≤ measure (positionPdf (nBins * ((labelsOf y).length - 1)) rows) (mixtureOf T p) := by
    intro hist rows hlast hne har
    cases dist with
    | emd =>
      cases hD
      rw [← hTc]
      exact C104_emd_optimal sv hsv qp la (lfuel + 1) nBins method h3 hb _ y P hlen haP hcl f f hf hist hlast rows hne har
    | hd =>
      cases hD
      rw [← hTc]
      exact C105_hd_optimal sv hsv qp la (lfuel + 1) nBins method h3 hb _ y P hlen haP hcl f f hf hist hlast rows hne har
    | l2 =>
      cases hD
      obtain ⟨x, g1, g2, -, g3⟩ := C105_l2_optimal sv qp hqp la hla lfuel nBins method h3 hb _ y P hlen haP f f hf hist hlast rows har
      rw [hTc] at g3
      exact ⟨x, g1, g2, g3 (hid rfl)⟩
    | other => cases hD
  have happ : ∀ (hist : List (WarmCall (PdfoFit nBins (labelsOf y).length) (List (Fin (labelsOf y).length → ℝ)))) s rows,
      warmRun (pdfoQ qp method dist) sv (ordLoss dist) s (hist ++ [.predict rows]) = (pdfoPredict sv qp method dist (warmRun (pdfoQ qp method dist) sv (ordLoss dist) s hist) rows).1 := by
    intro hist
    induction hist with
    | nil =>
      intro s rows
      cases dist with
      | other => cases hD
      | _ => rfl
    | cons c hist ih =>
      intro s rows
      cases c <;> exact ih _ _
  have hlast' : ∀ (hist : List (WarmCall (PdfoFit nBins (labelsOf y).length) (List (Fin (labelsOf y).length → ℝ)))) g rows, lastFit g (hist ++ [.predict rows]) = lastFit g hist := by
    intro hist
    induction hist with
    | nil => intro g rows; rfl
    | cons c hist ih =>
      intro g rows
      cases c <;> exact ih _ _
  obtain ⟨es, g1, g2⟩ := experiment_again ops enc w X y rng fuel gen glob test b .probs (fun l _ _ h => bagPreds_probs l h) (pdfoClass sv qp la (lfuel + 1) nBins method dist) et et' hy hg hl P Q hQ _ ⟨f, none⟩ _
    (ucFit_given_probs ops enc w X y (pdfoClass sv qp la (lfuel + 1) nBins method dist) rfl rfl et et' hy 1 P (by omega) _ (by
      change (pdfoClass (k := (npUnique y).length) sv qp la (lfuel + 1) nBins method dist).learn none y _ = _
      have hf' : pdfoFit la (lfuel + 1) nBins method dist (fun i : Fin (npUnique y).length => (npUnique y)[i]) (stacked y 1) P = .ok f := by
        rw [stacked_one]
        exact hf
      simp only [fittedState, pdfoClass, trainData, probRows, columnsAre_self, if_true, bind, Except.bind]
      erw [hf']
      rfl)) (ucPredict_given_probs ops enc _ _ rfl et et' _)
    (fun m => ∃ hist, lastFit f hist = f ∧ m = warmRun (pdfoQ qp method dist) sv (ordLoss dist) (warmFit f) hist) ⟨[], rfl, rfl⟩
    (fun rows v => IsPrev v ∧ ∀ p, IsPrev p → measure (positionPdf (nBins * ((labelsOf y).length - 1)) rows) (mixtureOf T v) ≤ measure (positionPdf (nBins * ((labelsOf y).length - 1)) rows) (mixtureOf T p)) (by
      rintro m rows ⟨hist, h1, rfl⟩ hne hmem
      obtain ⟨v, g1, g2, g3⟩ := key hist rows h1 hne ⟨fun r hr => haQ.1 r (hmem r hr), haQ.2.imp id fun h => ⟨h.1, fun r hr => h.2 r (hmem r hr)⟩⟩
      refine ⟨v, ?_, ⟨hist ++ [.predict rows], (hlast' _ _ _).trans h1, ?_⟩, g2, g3⟩
      · simp only [pdfoClass, probRows, g1, Except.map, Option.map]
      · rw [happ]
        rfl)
  refine ⟨es, g1, g2.1, g2.2.1, fun i hi hi' => ?_⟩
  obtain ⟨labels, c1, c2, rows, v, c3, ⟨c4, c5⟩, c6⟩ := g2.2.2 i hi hi'
  exact ⟨labels, c1, c2, rows, v, c3, c4, c5, c6⟩

end

/-- Non-vacuity: seven bags of four examples of a testing set with the two classes of the training set, and ACOrdinal with a classifier that makes one mistake in the training set. -/
example (ops : EstOps Unit Unit ℕ 2) (enc : Bool → ℕ) (w : World Unit Unit ℕ) : ∃ sv es, ExactCvx sv ∧ experiment ops enc w ⟨acoClass sv, none, none⟩ [] [0, 1, 1] (some (.crisp [0, 1, 0])) lazyRng 7
    ⟨7, some 4, .uniform, .none, .none, .seed 3, none⟩ true ⟨[1, 0, 1], some 3⟩ (bagPreds (.crisp [1, 1, 0])) = some (.ok es) ∧ es.length = 7 := by
  obtain ⟨sv, hsv⟩ := exactCvx_exists
  obtain ⟨b, hb⟩ := lazy_generated
  obtain ⟨es, h1, h2⟩ := C164_aco enc w [] [0, 1, 1] lazyRng 7 _ true _ b none none (by simp) hb (by rw [labelsOf_eq _ [0, 1] (by decide) (by decide), labelsOf_eq _ [0, 1] (by decide) (by decide)]) ops sv hsv [0, 1, 0] [1, 1, 0] rfl
    (by decide) rfl _ rfl _ rfl
  exact ⟨sv, es, hsv, h1, h2.1⟩

/-- Non-vacuity: the same experiment with FriedmanME and 'L1', for any posteriors of the examples. -/
example (enc : Bool → ℕ) (w : World Unit Unit ℕ) (ops : EstOps Unit Unit ℕ (labelsOf [0, 1, 1]).length) (qp : QPSolver) (hqp : ExactQP qp) (la : LinAlg (labelsOf [0, 1, 1]).length) (hla : ExactLinAlg la) (P Q : List (Fin (labelsOf [0, 1, 1]).length → ℝ)) (hP : P.length = 3)
    (hQ : Q.length = 3) : ∃ sv es, ExactCvx sv ∧ experiment ops enc w ⟨friedmanClass sv qp la 1 (1 / 2) .l1, none, none⟩ [] [0, 1, 1] (some (.probs P)) lazyRng 7
    ⟨7, some 4, .uniform, .none, .none, .seed 3, none⟩ true ⟨[1, 0, 1], some 3⟩ (bagPreds (.probs Q)) = some (.ok es) ∧ es.length = 7 := by
  obtain ⟨sv, hsv⟩ := exactCvx_exists
  obtain ⟨b, hb⟩ := lazy_generated
  obtain ⟨es, h1, h2⟩ := C164_friedman enc w [] [0, 1, 1] lazyRng 7 _ true _ b none none (by simp) hb (by rw [labelsOf_eq _ [0, 1] (by decide) (by decide), labelsOf_eq _ [0, 1] (by decide) (by decide)]) ops sv hsv qp hqp la hla 0 (1 / 2) .l1
    rfl P Q hP hQ _ rfl trivial _ rfl
  exact ⟨sv, es, hsv, h1, h2.1⟩

end Verif.Props
