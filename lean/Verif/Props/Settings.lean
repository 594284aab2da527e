import Verif.Spec.Settings

/-!
# C150: settings can be read, changed and copied as in scikit-learn
-/

namespace Verif.Props

open Verif.Model Verif.Spec

variable {V : Type}

set_option maxHeartbeats 4000000 in
/-- The constructor leaves each argument in the attribute of its name. -/
theorem init_signature (c : Cls) (hc : c ∉ unreadable) (ht : c ≠ .ordTree) (args : String → Val V) :
    ∀ n ∈ signature c, init c args n = some (args n) := by
  cases c <;> simp [unreadable] at hc ht <;>
    simp [signature, init, usingInit, withoutInit, regInit, dfyInit, dfxInit, fhInit, Attrs.sets, Attrs.set]

set_option maxHeartbeats 4000000 in
/-- The other attributes do not depend on the arguments. -/
theorem init_other (c : Cls) (hc : c ∉ unreadable) (ht : c ≠ .ordTree) (args args' : String → Val V) (n : String)
    (hn : n ∉ signature c) : init c args n = init c args' n := by
  cases c <;> simp [unreadable] at hc ht <;> simp only [signature, List.mem_cons, List.not_mem_nil, or_false, not_or] at hn <;>
    simp [init, usingInit, withoutInit, regInit, dfyInit, dfxInit, fhInit, Attrs.sets, Attrs.set, hn]

set_option maxHeartbeats 1000000 in
/-- No method assigns a setting, except for `CV_estimator`. -/
theorem signature_not_assigned (c : Cls) (hc : c ≠ .cv) : ∀ n ∈ signature c, n ∉ assigned c := by
  cases c <;> simp at hc <;> simp [signature, assigned]

theorem mapM_ok {A B E : Type} (f : A → Except E B) (g : A → B) (l : List A) (h : ∀ a ∈ l, f a = .ok (g a)) :
    l.mapM f = .ok (l.map g) := by
  induction l with
  | nil => rfl
  | cons a l ih =>
    rw [List.mapM_cons, h a (by simp), ih fun b hb => h b (by simp [hb])]
    rfl

theorem mapM_error {A B E : Type} (f : A → Except E B) (l : List A) (a : A) (ha : a ∈ l) (e : E) (h : f a = .error e) :
    ∃ e', l.mapM f = .error e' := by
  induction l with
  | nil => simp at ha
  | cons b l ih =>
    rw [List.mapM_cons]
    cases hb : f b with
    | error e' => exact ⟨e', rfl⟩
    | ok v =>
      rcases List.mem_cons.1 ha with rfl | ha
      · rw [h] at hb; exact absurd hb (by simp)
      · obtain ⟨e', he⟩ := ih ha
        exact ⟨e', by rw [he]; rfl⟩

theorem mapM_mem {A B E : Type} (f : A → Except E B) (l : List A) (m : List B) (h : l.mapM f = .ok m) (a : A) (ha : a ∈ l) (b : B)
    (hb : f a = .ok b) : b ∈ m := by
  induction l generalizing m with
  | nil => simp at ha
  | cons a' l ih =>
    rw [List.mapM_cons] at h
    cases ha' : f a' with
    | error e => rw [ha'] at h; exact absurd h (by simp [bind, Except.bind])
    | ok b' =>
      cases hl : l.mapM f with
      | error e => rw [ha', hl] at h; exact absurd h (by simp [bind, Except.bind])
      | ok m' =>
        rw [ha', hl] at h
        have hm : b' :: m' = m := Except.ok.inj h
        rcases List.mem_cons.1 ha with rfl | ha
        · rw [ha'] at hb; obtain rfl := Except.ok.inj hb; rw [← hm]; simp
        · rw [← hm]; exact List.mem_cons_of_mem _ (ih m' hl ha)

/-- The object agrees with a new one on its settings. -/
theorem used_signature (c : Cls) (hc : c ∉ unreadable) (ht : c ≠ .ordTree) (hv : c ≠ .cv) (args : String → Val V) (o : Attrs V)
    (ho : MadeAndUsed c args o) : ∀ n ∈ signature c, o n = some (args n) := fun n hn => by
  rw [ho n (signature_not_assigned c hv n hn), init_signature c hc ht args n hn]

theorem getParams_of (c : Cls) (args : String → Val V) (o : Attrs V) (h : ∀ n ∈ signature c, o n = some (args n)) :
    getParams c o = .ok ((signature c).map fun n => (n, args n)) :=
  mapM_ok _ _ _ fun n hn => by rw [h n hn]

/-- **C150** (read). `get_params` gives the arguments of the constructor, also after the object was used. -/
theorem C150_get_partial (c : Cls) (hc : c ∉ unreadable) (ht : c ≠ .ordTree) (hv : c ≠ .cv) (args : String → Val V) (o : Attrs V)
    (ho : MadeAndUsed c args o) : getParams c o = .ok ((signature c).map fun n => (n, args n)) :=
  getParams_of c args o (used_signature c hc ht hv args o ho)

/-- **C150** (read, `CV_estimator`). Before `fit`. -/
theorem C150_get_cv_partial (args : String → Val V) :
    getParams .cv (init .cv args) = .ok ((signature .cv).map fun n => (n, args n)) :=
  getParams_of _ args _ (init_signature .cv (by simp [unreadable]) (by simp) args)

theorem setLoop_of (c : Cls) (l : List (String × Val V)) (hl : ∀ t ∈ l, t.1 ∈ signature c) (o : Attrs V) (args' : String → Val V)
    (h : ∀ t ∈ l, args' t.1 = t.2) :
    (setLoop c o l).2 = none ∧ ∀ n, (setLoop c o l).1 n = if n ∈ l.map Prod.fst then some (args' n) else o n := by
  induction l generalizing o with
  | nil => simp [setLoop]
  | cons t l ih =>
    obtain ⟨k, v⟩ := t
    have hk : k ∈ signature c := hl (k, v) (by simp)
    have hv : args' k = v := h (k, v) (by simp)
    obtain ⟨h1, h2⟩ := ih (fun t ht => hl t (by simp [ht])) (o.set k v) fun t ht => h t (by simp [ht])
    refine ⟨by simp only [setLoop, if_pos hk, h1], fun n => ?_⟩
    simp only [setLoop, if_pos hk]
    rw [h2 n]
    by_cases hn : n ∈ l.map Prod.fst
    · rw [if_pos hn, if_pos (by rw [List.map_cons]; exact List.mem_cons_of_mem _ hn)]
    · rw [if_neg hn]
      by_cases hnk : n = k
      · subst hnk
        rw [if_pos (by simp)]
        simp [Attrs.set, hv]
      · rw [if_neg (by rw [List.map_cons]; simp only [List.mem_cons, not_or]; exact ⟨hnk, hn⟩)]
        simp [Attrs.set, hnk]

theorem getParamsDeep_of (deep : Val V → Option SkErr) (c : Cls) (args : String → Val V) (o : Attrs V)
    (h : ∀ n ∈ signature c, o n = some (args n)) (hd : ∀ n ∈ signature c, deep (args n) = none) :
    getParamsDeep deep c o = .ok ((signature c).map fun n => (n, args n)) :=
  mapM_ok _ _ _ fun n hn => by rw [h n hn]; dsimp only; rw [hd n hn]

/-- **C150** (change). `set_params` turns an object made with `args` into one made with the changed arguments: it does not fail, and all that
`fit` and `predict` do not assign is as in an object constructed with the new arguments. -/
theorem C150_set_partial (deep : Val V → Option SkErr) (c : Cls) (hc : c ∉ unreadable) (ht : c ≠ .ordTree) (hv : c ≠ .cv)
    (args args' : String → Val V) (o : Attrs V) (ho : MadeAndUsed c args o) (params : List (String × Val V))
    (hp : ∀ t ∈ params, t.1 ∈ signature c) (hch : Changed args args' params) (hd : ∀ n ∈ signature c, deep (args n) = none) :
    (setParams deep c o params).2 = none ∧ MadeAndUsed c args' (setParams deep c o params).1 := by
  have key : setParams deep c o params = setLoop c o params := by
    unfold setParams
    split_ifs with h0
    · subst h0; rfl
    · rw [getParamsDeep_of deep c args o (used_signature c hc ht hv args o ho) hd]
  rw [key]
  obtain ⟨h1, h2⟩ := setLoop_of c params hp o args' hch.1
  refine ⟨h1, fun n hn => ?_⟩
  rw [h2 n]
  by_cases hm : n ∈ params.map Prod.fst
  · rw [if_pos hm]
    obtain ⟨t, ht', rfl⟩ := List.mem_map.1 hm
    rw [init_signature c hc ht args' t.1 (hp t ht')]
  · rw [if_neg hm, ho n hn]
    by_cases hs : n ∈ signature c
    · rw [init_signature c hc ht args n hs, init_signature c hc ht args' n hs, hch.2 n hm]
    · exact init_other c hc ht args args' n hs

/-- **C150** (change). For an object that was not used, the result is the new object exactly. -/
theorem C150_set_new_partial (deep : Val V → Option SkErr) (c : Cls) (hc : c ∉ unreadable) (ht : c ≠ .ordTree)
    (args args' : String → Val V) (params : List (String × Val V)) (hp : ∀ t ∈ params, t.1 ∈ signature c)
    (hch : Changed args args' params) (hd : ∀ n ∈ signature c, deep (args n) = none) :
    setParams deep c (init c args) params = (init c args', none) := by
  have key : setParams deep c (init c args) params = setLoop c (init c args) params := by
    unfold setParams
    split_ifs with h0
    · subst h0; rfl
    · rw [getParamsDeep_of deep c args _ (init_signature c hc ht args) hd]
  rw [key]
  obtain ⟨h1, h2⟩ := setLoop_of c params hp (init c args) args' hch.1
  refine Prod.ext (funext fun n => ?_) h1
  show (setLoop c (init c args) params).1 n = init c args' n
  rw [h2 n]
  by_cases hm : n ∈ params.map Prod.fst
  · rw [if_pos hm]
    obtain ⟨t, ht', rfl⟩ := List.mem_map.1 hm
    rw [init_signature c hc ht args' t.1 (hp t ht')]
  · rw [if_neg hm]
    by_cases hs : n ∈ signature c
    · rw [init_signature c hc ht args n hs, init_signature c hc ht args' n hs, hch.2 n hm]
    · exact init_other c hc ht args args' n hs

/-- **C150** (change). A name that is not an argument of the constructor is a ValueError, in all the classes whose settings can be read. -/
theorem C150_set_unknown (deep : Val V → Option SkErr) (c : Cls) (o : Attrs V) (params : List (String × Val V))
    (hg : ∃ ps, getParamsDeep deep c o = .ok ps) (hp : ∃ t ∈ params, t.1 ∉ signature c) :
    (setParams deep c o params).2 = some .valueError := by
  obtain ⟨ps, hg⟩ := hg
  obtain ⟨t, ht, hn⟩ := hp
  unfold setParams
  rw [if_neg (by rintro rfl; simp at ht), hg]
  dsimp only
  clear hg
  induction params generalizing o with
  | nil => simp at ht
  | cons a l ih =>
    obtain ⟨k, v⟩ := a
    rw [setLoop]
    split_ifs with hk
    · rcases List.mem_cons.1 ht with rfl | ht
      · exact absurd hk hn
      · exact ih _ ht
    · rfl

theorem lookup_map (l : List String) (g : String → Val V) (n : String) (hn : n ∈ l) :
    lookup (l.map fun n => (n, g n)) n = g n := by
  unfold lookup
  induction l with
  | nil => simp at hn
  | cons a l ih =>
    by_cases h : a = n
    · subst h; simp
    · rcases List.mem_cons.1 hn with rfl | hn
      · exact absurd rfl h
      · rw [List.map_cons, List.find?_cons_of_neg (by simpa using h)]
        exact ih hn

theorem init_congr (c : Cls) (hc : c ∉ unreadable) (ht : c ≠ .ordTree) (args args' : String → Val V)
    (h : ∀ n ∈ signature c, args n = args' n) : init c args = init c args' := by
  funext n
  by_cases hs : n ∈ signature c
  · rw [init_signature c hc ht args n hs, init_signature c hc ht args' n hs, h n hs]
  · exact init_other c hc ht args args' n hs

theorem cloneObj_of (copy : Val V → Except SkErr (Val V)) (c : Cls) (hc : c ∉ unreadable) (ht : c ≠ .ordTree)
    (args args' : String → Val V) (o : Attrs V) (ho : ∀ n ∈ signature c, o n = some (args n))
    (hcp : ∀ n ∈ signature c, copy (args n) = .ok (args' n)) : cloneObj copy c o = .ok (init c args') := by
  have e : ((signature c).map fun n => (n, args n)).mapM (fun t => (copy t.2).map fun v => (t.1, v))
      = .ok (((signature c).map fun n => (n, args n)).map fun t => (t.1, args' t.1)) :=
    mapM_ok _ _ _ fun t htm => by
      obtain ⟨n, hn, rfl⟩ := List.mem_map.1 htm
      dsimp only
      rw [hcp n hn]
      rfl
  have e2 : ((signature c).map fun n => (n, args n)).map (fun t => (t.1, args' t.1)) = (signature c).map fun n => (n, args' n) := by
    rw [List.map_map]; rfl
  have e3 : init c (lookup ((signature c).map fun n => (n, args' n))) = init c args' :=
    init_congr c hc ht _ _ fun n hn => lookup_map _ args' n hn
  unfold cloneObj
  rw [getParams_of c args o ho]
  dsimp only
  rw [e, e2]
  dsimp only
  rw [e3, getParams_of c args' _ (init_signature c hc ht args')]
  dsimp only
  rw [if_pos rfl]

/-- **C150** (copy). `sklearn.base.clone` of an object, also of a used one, is a new object made with copies of the arguments. -/
theorem C150_clone_partial (copy : Val V → Except SkErr (Val V)) (c : Cls) (hc : c ∉ unreadable) (ht : c ≠ .ordTree) (hv : c ≠ .cv)
    (args args' : String → Val V) (o : Attrs V) (ho : MadeAndUsed c args o)
    (hcp : ∀ n ∈ signature c, copy (args n) = .ok (args' n)) : cloneObj copy c o = .ok (init c args') :=
  cloneObj_of copy c hc ht args args' o (used_signature c hc ht hv args o ho) hcp

/-- **C150** (copy, `CV_estimator`). Before `fit`. -/
theorem C150_clone_cv_partial (copy : Val V → Except SkErr (Val V)) (args args' : String → Val V)
    (hcp : ∀ n ∈ signature .cv, copy (args n) = .ok (args' n)) : cloneObj copy .cv (init .cv args) = .ok (init .cv args') :=
  cloneObj_of copy .cv (by simp [unreadable]) (by simp) args args' _ (init_signature .cv (by simp [unreadable]) (by simp) args) hcp

/-- The setting that each of the four classes does not keep. -/
def lost : Cls → String
  | .em => "epsilon"
  | .edx => "distance"
  | _ => "n_neighbors"

theorem lost_spec (c : Cls) (hc : c ∈ unreadable) (args : String → Val V) (o : Attrs V) (ho : MadeAndUsed c args o) :
    lost c ∈ signature c ∧ o (lost c) = none := by
  simp only [unreadable, List.mem_cons, List.not_mem_nil, or_false] at hc
  rcases hc with rfl | rfl | rfl | rfl <;> refine ⟨by simp [lost, signature], ?_⟩ <;> rw [ho _ (by simp [lost, assigned])] <;>
    simp [lost, init, usingInit, withoutInit, Attrs.sets, Attrs.set, Attrs.empty]

theorem mapM_error_eq {A B E : Type} (f : A → Except E B) (l : List A) (e : E) (hf : ∀ a ∈ l, ∀ e', f a = .error e' → e' = e) (a : A)
    (ha : a ∈ l) (h : f a = .error e) : l.mapM f = .error e := by
  induction l with
  | nil => simp at ha
  | cons b l ih =>
    rw [List.mapM_cons]
    cases hb : f b with
    | error e' => rw [hf b (by simp) e' hb]; rfl
    | ok v =>
      rcases List.mem_cons.1 ha with rfl | ha
      · rw [h] at hb; exact absurd hb (by simp)
      · rw [ih (fun a ha => hf a (by simp [ha])) ha]; rfl

theorem unreadable_get (c : Cls) (hc : c ∈ unreadable) (args : String → Val V) (o : Attrs V) (ho : MadeAndUsed c args o) :
    getParams c o = .error .attributeError := by
  obtain ⟨h1, h2⟩ := lost_spec c hc args o ho
  refine mapM_error_eq _ _ _ (fun a _ e' he => ?_) (lost c) h1 (by rw [h2])
  cases h : o a with
  | none => rw [h] at he; exact (Except.error.inj he).symm
  | some v => rw [h] at he; exact absurd he (by simp)

/-- **C150, refuted** for `EM`, `EDX`, `PWK` and `PWKQuantifier`. Whatever the arguments and the use, `get_params` and `clone` raise
AttributeError, and `set_params` changes nothing: it fails for any parameters. -/
theorem C150_unreadable_refuted (c : Cls) (hc : c ∈ unreadable) (args : String → Val V) (o : Attrs V) (ho : MadeAndUsed c args o) :
    getParams c o = .error .attributeError ∧
    (∀ copy, cloneObj copy c o = .error .attributeError) ∧
    ∀ deep : Val V → Option SkErr, (∀ v, deep v = none) → ∀ params, params ≠ [] →
      setParams deep c o params = (o, some .attributeError) := by
  refine ⟨unreadable_get c hc args o ho, fun copy => ?_, fun deep hd params hp => ?_⟩
  · unfold cloneObj
    rw [unreadable_get c hc args o ho]
  · obtain ⟨h1, h2⟩ := lost_spec c hc args o ho
    have e : getParamsDeep deep c o = .error .attributeError := by
      refine mapM_error_eq _ _ _ (fun a _ e' he => ?_) (lost c) h1 (by rw [h2])
      cases h : o a with
      | none => rw [h] at he; exact (Except.error.inj he).symm
      | some v => rw [h] at he; dsimp only at he; rw [hd v] at he; exact absurd he (by simp)
    unfold setParams
    rw [if_neg hp, e]

theorem built_ne (s : String) (v : Val V) : Val.built s [v] ≠ v := fun h => by
  have := congrArg sizeOf h
  simp at this
  omega

/-- **C150, refuted** for `OrdinalQuantificationTree`. `get_params` gives the tree that the constructor wrapped around the estimator, not the
estimator; `clone` raises RuntimeError; and `set_params(estimator_test=e)` leaves `e` itself, without the tree that the constructor makes. -/
theorem C150_tree_refuted (args : String → Val V) :
    getParams .ordTree (init .ordTree args)
      = .ok [("estimator_test", .built "FrankAndHallTreeClassifier" [args "estimator_test"]), ("verbose", args "verbose")] ∧
    (∀ (copy : Val V → Except SkErr (Val V)) (f : Val V → Val V), (∀ v, copy v = .ok (f v)) →
      cloneObj copy .ordTree (init .ordTree args) = .error .runtimeError) ∧
    ∀ deep : Val V → Option SkErr, (∀ v, deep v = none) → ∀ e,
      (setParams deep .ordTree (init .ordTree args) [("estimator_test", e)]).1 "estimator_test" = some e ∧
      ∀ args', args' "estimator_test" = e → init .ordTree args' "estimator_test" ≠ some e := by
  have g : ∀ a : String → Val V, getParams .ordTree (init .ordTree a)
      = .ok [("estimator_test", .built "FrankAndHallTreeClassifier" [a "estimator_test"]), ("verbose", a "verbose")] := fun a => by
    simp [getParams, signature, init, usingInit, Attrs.sets, Attrs.set]
    rfl
  refine ⟨g args, fun copy f hf => ?_, fun deep hd e => ⟨?_, fun args' he h => ?_⟩⟩
  · unfold cloneObj
    rw [g args]
    have e : [("estimator_test", Val.built "FrankAndHallTreeClassifier" [args "estimator_test"]), ("verbose", args "verbose")].mapM
        (fun t => (copy t.2).map fun v => (t.1, v))
        = .ok ([("estimator_test", Val.built "FrankAndHallTreeClassifier" [args "estimator_test"]), ("verbose", args "verbose")].map fun t => (t.1, f t.2)) :=
      mapM_ok _ _ _ fun t _ => by rw [hf]; rfl
    dsimp only
    rw [e]
    dsimp only
    rw [g]
    dsimp only
    rw [if_neg]
    intro h
    have h1 := congrArg (fun l => l.head?.map Prod.snd) h
    simp [lookup] at h1
    exact built_ne _ _ h1
  · have e1 : getParamsDeep deep .ordTree (init .ordTree args)
        = .ok [("estimator_test", .built "FrankAndHallTreeClassifier" [args "estimator_test"]), ("verbose", args "verbose")] := by
      simp [getParamsDeep, signature, init, usingInit, Attrs.sets, Attrs.set, hd]
      rfl
    unfold setParams
    rw [if_neg (by simp), e1]
    simp [setLoop, signature, Attrs.set]
  · simp [init, usingInit, Attrs.sets, Attrs.set] at h
    rw [he] at h
    exact built_ne _ _ h

/-- The arguments with `cv` replaced. -/
theorem cvFitSettings_signature (checkCv : Val V → Val V) (args : String → Val V) :
    ∀ n ∈ signature .cv, cvFitSettings checkCv (init .cv args) n = some (if n = "cv" then checkCv (args "cv") else args n) := by
  intro n hn
  have h1 := init_signature .cv (by simp [unreadable]) (by simp) args
  have hcv : init .cv args "cv" = some (args "cv") := h1 "cv" (by simp [signature])
  unfold cvFitSettings
  rw [hcv]
  dsimp only [Attrs.set]
  split_ifs with h
  · rfl
  · exact h1 n hn

/-- **C150, refuted** for `CV_estimator` after `fit`. The setting `cv` is not the one given any more but the splitter made from it, in what
`get_params` returns and in the copies, and fitting again, where `check_cv` leaves a splitter as it is, uses the splitter of the first data. -/
theorem C150_cv_refuted (checkCv checkCv' : Val V → Val V) (hs : ∀ v, checkCv' (checkCv v) = checkCv v) (args : String → Val V)
    (hne : checkCv (args "cv") ≠ args "cv") :
    getParams .cv (cvFitSettings checkCv (init .cv args)) ≠ .ok ((signature .cv).map fun n => (n, args n)) ∧
    (∀ (copy : Val V → Except SkErr (Val V)) (f : Val V → Val V), (∀ v, copy v = .ok (f v)) →
      ∃ o, cloneObj copy .cv (cvFitSettings checkCv (init .cv args)) = .ok o ∧ o "cv" = some (f (checkCv (args "cv")))) ∧
    cvFitSettings checkCv' (cvFitSettings checkCv (init .cv args)) "cv" = some (checkCv (args "cv")) ∧
    cvFitSettings checkCv' (init .cv args) "cv" = some (checkCv' (args "cv")) := by
  have hcv : init .cv args "cv" = some (args "cv") :=
    init_signature .cv (by simp [unreadable]) (by simp) args "cv" (by simp [signature])
  have h2 : cvFitSettings checkCv (init .cv args) "cv" = some (checkCv (args "cv")) := by
    rw [cvFitSettings_signature checkCv args "cv" (by simp [signature]), if_pos rfl]
  refine ⟨fun h => ?_, fun copy f hf => ⟨init .cv fun n => f (if n = "cv" then checkCv (args "cv") else args n), ?_, ?_⟩, ?_, ?_⟩
  · rw [getParams_of .cv _ _ (cvFitSettings_signature checkCv args)] at h
    have h3 := List.map_inj_left.1 (Except.ok.inj h) "cv" (by simp [signature])
    rw [if_pos rfl] at h3
    exact hne (Prod.mk.inj h3).2
  · exact cloneObj_of copy .cv (by simp [unreadable]) (by simp) _ _ _ (cvFitSettings_signature checkCv args) fun n _ => hf _
  · rw [init_signature .cv (by simp [unreadable]) (by simp) _ "cv" (by simp [signature]), if_pos rfl]
  · rw [cvFitSettings, h2]
    dsimp only [Attrs.set]
    rw [if_pos rfl, hs]
  · rw [cvFitSettings, hcv]
    dsimp only [Attrs.set]
    rw [if_pos rfl]

/-- **C150, refuted** for an object with a setting that cannot be copied or read: a quantifier whose estimator is a `PWK`, or an ensemble
of `EM` quantifiers, can neither be cloned nor changed with `set_params`. -/
theorem C150_nested_refuted (c : Cls) (o : Attrs V) (n : String) (hn : n ∈ signature c) (v : Val V) (ho : o n = some v) :
    (∀ copy e, copy v = .error e → ∃ e', cloneObj copy c o = .error e') ∧
    ∀ deep e, deep v = some e → ∀ params, params ≠ [] → ∃ e', setParams deep c o params = (o, some e') := by
  refine ⟨fun copy e he => ?_, fun deep e he params hp => ?_⟩
  · unfold cloneObj
    cases hg : getParams c o with
    | error e' => exact ⟨e', rfl⟩
    | ok ps =>
      have hm : (n, v) ∈ ps := by
        exact mapM_mem _ _ _ hg n hn (n, v) (by rw [ho])
      obtain ⟨e', he'⟩ := mapM_error (fun t : String × Val V => (copy t.2).map fun v => (t.1, v)) ps (n, v) hm e (by rw [he]; rfl)
      dsimp only
      rw [he']
      exact ⟨e', rfl⟩
  · obtain ⟨e', he'⟩ : ∃ e', getParamsDeep deep c o = .error e' :=
      mapM_error _ _ n hn e (by rw [ho]; dsimp only; rw [he])
    exact ⟨e', by unfold setParams; rw [if_neg hp, he']⟩

/-! ### Cases -/

/-- An `AC` with its four arguments, fitted: `classes_` and the confusion matrix hold values, and the settings are the given ones. -/
example : getParams .ac (((init .ac fun n => Val.str n).set "classes_" (.ref (7 : ℕ))).set "cm_" (.ref 8))
    = .ok [("estimator_train", .str "estimator_train"), ("estimator_test", .str "estimator_test"), ("distance", .str "distance"),
      ("verbose", .str "verbose")] :=
  C150_get_partial .ac (by simp [unreadable]) (by simp) (by simp) _ _ fun n hn => by
    simp only [assigned, List.mem_cons, not_or] at hn
    simp only [Attrs.set]
    rw [if_neg hn.1, if_neg hn.2.2.2.2.2.1]

/-- `set_params(n_bins=…)` of an `HDy`. -/
example : setParams (fun _ => none) .hdy (init .hdy fun n => Val.str n) [("n_bins", .ref (20 : ℕ))]
    = (init .hdy fun n => if n = "n_bins" then .ref 20 else .str n, none) :=
  C150_set_new_partial _ .hdy (by simp [unreadable]) (by simp) _ _ _ (by simp [signature])
    ⟨by simp, fun n hn => by simp at hn; simp [hn]⟩ fun _ _ => rfl

/-- The clone of an `EoQ`, with its settings copied. -/
example : cloneObj (fun v => .ok (.built "copy" [v])) .eoq (init .eoq fun n => Val.ref n)
    = .ok (init .eoq fun n => .built "copy" [.ref n]) :=
  C150_clone_partial _ .eoq (by simp [unreadable]) (by simp) (by simp) _ _ _ (fun _ _ => rfl) fun _ _ => rfl

/-- An `EM` cannot be read. -/
example : getParams .em (init .em fun n => Val.ref n) = .error .attributeError :=
  (C150_unreadable_refuted .em (by simp [unreadable]) _ _ fun _ _ => rfl).1

/-- `check_cv` of a number is a new splitter. -/
example : getParams .cv (cvFitSettings (fun v => match v with | .ref n => .built "StratifiedKFold" [.ref n] | v => v)
    (init .cv fun _ => Val.ref (5 : ℕ))) ≠ .ok ((signature .cv).map fun n => (n, Val.ref 5)) :=
  (C150_cv_refuted _ (fun v => match v with | .ref n => .built "KFold" [.ref n] | v => v) (fun v => by cases v <;> rfl) _
    (by simp)).1

/-- An `AC` whose classifier is a `PWK`, which cannot be cloned. -/
example : ∃ e, cloneObj (fun v => match v with | .built "PWK" _ => .error .attributeError | v => .ok v) .ac
    (init .ac fun _ => Val.built (V := ℕ) "PWK" []) = .error e :=
  (C150_nested_refuted .ac _ "estimator_train" (by simp [signature]) (.built "PWK" [])
    (init_signature .ac (by simp [unreadable]) (by simp) _ _ (by simp [signature]))).1 _ .attributeError rfl

end Verif.Props
