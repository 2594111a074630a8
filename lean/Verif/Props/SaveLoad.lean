import Verif.Lemmas.SaveLoad
import Verif.Props.Params

/-! # C08, C09: saving and loading model states -/

namespace GPX.Props
open GPX Spec
variable {K M C : Type}

/-- A state whose names can be stored: keys that survive the flat encoding (see C07), a dictionary
`kernel_params` among the parameters, and distinct option names that do not collide with `params`. -/
def Saveable (s : ModelState K M C) : Prop :=
  s.params.KeysDistinct ∧ WellKeyed s.params ∧ NoShortShadow s.params ∧
  (∃ kp, s.params.get? "kernel_params".toList = some (.inr kp)) ∧
  (s.opts.map Prod.fst).Nodup ∧
  ∀ kv ∈ s.opts, goodKey kv.1 ∧ kv.1 ≠ "NULL".toList ∧ kv.1 ≠ "params".toList

/-- `Saveable` without the restriction `NoShortShadow` on names. -/
def SaveableAnyName (s : ModelState K M C) : Prop :=
  s.params.KeysDistinct ∧ WellKeyed s.params ∧
  (∃ kp, s.params.get? "kernel_params".toList = some (.inr kp)) ∧
  (s.opts.map Prod.fst).Nodup ∧
  ∀ kv ∈ s.opts, goodKey kv.1 ∧ kv.1 ≠ "NULL".toList ∧ kv.1 ≠ "params".toList

/-- C08, full statement: `C08_save_load_partial` without the restriction `NoShortShadow` on names. It is
false of the code, see `C08_save_load_false`. -/
def C08_full : Prop :=
  ∀ s t : ModelState Unit Unit Unit, SaveableAnyName s → t.params.KeysDistinct →
    AtEveryPath (fun p q => p.value.shape = q.prior.shape ∧ p.value.dtype = q.prior.dtype)
      s.params t.params →
    ∃ file r, s.save = .ok file ∧ t.load file = .ok r ∧ r.kernel = t.kernel ∧ r.meanFn = t.meanFn ∧
      AtEveryPath (fun p p' => p'.value = p.value) s.params r.params ∧
      AtEveryPath (fun q p' => p'.trainable = q.trainable ∧ p'.bijector = q.bijector ∧
        p'.prior = q.prior) t.params r.params ∧
      ∀ k, (assocGet k r.opts).map OptVal.norm =
        match assocGet k s.opts with
        | some (.callable _) => (assocGet k t.opts).map OptVal.norm
        | some v => some v.norm
        | none => (assocGet k t.opts).map OptVal.norm

/-- A state whose kernel parameters are `{"x": {"y": {"x": p}}}`. -/
noncomputable def exShadow : ModelState Unit Unit Unit :=
  ⟨(), (), .leaf "sigma".toList exSigma (.node "kernel_params".toList
    (.node ['x'] (.node ['y'] (.leaf ['x'] exLength .nil) .nil) .nil) .nil), []⟩

theorem exShadow_saveable : SaveableAnyName exShadow :=
  ⟨by simp [exShadow, Dict.KeysDistinct, Dict.keys], by simp [exShadow, WellKeyed, goodKey],
    ⟨.node ['x'] (.node ['y'] (.leaf ['x'] exLength .nil) .nil) .nil, by simp [exShadow, Dict.get?]⟩,
    by simp [exShadow], by simp [exShadow]⟩

theorem exShadow_save : exShadow.save = .ok [("params:sigma".toList, .arr exSigma.value),
    ("params:kernel_params:x:y:x".toList, .arr exLength.value)] := by rfl

/-- C08 is false of the code for some legal names: with kernel parameters `{"x": {"y": {"x": p}}}` the
file cannot even be loaded into the state it was saved from (`ValueError`: two parameters become
three). -/
theorem C08_save_load_false : ¬ C08_full := by
  intro h
  obtain ⟨file, r, h1, h2, -⟩ := h exShadow exShadow exShadow_saveable exShadow_saveable.1
    (by
      apply atEveryPath_of_rel
      have := Dict.Rel.map_self (fun a => a) (fun p q : Param => p.value.shape = q.prior.shape ∧
        p.value.dtype = q.prior.dtype) exShadow.params (by
          intro p hp
          simp only [exShadow, Dict.leaves, List.append_nil, List.mem_cons, List.not_mem_nil,
            or_false] at hp
          rcases hp with rfl | rfl <;> exact ⟨rfl, rfl⟩)
      rwa [map_id_dict] at this)
  rw [exShadow_save] at h1
  cases h1
  have h4 : exShadow.load [("params:sigma".toList, .arr exSigma.value),
      ("params:kernel_params:x:y:x".toList, .arr exLength.value)] = .error .valueError := by rfl
  rw [h4] at h2
  cases h2

/-- C08. Saving a state `s` and loading the file into a state `t` with the same parameter names
succeeds; afterwards every parameter has the saved value and keeps `t`'s trainability, bijector and
prior; kernel and mean function are `t`'s; every saved option (anything but a callable) is restored,
every other option is `t`'s. Missing for the full statement: names excluded by `NoShortShadow`. -/
theorem C08_save_load_partial (s t : ModelState K M C) (hs : Saveable s) (ht : t.params.KeysDistinct)
    (hst : AtEveryPath (fun p q => p.value.shape = q.prior.shape ∧ p.value.dtype = q.prior.dtype)
      s.params t.params) :
    ∃ file r, s.save = .ok file ∧ t.load file = .ok r ∧ r.kernel = t.kernel ∧ r.meanFn = t.meanFn ∧
      AtEveryPath (fun p p' => p'.value = p.value) s.params r.params ∧
      AtEveryPath (fun q p' => p'.trainable = q.trainable ∧ p'.bijector = q.bijector ∧
        p'.prior = q.prior) t.params r.params ∧
      ∀ k, (assocGet k r.opts).map OptVal.norm =
        match assocGet k s.opts with
        | some (.callable _) => (assocGet k t.opts).map OptVal.norm
        | some v => some v.norm
        | none => (assocGet k t.opts).map OptVal.norm := by
  obtain ⟨hk, hw, hsh, ⟨kp, hkp⟩, ho, hog⟩ := hs
  obtain ⟨others, hpop⟩ := popNode_of_get? (k := kernelParamsKey) hkp
  have hsave := save_eq s kp others hpop hk hw ho (fun kv h => (hog kv h).1)
  have hog' : ∀ kv ∈ s.opts, goodKey kv.1 ∧ kv.1 ≠ nullKey ∧ kv.1 ≠ paramsKey := fun kv h =>
    ⟨(hog kv h).1, by rw [← nullKey_eq]; exact (hog kv h).2.1, (hog kv h).2.2⟩
  have hunf := unflatten_file s kp others hpop hk hw hsh ho hog'
  have htl := dumped_treeLeaves s.params kp others hpop hk
  obtain ⟨hleaves, hstruct⟩ := treeLeaves_rel hk ht hst
  set file := (filePaths kp others (dumpOpts s.opts)).map (fun q => (joinPath q.1, q.2)) with hfile
  set vs := s.params.treeLeaves.map (fun p => p.value) with hvs
  have hdl : s.params.treeLeaves.map (fun p => Dumped.arr p.value) = vs.map Dumped.arr := by
    rw [hvs, List.map_map]; rfl
  have hval : List.Forall₂ (fun (p : Param) (v : Arr) => v.shape = p.prior.shape ∧
      v.dtype = p.prior.dtype) t.params.treeLeaves vs := by
    rw [hvs, List.forall₂_map_right_iff]
    exact hleaves.flip
  have hupv := updateValues_ok t.params.treeLeaves vs hval
  set news := List.zipWith (fun p v => (⟨v, p.trainable, p.bijector, p.prior⟩ : Param))
    t.params.treeLeaves vs with hnews
  have hnl : news.length = t.params.treeLeaves.length := by
    rw [hnews, List.length_zipWith, hval.length_eq]; simp
  obtain ⟨d', h1, h2, h3⟩ := Dict.treeUnflatten_spec t.params news hnl
  have hok : ParamsOK d' := by
    intro p hp
    rw [h3, hnews, ← List.map_uncurry_zip_eq_zipWith] at hp
    obtain ⟨⟨q, v⟩, hqv, rfl⟩ := List.mem_map.mp hp
    have := (List.forall₂_iff_zip.mp hval).2 hqv
    exact this
  have hsorted : d'.sortKeys = d' := Dict.sortKeys_of_sorted _
    (Dict.sorted_of_map_eq _ _ h2 (Dict.sorted_sortKeys _))
  set lopts : List (Key × OptVal C) := (dumpOpts s.opts).map (fun kv => (kv.1, loadOpt kv.2)) with hlo
  have hupd := ModelState.update_ok t
    ({ params := some d', opts := lopts } : StateUpdate K M C) hok
  simp only [Option.getD_none, Option.getD_some, hsorted] at hupd
  refine ⟨file, ⟨t.kernel, t.meanFn, d', (lopts.foldl
      (fun acc kv => assocSet kv.1 kv.2 acc) t.opts).map (fun kv => (kv.1, kv.2.norm))⟩,
      hsave, ?_, rfl, rfl, ?_, ?_, ?_⟩
  · rw [ModelState.load, hunf]
    simp only [popNode, if_true]
    rw [htl, if_neg (by rw [hdl]; simp [hval.length_eq]), hdl, hupv]
    simp only [bind, Except.bind, h1, topItems_leafDict]
    exact hupd
  · -- saved values
    simp only
    apply atEveryPath_sort
    apply atEveryPath_of_rel
    apply rel_of_forall₂
    · rw [h2, hstruct]
    · rw [h3, hnews, hvs]
      show List.Forall₂ _ s.params.treeLeaves _
      generalize s.params.treeLeaves = l1 at hleaves
      generalize t.params.treeLeaves = l2 at hleaves
      induction hleaves with
      | nil => exact .nil
      | cons _ _ ih => exact .cons rfl ih
  · simp only
    apply atEveryPath_sort
    apply atEveryPath_of_rel
    apply rel_of_forall₂
    · rw [h2]
    · rw [h3, hnews, hvs]
      show List.Forall₂ _ t.params.treeLeaves _
      generalize s.params.treeLeaves = l1 at hleaves
      generalize t.params.treeLeaves = l2 at hleaves
      induction hleaves with
      | nil => exact .nil
      | cons _ _ ih => exact .cons ⟨rfl, rfl, rfl⟩ ih
  · intro k
    simp only
    rw [assocGet_map, assocGet_fold, hlo, assocGet_map, assocGet_dumpOpts _ _ ho]
    · rcases assocGet k s.opts with _ | v
      · simp only [Option.bind_none, Option.map_none, Option.none_or]
        cases assocGet k t.opts <;> simp [norm_idem]
      · cases v <;> simp only [Option.bind_some, dumpOne, Option.map_some, loadOpt, Option.some_or,
          norm_idem, Option.map_none, Option.none_or]
        · rfl
        · cases assocGet k t.opts <;> simp [norm_idem]
    · rw [hlo, List.map_map]
      exact List.Nodup.sublist (dumpOpts_keys s.opts) ho

/-- Non-vacuity: the example state (nested parameters, options with a callable) can be saved and loaded
into itself. -/
example : Saveable exState ∧ exState.params.KeysDistinct ∧
    AtEveryPath (fun p q => p.value.shape = q.prior.shape ∧ p.value.dtype = q.prior.dtype)
      exState.params exState.params := by
  have hk : exState.params.KeysDistinct := by
    simp [exState, exParams, Dict.KeysDistinct, Dict.keys]
  refine ⟨⟨hk, ?_, ?_, ?_, ?_, ?_⟩, hk, ?_⟩
  · simp [exState, exParams, WellKeyed, goodKey]
  · simp [exState, exParams, NoShortShadow, leafKeys]
  · exact ⟨.leaf "lengthscale".toList exLength (.leaf "a".toList exVec .nil),
      by simp [exState, exParams, Dict.get?]⟩
  · simp [exState]
  · intro kv hkv
    simp only [exState, List.mem_cons, List.not_mem_nil, or_false] at hkv
    rcases hkv with rfl | rfl <;> simp [goodKey]
  · apply atEveryPath_of_rel
    have := Dict.Rel.map_self (fun a => a) (fun p q : Param => p.value.shape = q.prior.shape ∧
      p.value.dtype = q.prior.dtype) exState.params exParams_ok
    rwa [map_id_dict] at this

/-- C09, full statement: `C09_load_wrong_count_partial` without the restriction `NoShortShadow` on names.
It is false of the code, see `C09_load_wrong_count_false`. -/
def C09_full : Prop :=
  ∀ s t : ModelState Unit Unit Unit, SaveableAnyName s →
    s.params.leaves.length ≠ t.params.leaves.length →
    ∃ file, s.save = .ok file ∧ t.load file = .error .valueError

/-- A state with three parameters: `{"sigma", "kernel_params": {"a", "b"}}`. -/
noncomputable def exThree : ModelState Unit Unit Unit :=
  ⟨(), (), .leaf "sigma".toList exSigma (.node "kernel_params".toList
    (.leaf ['a'] exLength (.leaf ['b'] exLength .nil)) .nil), []⟩

/-- C09 is false of the code for some legal names: the file saved from `exShadow`, which has two
parameters, is accepted by a state with three. -/
theorem C09_load_wrong_count_false : ¬ C09_full := by
  intro h
  obtain ⟨file, h1, h2⟩ := h exShadow exThree exShadow_saveable
    (by simp [exShadow, exThree, Dict.leaves])
  rw [exShadow_save] at h1
  cases h1
  have h4 : ∃ r, exThree.load [("params:sigma".toList, .arr exSigma.value),
      ("params:kernel_params:x:y:x".toList, .arr exLength.value)] = .ok r := ⟨_, rfl⟩
  obtain ⟨r, h4⟩ := h4
  rw [h4] at h2
  cases h2

/-- C09. A file saved from a state with a different number of parameters is refused with `ValueError`.
Missing for the full statement: names excluded by `NoShortShadow`. That the receiving state is left
unmodified holds by construction here, states being immutable values of the model. -/
theorem C09_load_wrong_count_partial (s t : ModelState K M C) (hs : Saveable s)
    (hne : s.params.leaves.length ≠ t.params.leaves.length) :
    ∃ file, s.save = .ok file ∧ t.load file = .error .valueError := by
  obtain ⟨hk, hw, hsh, ⟨kp, hkp⟩, ho, hog⟩ := hs
  obtain ⟨others, hpop⟩ := popNode_of_get? (k := kernelParamsKey) hkp
  have hsave := save_eq s kp others hpop hk hw ho (fun kv h => (hog kv h).1)
  have hog' : ∀ kv ∈ s.opts, goodKey kv.1 ∧ kv.1 ≠ nullKey ∧ kv.1 ≠ paramsKey := fun kv h =>
    ⟨(hog kv h).1, by rw [← nullKey_eq]; exact (hog kv h).2.1, (hog kv h).2.2⟩
  have hunf := unflatten_file s kp others hpop hk hw hsh ho hog'
  have htl := dumped_treeLeaves s.params kp others hpop hk
  refine ⟨_, hsave, ?_⟩
  rw [ModelState.load, hunf]
  simp only [popNode, if_true]
  rw [htl, if_pos]
  rw [List.length_map, (Dict.treeLeaves_perm s.params).length_eq,
    (Dict.treeLeaves_perm t.params).length_eq]
  exact hne

/-- C09 for an arbitrary file: whenever `load` succeeds, the number of entries the file holds under
`params` is the number of parameters of the receiving state. -/
theorem C09_load_success_count (t r : ModelState K M C) (file : List (Key × Dumped))
    (h : t.load file = .ok r) :
    ∃ dumped params rest, unflattenDict file = some dumped ∧
      dumped.get? "params".toList = some (.inr params) ∧
      popNode "params".toList dumped = some (params, rest) ∧
      params.leaves.length = t.params.leaves.length := by
  unfold ModelState.load at h
  rcases hu : unflattenDict file with _ | dumped
  · rw [hu] at h; cases h
  rw [hu] at h
  simp only at h
  rcases hp : popNode paramsKey dumped with _ | ⟨dp, rest⟩
  · rw [hp] at h; cases h
  rw [hp] at h
  simp only at h
  split at h
  · cases h
  rename_i hlen
  refine ⟨dumped, dp, rest, rfl, ?_, hp, ?_⟩
  · clear h hu
    change dumped.get? paramsKey = _
    induction dumped generalizing rest with
    | nil => simp [popNode] at hp
    | leaf k a d ih =>
      simp only [popNode] at hp
      split at hp
      · cases hp
      · rename_i hne
        rw [Option.map_eq_some_iff] at hp
        obtain ⟨⟨s1, r1⟩, h1, h2⟩ := hp
        simp only [Prod.mk.injEq] at h2
        obtain ⟨rfl, _⟩ := h2
        simp [Dict.get?, hne, ih r1 h1]
    | node k a d _ ih =>
      simp only [popNode] at hp
      split at hp
      · rename_i e; simp only [Option.some.injEq, Prod.mk.injEq] at hp; simp [Dict.get?, e, hp.1]
      · rename_i hne
        rw [Option.map_eq_some_iff] at hp
        obtain ⟨⟨s1, r1⟩, h1, h2⟩ := hp
        simp only [Prod.mk.injEq] at h2
        obtain ⟨rfl, _⟩ := h2
        simp [Dict.get?, hne, ih r1 h1]
  · rw [← (Dict.treeLeaves_perm dp).length_eq, ← (Dict.treeLeaves_perm t.params).length_eq]
    exact not_not.mp hlen

/-- Non-vacuity of C09: the example state against one with fewer parameters. -/
example : exState.params.leaves.length ≠
    ((⟨(), (), .leaf "sigma".toList exSigma .nil, []⟩ : ModelState Unit Unit Unit)).params.leaves.length := by
  simp [exState, exParams, Dict.leaves]

end GPX.Props
