import Verif.Model.Pytree
import Verif.Props.Params

/-! # C94: pytree round trips and copies of parameters and model states -/

namespace GPX.Props
open GPX Spec

variable {K M C : Type}

/-- Same kernel, mean function, registered options and parameters, as far as indexing by key paths can tell. -/
def SameState (s r : ModelState K M C) : Prop := viewOf r = viewOf s

theorem treeUnflatten_ok (aux : StateAux K M C) (values : List Arr)
    (h : List.Forall₂ (fun (p : Param) (v : Arr) => v.shape = p.prior.shape ∧ v.dtype = p.prior.dtype)
      aux.structure_.treeLeaves values) :
    ∃ (r : ModelState K M C) (d' : Dict Param), ModelState.treeUnflatten aux values = .ok r ∧
      r = ⟨aux.kernel, aux.meanFn, d'.sortKeys, aux.opts.map (fun kv => (kv.1, kv.2.norm))⟩ ∧
      d'.map (fun _ => ()) = aux.structure_.sortKeys.map (fun _ => ()) ∧
      d'.leaves = List.zipWith (fun p v => (⟨v, p.trainable, p.bijector, p.prior⟩ : Param))
        aux.structure_.treeLeaves values ∧ ParamsOK d' := by
  obtain ⟨d', h1, h2, h3, h4⟩ := rebuildParams_ok aux.structure_ values h
  refine ⟨_, d', ?_, rfl, h2, h3, h4⟩
  simp only [ModelState.treeUnflatten, h1, bind, Except.bind]
  exact ModelState.new_ok _ _ _ _ h4

/-- C94. Mapping over the arrays of a state a function that keeps shapes and dtypes succeeds, and replaces the value of
every parameter, at every key path, trainable or not, by its image; names, nesting, trainability, bijectors, priors,
kernel, mean function and registered options are unchanged. -/
theorem C94_tree_map (s : ModelState K M C) (hs : ParamsOK s.params) (f : Arr → Arr)
    (hf : ∀ p ∈ s.params.leaves, (f p.value).shape = p.value.shape ∧ (f p.value).dtype = p.value.dtype) :
    ∃ r, s.treeMap f = .ok r ∧ r.kernel = s.kernel ∧ r.meanFn = s.meanFn ∧
      (∀ k, (assocGet k r.opts).map OptVal.norm = (assocGet k s.opts).map OptVal.norm) ∧
      ParamsOK r.params ∧
      AtEveryPath (fun p p' => p' = { p with value := f p.value }) s.params r.params := by
  obtain ⟨r, d', h1, rfl, h2, h3, h4⟩ := treeUnflatten_ok s.treeFlatten.2 (s.treeFlatten.1.map f) (by
    simp only [ModelState.treeFlatten, List.map_map]
    rw [List.forall₂_map_right_iff, List.forall₂_same]
    intro p hp
    have hp' := (mem_leaves_sortKeys _ _).mp hp
    exact ⟨(hf p hp').1.trans (hs p hp').1, (hf p hp').2.trans (hs p hp').2⟩)
  have hd : d' = s.params.sortKeys.map (fun p => { p with value := f p.value }) := by
    refine Dict.eq_of_struct_leaves _ _ ?_ ?_
    · rw [h2, Dict.map_map]; rfl
    · rw [h3, Dict.leaves_map]
      simp only [ModelState.treeFlatten, List.map_map]
      rw [List.zipWith_map_right, List.zipWith_self]; rfl
  refine ⟨_, h1, rfl, rfl, ?_, ModelState.new_paramsOK (ModelState.new_ok _ _ _ _ h4), ?_⟩
  · intro k
    simp only [ModelState.treeFlatten]
    rw [assocGet_map]
    cases assocGet k s.opts <;> simp [norm_idem]
  · apply atEveryPath_sort'
    apply atEveryPath_sort
    rw [hd]
    exact atEveryPath_of_rel (Dict.Rel.map_self _ _ _ (fun p _ => rfl))

theorem sameDict_of_atEveryPath {a b : Dict Param} (h : AtEveryPath (fun p p' => p' = p) a b) : SameDict b a := by
  intro path
  have := h path
  rcases e1 : lookup path a with _ | x | u <;> rcases e2 : lookup path b with _ | y | v <;>
    simp [e1, e2] at this ⊢
  exact this

/-- C94. Flattening a state and rebuilding it gives the same state. -/
theorem C94_roundtrip (s : ModelState K M C) (hs : ParamsOK s.params) :
    ∃ r, ModelState.treeUnflatten s.treeFlatten.2 s.treeFlatten.1 = .ok r ∧ SameState s r := by
  obtain ⟨r, h1, h2, h3, h4, h5, h6⟩ := C94_tree_map s hs id (fun p _ => ⟨rfl, rfl⟩)
  simp only [ModelState.treeMap, List.map_id] at h1
  refine ⟨r, h1, ?_⟩
  simp only [SameState, viewOf, h2, h3]
  congr 1
  · exact funext (sameDict_of_atEveryPath h6)
  · exact funext h4

/-- C94. Rebuilding from the wrong number of arrays raises. -/
theorem C94_wrong_count (aux : StateAux K M C) (values : List Arr)
    (h : values.length ≠ aux.structure_.leaves.length) :
    ModelState.treeUnflatten aux values = .error .valueError := by
  have hl : values.length ≠ aux.structure_.treeLeaves.length := by
    rw [(Dict.treeLeaves_perm aux.structure_).length_eq]; exact h
  simp only [ModelState.treeUnflatten, rebuildParams, if_pos hl, bind, Except.bind]

theorem mapM_error {α β : Type} {f : α → Except Err β} {e : Err} (l : List α) (h : ∀ a ∈ l, (∃ b, f a = .ok b) ∨ f a = .error e)
    (hx : ∃ a ∈ l, f a = .error e) : l.mapM f = .error e := by
  induction l with
  | nil => simp at hx
  | cons a l ih =>
    rw [List.mapM_cons]
    rcases h a (by simp) with ⟨b, hb⟩ | hb
    · rw [hb]
      have : ∃ a ∈ l, f a = .error e := by
        obtain ⟨c, hc, he⟩ := hx
        rcases List.mem_cons.mp hc with rfl | hc
        · rw [hb] at he; cases he
        · exact ⟨c, hc, he⟩
      simp only [bind, Except.bind]
      rw [ih (fun c hc => h c (by simp [hc])) this]
    · rw [hb]; rfl

theorem paramNew_cases (v : Arr) (t : Bool) (b : Bijector) (q : PriorObj) :
    (∃ p, Param.new v t b q = .ok p) ∨ Param.new v t b q = .error .valueError := by
  unfold Param.new
  split_ifs <;> simp

/-- C94. Mapping a function that changes the shape or the dtype of at least one parameter raises: no state whose
values disagree with their priors is ever built. -/
theorem C94_shape_change_raises (s : ModelState K M C) (hs : ParamsOK s.params) (f : Arr → Arr)
    (hf : ∃ p ∈ s.params.leaves, (f p.value).shape ≠ p.value.shape ∨ (f p.value).dtype ≠ p.value.dtype) :
    s.treeMap f = .error .valueError := by
  obtain ⟨p, hp, hne⟩ := hf
  have hm : (s.params.treeLeaves.zip ((s.params.treeLeaves.map (·.value)).map f)).mapM
      (fun pv => Param.new pv.2 pv.1.trainable pv.1.bijector pv.1.prior) = .error .valueError := by
    apply mapM_error
    · intro pv _
      exact paramNew_cases _ _ _ _
    · refine ⟨(p, f p.value), ?_, ?_⟩
      · rw [List.map_map, List.zip_map_right]
        have : (p, p) ∈ s.params.treeLeaves.zip s.params.treeLeaves := by
          rw [List.mem_iff_getElem]
          have hp' : p ∈ s.params.treeLeaves := (mem_leaves_sortKeys s.params p).mpr hp
          obtain ⟨i, hi, he⟩ := List.mem_iff_getElem.mp hp'
          exact ⟨i, by simpa using hi, by simp [he]⟩
        exact List.mem_map.mpr ⟨(p, p), this, rfl⟩
      · have := hs p hp
        simp only [Param.new]
        rcases hne with h | h
        · rw [if_pos (by rw [← this.1]; exact h)]
        · by_cases h' : (f p.value).shape = p.prior.shape
          · rw [if_neg (by simpa using h'), if_pos (by rw [← this.2]; exact h)]
          · rw [if_pos h']
  have hr : rebuildParams s.params ((s.params.treeLeaves.map (·.value)).map f) = .error .valueError := by
    unfold rebuildParams
    rw [if_neg (by simp), hm]
    rfl
  change (do
    let params ← rebuildParams s.params ((s.params.treeLeaves.map (·.value)).map f)
    ModelState.new s.kernel s.meanFn params s.opts : Except Err (ModelState K M C)) = _
  rw [hr]
  rfl

/-- C94. `copy` of a state succeeds and gives the same state. -/
theorem C94_copy (s : ModelState K M C) (hs : ParamsOK s.params) : ∃ r, s.copy = .ok r ∧ SameState s r := by
  obtain ⟨r, h1, h2, _⟩ := C10_update_overlay s ({} : StateUpdate K M C) hs ⟨by simp, by simp⟩
  refine ⟨r, h1, ?_⟩
  simp only [SameState, h2, overlay]
  rfl

/-- C94. A `Parameter` survives flattening, rebuilding and copying; rebuilding it with another value gives the same
parameter with that value, and raises when the value does not fit the prior. -/
theorem C94_parameter (p : Param) (hp : ParamOK p) :
    Param.treeUnflatten p.treeFlatten.2 p.treeFlatten.1 = .ok p ∧ p.copy = .ok p ∧
    (∀ v : Arr, v.shape = p.value.shape → v.dtype = p.value.dtype →
      Param.treeUnflatten p.treeFlatten.2 [v] = .ok { p with value := v }) ∧
    (∀ v : Arr, (v.shape ≠ p.value.shape ∨ v.dtype ≠ p.value.dtype) →
      Param.treeUnflatten p.treeFlatten.2 [v] = .error .valueError) := by
  refine ⟨Param.new_ok' _ _ _ _ hp.1 hp.2, Param.new_ok' _ _ _ _ hp.1 hp.2,
    fun v h1 h2 => Param.new_ok' _ _ _ _ (h1.trans hp.1) (h2.trans hp.2), fun v h => ?_⟩
  change Param.new v p.trainable p.bijector p.prior = _
  unfold Param.new
  rcases h with h | h
  · rw [if_pos (by rw [← hp.1]; exact h)]
  · rw [if_pos (show v.dtype ≠ p.prior.dtype by rw [← hp.2]; exact h)]; split_ifs <;> rfl

/-- C94. A `Parameter` is only rebuilt from exactly one array. -/
theorem C94_parameter_count (p : Param) (vs : List Arr) (h : vs.length ≠ 1) :
    Param.treeUnflatten p.treeFlatten.2 vs = .error .typeError := by
  match vs, h with
  | [], _ => rfl
  | _ :: _ :: _, _ => rfl

/-- Non-vacuity: a state with scalar and array-valued parameters, a function that keeps shapes and one that does not. -/
example : ParamsOK exState.params ∧
    (∀ p ∈ exState.params.leaves, ((p.value.map (2 * ·))).shape = p.value.shape ∧ (p.value.map (2 * ·)).dtype = p.value.dtype) ∧
    (∃ p ∈ exState.params.leaves, ((fun _ => (⟨[7], "f".toList, []⟩ : Arr)) p.value).shape ≠ p.value.shape) :=
  ⟨exParams_ok, fun _ _ => ⟨rfl, rfl⟩, exVec, by simp [exState, exParams, Dict.leaves], by simp [exVec]⟩

end GPX.Props
