import Verif.Lemmas.DictSort
import Verif.Lemmas.Bijectors
import Verif.Spec.Params

/-! Helper lemmas for parameters and model states. -/

namespace GPX
open Spec
variable {α β : Type}

theorem lookup_sortKeys (path : List Key) : ∀ d : Dict α, lookup path d.sortKeys = lookup path d := by
  induction path with
  | nil => intro d; rfl
  | cons k ks ih =>
    intro d
    rw [lookup, lookup, Dict.get?_sortKeys]
    rcases d.get? k with _ | a | s
    · rfl
    · rfl
    · exact ih s

theorem sameDict_sortKeys (d : Dict α) : SameDict d.sortKeys d := fun path => lookup_sortKeys path d

theorem atEveryPath_of_rel {R : α → β → Prop} {d : Dict α} {d' : Dict β} (h : Dict.Rel R d d') :
    AtEveryPath R d d' := by
  intro path
  induction path generalizing d d' with
  | nil => trivial
  | cons k ks ih =>
    have hg := h.get? k
    rw [lookup, lookup]
    rcases h1 : d.get? k with _ | a | s <;> rcases h2 : d'.get? k with _ | b | s' <;>
      rw [h1, h2] at hg <;> simp only [Dict.ItemRel] at hg
    · trivial
    · by_cases hks : ks = [] <;> simp [hks, hg]
    · exact ih hg

theorem atEveryPath_sort {R : α → β → Prop} {d : Dict α} {d' : Dict β}
    (h : AtEveryPath R d.sortKeys d') : AtEveryPath R d d' := by
  intro path
  have := h path
  rwa [lookup_sortKeys] at this

theorem atEveryPath_sort' {R : α → β → Prop} {d : Dict α} {d' : Dict β}
    (h : AtEveryPath R d d') : AtEveryPath R d d'.sortKeys := by
  intro path
  have := h path
  rwa [← lookup_sortKeys path d'] at this

/-- A sorted dictionary is determined by what its key paths lead to. -/
theorem rel_of_atEveryPath {R : α → β → Prop} (d : Dict α) (d' : Dict β) (hs : d.Sorted)
    (hs' : d'.Sorted) (hk : d.KeysDistinct) (hk' : d'.KeysDistinct) (h : AtEveryPath R d d') :
    Dict.Rel R d d' := by
  -- keys of the two dictionaries agree
  have hmem : ∀ (d : Dict α) (d' : Dict β), AtEveryPath R d d' → ∀ k, k ∈ d.keys ↔ k ∈ d'.keys := by
    intro d d' h k
    have h1 := h [k]
    rw [← not_iff_not, ← Dict.get?_eq_none, ← Dict.get?_eq_none]
    simp only [lookup, if_true] at h1
    rcases e1 : d.get? k with _ | a | s <;> rcases e2 : d'.get? k with _ | b | s' <;>
      simp [e1, e2] at h1 ⊢
  have htail : ∀ (k : Key) (x : α ⊕ Dict α) (y : β ⊕ Dict β) (r : Dict α) (r' : Dict β),
      k ∉ r.keys → k ∉ r'.keys → AtEveryPath R (Dict.cons k x r) (Dict.cons k y r') →
      AtEveryPath R r r' := by
    intro k x y r r' h1 h2 h path
    cases path with
    | nil => trivial
    | cons q qs =>
      have := h (q :: qs)
      simp only [lookup, Dict.get?_cons] at this ⊢
      by_cases hq : q = k
      · subst hq
        rw [(Dict.get?_eq_none _ _).mpr h1, (Dict.get?_eq_none _ _).mpr h2]; trivial
      · simpa [hq] using this
  induction d generalizing d' with
  | nil =>
    cases d' with
    | nil => exact .nil
    | leaf k b r => have := hmem _ _ h k; simp [Dict.keys] at this
    | node k b r => have := hmem _ _ h k; simp [Dict.keys] at this
  | leaf k a r ih =>
    cases d' with
    | nil => have := hmem _ _ h k; simp [Dict.keys] at this
    | leaf k' b r' =>
      have e : k = k' := Dict.sorted_head_eq hs.1 hs'.1
        ((hmem _ _ h k).mp (by simp [Dict.keys])) ((hmem _ _ h k').mpr (by simp [Dict.keys]))
      subst e
      have h1 := h [k]
      simp [lookup, Dict.get?] at h1
      exact .leaf h1 (ih r' hs.2 hs'.2 hk.2 hk'.2
        (htail k (.inl a) (.inl b) r r' hk.1 hk'.1 h))
    | node k' b r' =>
      have e : k = k' := Dict.sorted_head_eq hs.1 hs'.1
        ((hmem _ _ h k).mp (by simp [Dict.keys])) ((hmem _ _ h k').mpr (by simp [Dict.keys]))
      subst e
      have h1 := h [k]
      simp [lookup, Dict.get?] at h1
  | node k s r ih1 ih =>
    cases d' with
    | nil => have := hmem _ _ h k; simp [Dict.keys] at this
    | leaf k' b r' =>
      have e : k = k' := Dict.sorted_head_eq hs.1 hs'.1
        ((hmem _ _ h k).mp (by simp [Dict.keys])) ((hmem _ _ h k').mpr (by simp [Dict.keys]))
      subst e
      have h1 := h [k]
      simp [lookup, Dict.get?] at h1
    | node k' s' r' =>
      have e : k = k' := Dict.sorted_head_eq hs.1 hs'.1
        ((hmem _ _ h k).mp (by simp [Dict.keys])) ((hmem _ _ h k').mpr (by simp [Dict.keys]))
      subst e
      refine .node (ih1 s' hs.2.1 hs'.2.1 hk.2.1 hk'.2.1 ?_) (ih r' hs.2.2 hs'.2.2 hk.2.2 hk'.2.2
        (htail k (.inr s) (.inr s') r r' hk.1 hk'.1 h))
      intro path
      have := h (k :: path)
      simpa [lookup, Dict.get?] using this

theorem rel_leaves {R : α → β → Prop} {d : Dict α} {d' : Dict β} (h : Dict.Rel R d d') :
    List.Forall₂ R d.leaves d'.leaves := by
  induction h with
  | nil => exact .nil
  | leaf hab _ ih => exact .cons hab ih
  | node _ _ ih1 ih => exact List.rel_append ih1 ih

theorem rel_struct {R : α → β → Prop} {d : Dict α} {d' : Dict β} (h : Dict.Rel R d d') :
    d'.map (fun _ => ()) = d.map (fun _ => ()) := by
  induction h with
  | nil => rfl
  | leaf hab _ ih => simp [Dict.map, ih]
  | node _ _ ih1 ih => simp [Dict.map, ih1, ih]

/-- Dictionaries with the same key paths list related leaves in the same order. -/
theorem treeLeaves_rel {R : α → β → Prop} {d : Dict α} {d' : Dict β} (hk : d.KeysDistinct)
    (hk' : d'.KeysDistinct) (h : AtEveryPath R d d') :
    List.Forall₂ R d.treeLeaves d'.treeLeaves ∧
      d'.sortKeys.map (fun _ => ()) = d.sortKeys.map (fun _ => ()) := by
  have := rel_of_atEveryPath d.sortKeys d'.sortKeys (Dict.sorted_sortKeys d) (Dict.sorted_sortKeys d')
    ((Dict.keysDistinct_sortKeys d).mpr hk) ((Dict.keysDistinct_sortKeys d').mpr hk')
    (by intro path; have := h path; rwa [← lookup_sortKeys path d, ← lookup_sortKeys path d'] at this)
  exact ⟨rel_leaves this, rel_struct this⟩

theorem mapE_ok {α β : Type} (f : α → Except Err β) (g : α → β) (d : Dict α)
    (h : ∀ a ∈ d.leaves, f a = .ok (g a)) : d.mapE f = .ok (d.map g) := by
  induction d with
  | nil => rfl
  | leaf k a r ih =>
    have h1 := h a (by simp [Dict.leaves])
    have h2 := ih (fun b hb => h b (by simp [Dict.leaves, hb]))
    simp only [Dict.mapE, h1, h2]; rfl
  | node k s r ih1 ih =>
    have h1 := ih1 (fun b hb => h b (by simp [Dict.leaves, hb]))
    have h2 := ih (fun b hb => h b (by simp [Dict.leaves, hb]))
    simp only [Dict.mapE, h1, h2]; rfl

theorem mapE_ok_leaves {f : α → Except Err β} {P : β → Prop} (hf : ∀ a b, f a = .ok b → P b)
    (d : Dict α) (d' : Dict β) (h : d.mapE f = .ok d') : ∀ b ∈ d'.leaves, P b := by
  induction d generalizing d' with
  | nil => simp only [Dict.mapE, Except.ok.injEq] at h; subst h; simp [Dict.leaves]
  | leaf k a r ih =>
    simp only [Dict.mapE] at h
    rcases h1 : f a with e | b
    · rw [h1] at h; cases h
    rcases h2 : r.mapE f with e | r'
    · rw [h1, h2] at h; cases h
    rw [h1, h2] at h
    cases h
    intro b' hb'
    simp only [Dict.leaves, List.mem_cons] at hb'
    rcases hb' with rfl | hb'
    · exact hf a _ h1
    · exact ih r' h2 b' hb'
  | node k s r ih1 ih =>
    simp only [Dict.mapE] at h
    rcases h1 : s.mapE f with e | b
    · rw [h1] at h; cases h
    rcases h2 : r.mapE f with e | r'
    · rw [h1, h2] at h; cases h
    rw [h1, h2] at h
    cases h
    intro b' hb'
    simp only [Dict.leaves, List.mem_append] at hb'
    rcases hb' with hb' | hb'
    · exact ih1 _ h1 b' hb'
    · exact ih r' h2 b' hb'

theorem Param.new_ok (p : Param) (h : ParamOK p) :
    Param.new p.value p.trainable p.bijector p.prior = .ok p := by
  simp [Param.new, h.1, h.2]

theorem Param.new_ok' (v : Arr) (t : Bool) (b : Bijector) (q : PriorObj) (h1 : v.shape = q.shape)
    (h2 : v.dtype = q.dtype) : Param.new v t b q = .ok ⟨v, t, b, q⟩ := by
  simp [Param.new, h1, h2]

theorem Param.new_paramOK {v : Arr} {t : Bool} {b : Bijector} {q : PriorObj} {p : Param}
    (h : Param.new v t b q = .ok p) : ParamOK p := by
  unfold Param.new at h
  split at h
  · cases h
  · split at h
    · cases h
    · cases h
      rename_i h1 h2
      exact ⟨not_not.mp h1, not_not.mp h2⟩

theorem mem_leaves_sortKeys (d : Dict α) (a : α) : a ∈ d.sortKeys.leaves ↔ a ∈ d.leaves :=
  (Dict.treeLeaves_perm d).mem_iff

theorem map_id_dict (d : Dict α) : d.map (fun a => a) = d := by
  induction d with
  | nil => rfl
  | leaf k a r ih => simp [Dict.map, ih]
  | node k s r ih1 ih => simp [Dict.map, ih, ih1]

variable {K M C : Type}

theorem ModelState.new_ok (kernel : K) (meanFn : M) (params : Dict Param)
    (kw : List (Key × OptVal C)) (h : ParamsOK params) :
    ModelState.new kernel meanFn params kw =
      .ok ⟨kernel, meanFn, params.sortKeys, kw.map (fun kv => (kv.1, kv.2.norm))⟩ := by
  unfold ModelState.new
  rw [mapE_ok _ (fun p => p) params.sortKeys]
  · rw [map_id_dict]; rfl
  · intro p hp
    exact Param.new_ok p (h p ((mem_leaves_sortKeys _ _).mp hp))

theorem ModelState.new_paramsOK {kernel : K} {meanFn : M} {params : Dict Param}
    {kw : List (Key × OptVal C)} {s : ModelState K M C}
    (h : ModelState.new kernel meanFn params kw = .ok s) : ParamsOK s.params := by
  unfold ModelState.new at h
  rcases h1 : params.sortKeys.mapE (fun p => Param.new p.value p.trainable p.bijector p.prior) with e | d
  · rw [h1] at h; cases h
  · rw [h1] at h
    cases h
    exact mapE_ok_leaves (P := ParamOK) (fun a b hab => Param.new_paramOK hab) _ _ h1

theorem norm_idem (x : OptVal C) : x.norm.norm = x.norm := by cases x <;> rfl

theorem assocGet_set (k k' : Key) (v : α) (l : List (Key × α)) :
    assocGet k' (assocSet k v l) = if k' = k then some v else assocGet k' l := by
  induction l with
  | nil => rfl
  | cons x l ih =>
    obtain ⟨k0, a⟩ := x
    simp only [assocSet]
    by_cases h : k = k0
    · subst h; simp [assocGet]; split <;> simp_all
    · simp only [h, if_false, assocGet, ih]
      by_cases h1 : k' = k0
      · subst h1; simp [Ne.symm h]
      · simp [h1]

theorem assocGet_none (k : Key) (l : List (Key × α)) (h : k ∉ l.map Prod.fst) : assocGet k l = none := by
  induction l with
  | nil => rfl
  | cons x l ih =>
    simp only [List.map_cons, List.mem_cons, not_or] at h
    simp [assocGet, h.1, ih h.2]

theorem assocGet_fold (k : Key) (l acc : List (Key × α)) (hn : (l.map Prod.fst).Nodup) :
    assocGet k (l.foldl (fun acc kv => assocSet kv.1 kv.2 acc) acc) =
      (assocGet k l).or (assocGet k acc) := by
  induction l generalizing acc with
  | nil => rfl
  | cons x l ih =>
    simp only [List.map_cons, List.nodup_cons] at hn
    rw [List.foldl_cons, ih _ hn.2, assocGet_set]
    obtain ⟨k0, a⟩ := x
    simp only [assocGet]
    by_cases h : k = k0
    · subst h
      simp [assocGet_none _ _ hn.1]
    · simp [h]

theorem assocGet_map {γ : Type} (f : α → γ) (k : Key) (l : List (Key × α)) :
    assocGet k (l.map (fun kv => (kv.1, f kv.2))) = (assocGet k l).map f := by
  induction l with
  | nil => rfl
  | cons x l ih => 
    simp only [List.map_cons, assocGet, ih]
    split <;> rfl

theorem ModelState.update_ok (s : ModelState K M C) (u : StateUpdate K M C)
    (h : ParamsOK (u.params.getD s.params)) :
    (s.update u).1 = .ok ⟨u.kernel.getD s.kernel, u.meanFn.getD s.meanFn,
      (u.params.getD s.params).sortKeys,
      (u.opts.foldl (fun acc kv => assocSet kv.1 kv.2 acc) s.opts).map
        (fun kv => (kv.1, kv.2.norm))⟩ := by
  simp only [ModelState.update]
  exact ModelState.new_ok _ _ _ _ h

theorem paramsOK_getD (s : ModelState K M C) (u : StateUpdate K M C) (hs : ParamsOK s.params)
    (hu : ∀ d, u.params = some d → ParamsOK d) : ParamsOK (u.params.getD s.params) := by
  rcases h : u.params with _ | d
  · exact hs
  · exact hu d h

theorem viewOf_update (s r : ModelState K M C) (u : StateUpdate K M C) (hs : ParamsOK s.params)
    (hu : UpdateOK u) (h : (s.update u).1 = .ok r) : viewOf r = overlay (viewOf s) u := by
  rw [ModelState.update_ok s u (paramsOK_getD s u hs hu.1)] at h
  cases h
  simp only [viewOf, overlay]
  congr 1
  · funext path
    rw [lookup_sortKeys]
    cases u.params <;> rfl
  · funext k
    rw [assocGet_map, assocGet_fold _ _ _ hu.2]
    cases assocGet k u.opts with
    | none => cases assocGet k s.opts <;> simp [norm_idem]
    | some x => simp [norm_idem]

theorem rel_of_forall₂ {R : α → β → Prop} (d : Dict α) (d' : Dict β)
    (h : d'.map (fun _ => ()) = d.map (fun _ => ())) (hl : List.Forall₂ R d.leaves d'.leaves) :
    Dict.Rel R d d' :=
  Dict.Rel.of_forall₂ d d' h (fun i h1 h2 => by
    have := hl.get h1 h2
    simpa using this)

/-- Rebuilding with related leaves gives a dictionary related at every path. -/
theorem treeUnflatten_rel {R : α → β → Prop} (d : Dict α) (vs : List β)
    (hl : List.Forall₂ R d.treeLeaves vs) :
    ∃ d' : Dict β, d.treeUnflatten vs = some d' ∧ Dict.Rel R d.sortKeys d' ∧ d'.leaves = vs ∧
      d'.Sorted := by
  obtain ⟨d', h1, h2, h3⟩ := Dict.treeUnflatten_spec d vs hl.length_eq.symm
  refine ⟨d', h1, rel_of_forall₂ _ _ h2 ?_, h3, ?_⟩
  · rw [h3]; exact hl
  · exact Dict.sorted_of_map_eq _ _ h2 (Dict.sorted_sortKeys d)

theorem mapM_ok {f : α → Except Err β} (g : α → β) (l : List α) (h : ∀ a ∈ l, f a = .ok (g a)) :
    l.mapM f = .ok (l.map g) := by
  induction l with
  | nil => rfl
  | cons a l ih =>
    rw [List.mapM_cons, h a (by simp), ih (fun b hb => h b (by simp [hb]))]
    rfl

theorem rebuildParams_ok (struct : Dict Param) (values : List Arr)
    (h : List.Forall₂ (fun (p : Param) (v : Arr) => v.shape = p.prior.shape ∧ v.dtype = p.prior.dtype)
      struct.treeLeaves values) :
    ∃ d' : Dict Param, rebuildParams struct values = .ok d' ∧
      d'.map (fun _ => ()) = struct.sortKeys.map (fun _ => ()) ∧
      d'.leaves = List.zipWith (fun p v => (⟨v, p.trainable, p.bijector, p.prior⟩ : Param))
        struct.treeLeaves values ∧ ParamsOK d' := by
  have hlen := h.length_eq
  have hm : (struct.treeLeaves.zip values).mapM
      (fun pv => Param.new pv.2 pv.1.trainable pv.1.bijector pv.1.prior) =
      .ok ((struct.treeLeaves.zip values).map
        (fun pv => (⟨pv.2, pv.1.trainable, pv.1.bijector, pv.1.prior⟩ : Param))) := by
    apply mapM_ok
    rintro ⟨p, v⟩ hpv
    have := (List.forall₂_iff_zip.mp h).2 hpv
    exact Param.new_ok' _ _ _ _ this.1 this.2
  have hz : (struct.treeLeaves.zip values).map
        (fun pv => (⟨pv.2, pv.1.trainable, pv.1.bijector, pv.1.prior⟩ : Param)) =
      List.zipWith (fun p v => (⟨v, p.trainable, p.bijector, p.prior⟩ : Param))
        struct.treeLeaves values := by
    rw [List.zip, List.map_zipWith]
  obtain ⟨d', h1, h2, h3⟩ := Dict.treeUnflatten_spec struct
    (List.zipWith (fun p v => (⟨v, p.trainable, p.bijector, p.prior⟩ : Param))
      struct.treeLeaves values) (by simp [hlen])
  refine ⟨d', ?_, h2, h3, ?_⟩
  · unfold rebuildParams
    rw [if_neg (by simp [hlen]), hm, hz]
    simp only [bind, Except.bind, h1]
  · intro p hp
    rw [h3, ← hz] at hp
    simp only [List.mem_map] at hp
    obtain ⟨⟨q, v⟩, hqv, rfl⟩ := hp
    have := (List.forall₂_iff_zip.mp h).2 hqv
    exact this

end GPX

namespace GPX
open Spec

/-! ### ravel / unravel -/

/-- Total number of scalars in the trainable leaves. -/
def sizes (ps : List Param) : List Nat := (ps.filter (·.trainable)).map (fun p => p.value.data.length)

theorem unravelChunks_ok (ns : List Nat) (xs : List ℝ) (h : xs.length = ns.sum) :
    ∃ cs, unravelChunks ns xs = .ok cs ∧ cs.flatten = xs ∧ cs.map List.length = ns := by
  induction ns generalizing xs with
  | nil =>
    have : xs = [] := by simpa using h
    subst this
    exact ⟨[], rfl, rfl, rfl⟩
  | cons n ns ih =>
    simp only [List.sum_cons] at h
    obtain ⟨cs, h1, h2, h3⟩ := ih (xs.drop n) (by simp; omega)
    refine ⟨xs.take n :: cs, ?_, by simp [h2], by simp [h3]; omega⟩
    rw [unravelChunks, if_neg (by omega), h1]; rfl

theorem unravelChunks_err (ns : List Nat) (xs : List ℝ) (h : xs.length ≠ ns.sum) :
    unravelChunks ns xs = .error .valueError := by
  induction ns generalizing xs with
  | nil =>
    cases xs with
    | nil => simp at h
    | cons _ _ => rfl
  | cons n ns ih =>
    simp only [List.sum_cons] at h
    rw [unravelChunks]
    split
    · rfl
    · rw [ih (xs.drop n) (by simp; omega)]; rfl

theorem unravelChunks_flatMap (ls : List (List ℝ)) :
    unravelChunks (ls.map List.length) ls.flatten = .ok ls := by
  induction ls with
  | nil => rfl
  | cons l ls ih =>
    rw [List.map_cons, unravelChunks, if_neg (by simp)]
    simp [ih, bind, Except.bind, pure, Except.pure]

/-- What merging does to one leaf, given the pieces. -/
noncomputable def mergePure : List Param → List (List ℝ) → List Param
  | [], _ => []
  | p :: ps, cs =>
    if p.trainable then
      match cs with
      | [] => []
      | c :: cs => { p with value := { p.value with data := c.map p.bijector.forward } } ::
          mergePure ps cs
    else p :: mergePure ps cs

theorem mergeTrainables_ok (ps : List Param) (cs : List (List ℝ)) (hok : ∀ p ∈ ps, ParamOK p)
    (hl : cs.map List.length = sizes ps) : mergeTrainables ps cs = .ok (mergePure ps cs) := by
  induction ps generalizing cs with
  | nil => rfl
  | cons p ps ih =>
    have hp := hok p (by simp)
    by_cases ht : p.trainable = true
    · cases cs with
      | nil => simp [sizes, ht] at hl
      | cons c cs =>
        simp only [sizes, List.filter_cons, ht, if_true, List.map_cons, List.cons.injEq] at hl
        have h1 := Param.new_ok' { p.value with data := c.map p.bijector.forward } p.trainable
          p.bijector p.prior hp.1 hp.2
        have h2 := ih cs (fun q hq => hok q (by simp [hq])) hl.2
        rw [ht] at h1
        simp [mergeTrainables, mergePure, ht, h1, h2, bind, Except.bind, pure, Except.pure]
    · have h2 := ih cs (fun q hq => hok q (by simp [hq])) (by rw [hl]; simp [sizes, ht])
      simp [mergeTrainables, mergePure, ht, h2, bind, Except.bind, pure, Except.pure]

/-- Old and new leaf after an optimiser proposal: frozen leaves are identical; trainable ones keep
everything but their entries, which are forward images. -/
theorem mergePure_forall₂ (ps : List Param) (cs : List (List ℝ))
    (hl : cs.map List.length = sizes ps) :
    List.Forall₂ (fun p p' => (p.trainable = false → p' = p) ∧
      (p.trainable = true → ∃ c : List ℝ, c.length = p.value.data.length ∧
        p' = { p with value := { p.value with data := c.map p.bijector.forward } }))
      ps (mergePure ps cs) := by
  induction ps generalizing cs with
  | nil => exact .nil
  | cons p ps ih =>
    by_cases ht : p.trainable = true
    · cases cs with
      | nil => simp [sizes, ht] at hl
      | cons c cs =>
        simp only [sizes, List.filter_cons, ht, if_true, List.map_cons, List.cons.injEq] at hl
        simp only [mergePure, ht, if_true]
        exact .cons ⟨fun h => by simp [ht] at h, fun _ => ⟨c, hl.1, by rw [ht]⟩⟩ (ih cs hl.2)
    · simp only [mergePure, ht]
      exact .cons ⟨fun _ => rfl, fun h => absurd h ht⟩ (ih cs (by rw [hl]; simp [sizes, ht]))

theorem mergePure_trainables (ps : List Param) (cs : List (List ℝ))
    (hl : cs.map List.length = sizes ps) :
    ((mergePure ps cs).filter (·.trainable)).map (·.value.data) =
      List.zipWith (fun p c => c.map p.bijector.forward) (ps.filter (·.trainable)) cs := by
  induction ps generalizing cs with
  | nil => rfl
  | cons p ps ih =>
    by_cases ht : p.trainable = true
    · cases cs with
      | nil => simp [sizes, ht] at hl
      | cons c cs =>
        simp only [sizes, List.filter_cons, ht, if_true, List.map_cons, List.cons.injEq] at hl
        simp [mergePure, ht, ih cs hl.2]
    · have := ih cs (by rw [hl]; simp [sizes, ht])
      simp [mergePure, ht, this]

theorem mergePure_backward (ps : List Param) :
    List.Forall₂ (fun p p' => p' = if p.trainable then
        { p with value := p.value.map (fun x => p.bijector.forward (p.bijector.backward x)) } else p)
      ps (mergePure ps ((ps.filter (·.trainable)).map (fun p => p.value.data.map p.bijector.backward))) := by
  induction ps with
  | nil => exact .nil
  | cons p ps ih =>
    by_cases ht : p.trainable = true
    · simp only [mergePure, List.filter_cons, ht, if_true, List.map_cons]
      refine .cons ?_ ih
      simp [Arr.map, ht, Function.comp_def]
    · simp only [mergePure, List.filter_cons, ht]
      exact .cons (by simp [ht]) ih

theorem unravelForward_ok (params : Dict Param) (xt : List ℝ) (hok : ParamsOK params)
    (hl : xt.length = (sizes params.treeLeaves).sum) :
    ∃ cs d', cs.flatten = xt ∧ cs.map List.length = sizes params.treeLeaves ∧
      unravelForward params xt = .ok d' ∧
      d'.map (fun _ => ()) = params.sortKeys.map (fun _ => ()) ∧
      d'.leaves = mergePure params.treeLeaves cs := by
  obtain ⟨cs, h1, h2, h3⟩ := unravelChunks_ok _ xt hl
  have hok' : ∀ p ∈ params.treeLeaves, ParamOK p := fun p hp =>
    hok p ((mem_leaves_sortKeys _ _).mp hp)
  obtain ⟨d', h4, h5, h6⟩ := Dict.treeUnflatten_spec params (mergePure params.treeLeaves cs)
    (mergePure_forall₂ _ _ h3).length_eq.symm
  refine ⟨cs, d', h2, h3, ?_, h5, h6⟩
  have h1' : unravelChunks ((params.treeLeaves.filter (·.trainable)).map
    (fun p => p.value.data.length)) xt = .ok cs := h1
  simp only [unravelForward, h1', bind, Except.bind, mergeTrainables_ok _ _ hok' h3, h4]

/-! ### random keys -/

section random
variable {R : Type}

/-- Leaves tagged with their position and the key `randomizeLoop` uses for them. -/
def tags (nxt : R → R) : List Param → ℕ → R → List (Param × ℕ × R)
  | [], _, _ => []
  | p :: ps, i, key =>
    if p.trainable then (p, i, nxt key) :: tags nxt ps (i+1) (nxt key)
    else (p, i, key) :: tags nxt ps (i+1) key

theorem tags_fst (nxt : R → R) (ps : List Param) (i : ℕ) (key : R) :
    (tags nxt ps i key).map Prod.fst = ps := by
  induction ps generalizing i key with
  | nil => rfl
  | cons p ps ih => rw [tags]; split <;> simp [ih]

theorem tags_idx (nxt : R → R) (ps : List Param) (i : ℕ) (key : R) :
    ∀ t ∈ tags nxt ps i key, i ≤ t.2.1 := by
  induction ps generalizing i key with
  | nil => simp [tags]
  | cons p ps ih =>
    intro t ht
    rw [tags] at ht
    split at ht
    · rcases List.mem_cons.mp ht with rfl | ht
      · exact le_refl _
      · exact (Nat.le_succ i).trans (ih _ _ t ht)
    · rcases List.mem_cons.mp ht with rfl | ht
      · exact le_refl _
      · exact (Nat.le_succ i).trans (ih _ _ t ht)

theorem tags_nodup (nxt : R → R) (ps : List Param) (i : ℕ) (key : R) : (tags nxt ps i key).Nodup := by
  induction ps generalizing i key with
  | nil => simp [tags]
  | cons p ps ih =>
    rw [tags]
    split
    · refine List.nodup_cons.mpr ⟨fun h => ?_, ih _ _⟩
      have := tags_idx nxt ps (i+1) _ _ h
      simp at this
    · refine List.nodup_cons.mpr ⟨fun h => ?_, ih _ _⟩
      have := tags_idx nxt ps (i+1) _ _ h
      simp at this

theorem tags_key (nxt : R → R) (ps : List Param) (i : ℕ) (key : R) :
    ∀ t ∈ tags nxt ps i key, t.1.trainable = true →
      ∃ c < ps.length, t.2.2 = nxt^[c + 1] key := by
  induction ps generalizing i key with
  | nil => simp [tags]
  | cons p ps ih =>
    intro t ht htr
    rw [tags] at ht
    split at ht
    · rcases List.mem_cons.mp ht with rfl | ht
      · exact ⟨0, by simp, rfl⟩
      · obtain ⟨c, hc, e⟩ := ih _ _ t ht htr
        exact ⟨c + 1, by simpa using hc, by rw [e]; rfl⟩
    · rename_i hp
      rcases List.mem_cons.mp ht with rfl | ht
      · exact absurd htr hp
      · obtain ⟨c, hc, e⟩ := ih _ _ t ht htr
        exact ⟨c, by simp; omega, e⟩

theorem tags_pairwise (nxt : R → R) (ps : List Param) (i : ℕ) (key : R)
    (hinj : ∀ a ≤ ps.length, ∀ b ≤ ps.length, nxt^[a] key = nxt^[b] key → a = b) :
    (tags nxt ps i key).Pairwise (fun t t' => t.1.trainable = true → t'.1.trainable = true →
      t.2.2 ≠ t'.2.2) := by
  induction ps generalizing i key with
  | nil => simp [tags]
  | cons p ps ih =>
    rw [tags]
    split
    · rename_i hp
      refine List.pairwise_cons.mpr ⟨?_, ih _ _ ?_⟩
      · intro t ht _ htr e
        obtain ⟨c, hc, e'⟩ := tags_key nxt ps _ _ t ht htr
        simp only at e
        rw [e'] at e
        have : nxt^[1] key = nxt^[c + 1 + 1] key := e
        have := hinj 1 (by simp) (c+1+1) (by simp; omega) this
        omega
      · intro a ha b hb e
        have := hinj (a+1) (by simp; omega) (b+1) (by simp; omega) e
        omega
    · rename_i hp
      refine List.pairwise_cons.mpr ⟨?_, ih _ _ ?_⟩
      · intro t ht h1; exact absurd h1 hp
      · intro a ha b hb e
        exact hinj a (by simp; omega) b (by simp; omega) e

theorem randomizeLoop_forall₂ (nxt : R → R) (sample : PriorObj → R → Arr) (ps : List Param) (i : ℕ)
    (key : R) :
    List.Forall₂ (fun t v => v = if t.1.trainable then
        (sample t.1.prior t.2.2).map t.1.bijector.forward else t.1.value)
      (tags nxt ps i key) (randomizeLoop nxt sample ps key).1 := by
  induction ps generalizing i key with
  | nil => exact .nil
  | cons p ps ih =>
    rw [tags, randomizeLoop]
    split
    · rename_i hp
      exact .cons (by simp [hp]) (ih _ _)
    · rename_i hp
      exact .cons (by simp [hp]) (ih _ _)

end random

/-! ### paths to leaves -/

theorem item_mem_leaves {α : Type} (d : Dict α) (k : Key) (x : α ⊕ Dict α) (h : d.get? k = some x) :
    ∀ a ∈ Dict.itemLeaves x, a ∈ d.leaves := by
  induction d using Dict.consInduction with
  | h0 => simp [Dict.get?] at h
  | h1 k0 z r ih =>
    rw [Dict.get?_cons] at h
    rw [Dict.leaves_cons]
    intro a ha
    split at h
    · simp only [Option.some.injEq] at h; subst h; simp [ha]
    · simp [ih h a ha]

theorem items_disjoint {α : Type} (d : Dict α) (hn : d.leaves.Nodup) (k k' : Key) (hne : k ≠ k')
    (x y : α ⊕ Dict α) (hx : d.get? k = some x) (hy : d.get? k' = some y) :
    ∀ a ∈ Dict.itemLeaves x, a ∉ Dict.itemLeaves y := by
  induction d using Dict.consInduction with
  | h0 => simp [Dict.get?] at hx
  | h1 k0 z r ih =>
    rw [Dict.leaves_cons, List.nodup_append] at hn
    rw [Dict.get?_cons] at hx hy
    intro a ha hb
    split at hx <;> split at hy
    · simp_all
    · simp only [Option.some.injEq] at hx; subst hx
      exact hn.2.2 a ha a (item_mem_leaves r k' y hy a hb) rfl
    · simp only [Option.some.injEq] at hy; subst hy
      exact hn.2.2 a hb a (item_mem_leaves r k x hx a ha) rfl
    · exact ih hn.2.1 hx hy a ha hb

theorem item_nodup {α : Type} (d : Dict α) (hn : d.leaves.Nodup) (k : Key) (x : α ⊕ Dict α)
    (h : d.get? k = some x) : (Dict.itemLeaves x).Nodup := by
  induction d using Dict.consInduction with
  | h0 => simp [Dict.get?] at h
  | h1 k0 z r ih =>
    rw [Dict.leaves_cons, List.nodup_append] at hn
    rw [Dict.get?_cons] at h
    split at h
    · simp only [Option.some.injEq] at h; subst h; exact hn.1
    · exact ih hn.2.1 h

theorem lookup_mem {α : Type} (path : List Key) (d : Dict α) (a : α)
    (h : lookup path d = some (.inl a)) : a ∈ d.leaves := by
  induction path generalizing d with
  | nil => simp [lookup] at h
  | cons k ks ih =>
    rw [lookup] at h
    rcases e : d.get? k with _ | b | s <;> rw [e] at h <;> simp only at h
    · cases h
    · split at h
      · simp only [Option.some.injEq, Sum.inl.injEq] at h
        subst h
        exact item_mem_leaves d k _ e b (by simp [Dict.itemLeaves])
      · cases h
    · exact item_mem_leaves d k _ e a (ih s h)

theorem lookup_inj {α : Type} (p1 p2 : List Key) (d : Dict α) (hn : d.leaves.Nodup) (a : α)
    (h1 : lookup p1 d = some (.inl a)) (h2 : lookup p2 d = some (.inl a)) : p1 = p2 := by
  induction p1 generalizing d p2 with
  | nil => simp [lookup] at h1
  | cons k ks ih =>
    cases p2 with
    | nil => simp [lookup] at h2
    | cons k' ks' =>
      rw [lookup] at h1 h2
      have key : ∀ (q : Key) (qs : List Key) (x : α ⊕ Dict α), d.get? q = some x →
          (match d.get? q with
            | none => none
            | some (.inl a) => if qs = [] then some (.inl a) else none
            | some (.inr s) => lookup qs s) = some (Sum.inl a) → a ∈ Dict.itemLeaves x := by
        intro q qs x hx h
        rw [hx] at h
        rcases x with b | s
        · simp only at h
          split at h
          · simp only [Option.some.injEq, Sum.inl.injEq] at h; subst h; simp [Dict.itemLeaves]
          · cases h
        · exact lookup_mem qs s a h
      rcases e1 : d.get? k with _ | x
      · rw [e1] at h1; cases h1
      rcases e2 : d.get? k' with _ | y
      · rw [e2] at h2; cases h2
      by_cases hk : k = k'
      · subst hk
        rw [e1] at e2; cases e2
        rw [e1] at h1 h2
        rcases x with b | s
        · simp only at h1 h2
          split at h1 <;> split at h2 <;> simp_all
        · rw [ih ks' s (item_nodup d hn k _ e1) h1 h2]
      · exact absurd (key k' ks' y e2 h2) (items_disjoint d hn k k' hk x y e1 e2 a (key k ks x e1 h1))

end GPX
