import Verif.Lemmas.Print

/-!
# C137: the printed table lists every parameter once

`model.print()` prints a table of the parameters of the model.
-/

namespace GPX.Props
open GPX GPX.Spec
variable {K M C : Type}

theorem new_params {kernel : K} {mean : M} {params : Dict Param} {kw : List (Key × OptVal C)}
    {s : ModelState K M C} (h : ModelState.new kernel mean params kw = .ok s) :
    s.params = params.sortKeys := by
  have hok : ParamsOK params := by
    intro p hp
    have h1 : ∀ (d d' : Dict Param), d.mapE (fun p => Param.new p.value p.trainable p.bijector p.prior) = .ok d' →
        ∀ p ∈ d.leaves, ParamOK p := by
      intro d
      induction d with
      | nil => intro d' _ p hp; cases hp
      | leaf k a r ih =>
        intro d' hd' p hp
        rw [Dict.mapE] at hd'
        rcases e1 : Param.new a.value a.trainable a.bijector a.prior with e | b
        · rw [e1] at hd'; cases hd'
        · rw [e1] at hd'
          rcases e2 : r.mapE (fun p => Param.new p.value p.trainable p.bijector p.prior) with e | r'
          · rw [e2] at hd'; cases hd'
          · rcases List.mem_cons.mp hp with rfl | hp
            · have := Param.new_paramOK e1
              unfold Param.new at e1
              split at e1
              · cases e1
              · split at e1
                · cases e1
                · rename_i h1 h2
                  exact ⟨not_not.mp h1, not_not.mp h2⟩
            · exact ih r' e2 p hp
      | node k s r ih1 ih =>
        intro d' hd' p hp
        rw [Dict.mapE] at hd'
        rcases e1 : s.mapE (fun p => Param.new p.value p.trainable p.bijector p.prior) with e | b
        · rw [e1] at hd'; cases hd'
        · rw [e1] at hd'
          rcases e2 : r.mapE (fun p => Param.new p.value p.trainable p.bijector p.prior) with e | r'
          · rw [e2] at hd'; cases hd'
          · rcases List.mem_append.mp hp with hp | hp
            · exact ih1 b e1 p hp
            · exact ih r' e2 p hp
    unfold ModelState.new at h
    rcases e : params.sortKeys.mapE (fun p => Param.new p.value p.trainable p.bijector p.prior) with e' | d
    · rw [e] at h; cases h
    · exact h1 _ _ e p ((mem_leaves_sortKeys _ _).mpr hp)
  rw [ModelState.new_ok _ _ _ _ hok] at h
  cases h
  rfl

/-- The table printed for a state lists each of its parameters exactly once: kernel parameters first,
as `kernel a:b`, then the others by name, both groups in alphabetical order of the keys. Each row
shows the flag, bijector, prior, dtype, shape and value of that parameter. -/
theorem C137_table (kernel : K) (mean : M) (params : Dict Param) (kw : List (Key × OptVal C))
    (s : ModelState K M C) (hs : ModelState.new kernel mean params kw = .ok s)
    (hd : params.KeysDistinct) (hshape : ModelShaped params) :
    ∃ (rows : List ParamRow) (entries : List (List Key × Param)),
      s.printParams = .ok rows ∧
      List.Forall₂ (fun row q => Shows row (rowName q.1) q.2) rows entries ∧
      (∀ path p, (path, p) ∈ entries ↔ lookup path params = some (.inl p)) ∧
      (entries.map Prod.fst).Pairwise TableOrder := by
  have hp := new_params hs
  obtain ⟨h1, h2⟩ := hshape
  have hk : s.params.KeysDistinct := by rw [hp]; exact (Dict.keysDistinct_sortKeys _).mpr hd
  have hsort : s.params.Sorted := by rw [hp]; exact Dict.sorted_sortKeys _
  have hl : ∀ path, lookup path s.params = lookup path params := by
    intro path; rw [hp, lookup_sortKeys]
  have hgk : ∃ kp, s.params.get? kernelParamsKey = some (.inr kp) := by
    have := h1
    rw [← hl] at this
    rw [lookup] at this
    show ∃ kp, s.params.get? "kernel_params".toList = some (.inr kp)
    rcases e : s.params.get? "kernel_params".toList with _ | a | kp
    · rw [e] at this; cases this
    · rw [e] at this; simp at this
    · exact ⟨kp, rfl⟩
  obtain ⟨kp, hkp⟩ := hgk
  have hkpd : kp.KeysDistinct := Dict.get?_distinct _ hk _ _ hkp
  have hwd := Dict.without_distinct kernelParamsKey _ hk
  have hflat : ∀ k t, (s.params.without kernelParamsKey).get? k ≠ some (.inr t) := by
    intro k t ht
    rw [Dict.get?_without _ _ _ hk] at ht
    split at ht
    · cases ht
    · rename_i hne
      refine h2 k hne ?_
      rw [← hl, lookup, ht]
      rfl
  obtain ⟨ho1, ho2⟩ := otherRows_flat _ hflat hwd
  have hkey : ∀ q ∈ (s.params.without kernelParamsKey).leavesWithPath [],
      ∃ k, q.1 = [k] ∧ k ≠ kernelParamsKey := by
    intro q hq
    obtain ⟨k, ks, e, hm⟩ := Dict.mem_keys_of_leavesWithPath _ _ hq
    have := ho2 q hq
    rw [e] at this
    have hks : ks = [] := by
      cases ks with
      | nil => rfl
      | cons a b => simp at this
    subst hks
    refine ⟨k, e, ?_⟩
    rintro rfl
    have hn := Dict.get?_without kernelParamsKey kernelParamsKey _ hk
    rw [if_pos rfl, Dict.get?_eq_none] at hn
    exact hn hm
  refine ⟨kp.treeLeavesWithPath.map (fun q => ParamRow.of (kernelWord ++ colonJoin q.1) q.2) ++
    ((s.params.without kernelParamsKey).leavesWithPath []).map (fun q => ParamRow.of (q.1.headD []) q.2),
    (kp.sortKeys.leavesWithPath []).map (fun q => (kernelParamsKey :: q.1, q.2)) ++
    (s.params.without kernelParamsKey).leavesWithPath [], ?_, ?_, ?_, ?_⟩
  · rw [ModelState.printParams, hkp]
    show (do
      let rows ← otherRows (s.params.without kernelParamsKey)
      pure (kp.treeLeavesWithPath.map (fun q : List Key × Param => ParamRow.of (kernelWord ++ colonJoin q.1) q.2) ++ rows)) = _
    rw [ho1]
    rfl
  · refine List.rel_append ?_ ?_
    · rw [List.forall₂_map_left_iff, List.forall₂_map_right_iff, Dict.treeLeavesWithPath]
      refine List.forall₂_same.mpr (fun q _ => ?_)
      refine ⟨?_, rfl, rfl, rfl, rfl, rfl, rfl⟩
      show kernelWord ++ colonJoin q.1 = rowName (kernelParamsKey :: q.1)
      rw [rowName_kernel, colonJoin_eq]
    · rw [List.forall₂_map_left_iff]
      refine List.forall₂_same.mpr (fun q hq => ?_)
      obtain ⟨k, e, hne⟩ := hkey q hq
      refine ⟨?_, rfl, rfl, rfl, rfl, rfl, rfl⟩
      show q.1.headD [] = rowName q.1
      rw [e, rowName_other _ _ hne]
      rfl
  · intro path p
    rw [← hl, List.mem_append, Dict.mem_leavesWithPath _ hwd]
    cases path with
    | nil => simp [lookup]
    | cons k ks =>
      by_cases hne : k = kernelParamsKey
      · subst hne
        rw [lookup, lookup, Dict.get?_without _ _ _ hk, if_pos rfl, hkp]
        simp only [reduceCtorEq, or_false]
        rw [← lookup_sortKeys, ← Dict.mem_leavesWithPath _ ((Dict.keysDistinct_sortKeys _).mpr hkpd)]
        simp
      · rw [lookup, lookup, Dict.get?_without _ _ _ hk, if_neg hne]
        constructor
        · rintro (h | h)
          · obtain ⟨q, _, hq⟩ := List.mem_map.mp h
            simp only [Prod.mk.injEq, List.cons.injEq] at hq
            exact absurd hq.1.1.symm hne
          · exact h
        · exact Or.inr
  · rw [List.map_append, List.pairwise_append]
    refine ⟨?_, ?_, ?_⟩
    · have := Dict.leavesWithPath_sorted kp.sortKeys (Dict.sorted_sortKeys _)
        ((Dict.keysDistinct_sortKeys _).mpr hkpd)
      rw [List.map_map]
      rw [List.pairwise_map] at this ⊢
      exact this.imp (fun h => Or.inr ⟨by simp, List.Lex.cons h⟩)
    · have := Dict.leavesWithPath_sorted _ (Dict.without_sorted kernelParamsKey _ hsort) hwd
      rw [List.pairwise_map] at this ⊢
      refine this.imp_of_mem (fun {a b} ha hb h => Or.inr ⟨?_, h⟩)
      obtain ⟨k, e, hne⟩ := hkey a ha
      obtain ⟨k', e', hne'⟩ := hkey b hb
      rw [e, e']
      constructor
      · intro hh; exact absurd (Option.some.inj hh) hne
      · intro hh; exact absurd (Option.some.inj hh) hne'
    · intro p hpm q hqm
      obtain ⟨a, ha, rfl⟩ := List.mem_map.mp hpm
      obtain ⟨a', _, rfl⟩ := List.mem_map.mp ha
      obtain ⟨b, hb, rfl⟩ := List.mem_map.mp hqm
      obtain ⟨k, e, hne⟩ := hkey b hb
      refine Or.inl ⟨rfl, ?_⟩
      rw [e]
      intro hh
      exact hne (Option.some.inj hh)

/-- No two rows have the same name, when keys are free of `":"` and no parameter outside the kernel is
called `kernel …`. -/
theorem C137_names (kernel : K) (mean : M) (params : Dict Param) (kw : List (Key × OptVal C))
    (s : ModelState K M C) (hs : ModelState.new kernel mean params kw = .ok s)
    (hd : params.KeysDistinct) (hshape : ModelShaped params)
    (hcolon : ∀ path p, lookup path params = some (.inl p) → ∀ k ∈ path, ':' ∉ k)
    (hword : ∀ k p, lookup [k] params = some (.inl p) → ¬ "kernel ".toList <+: k)
    (rows : List ParamRow) (hr : s.printParams = .ok rows) : (rows.map ParamRow.name).Nodup := by
  obtain ⟨rows', entries, e, h2, hmem, hord⟩ := C137_table kernel mean params kw s hs hd hshape
  rw [e] at hr
  cases hr
  have hnames : rows.map ParamRow.name = entries.map (fun q => rowName q.1) := by
    clear e hmem hord
    induction h2 with
    | nil => rfl
    | cons h _ ih => rw [List.map_cons, List.map_cons, ih, h.1]
  rw [hnames]
  have hirr : ∀ p q : List Key, TableOrder p q → p ≠ q := by
    rintro p q (h | h) rfl
    · exact h.2 h.1
    · exact List.lt_irrefl _ h.2
  have hkplook : ∀ p, lookup [kernelParamsKey] params ≠ some (.inl p) := by
    intro p hh
    have := hshape.1
    rw [show ("kernel_params".toList : Key) = kernelParamsKey from rfl, hh] at this
    cases this
  rw [List.Nodup, List.pairwise_map]
  rw [List.pairwise_map] at hord
  refine hord.imp_of_mem (fun {a b} ha hb hab heq => hirr _ _ hab ?_)
  have la := (hmem a.1 a.2).mp ha
  have lb := (hmem b.1 b.2).mp hb
  obtain ⟨pa, va⟩ := a
  obtain ⟨pb, vb⟩ := b
  simp only at la lb heq ⊢
  -- a path outside the kernel has length one
  have hsingle : ∀ (k : Key) (ks : List Key) (p : Param), k ≠ kernelParamsKey →
      lookup (k :: ks) params = some (.inl p) → ks = [] := by
    intro k ks p hne h
    by_contra hks
    rw [lookup] at h
    rcases e : params.get? k with _ | x | t
    · rw [e] at h; cases h
    · rw [e] at h; simp [hks] at h
    · refine hshape.2 k hne ?_
      rw [lookup, e]
      rfl
  have hjoin : ∀ (k k' : Key) (ks ks' : List Key) (p p' : Param),
      lookup (kernelParamsKey :: k :: ks) params = some (.inl p) →
      lookup (kernelParamsKey :: k' :: ks') params = some (.inl p') →
      List.intercalate [':'] (k :: ks) = List.intercalate [':'] (k' :: ks') → k :: ks = k' :: ks' := by
    intro k k' ks ks' p p' h h' hi
    rw [← colonJoin_eq, ← colonJoin_eq, colonJoin_joinPath, colonJoin_joinPath] at hi
    exact joinPath_injective _ _ (by simp) (by simp)
      (fun q hq => hcolon _ _ h q (List.mem_cons_of_mem _ hq))
      (fun q hq => hcolon _ _ h' q (List.mem_cons_of_mem _ hq)) hi
  cases pa with
  | nil => simp [lookup] at la
  | cons k ks =>
    cases pb with
    | nil => simp [lookup] at lb
    | cons k' ks' =>
      by_cases h1 : k = kernelParamsKey <;> by_cases h3 : k' = kernelParamsKey
      · subst h1 h3
        rw [rowName_kernel, rowName_kernel] at heq
        have heq := List.append_cancel_left heq
        cases ks with
        | nil => exact absurd la (hkplook va)
        | cons q qs =>
          cases ks' with
          | nil => exact absurd lb (hkplook vb)
          | cons q' qs' => rw [hjoin q q' qs qs' va vb la lb heq]
      · subst h1
        have := hsingle k' ks' vb h3 lb
        subst this
        rw [rowName_kernel, rowName_other _ _ h3] at heq
        exact absurd ⟨_, heq⟩ (hword k' vb lb)
      · subst h3
        have := hsingle k ks va h1 la
        subst this
        rw [rowName_kernel, rowName_other _ _ h1] at heq
        exact absurd ⟨_, heq.symm⟩ (hword k va la)
      · have e1 := hsingle k ks va h1 la
        have e2 := hsingle k' ks' vb h3 lb
        subst e1 e2
        rw [rowName_other _ _ h1, rowName_other _ _ h3] at heq
        rw [heq]

/-- The table does not depend on the order in which the parameters were given. -/
theorem C137_order (kernel : K) (mean : M) (params params' : Dict Param) (kw : List (Key × OptVal C))
    (s s' : ModelState K M C) (hs : ModelState.new kernel mean params kw = .ok s)
    (hs' : ModelState.new kernel mean params' kw = .ok s')
    (hd : params.KeysDistinct) (hd' : params'.KeysDistinct) (hsame : SameDict params params') :
    s.printParams = s'.printParams := by
  have h : params.sortKeys = params'.sortKeys := by
    have hrel := rel_of_atEveryPath (R := fun a b : Param => a = b) params.sortKeys params'.sortKeys
      (Dict.sorted_sortKeys _) (Dict.sorted_sortKeys _) ((Dict.keysDistinct_sortKeys _).mpr hd)
      ((Dict.keysDistinct_sortKeys _).mpr hd') (by
        intro path
        rw [lookup_sortKeys, lookup_sortKeys, hsame path]
        rcases lookup path params' with _ | a | a <;> trivial)
    have hgen : ∀ (d d' : Dict Param), Dict.Rel (fun a b : Param => a = b) d d' → d = d' := by
      intro d d' h
      induction h with
      | nil => rfl
      | leaf hab _ ih => rw [hab, ih]
      | node _ _ ih1 ih => rw [ih1, ih]
    exact hgen _ _ hrel
  rw [ModelState.printParams, ModelState.printParams, new_params hs, new_params hs', h]

/-- Without a `kernel_params` entry, printing raises `KeyError`. -/
theorem C137_no_kernel_params (s : ModelState K M C)
    (h : lookup ["kernel_params".toList] s.params = none) : s.printParams = .error .keyError := by
  rw [lookup] at h
  have : s.params.get? kernelParamsKey = none := by
    show s.params.get? "kernel_params".toList = none
    rcases e : s.params.get? "kernel_params".toList with _ | a | t
    · rfl
    · rw [e] at h; simp at h
    · rw [e] at h; cases h
  rw [ModelState.printParams, this]

/-- With another dictionary beside `kernel_params`, printing raises `AttributeError`. -/
theorem C137_nested (s : ModelState K M C) (hd : s.params.KeysDistinct)
    (h : lookup ["kernel_params".toList] s.params ≠ none) (k : Key) (hne : k ≠ "kernel_params".toList)
    (hk : lookup [k] s.params = some (.inr ())) : s.printParams = .error .attributeError := by
  have hg : ∃ t, (s.params.without kernelParamsKey).get? k = some (.inr t) := by
    rw [Dict.get?_without _ _ _ hd, if_neg (show ¬ k = kernelParamsKey from hne)]
    rw [lookup] at hk
    rcases e : s.params.get? k with _ | a | t
    · rw [e] at hk; cases hk
    · rw [e] at hk; simp at hk
    · exact ⟨t, rfl⟩
  obtain ⟨t, ht⟩ := hg
  have ho := otherRows_nested _ _ _ ht
  rw [ModelState.printParams]
  rcases e : s.params.get? kernelParamsKey with _ | a | t
  · refine absurd ?_ h
    have e' : s.params.get? "kernel_params".toList = none := e
    rw [lookup, e']
  · show (do
      let rows ← otherRows (s.params.without kernelParamsKey)
      pure (ParamRow.of kernelWord a :: rows)) = _
    rw [ho]; rfl
  · show (do
      let rows ← otherRows (s.params.without kernelParamsKey)
      pure (t.treeLeavesWithPath.map (fun q : List Key × Param => ParamRow.of (kernelWord ++ colonJoin q.1) q.2) ++ rows)) = _
    rw [ho]; rfl

/-! ### Cases that meet the hypotheses -/

/-- A positive scalar parameter. -/
noncomputable def printParam (x : ℝ) : Param := ⟨⟨[], "float64".toList, [x]⟩, true, .softplus, ⟨.normal 0 1, [], "float64".toList⟩⟩

/-- Two kernels added, with a noise. -/
noncomputable def printDict : Dict Param :=
  .leaf "sigma".toList (printParam 1)
    (.node "kernel_params".toList
      (.node "kernel2".toList (.leaf "lengthscale".toList (printParam 2) .nil)
        (.node "kernel1".toList (.leaf "lengthscale".toList (printParam 3) .nil) .nil)) .nil)

theorem printDict_ok : ParamsOK printDict := by
  intro p hp
  simp only [printDict, Dict.leaves, List.mem_cons, List.mem_append, List.not_mem_nil, or_false] at hp
  rcases hp with rfl | rfl | rfl <;> exact ⟨rfl, rfl⟩

theorem printDict_distinct : printDict.KeysDistinct := by
  simp only [printDict, Dict.KeysDistinct, Dict.keys]
  decide

theorem printDict_shaped : ModelShaped printDict := by
  refine ⟨rfl, fun k hk => ?_⟩
  by_cases h : k = "sigma".toList
  · subst h; simp [lookup, printDict, Dict.get?]
  · have h1 : printDict.get? k = none := by
      rw [printDict, Dict.get?, if_neg h, Dict.get?, if_neg hk, Dict.get?]
    rw [lookup, h1]
    simp

/-- The state of a model with a sum of two kernels; its table has three rows. -/
example : ∃ s : ModelState Unit Unit Unit, ModelState.new () () printDict [] = .ok s ∧
    printDict.KeysDistinct ∧ ModelShaped printDict ∧
    ∃ rows, s.printParams = .ok rows ∧ rows.map ParamRow.name =
      ["kernel kernel1:lengthscale".toList, "kernel kernel2:lengthscale".toList, "sigma".toList] ∧
      rows.map ParamRow.value = [[3], [2], [1]] := by
  refine ⟨_, ModelState.new_ok _ _ _ _ printDict_ok, printDict_distinct, printDict_shaped, _, rfl, ?_, ?_⟩
  · rfl
  · rfl

/-- The hypotheses on names hold of that state. -/
example : (∀ path p, lookup path printDict = some (.inl p) → ∀ k ∈ path, ':' ∉ k) ∧
    ∀ k p, lookup [k] printDict = some (.inl p) → ¬ "kernel ".toList <+: k := by
  have hm : ∀ path p, lookup path printDict = some (.inl p) →
      path ∈ [["sigma".toList], ["kernel_params".toList, "kernel2".toList, "lengthscale".toList],
        ["kernel_params".toList, "kernel1".toList, "lengthscale".toList]] := by
    intro path p h
    have := (Dict.mem_leavesWithPath _ printDict_distinct path p).mpr h
    have := List.mem_map_of_mem (f := Prod.fst) this
    exact this
  refine ⟨fun path p h => ?_, fun k p h => ?_⟩
  · have := hm path p h
    revert path
    intro path _ h
    have hall : ∀ q ∈ [["sigma".toList], ["kernel_params".toList, "kernel2".toList, "lengthscale".toList],
        ["kernel_params".toList, "kernel1".toList, "lengthscale".toList]], ∀ k ∈ q, ':' ∉ k := by decide
    exact hall path h
  · have := hm [k] p h
    simp only [List.mem_cons, List.cons.injEq, List.not_mem_nil, or_false, and_true, reduceCtorEq, and_false] at this
    subst this
    decide

/-- A kernel with a parameter `a:b` beside the parameter `b` of its part `a`. -/
noncomputable def clashDict : Dict Param :=
  .node "kernel_params".toList (.node "a".toList (.leaf "b".toList (printParam 1) .nil)
    (.leaf "a:b".toList (printParam 2) .nil)) .nil

/-- Names with `":"` can clash: two parameters of the kernel are both listed as `kernel a:b`. -/
example : ∃ (s : ModelState Unit Unit Unit) (rows : List ParamRow) (r1 r2 : ParamRow),
    s.params.KeysDistinct ∧ ModelShaped s.params ∧ s.printParams = .ok rows ∧ rows = [r1, r2] ∧
      r1.name = "kernel a:b".toList ∧ r2.name = "kernel a:b".toList ∧ r1.value ≠ r2.value := by
  refine ⟨⟨(), (), clashDict, []⟩, _, ParamRow.of "kernel a:b".toList (printParam 1),
    ParamRow.of "kernel a:b".toList (printParam 2), ?_, ⟨rfl, fun k hk => ?_⟩, rfl, ?_, rfl, rfl, ?_⟩
  · simp only [clashDict, Dict.KeysDistinct, Dict.keys]; decide
  · rw [lookup, show Dict.get? k clashDict = none by rw [clashDict, Dict.get?, if_neg hk, Dict.get?]]
    simp
  · rfl
  · show [(1 : ℝ)] ≠ [2]
    simp

end GPX.Props
