import Verif.Lemmas.Params

/-! Helper lemmas: what `save` writes and what `load` reads back. -/

namespace GPX
open Spec
variable {α β : Type}

theorem paramsKey_good : ':' ∉ paramsKey ∧ paramsKey ≠ [] := by decide
theorem kernelParamsKey_good : ':' ∉ kernelParamsKey ∧ kernelParamsKey ≠ [] := by decide
theorem paramsKey_length : paramsKey.length = 6 := by decide
theorem kernelParamsKey_length : kernelParamsKey.length = 13 := by decide
theorem paramsKey_not_cached : cachedString paramsKey = false := by decide
theorem null_good : ':' ∉ nullKey ∧ nullKey ≠ [] := by decide

/-- Paths written by `_flatten_dict`, including the marker of an empty dictionary. -/
def pathsE (pyNone : β) (mv : α → β) (d : Dict α) : List (List Key × β) :=
  match d with
  | .nil => [([nullKey], pyNone)]
  | d => paths pyNone mv d

theorem pathsE_ne (pyNone : β) (mv : α → β) (d : Dict α) (hd : d ≠ .nil) :
    pathsE pyNone mv d = paths pyNone mv d := by
  cases d with
  | nil => exact absurd rfl hd
  | leaf _ _ _ => rfl
  | node _ _ _ => rfl

theorem paths_node_single (pyNone : β) (mv : α → β) (k : Key) (s : Dict α) :
    paths pyNone mv (.node k s .nil) = (pathsE pyNone mv s).map (fun q => (k :: q.1, q.2)) := by
  by_cases hs : s = .nil
  · subst hs; simp [paths, pathsE]
  · rw [paths_node _ _ _ _ _ hs, pathsE_ne _ _ _ hs]; simp [paths]

/-- `_flatten_dict(d, starting_key=":".join(pre))` writes the paths below `pre`. -/
theorem flattenDict_pathsE (pyNone : β) (mv : α → β) (d : Dict α) (hw : WellKeyed d)
    (hk : d.KeysDistinct) (pre : List Key) (hpre : ∀ k ∈ pre, ':' ∉ k ∧ k ≠ []) :
    flattenDict pyNone mv (joinPath pre) d =
      (pathsE pyNone mv d).map (fun q => (joinPath (pre ++ q.1), q.2)) := by
  by_cases hd : d = .nil
  · subst hd
    simp only [flattenDict, pathsE, assocSet, List.map_cons, List.map_nil]
    have := pyJoin_joinPath pre [nullKey] (fun k hk => (hpre k hk).2) (by simp)
    simp only [joinPath] at this
    rw [this]
  · rw [flattenDict_eq _ _ _ _ hd, flattenItems_paths pyNone mv d hw hk pre hpre, pathsE_ne _ _ _ hd]

theorem pathsE_ne_nil (pyNone : β) (mv : α → β) (d : Dict α) :
    ∀ q ∈ pathsE pyNone mv d, q.1 ≠ [] := by
  by_cases hd : d = .nil
  · subst hd; simp [pathsE]
  · rw [pathsE_ne _ _ _ hd]; exact paths_ne_nil _ _ _

theorem pathsE_colon (pyNone : β) (mv : α → β) (d : Dict α) (hd : WellKeyed d) :
    ∀ q ∈ pathsE pyNone mv d, ∀ k ∈ q.1, ':' ∉ k := by
  by_cases hd' : d = .nil
  · subst hd'; simp [pathsE, colon_not_in_null]
  · rw [pathsE_ne _ _ _ hd']; exact paths_colon_free _ _ _ hd

theorem pathsE_nodup (pyNone : β) (mv : α → β) (d : Dict α) (hd : d.KeysDistinct) :
    ((pathsE pyNone mv d).map Prod.fst).Nodup := by
  by_cases hd' : d = .nil
  · subst hd'; simp [pathsE]
  · rw [pathsE_ne _ _ _ hd']; exact paths_nodup _ _ _ hd

theorem pathsE_head (pyNone : β) (mv : α → β) (d : Dict α) :
    ∀ q ∈ pathsE pyNone mv d, ∃ k ks, q.1 = k :: ks ∧ (k ∈ d.keys ∨ k = nullKey) := by
  by_cases hd : d = .nil
  · subst hd; intro q hq; simp [pathsE] at hq; subst hq; exact ⟨nullKey, [], rfl, Or.inr rfl⟩
  · rw [pathsE_ne _ _ _ hd]
    intro q hq
    obtain ⟨k, ks, h1, h2⟩ := paths_head _ _ _ q hq
    exact ⟨k, ks, h1, Or.inl h2⟩

/-- A flat list of items as a dictionary of leaves. -/
def leafDict : List (Key × β) → Dict β
  | [] => .nil
  | kv :: r => .leaf kv.1 kv.2 (leafDict r)

theorem leafDict_keys (l : List (Key × β)) : (leafDict l).keys = l.map Prod.fst := by
  induction l with
  | nil => rfl
  | cons x l ih => simp [leafDict, Dict.keys, ih]

theorem leafDict_distinct (l : List (Key × β)) (h : (l.map Prod.fst).Nodup) :
    (leafDict l).KeysDistinct := by
  induction l with
  | nil => trivial
  | cons x l ih =>
    simp only [List.map_cons, List.nodup_cons] at h
    exact ⟨by rw [leafDict_keys]; exact h.1, ih h.2⟩

theorem leafDict_wellKeyed (l : List (Key × β)) (h : ∀ kv ∈ l, goodKey kv.1 ∧ kv.1 ≠ nullKey) :
    WellKeyed (leafDict l) := by
  induction l with
  | nil => trivial
  | cons x l ih =>
    have := h x (by simp)
    exact ⟨this.1, by rw [nullKey_eq]; exact this.2, ih (fun y hy => h y (by simp [hy]))⟩

theorem leafDict_noShadow (l : List (Key × β)) : NoShortShadow (leafDict l) := by
  induction l with
  | nil => trivial
  | cons x l ih => exact ih

theorem leafDict_paths (pyNone : β) (l : List (Key × β)) :
    paths pyNone id (leafDict l) = l.map (fun kv => ([kv.1], kv.2)) := by
  induction l with
  | nil => rfl
  | cons x l ih => simp [leafDict, paths, ih]

theorem leafDict_map_id (l : List (Key × β)) : (leafDict l).map id = leafDict l := map_id_dict _

theorem topItems_leafDict (l : List (Key × β)) : topItems (leafDict l) = .ok l := by
  induction l with
  | nil => rfl
  | cons x l ih => simp [leafDict, topItems, ih, bind, Except.bind, pure, Except.pure]

variable {K M C : Type}

theorem dumpOpts_keys (l : List (Key × OptVal C)) :
    ((dumpOpts l).map Prod.fst).Sublist (l.map Prod.fst) := by
  induction l with
  | nil => simp [dumpOpts]
  | cons x l ih =>
    obtain ⟨k, v⟩ := x
    cases v <;> simp only [dumpOpts, List.map_cons]
    · exact ih.cons_cons k
    · exact ih.cons_cons k
    · exact ih.cons_cons k
    · exact ih.cons_cons k
    · exact ih.cons k

/-- What the file keeps of one option: callables are not stored. -/
noncomputable def dumpOne : OptVal C → Option Dumped
  | .none => some .none
  | .bool b => some (.bool b)
  | .number dt x => some (.arr ⟨[], dt, [x]⟩)
  | .arr a => some (.arr a)
  | .callable _ => Option.none

theorem assocGet_dumpOpts (k : Key) (l : List (Key × OptVal C)) (hn : (l.map Prod.fst).Nodup) :
    assocGet k (dumpOpts l) = (assocGet k l).bind dumpOne := by
  induction l with
  | nil => rfl
  | cons x l ih =>
    obtain ⟨k0, v⟩ := x
    simp only [List.map_cons, List.nodup_cons] at hn
    have hnone : k = k0 → assocGet k (dumpOpts l) = Option.none := by
      rintro rfl
      exact assocGet_none _ _ (fun h => hn.1 ((dumpOpts_keys l).subset h))
    cases v <;> simp only [dumpOpts, assocGet]
    all_goals
      by_cases h : k = k0
      · simp [h, dumpOne]
        try (exact h ▸ hnone h)
      · simp [h, ih hn.2]

/-- The paths of the whole file. -/
def filePaths (kp others : Dict Param) (opts : List (Key × Dumped)) : List (List Key × Dumped) :=
  (pathsE Dumped.none (fun p : Param => Dumped.arr p.value) others).map
      (fun q => (paramsKey :: q.1, q.2)) ++
  ((pathsE Dumped.none (fun p : Param => Dumped.arr p.value) kp).map
      (fun q => (paramsKey :: kernelParamsKey :: q.1, q.2)) ++
  opts.map (fun kv => ([kv.1], kv.2)))

theorem cons_map_nodup (k : Key) (l : List (List Key × β)) (h : (l.map Prod.fst).Nodup) :
    ((l.map (fun q => (k :: q.1, q.2))).map Prod.fst).Nodup := by
  rw [List.map_map, show (Prod.fst ∘ fun q : List Key × β => (k :: q.1, q.2)) =
    (fun p => k :: p) ∘ Prod.fst from rfl, ← List.map_map]
  exact h.map (fun a b e => by simpa using e)

theorem filePaths_nodup (kp others : Dict Param) (opts : List (Key × Dumped))
    (h1 : kp.KeysDistinct) (h2 : others.KeysDistinct) (h3 : kernelParamsKey ∉ others.keys)
    (h4 : (opts.map Prod.fst).Nodup) : ((filePaths kp others opts).map Prod.fst).Nodup := by
  rw [filePaths, List.map_append, List.map_append, List.nodup_append, List.nodup_append]
  refine ⟨cons_map_nodup _ _ (pathsE_nodup _ _ _ h2), ⟨?_, ?_, ?_⟩, ?_⟩
  · have := cons_map_nodup paramsKey _ (cons_map_nodup kernelParamsKey _
      (pathsE_nodup Dumped.none (fun p : Param => Dumped.arr p.value) kp h1))
    simp only [List.map_map] at this ⊢
    exact this
  · rw [List.map_map]
    have : (Prod.fst ∘ fun kv : Key × Dumped => ([kv.1], kv.2)) = (fun k => [k]) ∘ Prod.fst := rfl
    rw [this, ← List.map_map]
    exact h4.map (fun a b e => by simpa using e)
  · intro p hp q hq e
    simp only [List.map_map, List.mem_map, Function.comp] at hp hq
    obtain ⟨a, _, rfl⟩ := hp
    obtain ⟨b, _, rfl⟩ := hq
    simp at e
  · intro p hp q hq e
    simp only [List.map_map, List.mem_map, Function.comp, List.mem_append] at hp hq
    obtain ⟨a, ha, rfl⟩ := hp
    rcases hq with ⟨b, hb, rfl⟩ | ⟨b, hb, rfl⟩
    · obtain ⟨k, ks, e1, e2⟩ := pathsE_head _ _ _ a ha
      rw [e1] at e
      simp only [List.cons.injEq, true_and] at e
      rcases e2 with e2 | e2
      · exact h3 (e.1 ▸ e2)
      · rw [e2] at e; exact absurd e.1 (by decide)
    · simp only [List.cons.injEq] at e
      exact pathsE_ne_nil _ _ _ a ha e.2

theorem foldl_assocSet_append (l1 l2 l3 : List (Key × β))
    (hn : ((l1 ++ (l2 ++ l3)).map Prod.fst).Nodup) :
    l3.foldl (fun acc kv => assocSet kv.1 kv.2 acc)
      (l2.foldl (fun acc kv => assocSet kv.1 kv.2 acc) l1) = l1 ++ (l2 ++ l3) := by
  rw [List.map_append, List.map_append, List.nodup_append, List.nodup_append] at hn
  obtain ⟨_, ⟨h2, h3, h23⟩, h1⟩ := hn
  rw [foldl_assocSet l2 l1 h2, foldl_assocSet l3 _ h3, List.append_assoc]
  · intro k hk hk'
    rw [List.map_append, List.mem_append] at hk'
    rcases hk' with hk' | hk'
    · exact h1 k hk' k (by simp [hk]) rfl
    · exact h23 k hk' k hk rfl
  · intro k hk hk'
    exact h1 k hk' k (by simp [hk]) rfl

theorem save_eq (s : ModelState K M C) (kp others : Dict Param)
    (hpop : popNode kernelParamsKey s.params = some (kp, others))
    (hk : s.params.KeysDistinct) (hw : WellKeyed s.params)
    (ho : (s.opts.map Prod.fst).Nodup) (hog : ∀ kv ∈ s.opts, goodKey kv.1) :
    s.save = .ok ((filePaths kp others (dumpOpts s.opts)).map (fun q => (joinPath q.1, q.2))) := by
  obtain ⟨w1, w2, w3, w4⟩ := popNode_wf hpop
  obtain ⟨k1, k2, k3⟩ := w1 hk
  obtain ⟨g1, g2⟩ := w2 hw
  have hkf := flattenDict_pathsE Dumped.none (fun p : Param => Dumped.arr p.value) kp g1 k1
    [paramsKey, kernelParamsKey] (by
      intro k hk; simp at hk; rcases hk with rfl | rfl
      · exact paramsKey_good
      · exact kernelParamsKey_good)
  have hpf := flattenDict_pathsE Dumped.none (fun p : Param => Dumped.arr p.value) others g2 k2
    [paramsKey] (by intro k hk; simp at hk; subst hk; exact paramsKey_good)
  have hsplit : (filePaths kp others (dumpOpts s.opts)).map (fun q => (joinPath q.1, q.2)) =
      (pathsE Dumped.none (fun p : Param => Dumped.arr p.value) others).map
        (fun q => (joinPath ([paramsKey] ++ q.1), q.2)) ++
      ((pathsE Dumped.none (fun p : Param => Dumped.arr p.value) kp).map
        (fun q => (joinPath ([paramsKey, kernelParamsKey] ++ q.1), q.2)) ++ dumpOpts s.opts) := by
    simp only [filePaths, List.map_append, List.map_map]
    congr 2
    conv_rhs => rw [← List.map_id (dumpOpts s.opts)]
    apply List.map_congr_left
    intro kv _
    rfl
  have hcolon : ∀ q ∈ filePaths kp others (dumpOpts s.opts), q.1 ≠ [] ∧ ∀ k ∈ q.1, ':' ∉ k := by
    intro q hq
    simp only [filePaths, List.mem_append, List.mem_map] at hq
    rcases hq with ⟨a, ha, rfl⟩ | ⟨a, ha, rfl⟩ | ⟨a, ha, rfl⟩
    · refine ⟨by simp, fun k hk => ?_⟩
      rcases List.mem_cons.mp hk with rfl | hk
      · exact paramsKey_good.1
      · exact pathsE_colon _ _ _ g2 a ha k hk
    · refine ⟨by simp, fun k hk => ?_⟩
      rcases List.mem_cons.mp hk with rfl | hk
      · exact paramsKey_good.1
      · rcases List.mem_cons.mp hk with rfl | hk
        · exact kernelParamsKey_good.1
        · exact pathsE_colon _ _ _ g1 a ha k hk
    · refine ⟨by simp, fun k hk => ?_⟩
      simp only [List.mem_singleton] at hk
      subst hk
      have : a.1 ∈ s.opts.map Prod.fst :=
        (dumpOpts_keys s.opts).subset (List.mem_map.mpr ⟨a, ha, rfl⟩)
      obtain ⟨b, hb, e⟩ := List.mem_map.mp this
      rw [← e]; exact (hog b hb).2
  have hnod : (((filePaths kp others (dumpOpts s.opts)).map
      (fun q => (joinPath q.1, q.2))).map Prod.fst).Nodup := by
    have hn := filePaths_nodup kp others (dumpOpts s.opts) k1 k2 k3
      (List.Nodup.sublist (dumpOpts_keys s.opts) ho)
    rw [List.map_map, show (Prod.fst ∘ fun q : List Key × Dumped => (joinPath q.1, q.2)) =
      joinPath ∘ Prod.fst from rfl, ← List.map_map]
    refine List.Nodup.map_on ?_ hn
    intro p hp q hq e
    obtain ⟨a, ha, rfl⟩ := List.mem_map.mp hp
    obtain ⟨b, hb, rfl⟩ := List.mem_map.mp hq
    exact joinPath_injective _ _ (hcolon a ha).1 (hcolon b hb).1 (hcolon a ha).2 (hcolon b hb).2 e
  simp only [ModelState.save, hpop]
  rw [hsplit] at hnod ⊢
  have e1 : paramsKey ++ sep :: kernelParamsKey = joinPath [paramsKey, kernelParamsKey] := rfl
  have e2 : flattenDict Dumped.none (fun p : Param => Dumped.arr p.value) paramsKey others =
    flattenDict Dumped.none (fun p : Param => Dumped.arr p.value) (joinPath [paramsKey]) others := rfl
  rw [e1, e2, hkf, hpf, foldl_assocSet_append _ _ _ hnod]

/-- What `_unflatten_dict` makes of the file. -/
theorem unflatten_file (s : ModelState K M C) (kp others : Dict Param)
    (hpop : popNode kernelParamsKey s.params = some (kp, others))
    (hk : s.params.KeysDistinct) (hw : WellKeyed s.params) (hsh : NoShortShadow s.params)
    (ho : (s.opts.map Prod.fst).Nodup)
    (hog : ∀ kv ∈ s.opts, goodKey kv.1 ∧ kv.1 ≠ nullKey ∧ kv.1 ≠ paramsKey) :
    unflattenDict ((filePaths kp others (dumpOpts s.opts)).map (fun q => (joinPath q.1, q.2))) =
      some (.node paramsKey ((others.map (fun p : Param => Dumped.arr p.value)).append
        (.node kernelParamsKey (kp.map (fun p : Param => Dumped.arr p.value)) .nil))
        (leafDict (dumpOpts s.opts))) := by
  obtain ⟨w1, w2, w3, w4⟩ := popNode_wf hpop
  obtain ⟨k1, k2, k3⟩ := w1 hk
  obtain ⟨g1, g2⟩ := w2 hw
  obtain ⟨n1, n2⟩ := w3 hsh
  have hopk : ∀ kv ∈ dumpOpts s.opts, goodKey kv.1 ∧ kv.1 ≠ nullKey ∧ kv.1 ≠ paramsKey := by
    intro a ha
    have : a.1 ∈ s.opts.map Prod.fst :=
      (dumpOpts_keys s.opts).subset (List.mem_map.mpr ⟨a, ha, rfl⟩)
    obtain ⟨b, hb, e⟩ := List.mem_map.mp this
    rw [← e]; exact hog b hb
  rw [unflattenDict, unflattenLoop_join]
  · rw [filePaths, walkPaths_append, ← paths_node_single]
    rw [walkPaths_paths Dumped.none _ (.node paramsKey others .nil)
      ⟨⟨paramsKey_good.2, paramsKey_good.1⟩, g2, trivial⟩ ⟨by simp [Dict.keys], k2, trivial⟩
      ⟨fun h => by rw [paramsKey_length] at h; omega, n2, trivial⟩ .nil (by simp [Dict.keys])]
    rw [Option.bind_some, walkPaths_append]
    have hk2 := paths_node_single Dumped.none (fun p : Param => Dumped.arr p.value) kernelParamsKey kp
    have e1 : (pathsE Dumped.none (fun p : Param => Dumped.arr p.value) kp).map
        (fun q => (paramsKey :: kernelParamsKey :: q.1, q.2)) =
        (paths Dumped.none (fun p : Param => Dumped.arr p.value) (.node kernelParamsKey kp .nil)).map
          (fun q => (paramsKey :: q.1, q.2)) := by
      rw [hk2, List.map_map]; rfl
    rw [e1]
    have e2 : Dict.append Dict.nil ((Dict.node paramsKey others Dict.nil).map
        (fun p : Param => Dumped.arr p.value)) =
        (Dict.nil : Dict Dumped).append (.node paramsKey (others.map
          (fun p : Param => Dumped.arr p.value)) .nil) := rfl
    rw [e2, walk_prefixed paramsKey _ .nil _ (by simp [Dict.keys]) (by
      intro q hq
      exact ⟨paths_ne_nil _ _ _ q hq, fun h => by rw [paramsKey_not_cached] at h; exact absurd h.2 (by simp)⟩)]
    rw [walkPaths_paths Dumped.none _ (.node kernelParamsKey kp .nil)
      ⟨⟨kernelParamsKey_good.2, kernelParamsKey_good.1⟩, g1, trivial⟩ ⟨by simp [Dict.keys], k1, trivial⟩
      ⟨fun h => by rw [kernelParamsKey_length] at h; omega, n1, trivial⟩ _ (by
        intro k hk'
        simp only [Dict.keys, List.mem_singleton] at hk'
        subst hk'
        rw [Dict.keys_map]; exact k3)]
    simp only [Option.map_some, Option.bind_some]
    rw [← leafDict_paths Dumped.none, walkPaths_paths Dumped.none id (leafDict (dumpOpts s.opts))
      (leafDict_wellKeyed _ (fun kv hkv => ⟨(hopk kv hkv).1, (hopk kv hkv).2.1⟩))
      (leafDict_distinct _ (List.Nodup.sublist (dumpOpts_keys s.opts) ho))
      (leafDict_noShadow _), leafDict_map_id]
    · rfl
    · intro k hk'
      rw [leafDict_keys] at hk'
      obtain ⟨a, ha, rfl⟩ := List.mem_map.mp hk'
      simp only [Dict.append, Dict.keys, List.mem_singleton]
      exact (hopk a ha).2.2
  · intro q hq
    simp only [filePaths, List.mem_append, List.mem_map] at hq
    rcases hq with ⟨a, ha, rfl⟩ | ⟨a, ha, rfl⟩ | ⟨a, ha, rfl⟩
    · refine ⟨by simp, fun k hk => ?_⟩
      rcases List.mem_cons.mp hk with rfl | hk
      · exact paramsKey_good.1
      · exact pathsE_colon _ _ _ g2 a ha k hk
    · refine ⟨by simp, fun k hk => ?_⟩
      rcases List.mem_cons.mp hk with rfl | hk
      · exact paramsKey_good.1
      · rcases List.mem_cons.mp hk with rfl | hk
        · exact kernelParamsKey_good.1
        · exact pathsE_colon _ _ _ g1 a ha k hk
    · refine ⟨by simp, fun k hk => ?_⟩
      simp only [List.mem_singleton] at hk
      subst hk
      exact (hopk a ha).1.2

/-- The dumped parameters in tree order are the values of the saved parameters in tree order. -/
theorem dumped_treeLeaves (s kp others : Dict Param)
    (hpop : popNode kernelParamsKey s = some (kp, others)) (hk : s.KeysDistinct) :
    ((others.map (fun p : Param => Dumped.arr p.value)).append
      (.node kernelParamsKey (kp.map (fun p : Param => Dumped.arr p.value)) .nil)).treeLeaves =
      s.treeLeaves.map (fun p => Dumped.arr p.value) := by
  obtain ⟨w1, _, _, _⟩ := popNode_wf hpop
  obtain ⟨k1, k2, k3⟩ := w1 hk
  have h1 := Dict.sortKeys_append_cons (others.map (fun p : Param => Dumped.arr p.value))
    kernelParamsKey (.inr (kp.map (fun p : Param => Dumped.arr p.value)))
    (by rw [Dict.keys_map]; exact k3)
  have h2 := popNode_sort hpop
  rw [Dict.treeLeaves]
  show ((others.map _).append (Dict.cons kernelParamsKey (.inr (kp.map _)) .nil)).sortKeys.leaves = _
  rw [h1, ← Dict.treeLeaves_map, Dict.treeLeaves, ← Dict.map_sortKeys _ s, h2, Dict.map_ins]
  simp only [Dict.mapItem, Dict.sortItem, Dict.map_sortKeys]

theorem updateValues_ok (ps : List Param) (vs : List Arr)
    (h : List.Forall₂ (fun (p : Param) (v : Arr) => v.shape = p.prior.shape ∧ v.dtype = p.prior.dtype)
      ps vs) :
    updateValues ps (vs.map Dumped.arr) =
      .ok (List.zipWith (fun p v => (⟨v, p.trainable, p.bijector, p.prior⟩ : Param)) ps vs) := by
  induction h with
  | nil => rfl
  | @cons p v ps vs hpv _ ih =>
    have h1 : (p.update { value := some v }).1 = .ok ⟨v, p.trainable, p.bijector, p.prior⟩ :=
      Param.new_ok' _ _ _ _ hpv.1 hpv.2
    simp only [List.map_cons, updateValues, Dumped.toArr, h1, ih, bind, Except.bind, pure,
      Except.pure, List.zipWith_cons_cons]

end GPX
