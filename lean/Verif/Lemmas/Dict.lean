import Verif.Model.Dict
import Verif.Spec.Dict

/-! Helper lemmas about nested dictionaries. -/

namespace GPX
open Spec

variable {α β : Type}

theorem nullKey_eq : "NULL".toList = nullKey := by rfl

namespace Dict

theorem append_nil (d : Dict α) : d.append nil = d := by
  induction d with
  | nil => rfl
  | leaf k a r ih => simp [append, ih]
  | node k s r _ ih => simp [append, ih]

theorem append_assoc (a b c : Dict α) : (a.append b).append c = a.append (b.append c) := by
  induction a with
  | nil => rfl
  | leaf k a r ih => simp [append, ih]
  | node k s r _ ih => simp [append, ih]

theorem keys_append (a b : Dict α) : (a.append b).keys = a.keys ++ b.keys := by
  induction a with
  | nil => rfl
  | leaf k a r ih => simp [append, keys, ih]
  | node k s r _ ih => simp [append, keys, ih]

theorem keys_map (f : α → β) (d : Dict α) : (d.map f).keys = d.keys := by
  induction d with
  | nil => rfl
  | leaf k a r ih => simp [map, keys, ih]
  | node k s r _ ih => simp [map, keys, ih]

theorem map_append (f : α → β) (a b : Dict α) : (a.append b).map f = (a.map f).append (b.map f) := by
  induction a with
  | nil => rfl
  | leaf k a r ih => simp [append, map, ih]
  | node k s r _ ih => simp [append, map, ih]

theorem leaves_append (a b : Dict α) : (a.append b).leaves = a.leaves ++ b.leaves := by
  induction a with
  | nil => rfl
  | leaf k a r ih => simp [append, leaves, ih]
  | node k s r _ ih => simp [append, leaves, ih]

theorem leaves_map (f : α → β) (d : Dict α) : (d.map f).leaves = d.leaves.map f := by
  induction d with
  | nil => rfl
  | leaf k a r ih => simp [map, leaves, ih]
  | node k s r ih1 ih => simp [map, leaves, ih, ih1]

theorem map_map {γ : Type} (f : α → β) (g : β → γ) (d : Dict α) :
    (d.map f).map g = d.map (g ∘ f) := by
  induction d with
  | nil => rfl
  | leaf k a r ih => simp [map, ih]
  | node k s r ih1 ih => simp [map, ih, ih1]

theorem setLeaf_fresh (k : Key) (v : α) (d : Dict α) (h : k ∉ d.keys) :
    d.setLeaf k v = d.append (leaf k v nil) := by
  induction d with
  | nil => rfl
  | leaf k' a r ih =>
    simp only [keys, List.mem_cons, not_or] at h
    simp [setLeaf, append, h.1, ih h.2]
  | node k' s r _ ih =>
    simp only [keys, List.mem_cons, not_or] at h
    simp [setLeaf, append, h.1, ih h.2]

theorem setNode_fresh (k : Key) (v : Dict α) (d : Dict α) (h : k ∉ d.keys) :
    setNode k v d = d.append (node k v nil) := by
  induction d with
  | nil => rfl
  | leaf k' a r ih =>
    simp only [keys, List.mem_cons, not_or] at h
    simp [setNode, append, h.1, ih h.2]
  | node k' s r _ ih =>
    simp only [keys, List.mem_cons, not_or] at h
    simp [setNode, append, h.1, ih h.2]

theorem setNode_last (k : Key) (v w : Dict α) (d : Dict α) (h : k ∉ d.keys) :
    setNode k v (d.append (node k w nil)) = d.append (node k v nil) := by
  induction d with
  | nil => simp [append, setNode]
  | leaf k' a r ih =>
    simp only [keys, List.mem_cons, not_or] at h
    simp [setNode, append, h.1, ih h.2]
  | node k' s r _ ih =>
    simp only [keys, List.mem_cons, not_or] at h
    simp [setNode, append, h.1, ih h.2]

theorem get?_fresh (k : Key) (d : Dict α) (h : k ∉ d.keys) : d.get? k = none := by
  induction d with
  | nil => rfl
  | leaf k' a r ih =>
    simp only [keys, List.mem_cons, not_or] at h
    simp [get?, h.1, ih h.2]
  | node k' s r _ ih =>
    simp only [keys, List.mem_cons, not_or] at h
    simp [get?, h.1, ih h.2]

theorem get?_last (k : Key) (w : Dict α) (d : Dict α) (h : k ∉ d.keys) :
    (d.append (node k w nil)).get? k = some (.inr w) := by
  induction d with
  | nil => simp [append, get?]
  | leaf k' a r ih =>
    simp only [keys, List.mem_cons, not_or] at h
    simp [append, get?, h.1, ih h.2]
  | node k' s r _ ih =>
    simp only [keys, List.mem_cons, not_or] at h
    simp [append, get?, h.1, ih h.2]

end Dict

/-! ### Paths -/

/-- The list of (path, value) pairs written by `_flatten_dict`. -/
def paths (pyNone : β) (mv : α → β) : Dict α → List (List Key × β)
  | .nil => []
  | .leaf k a r => ([k], mv a) :: paths pyNone mv r
  | .node k .nil r => ([k, nullKey], pyNone) :: paths pyNone mv r
  | .node k s r => (paths pyNone mv s).map (fun q => (k :: q.1, q.2)) ++ paths pyNone mv r

/-- The string of a path. -/
def joinPath : List Key → Key
  | [] => []
  | [k] => k
  | k :: ks => k ++ ':' :: joinPath ks

theorem paths_ne_nil (pyNone : β) (mv : α → β) (d : Dict α) :
    ∀ q ∈ paths pyNone mv d, q.1 ≠ [] := by
  induction d with
  | nil => simp [paths]
  | leaf k a r ih => simpa [paths] using ih
  | node k s r ih1 ih =>
    cases s with
    | nil => simpa [paths] using ih
    | leaf k' a' r' =>
      intro q hq
      simp only [paths, List.mem_append, List.mem_map] at hq
      rcases hq with ⟨q', _, rfl⟩ | hq
      · simp
      · exact ih q hq
    | node k' s' r' =>
      intro q hq
      rw [paths.eq_4 _ _ _ _ _ (by simp)] at hq
      simp only [List.mem_append, List.mem_map] at hq
      rcases hq with ⟨q', _, rfl⟩ | hq
      · simp
      · exact ih q hq

theorem paths_node (pyNone : β) (mv : α → β) (k : Key) (s r : Dict α) (hs : s ≠ .nil) :
    paths pyNone mv (.node k s r) =
      (paths pyNone mv s).map (fun q => (k :: q.1, q.2)) ++ paths pyNone mv r := by
  cases s with
  | nil => exact absurd rfl hs
  | leaf _ _ _ => rw [paths.eq_4 _ _ _ _ _ (by simp)]
  | node _ _ _ => rw [paths.eq_4 _ _ _ _ _ (by simp)]

theorem flattenItems_node (pyNone : β) (mv : α → β) (start k : Key) (s r : Dict α) (hs : s ≠ .nil)
    (acc : List (Key × β)) :
    flattenItems pyNone mv start (.node k s r) acc =
      flattenItems pyNone mv start r (flattenItems pyNone mv (pyJoin start k) s acc) := by
  cases s with
  | nil => exact absurd rfl hs
  | leaf _ _ _ => simp [flattenItems]
  | node _ _ _ => rw [flattenItems.eq_4 _ _ _ _ _ _ _ (by simp)]

theorem paths_nonempty (pyNone : β) (mv : α → β) (d : Dict α) (hd : d ≠ .nil) :
    paths pyNone mv d ≠ [] := by
  induction d with
  | nil => exact absurd rfl hd
  | leaf k a r ih => simp [paths]
  | node k s r ih1 ih =>
    by_cases hs : s = .nil
    · subst hs; simp [paths]
    · rw [paths_node _ _ _ _ _ hs]
      have := ih1 hs
      simp [this]

theorem pyJoin_assoc (start k : Key) (p : List Key) (hk : k ≠ []) (hp : p ≠ []) :
    pyJoin (pyJoin start k) (joinPath p) = pyJoin start (joinPath (k :: p)) := by
  cases p with
  | nil => exact absurd rfl hp
  | cons p ps =>
    by_cases hs : start = []
    · subst hs; simp [pyJoin, hk, joinPath]
    · simp [pyJoin, hs, joinPath]

/-- Lemma A: `_flatten_dict` writes exactly the paths, in order. -/
theorem flattenItems_eq_fold (pyNone : β) (mv : α → β) (d : Dict α) (hd : WellKeyed d) :
    ∀ (start : Key) (acc : List (Key × β)),
      flattenItems pyNone mv start d acc =
        (paths pyNone mv d).foldl (fun acc q => assocSet (pyJoin start (joinPath q.1)) q.2 acc) acc := by
  induction d with
  | nil => intros; rfl
  | leaf k a r ih =>
    intro start acc
    simp only [flattenItems, paths, List.foldl_cons, joinPath]
    exact ih hd.2.2 _ _
  | node k s r ih1 ih =>
    intro start acc
    by_cases hs : s = .nil
    · subst hs
      simp only [flattenItems, paths, List.foldl_cons]
      have : pyJoin (pyJoin start k) nullKey = pyJoin start (joinPath [k, nullKey]) := by
        rw [← pyJoin_assoc start k [nullKey] hd.1.1 (by simp)]; rfl
      rw [this, ih hd.2.2]
    · rw [flattenItems_node _ _ _ _ _ _ hs, paths_node _ _ _ _ _ hs, List.foldl_append, ih hd.2.2,
        ih1 hd.2.1, List.foldl_map]
      congr 1
      have hall : ∀ (l : List (List Key × β)) (acc : List (Key × β)), (∀ q ∈ l, q.1 ≠ []) →
          l.foldl (fun acc q => assocSet (pyJoin (pyJoin start k) (joinPath q.1)) q.2 acc) acc =
          l.foldl (fun acc q => assocSet (pyJoin start (joinPath (k :: q.1))) q.2 acc) acc := by
        intro l
        induction l with
        | nil => intros; rfl
        | cons q l ihl =>
          intro acc hl
          simp only [List.foldl_cons]
          rw [pyJoin_assoc start k q.1 hd.1.1 (hl q (by simp))]
          exact ihl _ (fun q' hq' => hl q' (by simp [hq']))
      exact hall _ _ (paths_ne_nil pyNone mv s)

theorem assocSet_fresh (k : Key) (v : β) (l : List (Key × β)) (h : k ∉ l.map Prod.fst) :
    assocSet k v l = l ++ [(k, v)] := by
  induction l with
  | nil => rfl
  | cons x l ih =>
    obtain ⟨k', a⟩ := x
    simp only [List.map_cons, List.mem_cons, not_or] at h
    simp [assocSet, h.1, ih h.2]

/-- Lemma B: assigning fresh, pairwise distinct keys appends. -/
theorem foldl_assocSet (l acc : List (Key × β)) (hn : (l.map Prod.fst).Nodup)
    (hd : ∀ k ∈ l.map Prod.fst, k ∉ acc.map Prod.fst) :
    l.foldl (fun acc q => assocSet q.1 q.2 acc) acc = acc ++ l := by
  induction l generalizing acc with
  | nil => simp
  | cons x l ih =>
    simp only [List.map_cons, List.nodup_cons] at hn
    simp only [List.foldl_cons]
    rw [assocSet_fresh _ _ _ (hd x.1 (by simp)), ih _ hn.2, List.append_assoc]
    · rfl
    · intro k hk
      simp only [List.map_append, List.mem_append, List.map_cons, List.map_nil, List.mem_singleton,
        not_or]
      exact ⟨hd k (by simp [hk]), fun e => hn.1 (e ▸ hk)⟩

/-! ### Splitting -/

theorem pySplit_ne_nil (s : List Char) : pySplit s ≠ [] := by
  cases s with
  | nil => simp [pySplit]
  | cons c cs =>
    simp only [pySplit]
    split
    · simp
    · split <;> simp

theorem pySplit_free (k : Key) (h : ':' ∉ k) : pySplit k = [k] := by
  induction k with
  | nil => rfl
  | cons c cs ih =>
    simp only [List.mem_cons, not_or] at h
    have h1 : ¬ c = ':' := fun e => h.1 e.symm
    simp [pySplit, h1, ih h.2]

theorem pySplit_append (k : Key) (rest : List Char) (h : ':' ∉ k) :
    pySplit (k ++ ':' :: rest) = k :: pySplit rest := by
  induction k with
  | nil => simp [pySplit]
  | cons c cs ih =>
    simp only [List.mem_cons, not_or] at h
    have h1 : ¬ c = ':' := fun e => h.1 e.symm
    simp [pySplit, h1, ih h.2]

/-- Lemma C: splitting undoes joining. -/
theorem pySplit_joinPath (p : List Key) (hp : p ≠ []) (hf : ∀ k ∈ p, ':' ∉ k) :
    pySplit (joinPath p) = p := by
  induction p with
  | nil => exact absurd rfl hp
  | cons k ks ih =>
    cases ks with
    | nil => exact pySplit_free k (hf k (by simp))
    | cons k' ks =>
      show pySplit (k ++ ':' :: joinPath (k' :: ks)) = _
      rw [pySplit_append _ _ (hf k (by simp)), ih (by simp) (fun x hx => hf x (by simp [hx]))]

theorem colon_not_in_null : ':' ∉ nullKey := by decide

theorem paths_colon_free (pyNone : β) (mv : α → β) (d : Dict α) (hd : WellKeyed d) :
    ∀ q ∈ paths pyNone mv d, ∀ k ∈ q.1, ':' ∉ k := by
  induction d with
  | nil => simp [paths]
  | leaf k a r ih =>
    intro q hq k' hk'
    simp only [paths, List.mem_cons] at hq
    rcases hq with rfl | hq
    · simp at hk'; subst hk'; exact hd.1.2
    · exact ih hd.2.2 q hq k' hk'
  | node k s r ih1 ih =>
    intro q hq k' hk'
    by_cases hs : s = .nil
    · subst hs
      simp only [paths, List.mem_cons] at hq
      rcases hq with rfl | hq
      · simp at hk'
        rcases hk' with rfl | rfl
        · exact hd.1.2
        · exact colon_not_in_null
      · exact ih hd.2.2 q hq k' hk'
    · rw [paths_node _ _ _ _ _ hs] at hq
      simp only [List.mem_append, List.mem_map] at hq
      rcases hq with ⟨q', hq', rfl⟩ | hq
      · simp only [List.mem_cons] at hk'
        rcases hk' with rfl | hk'
        · exact hd.1.2
        · exact ih1 hd.2.1 q' hq' k' hk'
      · exact ih hd.2.2 q hq k' hk'

theorem paths_head (pyNone : β) (mv : α → β) (d : Dict α) :
    ∀ q ∈ paths pyNone mv d, ∃ k ks, q.1 = k :: ks ∧ k ∈ d.keys := by
  induction d with
  | nil => simp [paths]
  | leaf k a r ih =>
    intro q hq
    simp only [paths, List.mem_cons] at hq
    rcases hq with rfl | hq
    · exact ⟨k, [], rfl, by simp [Dict.keys]⟩
    · obtain ⟨k', ks, h1, h2⟩ := ih q hq
      exact ⟨k', ks, h1, by simp [Dict.keys, h2]⟩
  | node k s r ih1 ih =>
    intro q hq
    by_cases hs : s = .nil
    · subst hs
      simp only [paths, List.mem_cons] at hq
      rcases hq with rfl | hq
      · exact ⟨k, _, rfl, by simp [Dict.keys]⟩
      · obtain ⟨k', ks, h1, h2⟩ := ih q hq
        exact ⟨k', ks, h1, by simp [Dict.keys, h2]⟩
    · rw [paths_node _ _ _ _ _ hs] at hq
      simp only [List.mem_append, List.mem_map] at hq
      rcases hq with ⟨q', hq', rfl⟩ | hq
      · exact ⟨k, _, rfl, by simp [Dict.keys]⟩
      · obtain ⟨k', ks, h1, h2⟩ := ih q hq
        exact ⟨k', ks, h1, by simp [Dict.keys, h2]⟩

theorem paths_nodup (pyNone : β) (mv : α → β) (d : Dict α) (hd : d.KeysDistinct) :
    ((paths pyNone mv d).map Prod.fst).Nodup := by
  have disj : ∀ (k : Key) (ks : List Key) (r : Dict α), k ∉ r.keys →
      (k :: ks) ∉ (paths pyNone mv r).map Prod.fst := by
    intro k ks r hk hmem
    simp only [List.mem_map] at hmem
    obtain ⟨q, hq, e⟩ := hmem
    obtain ⟨k', ks', h1, h2⟩ := paths_head pyNone mv r q hq
    rw [h1] at e
    simp only [List.cons.injEq] at e
    exact hk (e.1 ▸ h2)
  induction d with
  | nil => simp [paths]
  | leaf k a r ih =>
    simp only [paths, List.map_cons, List.nodup_cons]
    exact ⟨disj k [] r hd.1, ih hd.2⟩
  | node k s r ih1 ih =>
    by_cases hs : s = .nil
    · subst hs
      simp only [paths, List.map_cons, List.nodup_cons]
      exact ⟨disj k [nullKey] r hd.1, ih hd.2.2⟩
    · rw [paths_node _ _ _ _ _ hs, List.map_append, List.nodup_append]
      refine ⟨?_, ih hd.2.2, ?_⟩
      · rw [List.map_map]
        have h1 := ih1 hd.2.1
        have : ((paths pyNone mv s).map (Prod.fst ∘ fun q => (k :: q.1, q.2))) =
            ((paths pyNone mv s).map Prod.fst).map (fun p => k :: p) := by
          rw [List.map_map]; rfl
        rw [this]
        unfold List.Nodup at h1 ⊢
        rw [List.pairwise_map]
        exact h1.imp (fun hab e => hab (by simpa using e))
      · intro p hp p' hp' e
        subst e
        simp only [List.map_map, List.mem_map, Function.comp] at hp
        obtain ⟨q, _, rfl⟩ := hp
        exact disj k q.1 r hd.1 hp'

/-! ### Unflattening -/

/-- Walk a list of paths. -/
def walkPaths : List (List Key × β) → Dict β → Option (Dict β)
  | [], d => some d
  | q :: rest, d => do
      let d' ← unflattenWalk (q.1.getLast?.getD []) q.2 q.1 d
      walkPaths rest d'

theorem walkPaths_append (l1 l2 : List (List Key × β)) (d : Dict β) :
    walkPaths (l1 ++ l2) d = (walkPaths l1 d).bind (walkPaths l2) := by
  induction l1 generalizing d with
  | nil => rfl
  | cons q l1 ih =>
    simp only [List.cons_append, walkPaths]
    cases h : unflattenWalk (q.1.getLast?.getD []) q.2 q.1 d with
    | none => rfl
    | some d' => simp [ih]

/-- The identity test never misfires on the paths of the list. -/
def NoClash (k : Key) (l : List (List Key × β)) : Prop :=
  ∀ q ∈ l, q.1 ≠ [] ∧ ¬ (k = q.1.getLast?.getD [] ∧ cachedString k = true)

theorem getLast?_cons_ne (k : Key) (p : List Key) (hp : p ≠ []) :
    (k :: p).getLast?.getD [] = p.getLast?.getD [] := by
  cases p with
  | nil => exact absurd rfl hp
  | cons a b => simp [List.getLast?_cons_cons]

theorem walk_prefixed (k : Key) (l : List (List Key × β)) (D X : Dict β) (hk : k ∉ D.keys)
    (hc : NoClash k l) :
    walkPaths (l.map (fun q => (k :: q.1, q.2))) (D.append (.node k X .nil)) =
      (walkPaths l X).map (fun X' => D.append (.node k X' .nil)) := by
  induction l generalizing X with
  | nil => rfl
  | cons q l ih =>
    obtain ⟨hq, hcl⟩ := hc q (by simp)
    have hc' : NoClash k l := fun q' hq' => hc q' (by simp [hq'])
    simp only [List.map_cons, walkPaths, getLast?_cons_ne k q.1 hq]
    obtain ⟨p, v⟩ := q
    cases p with
    | nil => exact absurd rfl hq
    | cons a b =>
      rw [unflattenWalk, if_neg hcl, Dict.get?_last k X D hk]
      simp only
      cases h : unflattenWalk (((a :: b).getLast?.getD [])) v (a :: b) X with
      | none => simp
      | some X' =>
        simp only [Option.bind_eq_bind, Option.bind_some, Option.pure_def, Dict.setNode_last k X' X D hk]
        exact ih X' hc'

theorem walk_prefixed_fresh (k : Key) (l : List (List Key × β)) (D : Dict β) (hk : k ∉ D.keys)
    (hc : NoClash k l) (hl : l ≠ []) :
    walkPaths (l.map (fun q => (k :: q.1, q.2))) D =
      (walkPaths l .nil).map (fun X' => D.append (.node k X' .nil)) := by
  cases l with
  | nil => exact absurd rfl hl
  | cons q l =>
    obtain ⟨hq, hcl⟩ := hc q (by simp)
    have hc' : NoClash k l := fun q' hq' => hc q' (by simp [hq'])
    simp only [List.map_cons, walkPaths, getLast?_cons_ne k q.1 hq]
    obtain ⟨p, v⟩ := q
    cases p with
    | nil => exact absurd rfl hq
    | cons a b =>
      rw [unflattenWalk, if_neg hcl, Dict.get?_fresh k D hk]
      simp only
      cases h : unflattenWalk (((a :: b).getLast?.getD [])) v (a :: b) .nil with
      | none => simp
      | some X' =>
        simp only [Option.bind_eq_bind, Option.bind_some, Option.pure_def,
          Dict.setNode_fresh k X' D hk]
        exact walk_prefixed k l D X' hk hc'

theorem paths_last (pyNone : β) (mv : α → β) (d : Dict α) :
    ∀ q ∈ paths pyNone mv d, q.1.getLast?.getD [] = nullKey ∨ q.1.getLast?.getD [] ∈ leafKeys d := by
  induction d with
  | nil => simp [paths]
  | leaf k a r ih =>
    intro q hq
    simp only [paths, List.mem_cons] at hq
    rcases hq with rfl | hq
    · right; simp [leafKeys]
    · rcases ih q hq with h | h
      · left; exact h
      · right; simp only [leafKeys, List.mem_cons]; right; exact h
  | node k s r ih1 ih =>
    intro q hq
    by_cases hs : s = .nil
    · subst hs
      simp only [paths, List.mem_cons] at hq
      rcases hq with rfl | hq
      · left; simp
      · rcases ih q hq with h | h
        · left; exact h
        · right; simp only [leafKeys, List.mem_append]; right; exact h
    · rw [paths_node _ _ _ _ _ hs] at hq
      simp only [List.mem_append, List.mem_map] at hq
      rcases hq with ⟨q', hq', rfl⟩ | hq
      · rw [getLast?_cons_ne k q'.1 (paths_ne_nil pyNone mv s q' hq')]
        rcases ih1 q' hq' with h | h
        · left; exact h
        · right; simp only [leafKeys, List.mem_append]; left; exact h
      · rcases ih q hq with h | h
        · left; exact h
        · right; simp only [leafKeys, List.mem_append]; right; exact h

theorem cachedString_length (k : Key) (hk : k ≠ []) (h : cachedString k = true) : k.length = 1 := by
  match k, hk, h with
  | [c], _, _ => rfl
  | a :: b :: c, _, h => simp [cachedString] at h

theorem noClash_of_noShortShadow (pyNone : β) (mv : α → β) (k : Key) (s : Dict α) (hk : k ≠ [])
    (h : k.length = 1 → k ∉ leafKeys s) : NoClash k (paths pyNone mv s) := by
  intro q hq
  refine ⟨paths_ne_nil pyNone mv s q hq, ?_⟩
  rintro ⟨e, hc⟩
  have hl := cachedString_length k hk hc
  rcases paths_last pyNone mv s q hq with h' | h'
  · rw [h'] at e; rw [e] at hl; simp [nullKey] at hl
  · rw [← e] at h'; exact h hl h'

/-- Lemma E: walking the paths of `d` into a dictionary with other keys appends `d`. -/
theorem walkPaths_paths (pyNone : β) (mv : α → β) (d : Dict α) (hw : WellKeyed d)
    (hk : d.KeysDistinct) (hs : NoShortShadow d) :
    ∀ D : Dict β, (∀ k ∈ d.keys, k ∉ D.keys) →
      walkPaths (paths pyNone mv d) D = some (D.append (d.map mv)) := by
  induction d with
  | nil => intro D _; simp [paths, walkPaths, Dict.map, Dict.append_nil]
  | leaf k a r ih =>
    intro D hD
    have hk1 : k ∉ D.keys := hD k (by simp [Dict.keys])
    have hnull : ¬ k = nullKey := by rw [← nullKey_eq]; exact hw.2.1
    simp only [paths, walkPaths, unflattenWalk, if_neg hnull]
    rw [Dict.setLeaf_fresh _ _ _ hk1]
    simp only [Option.bind_eq_bind, Option.bind_some]
    rw [ih hw.2.2 hk.2 hs, Dict.append_assoc]
    · rfl
    · intro k' hk'
      rw [Dict.keys_append]
      simp only [Dict.keys, List.mem_append, List.mem_singleton, not_or]
      exact ⟨hD k' (by simp [Dict.keys, hk']), fun e => hk.1 (e ▸ hk')⟩
  | node k s r ih1 ih =>
    intro D hD
    have hk1 : k ∉ D.keys := hD k (by simp [Dict.keys])
    have step : walkPaths (paths pyNone mv (.node k s .nil)) D =
        some (D.append (.node k (s.map mv) .nil)) := by
      by_cases hsn : s = .nil
      · subst hsn
        have hc : ¬ (k = nullKey ∧ cachedString k = true) := by
          rintro ⟨e, hc⟩; rw [e] at hc; simp [cachedString, nullKey] at hc
        simp only [paths, walkPaths]
        have : ([k, nullKey] : List Key).getLast?.getD [] = nullKey := by simp
        rw [this, unflattenWalk, if_neg hc, Dict.get?_fresh k D hk1]
        simp [unflattenWalk, Dict.setNode_fresh k .nil D hk1, Dict.map]
      · rw [paths_node _ _ _ _ _ hsn]
        simp only [paths, List.append_nil]
        rw [walk_prefixed_fresh k _ D hk1
          (noClash_of_noShortShadow pyNone mv k s hw.1.1 hs.1) (paths_nonempty pyNone mv s hsn),
          ih1 hw.2.1 hk.2.1 hs.2.1 .nil (by simp [Dict.keys])]
        rfl
    have hsplit : paths pyNone mv (.node k s r) =
        paths pyNone mv (.node k s .nil) ++ paths pyNone mv r := by
      by_cases hsn : s = .nil
      · subst hsn; simp [paths]
      · rw [paths_node _ _ _ _ _ hsn, paths_node _ _ _ _ _ hsn]; simp [paths]
    rw [hsplit, walkPaths_append, step, Option.bind_some, ih hw.2.2 hk.2.2 hs.2.2,
      Dict.append_assoc]
    · rfl
    · intro k' hk'
      rw [Dict.keys_append]
      simp only [Dict.keys, List.mem_append, List.mem_singleton, not_or]
      exact ⟨hD k' (by simp [Dict.keys, hk']), fun e => hk.1 (e ▸ hk')⟩

/-- Lemma D: the outer loop on joined keys is the walk on paths. -/
theorem unflattenLoop_join (l : List (List Key × β)) (D : Dict β)
    (h : ∀ q ∈ l, q.1 ≠ [] ∧ ∀ k ∈ q.1, ':' ∉ k) :
    unflattenLoop (l.map (fun q => (joinPath q.1, q.2))) D = walkPaths l D := by
  induction l generalizing D with
  | nil => rfl
  | cons q l ih =>
    obtain ⟨h1, h2⟩ := h q (by simp)
    simp only [List.map_cons, unflattenLoop, walkPaths, pySplit_joinPath q.1 h1 h2]
    cases unflattenWalk (q.1.getLast?.getD []) q.2 q.1 D with
    | none => rfl
    | some d' =>
      simp only [Option.bind_eq_bind, Option.bind_some]
      exact ih d' (fun q' hq' => h q' (by simp [hq']))

theorem unflattenLoop_append (l1 l2 : List (Key × β)) (d : Dict β) :
    unflattenLoop (l1 ++ l2) d = (unflattenLoop l1 d).bind (unflattenLoop l2) := by
  induction l1 generalizing d with
  | nil => rfl
  | cons q l1 ih =>
    obtain ⟨k, v⟩ := q
    simp only [List.cons_append, unflattenLoop]
    cases unflattenWalk ((pySplit k).getLast?.getD []) v (pySplit k) d with
    | none => rfl
    | some d' => simp [ih]

theorem joinPath_cons (k : Key) (p : List Key) (hp : p ≠ []) :
    joinPath (k :: p) = k ++ ':' :: joinPath p := by
  cases p with
  | nil => exact absurd rfl hp
  | cons _ _ => rfl

theorem joinPath_ne_nil (p : List Key) (hp : p ≠ []) (h : ∀ k ∈ p, k ≠ []) : joinPath p ≠ [] := by
  cases p with
  | nil => exact absurd rfl hp
  | cons a b =>
    cases b with
    | nil => exact h a (by simp)
    | cons _ _ => simp [joinPath]

theorem pyJoin_joinPath (pre p : List Key) (hpre : ∀ k ∈ pre, k ≠ []) (hp : p ≠ []) :
    pyJoin (joinPath pre) (joinPath p) = joinPath (pre ++ p) := by
  by_cases hpn : pre = []
  · subst hpn; simp [pyJoin, joinPath]
  · have hne := joinPath_ne_nil pre hpn hpre
    simp only [pyJoin, hne, if_false]
    clear hne
    induction pre with
    | nil => exact absurd rfl hpn
    | cons a pre ih =>
      by_cases hpn' : pre = []
      · subst hpn'; simp [joinPath_cons a p hp, joinPath]
      · rw [joinPath_cons a pre hpn', List.cons_append, joinPath_cons a (pre ++ p) (by simp [hpn']),
          ← ih (fun k hk => hpre k (by simp [hk])) hpn']
        simp

theorem joinPath_injective (p q : List Key) (hp : p ≠ []) (hq : q ≠ []) (hpf : ∀ k ∈ p, ':' ∉ k)
    (hqf : ∀ k ∈ q, ':' ∉ k) (h : joinPath p = joinPath q) : p = q := by
  rw [← pySplit_joinPath p hp hpf, h, pySplit_joinPath q hq hqf]

theorem flattenDict_eq (pyNone : β) (mv : α → β) (start : Key) (d : Dict α) (hd : d ≠ .nil) :
    flattenDict pyNone mv start d = flattenItems pyNone mv start d [] := by
  cases d with
  | nil => exact absurd rfl hd
  | leaf _ _ _ => rfl
  | node _ _ _ => rfl

/-- Items written by `_flatten_dict` under a (possibly empty) path of starting keys. -/
theorem flattenItems_paths (pyNone : β) (mv : α → β) (d : Dict α) (hw : WellKeyed d)
    (hk : d.KeysDistinct) (pre : List Key) (hpre : ∀ k ∈ pre, ':' ∉ k ∧ k ≠ []) :
    flattenItems pyNone mv (joinPath pre) d [] =
      (paths pyNone mv d).map (fun q => (joinPath (pre ++ q.1), q.2)) := by
  rw [flattenItems_eq_fold pyNone mv d hw]
  have hall : ∀ (l : List (List Key × β)) (acc : List (Key × β)), (∀ q ∈ l, q.1 ≠ []) →
      l.foldl (fun acc q => assocSet (pyJoin (joinPath pre) (joinPath q.1)) q.2 acc) acc =
      (l.map (fun q => (joinPath (pre ++ q.1), q.2))).foldl
        (fun acc q => assocSet q.1 q.2 acc) acc := by
    intro l
    induction l with
    | nil => intros; rfl
    | cons q l ihl =>
      intro acc hl
      simp only [List.foldl_cons, List.map_cons]
      rw [pyJoin_joinPath pre q.1 (fun k hk => (hpre k hk).2) (hl q (by simp))]
      exact ihl _ (fun q' hq' => hl q' (by simp [hq']))
  rw [hall _ _ (paths_ne_nil pyNone mv d), foldl_assocSet _ [] _ (by simp), List.nil_append]
  have hn := paths_nodup pyNone mv d hk
  have hne := paths_ne_nil pyNone mv d
  have hcf := paths_colon_free pyNone mv d hw
  rw [List.map_map]
  generalize paths pyNone mv d = l at hn hne hcf
  induction l with
  | nil => simp
  | cons q l ih =>
    simp only [List.map_cons, List.nodup_cons] at hn ⊢
    refine ⟨?_, ih hn.2 (fun q' hq' => hne q' (by simp [hq'])) (fun q' hq' => hcf q' (by simp [hq']))⟩
    intro hmem
    simp only [List.mem_map, Function.comp] at hmem
    obtain ⟨q', hq', e⟩ := hmem
    have hfree : ∀ q'' ∈ q :: l, ∀ k ∈ pre ++ q''.1, ':' ∉ k := by
      intro q'' hq'' k hk
      rcases List.mem_append.mp hk with h | h
      · exact (hpre k h).1
      · exact hcf q'' hq'' k h
    have e' := joinPath_injective (pre ++ q'.1) (pre ++ q.1)
      (by simp [hne q' (by simp [hq'])]) (by simp [hne q (by simp)])
      (hfree q' (by simp [hq'])) (hfree q (by simp)) e
    have e'' : q'.1 = q.1 := List.append_cancel_left e'
    exact hn.1 (List.mem_map.mpr ⟨q', hq', e''⟩)

end GPX
