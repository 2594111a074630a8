import Verif.Lemmas.Dict

/-! Helper lemmas: sorting of dictionary keys, and rebuilding from leaves. -/

namespace GPX
open Spec
variable {α β γ : Type}

/-! Order on keys (core's lexicographic order; this file must not import Mathlib's order on lists). -/

theorem kle_refl (a : Key) : a ≤ a := List.le_refl a
theorem kle_total (a b : Key) : a ≤ b ∨ b ≤ a := List.le_total a b
theorem kle_trans {a b c : Key} (h1 : a ≤ b) (h2 : b ≤ c) : a ≤ c := List.le_trans h1 h2
theorem kle_antisymm {a b : Key} (h1 : a ≤ b) (h2 : b ≤ a) : a = b := List.le_antisymm h1 h2
theorem kle_of_not {a b : Key} (h : ¬ a ≤ b) : b ≤ a := (kle_total a b).resolve_left h
theorem kne_cases {a b : Key} (h : a ≠ b) : (a ≤ b ∧ ¬ b ≤ a) ∨ (b ≤ a ∧ ¬ a ≤ b) := by
  rcases kle_total a b with h1 | h1
  · exact Or.inl ⟨h1, fun h2 => h (kle_antisymm h1 h2)⟩
  · exact Or.inr ⟨h1, fun h2 => h (kle_antisymm h2 h1)⟩

namespace Dict

/-- An item (leaf or sub-dictionary) in front of a dictionary. -/
def cons (k : Key) : α ⊕ Dict α → Dict α → Dict α
  | .inl a, r => leaf k a r
  | .inr s, r => node k s r

/-- Insertion of an item. -/
def ins (k : Key) : α ⊕ Dict α → Dict α → Dict α
  | .inl a, r => r.insLeaf k a
  | .inr s, r => insNode k s r

theorem ins_nil (k : Key) (x : α ⊕ Dict α) : ins k x nil = cons k x nil := by
  cases x <;> rfl

theorem ins_cons (k k' : Key) (x y : α ⊕ Dict α) (r : Dict α) :
    ins k x (cons k' y r) = if k ≤ k' then cons k x (cons k' y r) else cons k' y (ins k x r) := by
  by_cases h : k ≤ k' <;> cases x <;> cases y <;> simp [ins, cons, insLeaf, insNode, h]

/-- Induction over items. -/
theorem consInduction {P : Dict α → Prop} (h0 : P nil)
    (h1 : ∀ k x r, P r → P (cons k x r)) : ∀ d, P d
  | nil => h0
  | leaf k a r => h1 k (.inl a) r (consInduction h0 h1 r)
  | node k s r => h1 k (.inr s) r (consInduction h0 h1 r)

theorem ins_comm (k k' : Key) (x y : α ⊕ Dict α) (d : Dict α) (h : k ≠ k') :
    ins k x (ins k' y d) = ins k' y (ins k x d) := by
  induction d using consInduction with
  | h0 =>
    simp only [ins_nil, ins_cons]
    rcases kne_cases h with h' | h'
    · rw [if_pos h'.1, if_neg h'.2]
    · rw [if_neg h'.2, if_pos h'.1]
  | h1 k0 z r ih =>
    simp only [ins_cons]
    by_cases h1 : k ≤ k0 <;> by_cases h2 : k' ≤ k0
    · simp only [if_pos h1, if_pos h2, ins_cons]
      rcases kne_cases h with h' | h'
      · rw [if_pos h'.1, if_neg h'.2]
      · rw [if_neg h'.2, if_pos h'.1]
    · have h3 : ¬ k' ≤ k := fun e => h2 (kle_trans e h1)
      simp only [if_pos h1, if_neg h2, ins_cons, if_neg h3]
    · have h3 : ¬ k ≤ k' := fun e => h1 (kle_trans e h2)
      simp only [if_neg h1, if_pos h2, ins_cons, if_neg h3]
    · simp only [if_neg h1, if_neg h2, ins_cons, ih]

/-- An item with its sub-dictionary sorted. -/
def sortItem : α ⊕ Dict α → α ⊕ Dict α
  | .inl a => .inl a
  | .inr s => .inr s.sortKeys

theorem sortKeys_cons (k : Key) (x : α ⊕ Dict α) (r : Dict α) :
    (cons k x r).sortKeys = ins k (sortItem x) r.sortKeys := by
  cases x <;> rfl

theorem keys_cons (k : Key) (x : α ⊕ Dict α) (r : Dict α) : (cons k x r).keys = k :: r.keys := by
  cases x <;> rfl

theorem append_cons (k : Key) (x : α ⊕ Dict α) (r d : Dict α) :
    (cons k x r).append d = cons k x (r.append d) := by
  cases x <;> rfl

/-- Moving an item to the end does not change the sorted dictionary. -/
theorem sortKeys_append_cons (d : Dict α) (k : Key) (x : α ⊕ Dict α) (hk : k ∉ d.keys) :
    (d.append (cons k x nil)).sortKeys = ins k (sortItem x) d.sortKeys := by
  induction d using consInduction with
  | h0 => simp [append, sortKeys_cons]
  | h1 k0 z r ih =>
    rw [keys_cons] at hk
    simp only [List.mem_cons, not_or] at hk
    rw [append_cons, sortKeys_cons, sortKeys_cons, ih hk.2, ins_comm _ _ _ _ _ (Ne.symm hk.1)]

/-- All keys of `d` are ≥ `k`. -/
def Above (k : Key) (d : Dict α) : Prop := ∀ k' ∈ d.keys, k ≤ k'

/-- The outermost keys are listed in order. -/
def TopSorted (d : Dict α) : Prop := d.keys.Pairwise (· ≤ ·)

/-- Keys are listed in order at every depth. -/
def Sorted : Dict α → Prop
  | nil => True
  | leaf k _ r => (∀ k' ∈ r.keys, k ≤ k') ∧ r.Sorted
  | node k s r => (∀ k' ∈ r.keys, k ≤ k') ∧ s.Sorted ∧ r.Sorted

def ItemSorted : α ⊕ Dict α → Prop
  | .inl _ => True
  | .inr s => s.Sorted

theorem sorted_cons (k : Key) (x : α ⊕ Dict α) (r : Dict α) :
    (cons k x r).Sorted ↔ (∀ k' ∈ r.keys, k ≤ k') ∧ ItemSorted x ∧ r.Sorted := by
  cases x <;> simp [cons, Sorted, ItemSorted]

theorem keys_ins_perm (k : Key) (x : α ⊕ Dict α) (d : Dict α) : (ins k x d).keys.Perm (k :: d.keys) := by
  induction d using consInduction with
  | h0 => simp [ins_nil, keys_cons]
  | h1 k0 z r ih =>
    rw [ins_cons]
    split
    · simp [keys_cons]
    · simp only [keys_cons]
      exact (ih.cons k0).trans (List.Perm.swap _ _ _)

theorem mem_keys_ins (k k' : Key) (x : α ⊕ Dict α) (d : Dict α) :
    k' ∈ (ins k x d).keys ↔ k' = k ∨ k' ∈ d.keys := by
  rw [(keys_ins_perm k x d).mem_iff, List.mem_cons]

theorem sorted_ins (k : Key) (x : α ⊕ Dict α) (d : Dict α) (hx : ItemSorted x) (hd : d.Sorted) :
    (ins k x d).Sorted := by
  induction d using consInduction with
  | h0 => rw [ins_nil, sorted_cons]; exact ⟨by simp [keys], hx, trivial⟩
  | h1 k0 z r ih =>
    rw [sorted_cons] at hd
    rw [ins_cons]
    split
    · rename_i h
      rw [sorted_cons, sorted_cons]
      refine ⟨?_, hx, hd⟩
      intro k' hk'
      rw [keys_cons, List.mem_cons] at hk'
      rcases hk' with rfl | hk'
      · exact h
      · exact kle_trans h (hd.1 k' hk')
    · rename_i h
      rw [sorted_cons]
      refine ⟨?_, hd.2.1, ih hd.2.2⟩
      intro k' hk'
      rw [mem_keys_ins] at hk'
      rcases hk' with rfl | hk'
      · exact kle_of_not h
      · exact hd.1 k' hk'

theorem sorted_sortKeys : ∀ d : Dict α, d.sortKeys.Sorted
  | nil => trivial
  | leaf k a r => sorted_ins k (.inl a) r.sortKeys trivial (sorted_sortKeys r)
  | node k s r => sorted_ins k (.inr s.sortKeys) r.sortKeys (sorted_sortKeys s) (sorted_sortKeys r)

theorem ins_of_above (k : Key) (x : α ⊕ Dict α) (d : Dict α) (h : ∀ k' ∈ d.keys, k ≤ k') :
    ins k x d = cons k x d := by
  induction d using consInduction with
  | h0 => exact ins_nil k x
  | h1 k0 z r ih => rw [ins_cons, if_pos (h k0 (by simp [keys_cons]))]

theorem sortKeys_of_sorted : ∀ d : Dict α, d.Sorted → d.sortKeys = d
  | nil, _ => rfl
  | leaf k a r, h => by
    show ins k (.inl a) r.sortKeys = _
    rw [sortKeys_of_sorted r h.2, ins_of_above _ _ _ h.1]; rfl
  | node k s r, h => by
    show ins k (.inr s.sortKeys) r.sortKeys = _
    rw [sortKeys_of_sorted r h.2.2, sortKeys_of_sorted s h.2.1, ins_of_above _ _ _ h.1]; rfl

theorem sortKeys_idem (d : Dict α) : d.sortKeys.sortKeys = d.sortKeys :=
  sortKeys_of_sorted _ (sorted_sortKeys d)

def mapItem (f : α → β) : α ⊕ Dict α → β ⊕ Dict β
  | .inl a => .inl (f a)
  | .inr s => .inr (s.map f)

theorem map_cons (f : α → β) (k : Key) (x : α ⊕ Dict α) (r : Dict α) :
    (cons k x r).map f = cons k (mapItem f x) (r.map f) := by cases x <;> rfl

theorem map_ins (f : α → β) (k : Key) (x : α ⊕ Dict α) (d : Dict α) :
    (ins k x d).map f = ins k (mapItem f x) (d.map f) := by
  induction d using consInduction with
  | h0 => simp [ins_nil, map_cons, map]
  | h1 k0 z r ih =>
    simp only [ins_cons, map_cons]
    split
    · simp [map_cons]
    · simp [map_cons, ih]

theorem map_sortKeys (f : α → β) : ∀ d : Dict α, d.sortKeys.map f = (d.map f).sortKeys
  | nil => rfl
  | leaf k a r => by
    show (ins k (.inl a) r.sortKeys).map f = ins k (.inl (f a)) (r.map f).sortKeys
    rw [map_ins, map_sortKeys f r]; rfl
  | node k s r => by
    show (ins k (.inr s.sortKeys) r.sortKeys).map f = ins k (.inr (s.map f).sortKeys) (r.map f).sortKeys
    rw [map_ins, map_sortKeys f r, ← map_sortKeys f s]; rfl

theorem treeLeaves_map (f : α → β) (d : Dict α) : (d.map f).treeLeaves = d.treeLeaves.map f := by
  rw [treeLeaves, ← map_sortKeys, leaves_map]; rfl

/-! leaves of a sorted dictionary -/

def itemLeaves : α ⊕ Dict α → List α
  | .inl a => [a]
  | .inr s => s.leaves

theorem leaves_cons (k : Key) (x : α ⊕ Dict α) (r : Dict α) :
    (cons k x r).leaves = itemLeaves x ++ r.leaves := by cases x <;> rfl

theorem leaves_ins_perm (k : Key) (x : α ⊕ Dict α) (d : Dict α) :
    (ins k x d).leaves.Perm (itemLeaves x ++ d.leaves) := by
  induction d using consInduction with
  | h0 => simp [ins_nil, leaves_cons, leaves]
  | h1 k0 z r ih =>
    rw [ins_cons]
    split
    · simp [leaves_cons]
    · simp only [leaves_cons]
      refine (ih.append_left _).trans ?_
      rw [← List.append_assoc, ← List.append_assoc]
      exact (List.perm_append_comm).append_right _

theorem treeLeaves_perm : ∀ d : Dict α, d.treeLeaves.Perm d.leaves
  | nil => List.Perm.refl _
  | leaf k a r => by
    have := leaves_ins_perm k (.inl a) r.sortKeys
    exact this.trans ((treeLeaves_perm r).cons a)
  | node k s r => by
    have := leaves_ins_perm k (.inr s.sortKeys) r.sortKeys
    exact this.trans ((treeLeaves_perm s).append (treeLeaves_perm r))

/-! refilling -/

theorem refill_map (f : α → β) (d : Dict α) (rest : List β) :
    refill (d.leaves.map f ++ rest) d = some (d.map f, rest) := by
  induction d generalizing rest with
  | nil => rfl
  | leaf k a r ih => simp [refill, leaves, ih, map]
  | node k s r ih1 ih => simp [refill, leaves, ih1, ih, map, List.append_assoc]

theorem refill_congr (d : Dict α) (vs : List β) :
    refill vs d = refill vs (d.map (fun _ => ())) := by
  induction d generalizing vs with
  | nil => rfl
  | leaf k a r ih => cases vs <;> simp [refill, map, ih]
  | node k s r ih1 ih => simp [refill, map, ih1, ih]

theorem treeUnflatten_map (f : α → β) (d : Dict α) :
    d.treeUnflatten (d.treeLeaves.map f) = some (d.sortKeys.map f) := by
  have := refill_map f d.sortKeys []
  rw [List.append_nil] at this
  rw [treeUnflatten, treeLeaves, this]

/-- Refilling with the right number of leaves succeeds; the result has the same keys and nesting and
exactly the given leaves. -/
theorem refill_spec (d : Dict α) (vs rest : List β) (h : vs.length = d.leaves.length) :
    ∃ d' : Dict β, refill (vs ++ rest) d = some (d', rest) ∧
      d'.map (fun _ => ()) = d.map (fun _ => ()) ∧ d'.leaves = vs := by
  induction d generalizing vs rest with
  | nil => 
    have : vs = [] := by simpa [leaves] using h
    subst this
    exact ⟨nil, rfl, rfl, rfl⟩
  | leaf k a r ih =>
    cases vs with
    | nil => simp [leaves] at h
    | cons v vs =>
      obtain ⟨d', h1, h2, h3⟩ := ih vs rest (by simpa [leaves] using h)
      exact ⟨leaf k v d', by simp [refill, h1], by simp [map, h2], by simp [leaves, h3]⟩
  | node k s r ih1 ih =>
    obtain ⟨s', h1, h2, h3⟩ := ih1 (vs.take s.leaves.length) (vs.drop s.leaves.length ++ rest)
      (by simp [leaves] at h; simp [h])
    obtain ⟨d', h4, h5, h6⟩ := ih (vs.drop s.leaves.length) rest (by simp [leaves] at h; simp [h])
    refine ⟨node k s' d', ?_, by simp [map, h2, h5], by simp [leaves, h3, h6]⟩
    have e : vs ++ rest = vs.take s.leaves.length ++ (vs.drop s.leaves.length ++ rest) := by
      rw [← List.append_assoc, List.take_append_drop]
    rw [e]
    simp [refill, h1, h4]

theorem treeUnflatten_spec (d : Dict α) (vs : List β) (h : vs.length = d.treeLeaves.length) :
    ∃ d' : Dict β, d.treeUnflatten vs = some d' ∧
      d'.map (fun _ => ()) = d.sortKeys.map (fun _ => ()) ∧ d'.leaves = vs := by
  obtain ⟨d', h1, h2, h3⟩ := refill_spec d.sortKeys vs [] h
  refine ⟨d', ?_, h2, h3⟩
  rw [List.append_nil] at h1
  rw [treeUnflatten, h1]

theorem sorted_of_map_eq (d : Dict α) (d' : Dict β) (h : d'.map (fun _ => ()) = d.map (fun _ => ()))
    (hs : d.Sorted) : d'.Sorted := by
  induction d generalizing d' with
  | nil => cases d' <;> simp_all [map, Sorted]
  | leaf k a r ih =>
    cases d' with
    | nil => simp [map] at h
    | node _ _ _ => simp [map] at h
    | leaf k' a' r' =>
      simp only [map, leaf.injEq] at h
      have e : r'.keys = r.keys := by rw [← keys_map (fun _ => ()) r', h.2.2, keys_map]
      exact ⟨by rw [e, h.1]; exact hs.1, ih r' h.2.2 hs.2⟩
  | node k s r ih1 ih =>
    cases d' with
    | nil => simp [map] at h
    | leaf _ _ _ => simp [map] at h
    | node k' s' r' =>
      simp only [map, node.injEq] at h
      have e : r'.keys = r.keys := by rw [← keys_map (fun _ => ()) r', h.2.2, keys_map]
      exact ⟨by rw [e, h.1]; exact hs.1, ih1 s' h.2.1 hs.2.1, ih r' h.2.2 hs.2.2⟩

theorem treeLeaves_of_struct (d : Dict α) (d' : Dict β)
    (h : d'.map (fun _ => ()) = d.sortKeys.map (fun _ => ())) : d'.treeLeaves = d'.leaves := by
  rw [treeLeaves, sortKeys_of_sorted d' (sorted_of_map_eq _ _ h (sorted_sortKeys d))]

/-- A dictionary is determined by its structure and its leaves. -/
theorem eq_of_struct_leaves (d d' : Dict α) (h : d'.map (fun _ => ()) = d.map (fun _ => ()))
    (hl : d'.leaves = d.leaves) : d' = d := by
  have h1 := refill_map id d []
  have h2 := refill_map id d' []
  simp only [List.map_id, List.append_nil] at h1 h2
  rw [refill_congr, h, hl, ← refill_congr, h1] at h2
  simp only [Option.some.injEq, Prod.mk.injEq, and_true] at h2
  have e : ∀ x : Dict α, x.map id = x := by
    intro x
    induction x with
    | nil => rfl
    | leaf k a r ih => simp [map, ih]
    | node k s r ih1 ih => simp [map, ih, ih1]
  rw [e, e] at h2
  exact h2.symm

theorem keysDistinct_map (f : α → β) (d : Dict α) : (d.map f).KeysDistinct ↔ d.KeysDistinct := by
  induction d with
  | nil => rfl
  | leaf k a r ih => simp [map, KeysDistinct, keys_map, ih]
  | node k s r ih1 ih => simp [map, KeysDistinct, keys_map, ih, ih1]

def ItemDistinct : α ⊕ Dict α → Prop
  | .inl _ => True
  | .inr s => s.KeysDistinct

theorem keysDistinct_cons (k : Key) (x : α ⊕ Dict α) (r : Dict α) :
    (cons k x r).KeysDistinct ↔ k ∉ r.keys ∧ ItemDistinct x ∧ r.KeysDistinct := by
  cases x <;> simp [cons, KeysDistinct, ItemDistinct]

theorem keysDistinct_ins (k : Key) (x : α ⊕ Dict α) (d : Dict α) :
    (ins k x d).KeysDistinct ↔ k ∉ d.keys ∧ ItemDistinct x ∧ d.KeysDistinct := by
  induction d using consInduction with
  | h0 => rw [ins_nil, keysDistinct_cons]
  | h1 k0 z r ih =>
    rw [ins_cons]
    split
    · rw [keysDistinct_cons]
    · rw [keysDistinct_cons, keysDistinct_cons, ih, keys_cons, mem_keys_ins, List.mem_cons]
      constructor
      · rintro ⟨h1, h2, h3, h4, h5⟩
        exact ⟨fun h => h.elim (fun e => h1 (Or.inl e.symm)) h3, h4, fun h => h1 (Or.inr h), h2, h5⟩
      · rintro ⟨h1, h2, h3, h4, h5⟩
        exact ⟨fun h => h.elim (fun e => h1 (Or.inl e.symm)) h3, h4, fun h => h1 (Or.inr h), h2, h5⟩

theorem mem_keys_sortKeys (k : Key) : ∀ d : Dict α, k ∈ d.sortKeys.keys ↔ k ∈ d.keys
  | nil => Iff.rfl
  | leaf k' a r => by
    show k ∈ (ins k' (.inl a) r.sortKeys).keys ↔ _
    rw [mem_keys_ins, mem_keys_sortKeys k r, keys, List.mem_cons]
  | node k' s r => by
    show k ∈ (ins k' (.inr s.sortKeys) r.sortKeys).keys ↔ _
    rw [mem_keys_ins, mem_keys_sortKeys k r, keys, List.mem_cons]

theorem keysDistinct_sortKeys : ∀ d : Dict α, d.sortKeys.KeysDistinct ↔ d.KeysDistinct
  | nil => Iff.rfl
  | leaf k a r => by
    show (ins k (.inl a) r.sortKeys).KeysDistinct ↔ _
    rw [keysDistinct_ins, mem_keys_sortKeys, keysDistinct_sortKeys r]
    simp [ItemDistinct, KeysDistinct]
  | node k s r => by
    show (ins k (.inr s.sortKeys) r.sortKeys).KeysDistinct ↔ _
    rw [keysDistinct_ins, mem_keys_sortKeys, keysDistinct_sortKeys r]
    simp [ItemDistinct, KeysDistinct, keysDistinct_sortKeys s]

theorem get?_cons (k k' : Key) (x : α ⊕ Dict α) (r : Dict α) :
    (cons k x r).get? k' = if k' = k then some x else r.get? k' := by
  cases x <;> rfl

theorem get?_ins (k k' : Key) (x : α ⊕ Dict α) (d : Dict α) :
    (ins k x d).get? k' = if k' = k then some x else d.get? k' := by
  induction d using consInduction with
  | h0 => rw [ins_nil, get?_cons]
  | h1 k0 z r ih =>
    rw [ins_cons]
    split
    · rw [get?_cons]
    · rename_i h
      have hne : k ≠ k0 := fun e => h (e ▸ kle_refl k)
      rw [get?_cons, get?_cons, ih]
      by_cases h1 : k' = k
      · subst h1; simp [hne]
      · simp [h1]

theorem get?_sortKeys (k : Key) : ∀ d : Dict α, d.sortKeys.get? k = (d.get? k).map sortItem
  | nil => rfl
  | leaf k' a r => by
    show (ins k' (.inl a) r.sortKeys).get? k = _
    rw [get?_ins, get?_sortKeys k r, get?]
    split <;> rfl
  | node k' s r => by
    show (ins k' (.inr s.sortKeys) r.sortKeys).get? k = _
    rw [get?_ins, get?_sortKeys k r, get?]
    split <;> rfl

/-- Same keys in the same order, leaves related by `R`. -/
inductive Rel (R : α → β → Prop) : Dict α → Dict β → Prop
  | nil : Rel R nil nil
  | leaf {k a b r r'} : R a b → Rel R r r' → Rel R (leaf k a r) (leaf k b r')
  | node {k s s' r r'} : Rel R s s' → Rel R r r' → Rel R (node k s r) (node k s' r')

theorem Rel.of_forall₂ {R : α → β → Prop} (d : Dict α) (d' : Dict β)
    (h : d'.map (fun _ => ()) = d.map (fun _ => ()))
    (hl : ∀ i (h1 : i < d.leaves.length) (h2 : i < d'.leaves.length), R d.leaves[i] d'.leaves[i]) :
    Rel R d d' := by
  induction d generalizing d' with
  | nil => cases d' <;> simp_all [map]; exact .nil
  | leaf k a r ih =>
    cases d' with
    | nil => simp [map] at h
    | node _ _ _ => simp [map] at h
    | leaf k' a' r' =>
      simp only [map, leaf.injEq] at h
      obtain ⟨rfl, _, h⟩ := h
      refine .leaf ?_ (ih r' h ?_)
      · exact hl 0 (by simp [leaves]) (by simp [leaves])
      · intro i h1 h2
        exact hl (i+1) (by simpa [leaves] using h1) (by simpa [leaves] using h2)
  | node k s r ih1 ih =>
    cases d' with
    | nil => simp [map] at h
    | leaf _ _ _ => simp [map] at h
    | node k' s' r' =>
      simp only [map, node.injEq] at h
      obtain ⟨rfl, hs, h⟩ := h
      have e : s'.leaves.length = s.leaves.length := by
        have := congrArg (fun d => d.leaves.length) hs
        simpa [leaves_map] using this
      refine .node (ih1 s' hs ?_) (ih r' h ?_)
      · intro i h1 h2
        have := hl i (by simp [leaves]; omega) (by simp [leaves]; omega)
        simpa [leaves, List.getElem_append, h1, h2] using this
      · intro i h1 h2
        have := hl (s.leaves.length + i) (by simp [leaves]; omega) (by simp [leaves]; omega)
        simpa [leaves, List.getElem_append, e] using this

/-- Related items. -/
def ItemRel (R : α → β → Prop) : Option (α ⊕ Dict α) → Option (β ⊕ Dict β) → Prop
  | none, none => True
  | some (.inl a), some (.inl b) => R a b
  | some (.inr s), some (.inr s') => Rel R s s'
  | _, _ => False

theorem Rel.get? {R : α → β → Prop} {d : Dict α} {d' : Dict β} (h : Rel R d d') (k : Key) :
    ItemRel R (d.get? k) (d'.get? k) := by
  induction h with
  | nil => trivial
  | leaf hab _ ih =>
    simp only [Dict.get?]; split
    · exact hab
    · exact ih
  | node hs _ _ ih =>
    simp only [Dict.get?]; split
    · exact hs
    · exact ih

theorem Rel.map_self (f : α → β) (R : α → β → Prop) (d : Dict α) (h : ∀ a ∈ d.leaves, R a (f a)) :
    Rel R d (d.map f) := by
  induction d with
  | nil => exact .nil
  | leaf k a r ih =>
    exact .leaf (h a (by simp [leaves])) (ih (fun b hb => h b (by simp [leaves, hb])))
  | node k s r ih1 ih =>
    exact .node (ih1 (fun b hb => h b (by simp [leaves, hb])))
      (ih (fun b hb => h b (by simp [leaves, hb])))

theorem sorted_head_eq {k k' : Key} {ks ks' : List Key} (h : ∀ q ∈ ks, k ≤ q) (h' : ∀ q ∈ ks', k' ≤ q)
    (h1 : k ∈ k' :: ks') (h2 : k' ∈ k :: ks) : k = k' := by
  rcases List.mem_cons.mp h1 with e | h1
  · exact e
  rcases List.mem_cons.mp h2 with e | h2
  · exact e.symm
  exact kle_antisymm (h _ h2) (h' _ h1)

theorem get?_eq_none (k : Key) (d : Dict α) : d.get? k = none ↔ k ∉ d.keys := by
  induction d using consInduction with
  | h0 => simp [get?, keys]
  | h1 k0 z r ih =>
    rw [get?_cons, keys_cons, List.mem_cons]
    by_cases h : k = k0 <;> simp [h, ih]

end Dict

theorem popNode_sort {k : Key} {d s r : Dict α} (h : popNode k d = some (s, r)) :
    d.sortKeys = Dict.ins k (.inr s.sortKeys) r.sortKeys := by
  induction d generalizing r with
  | nil => simp [popNode] at h
  | leaf k' a d ih =>
    simp only [popNode] at h
    split at h
    · simp at h
    · rename_i hne
      rw [Option.map_eq_some_iff] at h
      obtain ⟨⟨s1, r1⟩, h1, h2⟩ := h
      simp only [Prod.mk.injEq] at h2
      obtain ⟨rfl, rfl⟩ := h2
      show Dict.ins k' (.inl a) d.sortKeys = Dict.ins k _ (Dict.ins k' (.inl a) r1.sortKeys)
      rw [ih h1, Dict.ins_comm _ _ _ _ _ (Ne.symm hne)]
  | node k' a d _ ih =>
    simp only [popNode] at h
    split at h
    · rename_i e
      simp only [Option.some.injEq, Prod.mk.injEq] at h
      obtain ⟨rfl, rfl⟩ := h
      subst e; rfl
    · rename_i hne
      rw [Option.map_eq_some_iff] at h
      obtain ⟨⟨s1, r1⟩, h1, h2⟩ := h
      simp only [Prod.mk.injEq] at h2
      obtain ⟨rfl, rfl⟩ := h2
      show Dict.ins k' (.inr a.sortKeys) d.sortKeys =
        Dict.ins k _ (Dict.ins k' (.inr a.sortKeys) r1.sortKeys)
      rw [ih h1, Dict.ins_comm _ _ _ _ _ (Ne.symm hne)]

theorem popNode_of_get? {k : Key} {d s : Dict α} (h : d.get? k = some (.inr s)) :
    ∃ r, popNode k d = some (s, r) := by
  induction d with
  | nil => simp [Dict.get?] at h
  | leaf k' a d ih =>
    simp only [Dict.get?] at h
    split at h
    · simp at h
    · rename_i hne
      obtain ⟨r, hr⟩ := ih h
      exact ⟨.leaf k' a r, by simp [popNode, hne, hr]⟩
  | node k' a d _ ih =>
    simp only [Dict.get?] at h
    split at h
    · rename_i e
      simp at h
      exact ⟨d, by simp [popNode, e, h]⟩
    · rename_i hne
      obtain ⟨r, hr⟩ := ih h
      exact ⟨.node k' a r, by simp [popNode, hne, hr]⟩

/-- What popping leaves behind inherits the well-formedness conditions. -/
theorem popNode_wf {k : Key} {d s r : Dict α} (h : popNode k d = some (s, r)) :
    (d.KeysDistinct → s.KeysDistinct ∧ r.KeysDistinct ∧ k ∉ r.keys) ∧
    (WellKeyed d → WellKeyed s ∧ WellKeyed r) ∧
    (NoShortShadow d → NoShortShadow s ∧ NoShortShadow r) ∧
    (∀ q ∈ r.keys, q ∈ d.keys) := by
  induction d generalizing r with
  | nil => simp [popNode] at h
  | leaf k' a d ih =>
    simp only [popNode] at h
    split at h
    · simp at h
    · rename_i hne
      rw [Option.map_eq_some_iff] at h
      obtain ⟨⟨s1, r1⟩, h1, h2⟩ := h
      simp only [Prod.mk.injEq] at h2
      obtain ⟨rfl, rfl⟩ := h2
      obtain ⟨i1, i2, i3, i4⟩ := ih h1
      refine ⟨fun hd => ?_, fun hd => ?_, fun hd => ?_, ?_⟩
      · obtain ⟨j1, j2, j3⟩ := i1 hd.2
        refine ⟨j1, ⟨fun hm => hd.1 (i4 _ hm), j2⟩, ?_⟩
        simp only [Dict.keys, List.mem_cons, not_or]
        exact ⟨hne, j3⟩
      · exact ⟨(i2 hd.2.2).1, hd.1, hd.2.1, (i2 hd.2.2).2⟩
      · exact ⟨(i3 hd).1, (i3 hd).2⟩
      · intro q hq
        simp only [Dict.keys, List.mem_cons] at hq ⊢
        exact hq.imp id (i4 q)
  | node k' a d _ ih =>
    simp only [popNode] at h
    split at h
    · rename_i e
      simp only [Option.some.injEq, Prod.mk.injEq] at h
      obtain ⟨rfl, rfl⟩ := h
      subst e
      refine ⟨fun hd => ⟨hd.2.1, hd.2.2, hd.1⟩, fun hd => ⟨hd.2.1, hd.2.2⟩,
        fun hd => ⟨hd.2.1, hd.2.2⟩, ?_⟩
      intro q hq
      simp [Dict.keys, hq]
    · rename_i hne
      rw [Option.map_eq_some_iff] at h
      obtain ⟨⟨s1, r1⟩, h1, h2⟩ := h
      simp only [Prod.mk.injEq] at h2
      obtain ⟨rfl, rfl⟩ := h2
      obtain ⟨i1, i2, i3, i4⟩ := ih h1
      refine ⟨fun hd => ?_, fun hd => ?_, fun hd => ?_, ?_⟩
      · obtain ⟨j1, j2, j3⟩ := i1 hd.2.2
        refine ⟨j1, ⟨fun hm => hd.1 (i4 _ hm), hd.2.1, j2⟩, ?_⟩
        simp only [Dict.keys, List.mem_cons, not_or]
        exact ⟨hne, j3⟩
      · exact ⟨(i2 hd.2.2).1, hd.1, hd.2.1, (i2 hd.2.2).2⟩
      · exact ⟨(i3 hd.2.2).1, hd.1, hd.2.1, (i3 hd.2.2).2⟩
      · intro q hq
        simp only [Dict.keys, List.mem_cons] at hq ⊢
        exact hq.imp id (i4 q)

end GPX
