/-!
# Nested Python dictionaries

Model of `gpx/parameters/utils.py:71-139` (`_flatten_dict`, `_unflatten_dict`) and of the two JAX
pytree operations the library applies to nested dictionaries (`tree_leaves`, `tree_flatten` /
`tree_unflatten`, which visit dictionary keys in sorted order).

Strings are lists of characters. A nested dictionary is a list of items in insertion order; an item
is either a leaf (any non-`dict` object) or a sub-dictionary.
-/

namespace GPX

/-- A Python string. -/
abbrev Key := List Char

/-- A nested Python `dict` with string keys, items in insertion order. Python guarantees distinct
keys per dictionary; that is the predicate `Dict.KeysDistinct` below. -/
inductive Dict (α : Type) where
  | nil
  | leaf (k : Key) (a : α) (rest : Dict α)
  | node (k : Key) (sub : Dict α) (rest : Dict α)
deriving DecidableEq, Repr

namespace Dict
variable {α β : Type}

/-- The keys of the outermost dictionary, in insertion order. -/
def keys : Dict α → List Key
  | nil => []
  | leaf k _ r => k :: r.keys
  | node k _ r => k :: r.keys

/-- Keys are distinct in every dictionary at every depth (an invariant of Python's `dict`). -/
def KeysDistinct : Dict α → Prop
  | nil => True
  | leaf k _ r => k ∉ r.keys ∧ r.KeysDistinct
  | node k s r => k ∉ r.keys ∧ s.KeysDistinct ∧ r.KeysDistinct

/-- `d1` followed by the items of `d2`. -/
def append : Dict α → Dict α → Dict α
  | nil, d => d
  | leaf k a r, d => leaf k a (r.append d)
  | node k s r, d => node k s (r.append d)

/-- `jax.tree_util.tree_map(f, d)`: same keys and nesting, `f` applied to the leaves. -/
def map (f : α → β) : Dict α → Dict β
  | nil => nil
  | leaf k a r => leaf k (f a) (r.map f)
  | node k s r => node k (s.map f) (r.map f)

/-- Leaves in the order the items are listed. -/
def leaves : Dict α → List α
  | nil => []
  | leaf _ a r => a :: r.leaves
  | node _ s r => s.leaves ++ r.leaves

/-- Insert a leaf item before the first item with a key that is not smaller. -/
def insLeaf (k : Key) (a : α) : Dict α → Dict α
  | nil => leaf k a nil
  | leaf k' a' r => if k ≤ k' then leaf k a (leaf k' a' r) else leaf k' a' (r.insLeaf k a)
  | node k' s' r => if k ≤ k' then leaf k a (node k' s' r) else node k' s' (r.insLeaf k a)

/-- Insert a sub-dictionary item before the first item with a key that is not smaller. -/
def insNode (k : Key) (s : Dict α) : Dict α → Dict α
  | nil => node k s nil
  | leaf k' a' r => if k ≤ k' then node k s (leaf k' a' r) else leaf k' a' (insNode k s r)
  | node k' s' r => if k ≤ k' then node k s (node k' s' r) else node k' s' (insNode k s r)

/-- JAX visits the keys of a `dict` in sorted order (`jax.tree_util`, used at
`model_state.py:101-108, 321-323, 369, 401` and `optimizers/utils.py:41, 57, 70, 89`), at every depth.
`sortKeys` is the dictionary re-listed in that order. -/
def sortKeys : Dict α → Dict α
  | nil => nil
  | leaf k a r => r.sortKeys.insLeaf k a
  | node k s r => insNode k s.sortKeys r.sortKeys

/-- `jax.tree_util.tree_leaves(d)`. -/
def treeLeaves (d : Dict α) : List α := d.sortKeys.leaves

/-- Rebuild a dictionary from a structure and the list of its leaves in listing order
(`tree_unflatten`); `none` when there are too few leaves (JAX raises). Returns the unused leaves. -/
def refill (vs : List β) : Dict α → Option (Dict β × List β)
  | nil => some (nil, vs)
  | leaf k _ r =>
    match vs with
    | [] => none
    | v :: vs => do
      let (r', rest) ← r.refill vs
      pure (leaf k v r', rest)
  | node k s r => do
      let (s', rest) ← s.refill vs
      let (r', rest') ← r.refill rest
      pure (node k s' r', rest')

/-- `tree_unflatten(treedef, leaves)`: exactly the right number of leaves is required. The treedef
lists keys in sorted order, so the structure argument is sorted first. -/
def treeUnflatten (struct : Dict α) (vs : List β) : Option (Dict β) :=
  match struct.sortKeys.refill vs with
  | some (d, []) => some d
  | _ => none

/-- Look up a key of the outermost dictionary: `none` if absent, otherwise the leaf or sub-dict. -/
def get? (k : Key) : Dict α → Option (α ⊕ Dict α)
  | nil => none
  | leaf k' a r => if k = k' then some (.inl a) else r.get? k
  | node k' s r => if k = k' then some (.inr s) else r.get? k

/-- `d[k] = v` for a leaf value: overwrite in place, or append at the end. -/
def setLeaf (k : Key) (v : α) : Dict α → Dict α
  | nil => leaf k v nil
  | leaf k' a r => if k = k' then leaf k v r else leaf k' a (r.setLeaf k v)
  | node k' s r => if k = k' then leaf k v r else node k' s (r.setLeaf k v)

/-- `d[k] = sub` for a dictionary value: overwrite in place, or append at the end. -/
def setNode (k : Key) (v : Dict α) : Dict α → Dict α
  | nil => node k v nil
  | leaf k' a r => if k = k' then node k v r else leaf k' a (setNode k v r)
  | node k' s r => if k = k' then node k v r else node k' s (setNode k v r)

end Dict

/-- `flattened[k] = v` on a flat dictionary kept as an association list in insertion order. -/
def assocSet {α : Type} (k : Key) (v : α) : List (Key × α) → List (Key × α)
  | [] => [(k, v)]
  | (k', a) :: r => if k = k' then (k, v) :: r else (k', a) :: assocSet k v r

/-- `flattened.get(k)` on an association list. -/
def assocGet {α : Type} (k : Key) : List (Key × α) → Option α
  | [] => none
  | (k', a) :: r => if k = k' then some a else assocGet k r

/-- The literal `"NULL"` of `parameters/utils.py:82`. -/
def nullKey : Key := ['N', 'U', 'L', 'L']

/-- `f"{starting_key}{sep}{k}" if starting_key else k` (`parameters/utils.py:82, 87`) with
`sep = ":"`. `starting_key=None` and `starting_key=""` are both falsy: modelled by `[]`. -/
def pyJoin (start k : Key) : Key := if start = [] then k else start ++ ':' :: k

/-- The `for` loop of `_flatten_dict`, `parameters/utils.py:86-98`, with the recursive call on
sub-dictionaries inlined (`parameters/utils.py:81-83` when the sub-dictionary is empty).
`pyNone` is Python's `None`, `mv` is `map_value`, `acc` the dictionary being filled. -/
def flattenItems {α β : Type} (pyNone : β) (mv : α → β) :
    Key → Dict α → List (Key × β) → List (Key × β)
  | _, .nil, acc => acc
  | start, .leaf k a r, acc =>
      flattenItems pyNone mv start r (assocSet (pyJoin start k) (mv a) acc)
  | start, .node k .nil r, acc =>
      flattenItems pyNone mv start r (assocSet (pyJoin (pyJoin start k) nullKey) pyNone acc)
  | start, .node k s r, acc =>
      flattenItems pyNone mv start r (flattenItems pyNone mv (pyJoin start k) s acc)

/-- `_flatten_dict(d, starting_key=start, sep=":", map_value=mv)`, `parameters/utils.py:71-100`. -/
def flattenDict {α β : Type} (pyNone : β) (mv : α → β) (start : Key) (d : Dict α) :
    List (Key × β) :=
  match d with
  | .nil => assocSet (pyJoin start nullKey) pyNone []
  | d => flattenItems pyNone mv start d []

/-- Python `k.split(":")` (`parameters/utils.py:120`). -/
def pySplit : List Char → List Key
  | [] => [[]]
  | c :: cs =>
    if c = ':' then [] :: pySplit cs
    else match pySplit cs with
      | [] => [[c]]
      | p :: ps => (c :: p) :: ps

/-- CPython returns the *same object* for equal strings that are empty or one Latin-1 character
(cached singletons); longer pieces produced by `split` are fresh objects. This decides the identity
test `subk is keys[-1]` of `parameters/utils.py:124` for a piece that is not the last one. -/
def cachedString (s : Key) : Bool :=
  match s with
  | [] => true
  | [c] => c.toNat < 256
  | _ => false

/-- One iteration of the inner loop over the pieces of a key, `parameters/utils.py:122-137`.
`last` is `keys[-1]`; the pieces still to visit are the second list; the current dictionary is
walked by reference, i.e. the updated sub-dictionary is put back. `none`: the code raises because it
would descend into something that is not a dictionary. -/
def unflattenWalk {β : Type} (last : Key) (v : β) : List Key → Dict β → Option (Dict β)
  | [], d => some d
  | [k], d => some (if k = nullKey then d else d.setLeaf k v)
  | k :: k' :: ks, d =>
    if k = last ∧ cachedString k = true then
      -- identified as the last key although it is not: assign and keep walking in the same dict
      unflattenWalk last v (k' :: ks) (if k = nullKey then d else d.setLeaf k v)
    else
      match d.get? k with
      | some (.inl _) => none
      | some (.inr sub) => do
          let sub' ← unflattenWalk last v (k' :: ks) sub
          pure (Dict.setNode k sub' d)
      | none => do
          let sub' ← unflattenWalk last v (k' :: ks) .nil
          pure (Dict.setNode k sub' d)

/-- The outer loop of `_unflatten_dict`, `parameters/utils.py:107-137`, on the items of the flat
dictionary in order (`dictionary[k]` cannot fail on a plain dictionary). -/
def unflattenLoop {β : Type} : List (Key × β) → Dict β → Option (Dict β)
  | [], d => some d
  | (k, v) :: rest, d => do
      let d' ← unflattenWalk ((pySplit k).getLast?.getD []) v (pySplit k) d
      unflattenLoop rest d'

/-- `_unflatten_dict(dictionary, sep=":")`, `parameters/utils.py:103-139`. -/
def unflattenDict {β : Type} (flat : List (Key × β)) : Option (Dict β) := unflattenLoop flat .nil

/-- `d.pop(k)` for an entry that is a sub-dictionary (`model_state.py:268, 317`): the sub-dictionary and the rest.
`none`: `KeyError`, or the entry is not a dictionary. -/
def popNode {α : Type} (k : Key) : Dict α → Option (Dict α × Dict α)
  | .nil => none
  | .leaf k' a r => if k = k' then none else (popNode k r).map (fun q => (q.1, .leaf k' a q.2))
  | .node k' s r => if k = k' then some (s, r) else (popNode k r).map (fun q => (q.1, .node k' s q.2))

end GPX
