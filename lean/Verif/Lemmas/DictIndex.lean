import Verif.Lemmas.Params
import Mathlib.Algebra.Order.BigOperators.Group.List

/-!
# Where a leaf of a nested dictionary sits in the list of leaves, and in the vector of trainable numbers
-/

namespace GPX
open Spec
variable {α β : Type}

/-- The position, in listing order, of the leaf a key path leads to. -/
def Dict.idx : Dict α → List Key → Option ℕ
  | .nil, _ => none
  | .leaf _ _ _, [] => none
  | .leaf k _ r, k' :: ks => if k' = k then (if ks = [] then some 0 else none) else (r.idx (k' :: ks)).map (· + 1)
  | .node _ _ _, [] => none
  | .node k s r, k' :: ks => if k' = k then s.idx ks else (r.idx (k' :: ks)).map (· + s.leaves.length)

theorem Dict.idx_nil (d : Dict α) : d.idx [] = none := by cases d <;> rfl

theorem Dict.leaves_map_length (f : α → β) (d : Dict α) : (d.map f).leaves.length = d.leaves.length := by
  induction d with
  | nil => rfl
  | leaf k a r ih => simp [Dict.map, Dict.leaves, ih]
  | node k s r ih1 ih2 => simp [Dict.map, Dict.leaves, ih1, ih2]

theorem Dict.idx_map (f : α → β) (d : Dict α) (path : List Key) : (d.map f).idx path = d.idx path := by
  induction d generalizing path with
  | nil => rfl
  | leaf k a r ih =>
    cases path with
    | nil => rfl
    | cons k' ks => simp only [Dict.map, Dict.idx, ih]
  | node k s r ih1 ih2 =>
    cases path with
    | nil => rfl
    | cons k' ks => simp only [Dict.map, Dict.idx, ih1, ih2, Dict.leaves_map_length]

theorem Dict.idx_lt (d : Dict α) (path : List Key) (i : ℕ) (h : d.idx path = some i) : i < d.leaves.length := by
  induction d generalizing path i with
  | nil => simp [Dict.idx] at h
  | leaf k a r ih =>
    cases path with
    | nil => simp [Dict.idx] at h
    | cons k' ks =>
      simp only [Dict.idx] at h
      split_ifs at h
      · cases h; simp [Dict.leaves]
      · obtain ⟨j, hj, rfl⟩ := Option.map_eq_some_iff.mp h
        simpa [Dict.leaves] using ih _ _ hj
  | node k s r ih1 ih2 =>
    cases path with
    | nil => simp [Dict.idx] at h
    | cons k' ks =>
      simp only [Dict.idx] at h
      split_ifs at h
      · have := ih1 _ _ h
        simp only [Dict.leaves, List.length_append]
        omega
      · obtain ⟨j, hj, rfl⟩ := Option.map_eq_some_iff.mp h
        have := ih2 _ _ hj
        simp only [Dict.leaves, List.length_append]
        omega

/-- Two key paths lead to the same position only if they are the same. -/
theorem Dict.idx_inj (d : Dict α) (p q : List Key) (i : ℕ) (hp : d.idx p = some i) (hq : d.idx q = some i) : p = q := by
  induction d generalizing p q i with
  | nil => simp [Dict.idx] at hp
  | leaf k a r ih =>
    cases p with
    | nil => simp [Dict.idx] at hp
    | cons k1 ks1 =>
    cases q with
    | nil => simp [Dict.idx] at hq
    | cons k2 ks2 =>
      simp only [Dict.idx] at hp hq
      split_ifs at hp hq with h1 h2 h3 h4 h5 h6
      · rw [h1, h2, h3, h4]
      · obtain ⟨j, hj, hj'⟩ := Option.map_eq_some_iff.mp hq
        cases hp
        omega
      · obtain ⟨j, hj, hj'⟩ := Option.map_eq_some_iff.mp hp
        cases hq
        omega
      · obtain ⟨j, hj, hj'⟩ := Option.map_eq_some_iff.mp hp
        obtain ⟨j2, hj2, hj2'⟩ := Option.map_eq_some_iff.mp hq
        have : j2 = j := by omega
        subst this
        exact ih _ _ _ hj hj2
  | node k s r ih1 ih2 =>
    cases p with
    | nil => simp [Dict.idx] at hp
    | cons k1 ks1 =>
    cases q with
    | nil => simp [Dict.idx] at hq
    | cons k2 ks2 =>
      simp only [Dict.idx] at hp hq
      split_ifs at hp hq with h1 h2 h2
      · rw [h1, h2, ih1 _ _ _ hp hq]
      · obtain ⟨j, hj, hj'⟩ := Option.map_eq_some_iff.mp hq
        have := Dict.idx_lt _ _ _ hp
        omega
      · obtain ⟨j, hj, hj'⟩ := Option.map_eq_some_iff.mp hp
        have := Dict.idx_lt _ _ _ hq
        omega
      · obtain ⟨j, hj, hj'⟩ := Option.map_eq_some_iff.mp hp
        obtain ⟨j2, hj2, hj2'⟩ := Option.map_eq_some_iff.mp hq
        have : j2 = j := by omega
        subst this
        exact ih2 _ _ _ hj hj2

theorem lookup_cons_leaf (k k' : Key) (a : α) (r : Dict α) (ks : List Key) :
    lookup (k' :: ks) (.leaf k a r) = if k' = k then (if ks = [] then some (.inl a) else none) else
      lookup (k' :: ks) r := by
  simp only [lookup, Dict.get?]
  split_ifs <;> simp_all

theorem lookup_cons_node (k k' : Key) (s r : Dict α) (ks : List Key) :
    lookup (k' :: ks) (.node k s r) = if k' = k then lookup ks s else lookup (k' :: ks) r := by
  simp only [lookup, Dict.get?]
  split_ifs <;> simp_all

/-- A path leads to a leaf exactly when it has a position, and the leaf is the one there. -/
theorem Dict.lookup_idx (d : Dict α) (path : List Key) (a : α) :
    lookup path d = some (.inl a) ↔ ∃ i, d.idx path = some i ∧ d.leaves[i]? = some a := by
  induction d generalizing path with
  | nil => cases path <;> simp [lookup, Dict.idx, Dict.get?]
  | leaf k b r ih =>
    cases path with
    | nil => simp [lookup, Dict.idx]
    | cons k' ks =>
      rw [lookup_cons_leaf]
      simp only [Dict.idx, Dict.leaves]
      split_ifs with h1 h2
      · simp
      · simp
      · rw [ih]
        simp
  | node k s r ih1 ih2 =>
    cases path with
    | nil => simp [lookup, Dict.idx]
    | cons k' ks =>
      rw [lookup_cons_node]
      simp only [Dict.idx, Dict.leaves]
      split_ifs with h1
      · rw [ih1]
        refine exists_congr fun i => and_congr_right fun hi => ?_
        rw [List.getElem?_append_left (Dict.idx_lt _ _ _ hi)]
      · rw [ih2]
        simp [List.getElem?_append_right]

/-! ### positions in the vector of trainable numbers -/

/-- Where the numbers of the `i`-th leaf start in the vector the optimiser works on. -/
def offset (ps : List Param) (i : ℕ) : ℕ := (sizes (ps.take i)).sum

theorem mergePure_get (ps : List Param) (cs : List (List ℝ)) (hl : cs.map List.length = sizes ps) (i : ℕ) (p : Param)
    (hp : ps[i]? = some p) :
    (mergePure ps cs)[i]? = some (if p.trainable then { p with value := { p.value with
      data := ((cs.flatten.drop (offset ps i)).take p.value.data.length).map p.bijector.forward } } else p) := by
  induction ps generalizing cs i with
  | nil => simp at hp
  | cons q ps ih =>
    by_cases ht : q.trainable = true
    · cases cs with
      | nil => simp [sizes, ht] at hl
      | cons c cs =>
        have hl' : c.length = q.value.data.length ∧ cs.map List.length = sizes ps := by
          simpa [sizes, ht] using hl
        cases i with
        | zero =>
          simp only [List.getElem?_cons_zero, Option.some.injEq] at hp
          subst hp
          simp [mergePure, ht, offset, sizes, ← hl'.1]
        | succ i =>
          simp only [List.getElem?_cons_succ] at hp
          have := ih cs hl'.2 i hp
          simp only [mergePure, ht, if_true, List.getElem?_cons_succ, this]
          have ho : offset (q :: ps) (i + 1) = c.length + offset ps i := by
            simp [offset, sizes, ht, hl'.1]
          simp [ho, List.drop_append, ← List.drop_drop]
    · have hl' : cs.map List.length = sizes ps := by simpa [sizes, ht] using hl
      cases i with
      | zero =>
        simp only [List.getElem?_cons_zero, Option.some.injEq] at hp
        subst hp
        simp [mergePure, ht]
      | succ i =>
        simp only [List.getElem?_cons_succ] at hp
        have ho : offset (q :: ps) (i + 1) = offset ps i := by simp [offset, sizes, ht]
        simp only [mergePure, ht]
        simpa [ho] using ih cs hl' i hp

theorem offset_add_le (ps : List Param) (i j : ℕ) (hij : i < j) (p : Param) (hp : ps[i]? = some p)
    (ht : p.trainable = true) : offset ps i + p.value.data.length ≤ offset ps j := by
  induction ps generalizing i j with
  | nil => simp at hp
  | cons q ps ih =>
    obtain ⟨j, rfl⟩ : ∃ j', j = j' + 1 := ⟨j - 1, by omega⟩
    cases i with
    | zero =>
      simp only [List.getElem?_cons_zero, Option.some.injEq] at hp
      subst hp
      simp [offset, sizes, ht]
    | succ i =>
      simp only [List.getElem?_cons_succ] at hp
      have := ih i j (by omega) hp
      by_cases hq : q.trainable = true
      · simp only [offset, sizes, List.take_succ_cons, List.filter_cons, hq, if_true, List.map_cons,
          List.sum_cons] at this ⊢
        omega
      · simpa [offset, sizes, hq] using this

theorem offset_total (ps : List Param) : offset ps ps.length = (sizes ps).sum := by simp [offset]

end GPX
