import Verif.Lemmas.Params
import Verif.Lemmas.Dict
import Verif.Spec.Print

/-!
# Lemmas on the printed table of parameters
-/

namespace GPX
open GPX.Spec
variable {α : Type}

namespace Dict

theorem leavesWithPath_pre (d : Dict α) : ∀ pre : List Key,
    d.leavesWithPath pre = (d.leavesWithPath []).map (fun q => (pre ++ q.1, q.2)) := by
  induction d with
  | nil => intro pre; rfl
  | leaf k a r ih =>
    intro pre
    simp only [leavesWithPath, List.map_cons, List.nil_append]
    rw [ih pre]
  | node k s r ih1 ih =>
    intro pre
    simp only [leavesWithPath, List.map_append, List.nil_append]
    rw [ih pre, ih1 (pre ++ [k]), ih1 [k], List.map_map]
    congr 1
    apply List.map_congr_left
    intro q _
    simp

theorem leavesWithPath_cons_inl (k : Key) (a : α) (r : Dict α) :
    (leaf k a r).leavesWithPath [] = ([k], a) :: r.leavesWithPath [] := rfl

theorem leavesWithPath_cons_inr (k : Key) (s r : Dict α) :
    (node k s r).leavesWithPath [] =
      (s.leavesWithPath []).map (fun q => (k :: q.1, q.2)) ++ r.leavesWithPath [] := by
  show s.leavesWithPath ([] ++ [k]) ++ _ = _
  rw [leavesWithPath_pre s]; rfl

theorem mem_keys_of_leavesWithPath (d : Dict α) (q : List Key × α) (h : q ∈ d.leavesWithPath []) :
    ∃ k ks, q.1 = k :: ks ∧ k ∈ d.keys := by
  induction d with
  | nil => cases h
  | leaf k a r ih =>
    rw [leavesWithPath_cons_inl] at h
    rcases List.mem_cons.mp h with rfl | h
    · exact ⟨k, [], rfl, by simp [keys]⟩
    · obtain ⟨k', ks, e, hk⟩ := ih h
      exact ⟨k', ks, e, by simp [keys, hk]⟩
  | node k s r ih1 ih =>
    rw [leavesWithPath_cons_inr] at h
    rcases List.mem_append.mp h with h | h
    · obtain ⟨q', _, rfl⟩ := List.mem_map.mp h
      exact ⟨k, q'.1, rfl, by simp [keys]⟩
    · obtain ⟨k', ks, e, hk⟩ := ih h
      exact ⟨k', ks, e, by simp [keys, hk]⟩

theorem mem_leavesWithPath (d : Dict α) (hd : d.KeysDistinct) (path : List Key) (a : α) :
    (path, a) ∈ d.leavesWithPath [] ↔ lookup path d = some (.inl a) := by
  induction d generalizing path with
  | nil => cases path <;> simp [leavesWithPath, lookup, get?]
  | leaf k b r ih =>
    rw [leavesWithPath_cons_inl, List.mem_cons, ih hd.2]
    cases path with
    | nil => simp [lookup]
    | cons k' ks =>
      by_cases hk : k' = k
      · subst hk
        have h1 : r.get? k' = none := (get?_eq_none _ _).mpr hd.1
        simp only [lookup, get?, if_true, h1]
        by_cases hks : ks = []
        · simp [hks, eq_comm]
        · simp [hks]
      · simp [lookup, get?, hk]
  | node k s r ih1 ih =>
    rw [leavesWithPath_cons_inr, List.mem_append, ih hd.2.2]
    cases path with
    | nil => simp [lookup]
    | cons k' ks =>
      by_cases hk : k' = k
      · subst hk
        have h1 : r.get? k' = none := (get?_eq_none _ _).mpr hd.1
        simp only [lookup, get?, if_true, h1]
        rw [← ih1 hd.2.1 ks]
        simp
      · simp only [lookup, get?, hk, if_false]
        constructor
        · rintro (h | h)
          · obtain ⟨q, _, hq⟩ := List.mem_map.mp h
            simp only [Prod.mk.injEq, List.cons.injEq] at hq
            exact absurd hq.1.1.symm hk
          · exact h
        · exact Or.inr

theorem klt_of_le_ne {a b : Key} (h : a ≤ b) (hne : a ≠ b) : a < b := by
  by_contra hc
  exact hne (kle_antisymm h (List.not_lt.mp hc))

theorem leavesWithPath_sorted (d : Dict α) (hs : d.Sorted) (hd : d.KeysDistinct) :
    ((d.leavesWithPath []).map Prod.fst).Pairwise (· < ·) := by
  induction d with
  | nil => exact List.Pairwise.nil
  | leaf k a r ih =>
    rw [leavesWithPath_cons_inl, List.map_cons, List.pairwise_cons]
    refine ⟨fun p hp => ?_, ih hs.2 hd.2⟩
    obtain ⟨q, hq, rfl⟩ := List.mem_map.mp hp
    obtain ⟨k', ks, e, hk⟩ := mem_keys_of_leavesWithPath r q hq
    rw [e]
    exact List.Lex.rel (klt_of_le_ne (hs.1 k' hk) (fun e' => hd.1 (e' ▸ hk)))
  | node k s r ih1 ih =>
    rw [leavesWithPath_cons_inr, List.map_append, List.pairwise_append]
    refine ⟨?_, ih hs.2.2 hd.2.2, ?_⟩
    · rw [List.map_map]
      have := ih1 hs.2.1 hd.2.1
      rw [List.pairwise_map] at this ⊢
      exact this.imp (fun h => List.Lex.cons h)
    · intro p hp p' hp'
      obtain ⟨q, hq, rfl⟩ := List.mem_map.mp hp
      obtain ⟨q0, _, rfl⟩ := List.mem_map.mp hq
      obtain ⟨q', hq', rfl⟩ := List.mem_map.mp hp'
      obtain ⟨k', ks, e, hk⟩ := mem_keys_of_leavesWithPath r q' hq'
      rw [e]
      exact List.Lex.rel (klt_of_le_ne (hs.1 k' hk) (fun e' => hd.1 (e' ▸ hk)))

theorem keys_without (k : Key) (d : Dict α) : (d.without k).keys = d.keys.erase k := by
  induction d with
  | nil => rfl
  | leaf k' a r ih =>
    by_cases h : k = k'
    · subst h; simp [without, keys]
    · rw [without, if_neg h, keys, keys, List.erase_cons_tail (by simpa using fun e => h e.symm), ih]
  | node k' s r ih1 ih =>
    by_cases h : k = k'
    · subst h; simp [without, keys]
    · rw [without, if_neg h, keys, keys, List.erase_cons_tail (by simpa using fun e => h e.symm), ih]

theorem without_distinct (k : Key) (d : Dict α) (hd : d.KeysDistinct) : (d.without k).KeysDistinct := by
  induction d with
  | nil => trivial
  | leaf k' a r ih =>
    by_cases h : k = k'
    · rw [without, if_pos h]; exact hd.2
    · rw [without, if_neg h]
      exact ⟨fun hm => hd.1 (by rw [keys_without] at hm; exact List.mem_of_mem_erase hm), ih hd.2⟩
  | node k' s r ih1 ih =>
    by_cases h : k = k'
    · rw [without, if_pos h]; exact hd.2.2
    · rw [without, if_neg h]
      exact ⟨fun hm => hd.1 (by rw [keys_without] at hm; exact List.mem_of_mem_erase hm), hd.2.1, ih hd.2.2⟩

theorem without_sorted (k : Key) (d : Dict α) (hd : d.Sorted) : (d.without k).Sorted := by
  induction d with
  | nil => trivial
  | leaf k' a r ih =>
    by_cases h : k = k'
    · rw [without, if_pos h]; exact hd.2
    · rw [without, if_neg h]
      exact ⟨fun q hm => hd.1 q (by rw [keys_without] at hm; exact List.mem_of_mem_erase hm), ih hd.2⟩
  | node k' s r ih1 ih =>
    by_cases h : k = k'
    · rw [without, if_pos h]; exact hd.2.2
    · rw [without, if_neg h]
      exact ⟨fun q hm => hd.1 q (by rw [keys_without] at hm; exact List.mem_of_mem_erase hm), hd.2.1, ih hd.2.2⟩

theorem get?_without (k q : Key) (d : Dict α) (hd : d.KeysDistinct) :
    (d.without k).get? q = if q = k then none else d.get? q := by
  induction d with
  | nil => simp [without, get?]
  | leaf k' a r ih =>
    by_cases h : k = k'
    · subst h
      rw [without, if_pos rfl]
      split
      · rename_i e; subst e; exact (get?_eq_none _ _).mpr hd.1
      · rename_i e; rw [get?, if_neg e]
    · rw [without, if_neg h, get?, get?, ih hd.2]
      by_cases e : q = k'
      · subst e; simp [Ne.symm h]
      · simp [e]
  | node k' s r ih1 ih =>
    by_cases h : k = k'
    · subst h
      rw [without, if_pos rfl]
      split
      · rename_i e; subst e; exact (get?_eq_none _ _).mpr hd.1
      · rename_i e; rw [get?, if_neg e]
    · rw [without, if_neg h, get?, get?, ih hd.2.2]
      by_cases e : q = k'
      · subst e; simp [Ne.symm h]
      · simp [e]

theorem get?_distinct (d : Dict α) (hd : d.KeysDistinct) (k : Key) (s : Dict α)
    (h : d.get? k = some (.inr s)) : s.KeysDistinct := by
  induction d with
  | nil => cases h
  | leaf k' a r ih =>
    rw [get?] at h
    split at h
    · cases h
    · exact ih hd.2 h
  | node k' s' r ih1 ih =>
    rw [get?] at h
    split at h
    · cases h; exact hd.2.1
    · exact ih hd.2.2 h

end Dict

theorem colonJoin_eq (p : List Key) : colonJoin p = List.intercalate [':'] p := by
  induction p with
  | nil => rfl
  | cons k ks ih =>
    cases ks with
    | nil => simp [colonJoin, List.intercalate]
    | cons k' ks =>
      rw [colonJoin, ih]
      · simp [List.intercalate]
      · simp

theorem colonJoin_joinPath (p : List Key) : colonJoin p = joinPath p := by
  induction p with
  | nil => rfl
  | cons k ks ih =>
    cases ks with
    | nil => rfl
    | cons k' ks => 
      show k ++ ':' :: colonJoin (k' :: ks) = k ++ ':' :: joinPath (k' :: ks)
      rw [ih]

theorem rowName_kernel (ks : List Key) :
    rowName (kernelParamsKey :: ks) = kernelWord ++ List.intercalate [':'] ks := by
  rw [rowName]; exact if_pos rfl

theorem rowName_other (k : Key) (ks : List Key) (h : k ≠ kernelParamsKey) : rowName (k :: ks) = k := by
  rw [rowName]; exact if_neg h

/-- The rows of a flat dictionary. -/
theorem otherRows_flat (d : Dict Param) (hf : ∀ k s, d.get? k ≠ some (.inr s)) (hd : d.KeysDistinct) :
    otherRows d = .ok ((d.leavesWithPath []).map (fun q => ParamRow.of (q.1.headD []) q.2)) ∧
      ∀ q ∈ d.leavesWithPath [], q.1.length = 1 := by
  induction d with
  | nil => exact ⟨rfl, by simp [Dict.leavesWithPath]⟩
  | leaf k a r ih =>
    have hr : ∀ q s, r.get? q ≠ some (.inr s) := by
      intro q s h
      by_cases e : q = k
      · subst e
        rw [(Dict.get?_eq_none _ _).mpr hd.1] at h
        cases h
      · refine hf q s ?_
        rw [Dict.get?, if_neg e]
        exact h
    obtain ⟨h1, h2⟩ := ih hr hd.2
    refine ⟨?_, ?_⟩
    · rw [otherRows, h1]; rfl
    · intro q hq
      rw [Dict.leavesWithPath_cons_inl] at hq
      rcases List.mem_cons.mp hq with rfl | hq
      · rfl
      · exact h2 q hq
  | node k s r _ _ => exact absurd (by simp [Dict.get?]) (hf k s)

theorem otherRows_nested (d : Dict Param) (k : Key) (s : Dict Param) (h : d.get? k = some (.inr s)) :
    otherRows d = .error .attributeError := by
  induction d with
  | nil => cases h
  | leaf k' a r ih =>
    rw [Dict.get?] at h
    split at h
    · cases h
    · rw [otherRows, ih h]; rfl
  | node k' s' r _ _ => rfl

end GPX
