import Verif.Spec.Heap
import Verif.Lemmas.Params
import Verif.Lemmas.Dict

/-!
# Lemmas on parameter objects and states in memory
-/

namespace GPX
open GPX.Spec
variable {K M C : Type}

theorem allocDict_spec (d : Dict Param) : ∀ (cells : ℕ → Param) (n : ℕ),
    n ≤ (allocDict d cells n).2.2 ∧
    (∀ r < n, (allocDict d cells n).2.1 r = cells r) ∧
    (∀ r ∈ (allocDict d cells n).1.leaves, n ≤ r ∧ r < (allocDict d cells n).2.2) ∧
    (allocDict d cells n).1.map (allocDict d cells n).2.1 = d := by
  induction d with
  | nil => intro cells n; exact ⟨le_refl _, fun _ _ => rfl, by simp [allocDict, Dict.leaves], rfl⟩
  | leaf k p r ih =>
    intro cells n
    obtain ⟨h1, h2, h3, h4⟩ := ih (Function.update cells n p) (n + 1)
    simp only [allocDict]
    refine ⟨by omega, ?_, ?_, ?_⟩
    · intro q hq
      rw [h2 q (by omega), Function.update_of_ne (by omega)]
    · intro q hq
      simp only [Dict.leaves, List.mem_cons] at hq
      rcases hq with rfl | hq
      · exact ⟨le_refl _, by omega⟩
      · have := h3 q hq
        exact ⟨by omega, this.2⟩
    · rw [Dict.map, h4, h2 n (by omega), Function.update_self]
  | node k s r ih1 ih =>
    intro cells n
    obtain ⟨h1, h2, h3, h4⟩ := ih1 cells n
    obtain ⟨g1, g2, g3, g4⟩ := ih (allocDict s cells n).2.1 (allocDict s cells n).2.2
    simp only [allocDict]
    refine ⟨by omega, ?_, ?_, ?_⟩
    · intro q hq
      rw [g2 q (by omega), h2 q hq]
    · intro q hq
      simp only [Dict.leaves, List.mem_append] at hq
      rcases hq with hq | hq
      · have := h3 q hq
        exact ⟨this.1, by omega⟩
      · have := g3 q hq
        exact ⟨by omega, this.2⟩
    · rw [Dict.map, g4]
      congr 1
      have : ∀ d : Dict ℕ, (∀ r ∈ d.leaves, r < (allocDict s cells n).2.2) →
          d.map (allocDict r (allocDict s cells n).2.1 (allocDict s cells n).2.2).2.1 =
            d.map (allocDict s cells n).2.1 := by
        intro d
        induction d with
        | nil => intro _; rfl
        | leaf k a r' ih' =>
          intro h
          rw [Dict.map, Dict.map, g2 a (h a (by simp [Dict.leaves])), ih' (fun q hq => h q (by simp [Dict.leaves, hq]))]
        | node k a r' ih1' ih' =>
          intro h
          rw [Dict.map, Dict.map, ih' (fun q hq => h q (by simp [Dict.leaves, hq])),
            ih1' (fun q hq => h q (by simp [Dict.leaves, hq]))]
      rw [this _ (fun r hr => (h3 r hr).2), h4]

theorem map_cells_congr (f g : ℕ → Param) (d : Dict ℕ) (h : ∀ r ∈ d.leaves, f r = g r) : d.map f = d.map g := by
  induction d with
  | nil => rfl
  | leaf k a r ih =>
    rw [Dict.map, Dict.map, h a (by simp [Dict.leaves]), ih (fun q hq => h q (by simp [Dict.leaves, hq]))]
  | node k s r ih1 ih =>
    rw [Dict.map, Dict.map, ih (fun q hq => h q (by simp [Dict.leaves, hq])),
      ih1 (fun q hq => h q (by simp [Dict.leaves, hq]))]

theorem mem_leaves_setLeaf (k : Key) (p : ℕ) (d : Dict ℕ) (r : ℕ) (h : r ∈ (d.setLeaf k p).leaves) :
    r = p ∨ r ∈ d.leaves := by
  induction d with
  | nil => simpa [Dict.setLeaf, Dict.leaves] using h
  | leaf k' a t ih =>
    rw [Dict.setLeaf] at h
    split at h
    · simp only [Dict.leaves, List.mem_cons] at h ⊢; tauto
    · simp only [Dict.leaves, List.mem_cons] at h ⊢; tauto
  | node k' s t ih1 ih =>
    rw [Dict.setLeaf] at h
    split at h
    · simp only [Dict.leaves, List.mem_cons, List.mem_append] at h ⊢; tauto
    · simp only [Dict.leaves, List.mem_append] at h ⊢; tauto

theorem mem_leaves_setNode (k : Key) (v d : Dict ℕ) (r : ℕ) (h : r ∈ (Dict.setNode k v d).leaves) :
    r ∈ v.leaves ∨ r ∈ d.leaves := by
  induction d with
  | nil => simpa [Dict.setNode, Dict.leaves] using h
  | leaf k' a t ih =>
    rw [Dict.setNode] at h
    split at h
    · simp only [Dict.leaves, List.mem_cons, List.mem_append] at h ⊢; tauto
    · simp only [Dict.leaves, List.mem_cons] at h ⊢; tauto
  | node k' s t ih1 ih =>
    rw [Dict.setNode] at h
    split at h
    · simp only [Dict.leaves, List.mem_append] at h ⊢; tauto
    · simp only [Dict.leaves, List.mem_append] at h ⊢; tauto

theorem mem_leaves_get? (d s : Dict ℕ) (k : Key) (h : d.get? k = some (.inr s)) (r : ℕ) (hr : r ∈ s.leaves) :
    r ∈ d.leaves := by
  induction d with
  | nil => cases h
  | leaf k' a t ih =>
    rw [Dict.get?] at h
    split at h
    · cases h
    · simp [Dict.leaves, ih h]
  | node k' s' t ih1 ih =>
    rw [Dict.get?] at h
    split at h
    · cases h; simp [Dict.leaves, hr]
    · simp [Dict.leaves, ih h]

theorem mem_leaves_assign (p : ℕ) (path : List Key) : ∀ (d d' : Dict ℕ), assignItem p path d = .ok d' →
    ∀ r ∈ d'.leaves, r = p ∨ r ∈ d.leaves := by
  induction path with
  | nil => intro d d' h; cases h
  | cons k ks ih =>
    intro d d' h r hr
    rw [assignItem] at h
    split at h
    · cases h; exact mem_leaves_setLeaf k p d r hr
    · rcases e : d.get? k with _ | a | s
      · rw [e] at h; cases h
      · rw [e] at h; cases h
      · rw [e] at h
        rcases e2 : assignItem p ks s with e' | s'
        · simp only [e2] at h; cases h
        · simp only [e2] at h
          cases h
          rcases mem_leaves_setNode k s' d r hr with h' | h'
          · rcases ih s s' e2 r h' with h'' | h''
            · exact Or.inl h''
            · exact Or.inr (mem_leaves_get? d s k e r h'')
          · exact Or.inr h'

/-- Addresses held by states are in use, and no two states hold the same one. -/
structure HeapOK (H : Heap K M C) : Prop where
  used : ∀ i r, Held H i r → r < H.next
  apart : ∀ i j r, i ≠ j → Held H i r → ¬ Held H j r

theorem heapOK_start (cells : ℕ → Param) : HeapOK (K := K) (M := M) (C := C) (Spec.Heap.start cells) :=
  ⟨fun i r h => by obtain ⟨o, h, _⟩ := h; simp [Spec.Heap.start] at h,
   fun i j r _ h => by obtain ⟨o, h, _⟩ := h; simp [Spec.Heap.start] at h⟩

theorem getElem?_append_one {α : Type} (l : List α) (a : α) (i : ℕ) :
    (l ++ [a])[i]? = if i = l.length then some a else l[i]? := by
  by_cases h : i < l.length
  · rw [List.getElem?_append_left h, if_neg (by omega)]
  · by_cases h2 : i = l.length
    · subst h2; simp
    · rw [if_neg h2, List.getElem?_eq_none (by simp; omega), List.getElem?_eq_none (by omega)]

theorem held_store {H : Heap K M C} {s : ModelState K M C} {i : ℕ} {r : ℕ} (h : Held (H.store s) i r) :
    (i = H.states.length ∧ H.next ≤ r ∧ r < (H.store s).next) ∨ (i ≠ H.states.length ∧ Held H i r) := by
  obtain ⟨o, h1, h2⟩ := h
  simp only [Heap.store] at h1
  rw [getElem?_append_one] at h1
  split at h1
  · rename_i hi
    cases h1
    exact Or.inl ⟨hi, (allocDict_spec s.params H.cells H.next).2.2.1 r h2⟩
  · rename_i hi
    exact Or.inr ⟨hi, o, h1, h2⟩

theorem next_store (H : Heap K M C) (s : ModelState K M C) : H.next ≤ (H.store s).next :=
  (allocDict_spec s.params H.cells H.next).1

theorem heapOK_store {H : Heap K M C} (hH : HeapOK H) (s : ModelState K M C) : HeapOK (H.store s) := by
  refine ⟨fun i r h => ?_, fun i j r hij hi hj => ?_⟩
  · rcases held_store h with h | h
    · exact h.2.2
    · exact lt_of_lt_of_le (hH.used i r h.2) (next_store H s)
  · rcases held_store hi with h | h <;> rcases held_store hj with h' | h'
    · exact hij (h.1.trans h'.1.symm)
    · exact absurd (hH.used j r h'.2) (by omega)
    · exact absurd (hH.used i r h.2) (by omega)
    · exact hH.apart i j r hij h.2 h'.2

theorem shows_store (H : Heap K M C) (hH : HeapOK H) (s : ModelState K M C) (i : ℕ) (hi : i < H.states.length) :
    shows (H.store s) i = shows H i := by
  simp only [shows, Heap.store]
  rw [getElem?_append_one, if_neg (by omega)]
  rcases e : H.states[i]? with _ | o
  · rfl
  · simp only [Option.map_some, Heap.view, Option.some.injEq, ModelState.mk.injEq, true_and, and_true]
    refine map_cells_congr _ _ _ (fun r hr => ?_)
    exact (allocDict_spec s.params H.cells H.next).2.1 r (hH.used i r ⟨o, e, hr⟩)

theorem shows_store_new (H : Heap K M C) (s : ModelState K M C) : shows (H.store s) H.states.length = some s := by
  simp only [shows, Heap.store]
  rw [getElem?_append_one, if_pos rfl]
  simp only [Option.map_some, Heap.view]
  rw [(allocDict_spec s.params H.cells H.next).2.2.2]

theorem length_store (H : Heap K M C) (s : ModelState K M C) : (H.store s).states.length = H.states.length + 1 := by
  simp [Heap.store]

theorem getElem?_set' {α : Type} (l : List α) (i j : ℕ) (a b : α) (h : (l.set i a)[j]? = some b) :
    (j = i ∧ b = a) ∨ (j ≠ i ∧ l[j]? = some b) := by
  rw [List.getElem?_set] at h
  split at h
  · rename_i e
    split at h
    · cases h; exact Or.inl ⟨e.symm, rfl⟩
    · cases h
  · rename_i e
    exact Or.inr ⟨fun e' => e e'.symm, h⟩

theorem getElem?_set_ne' {α : Type} (l : List α) (i j : ℕ) (a : α) (h : i ≠ j) : (l.set j a)[i]? = l[i]? := by
  rw [List.getElem?_set]
  rw [if_neg (fun e => h e.symm)]

/-- A state whose own attributes change, but not its dictionary. -/
theorem heapOK_setState {H : Heap K M C} (hH : HeapOK H) {j : ℕ} {o o' : StateObj K M C} (ho : H.states[j]? = some o)
    (hp : ∀ r ∈ o'.params.leaves, r ∈ o.params.leaves ∨ (r < H.next ∧ ∀ i, i ≠ j → ¬ Held H i r)) :
    HeapOK (H.setState j o') := by
  have hheld : ∀ i r, Held (H.setState j o') i r →
      (i = j ∧ (Held H j r ∨ (r < H.next ∧ ∀ i, i ≠ j → ¬ Held H i r))) ∨ (i ≠ j ∧ Held H i r) := by
    rintro i r ⟨q, h1, h2⟩
    rcases getElem?_set' _ _ _ _ _ h1 with ⟨e, rfl⟩ | ⟨e, h⟩
    · refine Or.inl ⟨e, ?_⟩
      rcases hp r h2 with h | h
      · exact Or.inl ⟨o, ho, h⟩
      · exact Or.inr h
    · exact Or.inr ⟨e, q, h, h2⟩
  refine ⟨fun i r h => ?_, fun i i' r hne hi hi' => ?_⟩
  · rcases hheld i r h with ⟨_, h | h⟩ | ⟨_, h⟩
    · exact hH.used j r h
    · exact h.1
    · exact hH.used i r h
  · rcases hheld i r hi with ⟨rfl, h⟩ | ⟨e, h⟩ <;> rcases hheld i' r hi' with ⟨rfl, h'⟩ | ⟨e', h'⟩
    · exact hne rfl
    · rcases h with h | h
      · exact hH.apart _ _ r hne h h'
      · exact h.2 i' e' h'
    · rcases h' with h' | h'
      · exact hH.apart _ _ r hne h h'
      · exact h'.2 i e h
    · exact hH.apart _ _ r hne h h'

theorem shows_setState (H : Heap K M C) (j : ℕ) (o' : StateObj K M C) (i : ℕ) (h : i ≠ j) :
    shows (H.setState j o') i = shows H i := by
  simp only [shows, Heap.setState]
  rw [getElem?_set_ne' _ _ _ _ h]
  rfl

/-- Every operation keeps the states apart, and changes what a state shows only if it changes it in place. -/
theorem step_spec {H H1 : Heap K M C} {op : HeapOp K M C} (hH : HeapOK H) (hk : KeepsApart H op)
    (h : H.step op = .ok H1) :
    HeapOK H1 ∧ H.states.length ≤ H1.states.length ∧
      ∀ i, i < H.states.length → ¬ ChangesInPlace H i op → shows H1 i = shows H i := by
  have hstore : ∀ s : ModelState K M C, HeapOK (H.store s) ∧ H.states.length ≤ (H.store s).states.length ∧
      ∀ i, i < H.states.length → ¬ ChangesInPlace H i op → shows (H.store s) i = shows H i := fun s =>
    ⟨heapOK_store hH s, by rw [length_store]; omega, fun i hi _ => shows_store H hH s i hi⟩
  cases op with
  | newParam p =>
    rw [Heap.step] at h
    rcases e : Param.new p.value p.trainable p.bijector p.prior with e' | p'
    · rw [e] at h; cases h
    · rw [e] at h
      cases h
      refine ⟨⟨fun i r hr => Nat.lt_succ_of_lt (hH.used i r hr), fun i j r hij hi hj => hH.apart i j r hij hi hj⟩,
        le_refl _, fun i hi _ => ?_⟩
      simp only [shows]
      rcases e : H.states[i]? with _ | o
      · rfl
      · simp only [Option.map_some, Heap.view, Option.some.injEq, ModelState.mk.injEq, true_and, and_true]
        refine map_cells_congr _ _ _ (fun r hr => ?_)
        have := hH.used i r ⟨o, e, hr⟩
        exact Function.update_of_ne (by omega) _ _
  | newState k m d kw =>
    rw [Heap.step] at h
    rcases e : ModelState.new k m (d.map H.cells) kw with e' | s
    · rw [e] at h; cases h
    · rw [e] at h; cases h; exact hstore s
  | update j u =>
    rw [Heap.step] at h
    rcases e0 : H.states[j]? with _ | o
    · rw [e0] at h; cases h
    · simp only [e0] at h
      rcases e : ((H.view o).update ⟨u.kernel, u.meanFn, u.params.map (fun d => d.map H.cells), u.opts⟩).1 with e' | s
      · rw [e] at h; cases h
      · rw [e] at h; cases h; exact hstore s
  | treeMap j f =>
    rw [Heap.step] at h
    rcases e0 : H.states[j]? with _ | o
    · rw [e0] at h; cases h
    · simp only [e0] at h
      rcases e : ModelState.treeUnflatten ⟨o.kernel, o.meanFn, o.snapshot, o.opts⟩
        ((H.view o).params.treeLeaves.map (fun p => f p.value)) with e' | s
      · rw [e] at h; cases h
      · rw [e] at h; cases h; exact hstore s
  | derive j f =>
    rw [Heap.step] at h
    rcases e0 : H.states[j]? with _ | o
    · rw [e0] at h; cases h
    · simp only [e0] at h
      rcases e : f (H.view o) with e' | s
      · rw [e] at h; cases h
      · rw [e] at h; cases h; exact hstore s
  | setAttr r p =>
    cases h
    refine ⟨⟨hH.used, hH.apart⟩, le_refl _, fun i hi hn => ?_⟩
    simp only [shows]
    rcases e : H.states[i]? with _ | o
    · rfl
    · simp only [Option.map_some, Heap.view, Option.some.injEq, ModelState.mk.injEq, true_and, and_true]
      refine map_cells_congr _ _ _ (fun q hq => ?_)
      refine Function.update_of_ne ?_ _ _
      rintro rfl
      exact hn ⟨o, e, hq⟩
  | assign j path r =>
    rw [Heap.step] at h
    rcases e0 : H.states[j]? with _ | o
    · rw [e0] at h; cases h
    · simp only [e0] at h
      rcases e : assignItem r path o.params with e' | d
      · rw [e] at h; cases h
      · rw [e] at h; cases h
        refine ⟨heapOK_setState hH e0 (fun q hq => ?_), by simp [Heap.setState], fun i _ hn => ?_⟩
        · rcases mem_leaves_assign r path _ _ e q hq with rfl | hq'
          · exact Or.inr hk
          · exact Or.inl hq'
        · exact shows_setState H j _ i (fun e => hn e.symm)
  | setParams j d =>
    rw [Heap.step] at h
    rcases e0 : H.states[j]? with _ | o
    · rw [e0] at h; cases h
    · simp only [e0] at h
      rcases e : ModelState.new o.kernel o.meanFn (d.map H.cells) o.opts with e' | s
      · rw [e] at h; cases h
      · rw [e] at h; cases h
        obtain ⟨a1, a2, a3, a4⟩ := allocDict_spec s.params H.cells H.next
        have hheld : ∀ i r, Held (K := K) (M := M) (C := C)
            ⟨(allocDict s.params H.cells H.next).2.1, (allocDict s.params H.cells H.next).2.2,
              H.states.set j { o with params := (allocDict s.params H.cells H.next).1, snapshot := s.params }⟩ i r →
            (i = j ∧ H.next ≤ r ∧ r < (allocDict s.params H.cells H.next).2.2) ∨ (i ≠ j ∧ Held H i r) := by
          rintro i r ⟨q, h1, h2⟩
          rcases getElem?_set' _ _ _ _ _ h1 with ⟨e, rfl⟩ | ⟨e, h⟩
          · exact Or.inl ⟨e, a3 r h2⟩
          · exact Or.inr ⟨e, q, h, h2⟩
        refine ⟨⟨fun i r hr => ?_, fun i i' r hne hi hi' => ?_⟩, by simp, fun i hi hn => ?_⟩
        · rcases hheld i r hr with h | h
          · exact h.2.2
          · exact lt_of_lt_of_le (hH.used i r h.2) a1
        · rcases hheld i r hi with h | h <;> rcases hheld i' r hi' with h' | h'
          · exact hne (h.1.trans h'.1.symm)
          · exact absurd (hH.used i' r h'.2) (by omega)
          · exact absurd (hH.used i r h.2) (by omega)
          · exact hH.apart i i' r hne h.2 h'.2
        · have hij : i ≠ j := fun e => hn e.symm
          simp only [shows]
          rw [getElem?_set_ne' _ _ _ _ hij]
          rcases e : H.states[i]? with _ | o'
          · rfl
          · simp only [Option.map_some, Heap.view, Option.some.injEq, ModelState.mk.injEq, true_and, and_true]
            exact map_cells_congr _ _ _ (fun r hr => a2 r (hH.used i r ⟨o', e, hr⟩))
  | setKernel j k =>
    rw [Heap.step] at h
    rcases e0 : H.states[j]? with _ | o
    · rw [e0] at h; cases h
    · simp only [e0] at h
      cases h
      exact ⟨heapOK_setState hH e0 (fun q hq => Or.inl hq), by simp [Heap.setState],
        fun i _ hn => shows_setState H j _ i (fun e => hn e.symm)⟩
  | setMean j m =>
    rw [Heap.step] at h
    rcases e0 : H.states[j]? with _ | o
    · rw [e0] at h; cases h
    · simp only [e0] at h
      cases h
      exact ⟨heapOK_setState hH e0 (fun q hq => Or.inl hq), by simp [Heap.setState],
        fun i _ hn => shows_setState H j _ i (fun e => hn e.symm)⟩
  | setOpt j name v =>
    rw [Heap.step] at h
    rcases e0 : H.states[j]? with _ | o
    · rw [e0] at h; cases h
    · simp only [e0] at h
      split at h
      · cases h
        exact ⟨heapOK_setState hH e0 (fun q hq => Or.inl hq), by simp [Heap.setState],
          fun i _ hn => shows_setState H j _ i (fun e => hn e.symm)⟩
      · cases h
        exact ⟨hH, le_refl _, fun i _ _ => rfl⟩

theorem runs_spec {P : Heap K M C → HeapOp K M C → Prop} (hP : ∀ H op, P H op → KeepsApart H op)
    {H H2 : Heap K M C} {ops : List (HeapOp K M C)} (h : Runs P H ops H2) (hH : HeapOK H) :
    HeapOK H2 ∧ H.states.length ≤ H2.states.length ∧
      ∀ i, i < H.states.length → (∀ H op, P H op → ¬ ChangesInPlace H i op) → shows H2 i = shows H i := by
  induction h with
  | done H => exact ⟨hH, le_refl _, fun i _ _ => rfl⟩
  | ok hp hs _ ih =>
    obtain ⟨a1, a2, a3⟩ := step_spec hH (hP _ _ hp) hs
    obtain ⟨b1, b2, b3⟩ := ih a1
    exact ⟨b1, le_trans a2 b2, fun i hi hn => (b3 i (by omega) hn).trans (a3 i hi (hn _ _ hp))⟩
  | raised _ _ _ ih => exact ih hH

theorem reached_ok {H : Heap K M C} (h : Reached H) : HeapOK H := by
  obtain ⟨cells, ops, h⟩ := h
  exact (runs_spec (fun _ _ h => h) h (heapOK_start cells)).1


/-! ### Items -/

theorem get?_setLeaf (k k' : Key) (v : ℕ) (d : Dict ℕ) :
    (d.setLeaf k v).get? k' = if k' = k then some (.inl v) else d.get? k' := by
  induction d with
  | nil => simp only [Dict.setLeaf, Dict.get?]
  | leaf k1 a t ih =>
    simp only [Dict.setLeaf]
    by_cases h : k = k1
    · subst h
      rw [if_pos rfl]
      simp only [Dict.get?]
      split_ifs <;> rfl
    · rw [if_neg h]
      simp only [Dict.get?, ih]
      by_cases h2 : k' = k1
      · subst h2
        rw [if_pos rfl, if_neg (fun e => h e.symm)]
        rw [if_pos rfl]
      · simp only [if_neg h2]
  | node k1 s t ih1 ih =>
    simp only [Dict.setLeaf]
    by_cases h : k = k1
    · subst h
      rw [if_pos rfl]
      simp only [Dict.get?]
      split_ifs <;> rfl
    · rw [if_neg h]
      simp only [Dict.get?, ih]
      by_cases h2 : k' = k1
      · subst h2
        rw [if_pos rfl, if_neg (fun e => h e.symm)]
        rw [if_pos rfl]
      · simp only [if_neg h2]

theorem get?_setNode (k k' : Key) (v d : Dict ℕ) :
    (Dict.setNode k v d).get? k' = if k' = k then some (.inr v) else d.get? k' := by
  induction d with
  | nil => simp only [Dict.setNode, Dict.get?]
  | leaf k1 a t ih =>
    simp only [Dict.setNode]
    by_cases h : k = k1
    · subst h
      rw [if_pos rfl]
      simp only [Dict.get?]
      split_ifs <;> rfl
    · rw [if_neg h]
      simp only [Dict.get?, ih]
      by_cases h2 : k' = k1
      · subst h2
        rw [if_pos rfl, if_neg (fun e => h e.symm)]
        rw [if_pos rfl]
      · simp only [if_neg h2]
  | node k1 s t ih1 ih =>
    simp only [Dict.setNode]
    by_cases h : k = k1
    · subst h
      rw [if_pos rfl]
      simp only [Dict.get?]
      split_ifs <;> rfl
    · rw [if_neg h]
      simp only [Dict.get?, ih]
      by_cases h2 : k' = k1
      · subst h2
        rw [if_pos rfl, if_neg (fun e => h e.symm)]
        rw [if_pos rfl]
      · simp only [if_neg h2]

theorem lookup_assign (p : ℕ) (path : List Key) : ∀ (d d' : Dict ℕ), assignItem p path d = .ok d' →
    lookup path d' = some (.inl p) ∧ ∀ path', ¬ path <+: path' → lookup path' d' = lookup path' d := by
  induction path with
  | nil => intro d d' h; cases h
  | cons k ks ih =>
    intro d d' h
    rw [assignItem] at h
    split at h
    · rename_i hks
      subst hks
      cases h
      refine ⟨?_, ?_⟩
      · simp [lookup, get?_setLeaf]
      · intro path' hp
        cases path' with
        | nil => rfl
        | cons k' ks' =>
          have hk : k' ≠ k := by
            rintro rfl
            exact hp ⟨ks', rfl⟩
          simp only [lookup, get?_setLeaf, if_neg hk]
    · rename_i hks
      rcases e : d.get? k with _ | a | s
      · rw [e] at h; cases h
      · rw [e] at h; cases h
      · rw [e] at h
        rcases e2 : assignItem p ks s with e' | s'
        · simp only [e2] at h; cases h
        · simp only [e2] at h
          cases h
          obtain ⟨h1, h2⟩ := ih s s' e2
          refine ⟨?_, ?_⟩
          · simp only [lookup, get?_setNode, if_pos]
            exact h1
          · intro path' hp
            cases path' with
            | nil => rfl
            | cons k' ks' =>
              by_cases hk : k' = k
              · subst hk
                simp only [lookup, get?_setNode, if_pos, e]
                refine h2 ks' (fun hpre => hp ?_)
                obtain ⟨t, rfl⟩ := hpre
                exact ⟨t, rfl⟩
              · simp only [lookup, get?_setNode, if_neg hk]

theorem get?_map {α β : Type} (f : α → β) (k : Key) (d : Dict α) :
    (d.map f).get? k = (d.get? k).map (Sum.map f (Dict.map f)) := by
  induction d with
  | nil => rfl
  | leaf k1 a t ih => simp only [Dict.map, Dict.get?, ih]; split_ifs <;> rfl
  | node k1 s t ih1 ih => simp only [Dict.map, Dict.get?, ih]; split_ifs <;> rfl

theorem lookup_map {α β : Type} (f : α → β) (path : List Key) : ∀ d : Dict α,
    lookup path (d.map f) = (lookup path d).map (Sum.map f id) := by
  induction path with
  | nil => intro d; rfl
  | cons k ks ih =>
    intro d
    simp only [lookup, get?_map]
    rcases d.get? k with _ | a | s
    · rfl
    · simp only [Option.map_some, Sum.map_inl]
      split_ifs <;> rfl
    · simp only [Option.map_some, Sum.map_inr]
      exact ih s

/-! ### The stored structure -/

/-- Flag, bijector and prior. -/
def kindOf (p : Param) : Bool × Bijector × PriorObj := (p.trainable, p.bijector, p.prior)

theorem kindOf_eq {p q : Param} (h : SameKind p q) : kindOf p = kindOf q := by
  obtain ⟨h1, h2, h3⟩ := h
  simp only [kindOf, h1, h2, h3]

/-- The stored structure of a state is that of its parameters. -/
def Agree (H : Heap K M C) (i : ℕ) : Prop :=
  ∃ o, H.states[i]? = some o ∧ o.snapshot.map kindOf = (o.params.map H.cells).map kindOf

theorem rebuildParams_congr (a b : Dict Param) (h : a.map kindOf = b.map kindOf) (vs : List Arr) :
    rebuildParams a vs = rebuildParams b vs := by
  have hs : a.sortKeys.map kindOf = b.sortKeys.map kindOf := by
    rw [Dict.map_sortKeys, Dict.map_sortKeys, h]
  have hl : a.treeLeaves.map kindOf = b.treeLeaves.map kindOf := by
    have := congrArg Dict.leaves hs
    rwa [Dict.leaves_map, Dict.leaves_map] at this
  have hu : a.sortKeys.map (fun _ => ()) = b.sortKeys.map (fun _ => ()) := by
    have := congrArg (Dict.map (fun _ => ())) hs
    rwa [Dict.map_map, Dict.map_map] at this
  have hm : ∀ (l l' : List Param) (vs : List Arr), l.map kindOf = l'.map kindOf →
      (l.zip vs).mapM (fun pv => Param.new pv.2 pv.1.trainable pv.1.bijector pv.1.prior) =
        (l'.zip vs).mapM (fun pv => Param.new pv.2 pv.1.trainable pv.1.bijector pv.1.prior) := by
    intro l
    induction l with
    | nil =>
      intro l' vs h
      cases l' with
      | nil => rfl
      | cons => simp at h
    | cons p l ih =>
      intro l' vs h
      cases l' with
      | nil => simp at h
      | cons q l' =>
        simp only [List.map_cons, List.cons.injEq, kindOf, Prod.mk.injEq] at h
        obtain ⟨⟨h1, h2, h3⟩, h4⟩ := h
        cases vs with
        | nil => rfl
        | cons v vs =>
          rw [List.zip_cons_cons, List.zip_cons_cons, List.mapM_cons, List.mapM_cons, ih l' vs h4]
          simp only [h1, h2, h3]
  unfold rebuildParams
  rw [hm _ _ vs hl]
  have hlen : a.treeLeaves.length = b.treeLeaves.length := by
    have := congrArg List.length hl
    simpa using this
  rw [hlen]
  have ht : ∀ ps : List Param, a.treeUnflatten ps = b.treeUnflatten ps := by
    intro ps
    rw [Dict.treeUnflatten, Dict.treeUnflatten, Dict.refill_congr, hu, ← Dict.refill_congr]
  simp only [ht]

theorem map_setLeaf_same {β : Type} (g : ℕ → β) (k : Key) (r r0 : ℕ) (h : g r = g r0) (d : Dict ℕ)
    (hd : d.get? k = some (.inl r0)) : (d.setLeaf k r).map g = d.map g := by
  induction d with
  | nil => cases hd
  | leaf k1 a t ih =>
    rw [Dict.get?] at hd
    split at hd
    · rename_i e
      cases hd
      subst e
      simp only [Dict.setLeaf, if_pos, Dict.map, h]
    · rename_i e
      rw [Dict.setLeaf, if_neg e, Dict.map, Dict.map, ih hd]
  | node k1 s t ih1 ih =>
    rw [Dict.get?] at hd
    split at hd
    · cases hd
    · rename_i e
      rw [Dict.setLeaf, if_neg e, Dict.map, Dict.map, ih hd]

theorem map_setNode_same {β : Type} (g : ℕ → β) (k : Key) (s s' : Dict ℕ) (h : s'.map g = s.map g) (d : Dict ℕ)
    (hd : d.get? k = some (.inr s)) : (Dict.setNode k s' d).map g = d.map g := by
  induction d with
  | nil => cases hd
  | leaf k1 a t ih =>
    rw [Dict.get?] at hd
    split at hd
    · cases hd
    · rename_i e
      rw [Dict.setNode, if_neg e, Dict.map, Dict.map, ih hd]
  | node k1 s t ih1 ih =>
    rw [Dict.get?] at hd
    split at hd
    · rename_i e
      cases hd
      subst e
      simp only [Dict.setNode, if_pos, Dict.map, h]
    · rename_i e
      rw [Dict.setNode, if_neg e, Dict.map, Dict.map, ih hd]

theorem map_assign_same {β : Type} (g : ℕ → β) (r r0 : ℕ) (h : g r = g r0) (path : List Key) :
    ∀ (d d' : Dict ℕ), assignItem r path d = .ok d' → lookup path d = some (.inl r0) → d'.map g = d.map g := by
  induction path with
  | nil => intro d d' h; cases h
  | cons k ks ih =>
    intro d d' ha hl
    rw [assignItem] at ha
    rw [lookup] at hl
    split at ha
    · rename_i hks
      subst hks
      cases ha
      rcases e : d.get? k with _ | a | s
      · rw [e] at hl; cases hl
      · rw [e] at hl
        simp only [if_pos] at hl
        cases hl
        exact map_setLeaf_same g k r r0 h d e
      · rw [e] at hl
        simp only [lookup] at hl
        cases hl
    · rename_i hks
      rcases e : d.get? k with _ | a | s
      · rw [e] at ha; cases ha
      · rw [e] at ha; cases ha
      · rw [e] at ha hl
        rcases e2 : assignItem r ks s with e' | s'
        · simp only [e2] at ha; cases ha
        · simp only [e2] at ha
          cases ha
          exact map_setNode_same g k s s' (ih s s' e2 hl) d e

theorem states_store (H : Heap K M C) (s : ModelState K M C) (i : ℕ) (hi : i < H.states.length) :
    (H.store s).states[i]? = H.states[i]? := by
  simp only [Heap.store]
  rw [getElem?_append_one, if_neg (by omega)]

theorem agree_store_new (H : Heap K M C) (s : ModelState K M C) : Agree (H.store s) H.states.length := by
  refine ⟨_, by simp only [Heap.store]; rw [getElem?_append_one, if_pos rfl], ?_⟩
  exact congrArg _ (allocDict_spec s.params H.cells H.next).2.2.2.symm

theorem agree_setParams {H : Heap K M C} {o : StateObj K M C} {i : ℕ} (ho : H.states[i]? = some o) (s : ModelState K M C) :
    Agree (K := K) (M := M) (C := C) ⟨(allocDict s.params H.cells H.next).2.1, (allocDict s.params H.cells H.next).2.2,
      H.states.set i { o with params := (allocDict s.params H.cells H.next).1, snapshot := s.params }⟩ i := by
  have hi : i < H.states.length := (List.getElem?_eq_some_iff.mp ho).1
  refine ⟨{ o with params := (allocDict s.params H.cells H.next).1, snapshot := s.params }, ?_, ?_⟩
  · simp [hi]
  · exact congrArg _ (allocDict_spec s.params H.cells H.next).2.2.2.symm

/-- An operation either keeps the record of a state, or is one of those that change it. -/
theorem agree_step {H H1 : Heap K M C} {op : HeapOp K M C} (hH : HeapOK H) {i : ℕ}
    (hv : OnlyValues H i op) (ha : Agree H i) (h : H.step op = .ok H1) : Agree H1 i := by
  obtain ⟨o, ho, hs⟩ := ha
  have hi : i < H.states.length := (List.getElem?_eq_some_iff.mp ho).1
  have hstore : ∀ s : ModelState K M C, Agree (H.store s) i := by
    intro s
    refine ⟨o, (states_store H s i hi).trans ho, ?_⟩
    rw [hs]
    congr 1
    refine (map_cells_congr _ _ _ (fun r hr => ?_)).symm
    exact (allocDict_spec s.params H.cells H.next).2.1 r (hH.used i r ⟨o, ho, hr⟩)
  have hset : ∀ (j : ℕ) (q q' : StateObj K M C), H.states[j]? = some q → q'.snapshot = q.snapshot →
      (q'.params.map H.cells).map kindOf = (q.params.map H.cells).map kindOf → Agree (H.setState j q') i := by
    intro j q q' hq h1 h2
    by_cases hij : i = j
    · subst hij
      rw [ho] at hq
      cases hq
      refine ⟨q', by simp [Heap.setState, hi], ?_⟩
      rw [h1]
      exact hs.trans h2.symm
    · exact ⟨o, by simp only [Heap.setState]; rw [getElem?_set_ne' _ _ _ _ hij]; exact ho, hs⟩
  cases op with
  | newParam p =>
    rw [Heap.step] at h
    rcases e : Param.new p.value p.trainable p.bijector p.prior with e' | p'
    · rw [e] at h; cases h
    · rw [e] at h
      cases h
      refine ⟨o, ho, ?_⟩
      rw [hs]
      congr 1
      refine (map_cells_congr _ _ _ (fun r hr => ?_)).symm
      have := hH.used i r ⟨o, ho, hr⟩
      exact Function.update_of_ne (by omega) _ _
  | newState k m d kw =>
    rw [Heap.step] at h
    rcases e : ModelState.new k m (d.map H.cells) kw with e' | s
    · rw [e] at h; cases h
    · rw [e] at h; cases h; exact hstore s
  | update j u =>
    rw [Heap.step] at h
    rcases e0 : H.states[j]? with _ | o
    · rw [e0] at h; cases h
    · simp only [e0] at h
      rcases e : ((H.view o).update ⟨u.kernel, u.meanFn, u.params.map (fun d => d.map H.cells), u.opts⟩).1 with e' | s
      · rw [e] at h; cases h
      · rw [e] at h; cases h; exact hstore s
  | treeMap j f =>
    rw [Heap.step] at h
    rcases e0 : H.states[j]? with _ | o
    · rw [e0] at h; cases h
    · simp only [e0] at h
      rcases e : ModelState.treeUnflatten ⟨o.kernel, o.meanFn, o.snapshot, o.opts⟩
        ((H.view o).params.treeLeaves.map (fun p => f p.value)) with e' | s
      · rw [e] at h; cases h
      · rw [e] at h; cases h; exact hstore s
  | derive j f =>
    rw [Heap.step] at h
    rcases e0 : H.states[j]? with _ | o
    · rw [e0] at h; cases h
    · simp only [e0] at h
      rcases e : f (H.view o) with e' | s
      · rw [e] at h; cases h
      · rw [e] at h; cases h; exact hstore s
  | setAttr r p =>
    cases h
    refine ⟨o, ho, ?_⟩
    rw [hs, Dict.map_map, Dict.map_map]
    have : ∀ d : Dict ℕ, (∀ q ∈ d.leaves, Held H i q) →
        d.map (fun a => kindOf (H.cells a)) = d.map (fun a => kindOf (Function.update H.cells r p a)) := by
      intro d
      have hone : ∀ a, Held H i a → kindOf (H.cells a) = kindOf (Function.update H.cells r p a) := by
        intro a hq
        by_cases e : a = r
        · subst e
          rw [Function.update_self]
          exact (kindOf_eq (hv hq)).symm
        · rw [Function.update_of_ne e]
      induction d with
      | nil => intro _; rfl
      | leaf k a t ih =>
        intro hd
        rw [Dict.map, Dict.map, ih (fun q hq => hd q (by simp [Dict.leaves, hq])), hone a (hd a (by simp [Dict.leaves]))]
      | node k s t ih1 ih =>
        intro hd
        rw [Dict.map, Dict.map, ih (fun q hq => hd q (by simp [Dict.leaves, hq])),
          ih1 (fun q hq => hd q (by simp [Dict.leaves, hq]))]
    exact this o.params (fun q hq => ⟨o, ho, hq⟩)
  | assign j path r =>
    rw [Heap.step] at h
    rcases e0 : H.states[j]? with _ | q
    · rw [e0] at h; cases h
    · simp only [e0] at h
      rcases e : assignItem r path q.params with e' | d
      · rw [e] at h; cases h
      · rw [e] at h; cases h
        by_cases hij : i = j
        · subst hij
          obtain ⟨o', r0, h1, h2, h3⟩ := hv rfl
          rw [e0] at h1
          cases h1
          refine hset i q _ e0 rfl ?_
          rw [Dict.map_map, Dict.map_map]
          exact map_assign_same (fun a => kindOf (H.cells a)) r r0 (kindOf_eq h3) path _ _ e h2
        · exact ⟨o, by simp only [Heap.setState]; rw [getElem?_set_ne' _ _ _ _ hij]; exact ho, hs⟩
  | setParams j d =>
    rw [Heap.step] at h
    rcases e0 : H.states[j]? with _ | q
    · rw [e0] at h; cases h
    · simp only [e0] at h
      rcases e : ModelState.new q.kernel q.meanFn (d.map H.cells) q.opts with e' | s
      · rw [e] at h; cases h
      · rw [e] at h; cases h
        by_cases hij : i = j
        · subst hij
          exact agree_setParams e0 s
        · refine ⟨o, by simp only []; rw [getElem?_set_ne' _ _ _ _ hij]; exact ho, ?_⟩
          rw [hs]
          congr 1
          refine (map_cells_congr _ _ _ (fun r hr => ?_)).symm
          exact (allocDict_spec s.params H.cells H.next).2.1 r (hH.used i r ⟨o, ho, hr⟩)
  | setKernel j k =>
    rw [Heap.step] at h
    rcases e0 : H.states[j]? with _ | q
    · rw [e0] at h; cases h
    · simp only [e0] at h
      cases h
      exact hset j q _ e0 rfl rfl
  | setMean j m =>
    rw [Heap.step] at h
    rcases e0 : H.states[j]? with _ | q
    · rw [e0] at h; cases h
    · simp only [e0] at h
      cases h
      exact hset j q _ e0 rfl rfl
  | setOpt j name v =>
    rw [Heap.step] at h
    rcases e0 : H.states[j]? with _ | q
    · rw [e0] at h; cases h
    · simp only [e0] at h
      split at h
      · cases h
        exact hset j q _ e0 rfl rfl
      · cases h
        exact ⟨o, ho, hs⟩

theorem agree_runs {i : ℕ} {H H2 : Heap K M C} {ops : List (HeapOp K M C)}
    (h : Runs (fun H op => KeepsApart H op ∧ OnlyValues H i op) H ops H2) (hH : HeapOK H) (ha : Agree H i) :
    HeapOK H2 ∧ Agree H2 i := by
  induction h with
  | done H => exact ⟨hH, ha⟩
  | ok hp hs _ ih => exact ih (step_spec hH hp.1 hs).1 (agree_step hH hp.2 ha hs)
  | raised _ _ _ ih => exact ih hH ha

end GPX
