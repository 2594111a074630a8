import Verif.Lemmas.Heap
import Verif.Props.Pytree

/-! # C138, C139: states that are changed in place -/

namespace GPX.Props
open GPX Spec

variable {K M C : Type}

/-! ### C138 -/

/-- C138. Whatever a program does with other states and other parameter objects, a state goes on showing the same
kernel, mean function, parameters and options, as long as it is not itself changed in place. -/
theorem C138_isolated {H H2 : Heap K M C} (hH : Reached H) (i : ℕ) (hi : i < H.states.length)
    (ops : List (HeapOp K M C)) (hr : Runs (fun H op => KeepsApart H op ∧ ¬ ChangesInPlace H i op) H ops H2) :
    shows H2 i = shows H i :=
  (runs_spec (fun _ _ h => h.1) hr (reached_ok hH)).2.2 i hi (fun _ _ h => h.2)

/-- C138. A copy shows the same as the original and shares no parameter object with it: whatever happens later to one
of the two, the other goes on showing what it showed. -/
theorem C138_copy {H : Heap K M C} (hH : Reached H) (i : ℕ) (s : ModelState K M C) (hs : shows H i = some s)
    (hok : ParamsOK s.params) :
    ∃ H1 c, H.step (.update i {}) = .ok H1 ∧ H1.states.length = H.states.length + 1 ∧
      shows H1 i = some s ∧ shows H1 H.states.length = some c ∧ SameState s c ∧
      (∀ r, Held H1 i r → ¬ Held H1 H.states.length r) ∧
      (∀ ops H2, Runs (fun H op => KeepsApart H op ∧ ¬ ChangesInPlace H i op) H1 ops H2 → shows H2 i = some s) ∧
      (∀ ops H2, Runs (fun H' op => KeepsApart H' op ∧ ¬ ChangesInPlace H' H.states.length op) H1 ops H2 →
        shows H2 H.states.length = some c) := by
  have hO := reached_ok hH
  rcases e0 : H.states[i]? with _ | o
  · simp [shows, e0] at hs
  have hv : H.view o = s := by simpa [shows, e0] using hs
  have hi : i < H.states.length := (List.getElem?_eq_some_iff.mp e0).1
  obtain ⟨c, hc1, hc2⟩ := C94_copy s hok
  have hst : H.step (.update i {}) = .ok (H.store c) := by
    have hu : ((H.view o).update ⟨none, none, Option.map (fun d => Dict.map H.cells d) none, []⟩).1 = .ok c := by
      rw [hv]; exact hc1
    rw [Heap.step]
    simp only [e0]
    rw [hu]
    rfl
  obtain ⟨h1, h2, h3⟩ := step_spec hO (by trivial) hst
  have hi' : shows (H.store c) i = some s := (shows_store H hO c i hi).trans hs
  have hlen := length_store H c
  refine ⟨H.store c, c, hst, hlen, hi', shows_store_new H c, hc2, fun r => h1.apart _ _ r (by omega), ?_, ?_⟩
  · intro ops H2 hr
    exact ((runs_spec (fun _ _ h => h.1) hr h1).2.2 i (by omega) (fun _ _ h => h.2)).trans hi'
  · intro ops H2 hr
    exact ((runs_spec (fun _ _ h => h.1) hr h1).2.2 _ (by omega) (fun _ _ h => h.2)).trans (shows_store_new H c)

/-- C138. The only way to make a state hold a parameter object that exists already is to assign it to an item of the
dictionary of the state: the constructor, `update`, the `params` setter and all methods that return a state make new
ones. -/
theorem C138_no_aliases {H H1 : Heap K M C} (hH : Reached H) (op : HeapOp K M C) (hs : H.step op = .ok H1)
    (hop : ∀ i path r, op ≠ .assign i path r) (j r : ℕ) (hr : Held H1 j r) : H.next ≤ r ∨ Held H j r := by
  have hstore : ∀ s : ModelState K M C, Held (H.store s) j r → H.next ≤ r ∨ Held H j r := by
    intro s h
    rcases held_store h with h | h
    · exact Or.inl h.2.1
    · exact Or.inr h.2
  have hset : ∀ (i : ℕ) (o o' : StateObj K M C), H.states[i]? = some o → o'.params = o.params →
      Held (H.setState i o') j r → H.next ≤ r ∨ Held H j r := by
    rintro i o o' ho hp ⟨q, h1, h2⟩
    rcases getElem?_set' _ _ _ _ _ h1 with ⟨rfl, rfl⟩ | ⟨e, h⟩
    · exact Or.inr ⟨o, ho, hp ▸ h2⟩
    · exact Or.inr ⟨q, h, h2⟩
  cases op with
  | newParam p =>
    rw [Heap.step] at hs
    rcases e : Param.new p.value p.trainable p.bijector p.prior with e' | p'
    · rw [e] at hs; cases hs
    · rw [e] at hs; cases hs; exact Or.inr hr
  | newState k m d kw =>
    rw [Heap.step] at hs
    rcases e : ModelState.new k m (d.map H.cells) kw with e' | s
    · rw [e] at hs; cases hs
    · rw [e] at hs; cases hs; exact hstore s hr
  | update i u =>
    rw [Heap.step] at hs
    rcases e0 : H.states[i]? with _ | o
    · rw [e0] at hs; cases hs
    · simp only [e0] at hs
      rcases e : ((H.view o).update ⟨u.kernel, u.meanFn, u.params.map (fun d => d.map H.cells), u.opts⟩).1 with e' | s
      · rw [e] at hs; cases hs
      · rw [e] at hs; cases hs; exact hstore s hr
  | treeMap i f =>
    rw [Heap.step] at hs
    rcases e0 : H.states[i]? with _ | o
    · rw [e0] at hs; cases hs
    · simp only [e0] at hs
      rcases e : ModelState.treeUnflatten ⟨o.kernel, o.meanFn, o.snapshot, o.opts⟩
        ((H.view o).params.treeLeaves.map (fun p => f p.value)) with e' | s
      · rw [e] at hs; cases hs
      · rw [e] at hs; cases hs; exact hstore s hr
  | derive i f =>
    rw [Heap.step] at hs
    rcases e0 : H.states[i]? with _ | o
    · rw [e0] at hs; cases hs
    · simp only [e0] at hs
      rcases e : f (H.view o) with e' | s
      · rw [e] at hs; cases hs
      · rw [e] at hs; cases hs; exact hstore s hr
  | setAttr r' p => cases hs; exact Or.inr hr
  | assign i path r' => exact absurd rfl (hop i path r')
  | setParams i d =>
    rw [Heap.step] at hs
    rcases e0 : H.states[i]? with _ | o
    · rw [e0] at hs; cases hs
    · simp only [e0] at hs
      rcases e : ModelState.new o.kernel o.meanFn (d.map H.cells) o.opts with e' | s
      · rw [e] at hs; cases hs
      · rw [e] at hs; cases hs
        obtain ⟨q, h1, h2⟩ := hr
        rcases getElem?_set' _ _ _ _ _ h1 with ⟨rfl, rfl⟩ | ⟨e, h⟩
        · exact Or.inl ((allocDict_spec s.params H.cells H.next).2.2.1 r h2).1
        · exact Or.inr ⟨q, h, h2⟩
  | setKernel i k =>
    rw [Heap.step] at hs
    rcases e0 : H.states[i]? with _ | o
    · rw [e0] at hs; cases hs
    · simp only [e0] at hs; cases hs; exact hset i o { o with kernel := k } e0 rfl hr
  | setMean i k =>
    rw [Heap.step] at hs
    rcases e0 : H.states[i]? with _ | o
    · rw [e0] at hs; cases hs
    · simp only [e0] at hs; cases hs; exact hset i o { o with meanFn := k } e0 rfl hr
  | setOpt i name v =>
    rw [Heap.step] at hs
    rcases e0 : H.states[i]? with _ | o
    · rw [e0] at hs; cases hs
    · simp only [e0] at hs
      split at hs
      · cases hs; exact hset i o { o with opts := assocSet name v o.opts } e0 rfl hr
      · cases hs; exact Or.inr hr

/-- C138. A state built from parameter objects shows what they contain at that moment; assigning attributes of these
objects afterwards does not change what the state shows. -/
theorem C138_constructor {H : Heap K M C} (hH : Reached H) (k : K) (m : M) (d : Dict ℕ) (kw : List (Key × OptVal C))
    (hok : ParamsOK (d.map H.cells)) :
    ∃ H1 s, H.step (.newState k m d kw) = .ok H1 ∧ shows H1 H.states.length = some s ∧
      s.kernel = k ∧ s.meanFn = m ∧ SameDict s.params (d.map H.cells) ∧
      ∀ r < H.next, ∀ p H2, H1.step (.setAttr r p) = .ok H2 → shows H2 H.states.length = some s := by
  have hO := reached_ok hH
  have hn := ModelState.new_ok (C := C) k m (d.map H.cells) kw hok
  have hst : H.step (.newState k m d kw) = .ok (H.store
      ⟨k, m, (d.map H.cells).sortKeys, kw.map (fun kv => (kv.1, kv.2.norm))⟩) := by
    rw [Heap.step, hn]; rfl
  refine ⟨_, _, hst, shows_store_new H _, rfl, rfl, sameDict_sortKeys _, fun r hr p H2 h2 => ?_⟩
  obtain ⟨h1, -, -⟩ := step_spec hO (by trivial) hst
  refine ((step_spec h1 (by trivial) h2).2.2 _ (by rw [length_store]; omega) ?_).trans (shows_store_new H _)
  intro (hh : Held _ _ r)
  rcases held_store hh with h | h
  · omega
  · exact h.1 rfl

/-- C138. `state.params[k1]...[kn] = p` is seen in the state: that item is the parameter, and the other items, the kernel,
the mean function and the options are what they were. -/
theorem C138_assign {H H1 : Heap K M C} (i : ℕ) (path : List Key) (r : ℕ) (s : ModelState K M C)
    (hs : shows H i = some s) (h : H.step (.assign i path r) = .ok H1) :
    ∃ s', shows H1 i = some s' ∧ s'.kernel = s.kernel ∧ s'.meanFn = s.meanFn ∧ s'.opts = s.opts ∧
      lookup path s'.params = some (.inl (H.cells r)) ∧
      ∀ path', ¬ path <+: path' → lookup path' s'.params = lookup path' s.params := by
  rcases e0 : H.states[i]? with _ | o
  · simp [shows, e0] at hs
  have hv : H.view o = s := by simpa [shows, e0] using hs
  have hi : i < H.states.length := (List.getElem?_eq_some_iff.mp e0).1
  rw [Heap.step] at h
  simp only [e0] at h
  rcases e : assignItem r path o.params with e' | d
  · rw [e] at h; cases h
  · rw [e] at h
    cases h
    obtain ⟨h1, h2⟩ := lookup_assign r path _ _ e
    refine ⟨⟨o.kernel, o.meanFn, d.map H.cells, o.opts⟩, ?_, ?_, ?_, ?_, ?_, ?_⟩
    · simp only [shows, Heap.setState]
      rw [List.getElem?_set_self hi]
      rfl
    · rw [← hv]; rfl
    · rw [← hv]; rfl
    · rw [← hv]; rfl
    · rw [lookup_map, h1]; rfl
    · intro path' hp
      rw [← hv]
      simp only [Heap.view, lookup_map]
      rw [h2 path' hp]

/-- C138. `p.value = ...`, `p.trainable = ...` are seen in the states that hold the object: wherever they hold it they
show its new content, and elsewhere what they showed. -/
theorem C138_set_attr {H H1 : Heap K M C} (i r : ℕ) (p : Param) (o : StateObj K M C) (ho : H.states[i]? = some o)
    (h : H.step (.setAttr r p) = .ok H1) :
    ∃ s', shows H1 i = some s' ∧ s'.kernel = o.kernel ∧ s'.meanFn = o.meanFn ∧ s'.opts = o.opts ∧
      ∀ path, lookup path s'.params = match lookup path o.params with
        | some (.inl q) => some (.inl (if q = r then p else H.cells q))
        | some (.inr u) => some (.inr u)
        | none => none := by
  cases h
  refine ⟨⟨o.kernel, o.meanFn, o.params.map (Function.update H.cells r p), o.opts⟩, ?_, rfl, rfl, rfl, ?_⟩
  · simp only [shows, ho]; rfl
  · intro path
    simp only [lookup_map]
    rcases lookup path o.params with _ | q | u
    · rfl
    · simp only [Option.map_some, Sum.map_inl, Function.update_apply]
    · rfl

/-! ### C139 -/

theorem step_creates {H H1 : Heap K M C} {op : HeapOp K M C} (h : H.step op = .ok H1)
    (hl : H1.states.length = H.states.length + 1) : ∃ s, H1 = H.store s := by
  cases op with
  | newParam p =>
    rw [Heap.step] at h
    rcases e : Param.new p.value p.trainable p.bijector p.prior with e' | p'
    · rw [e] at h; cases h
    · rw [e] at h; cases h; simp at hl
  | newState k m d kw =>
    rw [Heap.step] at h
    rcases e : ModelState.new k m (d.map H.cells) kw with e' | s
    · rw [e] at h; cases h
    · rw [e] at h; cases h; exact ⟨s, rfl⟩
  | update i u =>
    rw [Heap.step] at h
    rcases e0 : H.states[i]? with _ | o
    · rw [e0] at h; cases h
    · simp only [e0] at h
      rcases e : ((H.view o).update ⟨u.kernel, u.meanFn, u.params.map (fun d => d.map H.cells), u.opts⟩).1 with e' | s
      · rw [e] at h; cases h
      · rw [e] at h; cases h; exact ⟨s, rfl⟩
  | treeMap i f =>
    rw [Heap.step] at h
    rcases e0 : H.states[i]? with _ | o
    · rw [e0] at h; cases h
    · simp only [e0] at h
      rcases e : ModelState.treeUnflatten ⟨o.kernel, o.meanFn, o.snapshot, o.opts⟩
        ((H.view o).params.treeLeaves.map (fun p => f p.value)) with e' | s
      · rw [e] at h; cases h
      · rw [e] at h; cases h; exact ⟨s, rfl⟩
  | derive i f =>
    rw [Heap.step] at h
    rcases e0 : H.states[i]? with _ | o
    · rw [e0] at h; cases h
    · simp only [e0] at h
      rcases e : f (H.view o) with e' | s
      · rw [e] at h; cases h
      · rw [e] at h; cases h; exact ⟨s, rfl⟩
  | setAttr r' p => cases h; simp at hl
  | assign i path r' =>
    rw [Heap.step] at h
    rcases e0 : H.states[i]? with _ | o
    · rw [e0] at h; cases h
    · simp only [e0] at h
      rcases e : assignItem r' path o.params with e' | d
      · rw [e] at h; cases h
      · rw [e] at h; cases h; simp [Heap.setState] at hl
  | setParams i d =>
    rw [Heap.step] at h
    rcases e0 : H.states[i]? with _ | o
    · rw [e0] at h; cases h
    · simp only [e0] at h
      rcases e : ModelState.new o.kernel o.meanFn (d.map H.cells) o.opts with e' | s
      · rw [e] at h; cases h
      · rw [e] at h; cases h; simp at hl
  | setKernel i k =>
    rw [Heap.step] at h
    rcases e0 : H.states[i]? with _ | o
    · rw [e0] at h; cases h
    · simp only [e0] at h; cases h; simp [Heap.setState] at hl
  | setMean i k =>
    rw [Heap.step] at h
    rcases e0 : H.states[i]? with _ | o
    · rw [e0] at h; cases h
    · simp only [e0] at h; cases h; simp [Heap.setState] at hl
  | setOpt i name v =>
    rw [Heap.step] at h
    rcases e0 : H.states[i]? with _ | o
    · rw [e0] at h; cases h
    · simp only [e0] at h
      split at h
      · cases h; simp [Heap.setState] at hl
      · cases h; simp at hl

/-- Mapping `f` over the arrays of the `i`-th state makes a state like the one shown, with the values, and only the
values, replaced by their images. -/
def MapsAsShown (H : Heap K M C) (i : ℕ) (s : ModelState K M C) (f : Arr → Arr) : Prop :=
  ∃ H1 r, H.step (.treeMap i f) = .ok H1 ∧ shows H1 H.states.length = some r ∧
    r.kernel = s.kernel ∧ r.meanFn = s.meanFn ∧
    (∀ k, (assocGet k r.opts).map OptVal.norm = (assocGet k s.opts).map OptVal.norm) ∧
    AtEveryPath (fun p p' => p' = { p with value := f p.value }) s.params r.params

/-- C139, the full claim: at every point of every program, a passage of a state through a JAX transformation keeps what
the state shows. -/
def C139_full : Prop := ∀ (H : Heap Unit Unit Unit) (i : ℕ) (s : ModelState Unit Unit Unit) (f : Arr → Arr),
  Reached H → shows H i = some s → ParamsOK s.params →
  (∀ p ∈ s.params.leaves, (f p.value).shape = p.value.shape ∧ (f p.value).dtype = p.value.dtype) → MapsAsShown H i s f

theorem mapsAsShown_of_agree {H : Heap K M C} {i : ℕ} {s : ModelState K M C} {f : Arr → Arr} (ha : Agree H i)
    (hs : shows H i = some s) (hok : ParamsOK s.params)
    (hf : ∀ p ∈ s.params.leaves, (f p.value).shape = p.value.shape ∧ (f p.value).dtype = p.value.dtype) :
    MapsAsShown H i s f := by
  obtain ⟨o, ho, hk⟩ := ha
  have hv : H.view o = s := by simpa [shows, ho] using hs
  obtain ⟨r, h1, h2, h3, h4, -, h6⟩ := C94_tree_map s hok f hf
  have hu : ModelState.treeUnflatten ⟨o.kernel, o.meanFn, o.snapshot, o.opts⟩
      ((H.view o).params.treeLeaves.map (fun p => f p.value)) = .ok r := by
    rw [← h1, ← hv]
    simp only [ModelState.treeMap, ModelState.treeFlatten, ModelState.treeUnflatten, List.map_map]
    rw [rebuildParams_congr o.snapshot (H.view o).params hk]
    rfl
  have hst : H.step (.treeMap i f) = .ok (H.store r) := by
    rw [Heap.step]
    simp only [ho]
    rw [hu]
    rfl
  exact ⟨_, r, hst, shows_store_new H r, h2, h3, h4, h6⟩

/-- C139, part: a state made at any point of a program, of which after that the parameters are changed in place only in
their values or replaced all together. Kernel, mean function and options may be changed in place, and other states in
any way. Missing: flags, bijectors, priors or keys changed in place. -/
theorem C139_created_partial {H0 H1 H2 : Heap K M C} {op : HeapOp K M C} {ops : List (HeapOp K M C)} (hH : Reached H0)
    (hop : KeepsApart H0 op) (h : H0.step op = .ok H1) (hl : H1.states.length = H0.states.length + 1)
    (hr : Runs (fun H op => KeepsApart H op ∧ OnlyValues H H0.states.length op) H1 ops H2)
    (s : ModelState K M C) (hs : shows H2 H0.states.length = some s) (hok : ParamsOK s.params) (f : Arr → Arr)
    (hf : ∀ p ∈ s.params.leaves, (f p.value).shape = p.value.shape ∧ (f p.value).dtype = p.value.dtype) :
    MapsAsShown H2 H0.states.length s f := by
  have h1 := (step_spec (reached_ok hH) hop h).1
  obtain ⟨s0, rfl⟩ := step_creates h hl
  exact mapsAsShown_of_agree (agree_runs hr h1 (agree_store_new H0 s0)).2 hs hok hf

/-- C139, part: the same after `state.params = ...`, whatever was done to the state before. -/
theorem C139_params_set_partial {H0 H1 H2 : Heap K M C} {i : ℕ} {d : Dict ℕ} {ops : List (HeapOp K M C)}
    (hH : Reached H0) (h : H0.step (.setParams i d) = .ok H1)
    (hr : Runs (fun H op => KeepsApart H op ∧ OnlyValues H i op) H1 ops H2)
    (s : ModelState K M C) (hs : shows H2 i = some s) (hok : ParamsOK s.params) (f : Arr → Arr)
    (hf : ∀ p ∈ s.params.leaves, (f p.value).shape = p.value.shape ∧ (f p.value).dtype = p.value.dtype) :
    MapsAsShown H2 i s f := by
  have h1 := (step_spec (reached_ok hH) (by trivial) h).1
  have ha : Agree H1 i := by
    rw [Heap.step] at h
    rcases e0 : H0.states[i]? with _ | o
    · rw [e0] at h; cases h
    · simp only [e0] at h
      rcases e : ModelState.new o.kernel o.meanFn (d.map H0.cells) o.opts with e' | s
      · rw [e] at h; cases h
      · rw [e] at h; cases h; exact agree_setParams e0 s
  exact mapsAsShown_of_agree (agree_runs hr h1 ha).2 hs hok hf

/-! ### A program -/

noncomputable section examples

/-- `p = Parameter(...)`, on a memory without objects. -/
def exMem1 : Heap Unit Unit Unit := ⟨Function.update (fun _ => exLength) 0 exSigma, 1, []⟩

/-- `state = ModelState(kernel, mean, {"sigma": p})`. -/
def exMem2 : Heap Unit Unit Unit := exMem1.store ⟨(), (), .leaf "sigma".toList exSigma .nil, []⟩

/-- `state.params["sigma"].trainable = True`. -/
def exMem3 : Heap Unit Unit Unit := { exMem2 with cells := Function.update exMem2.cells 1 { exSigma with trainable := true } }

theorem exMem1_step : (Heap.start (fun _ => exLength) : Heap Unit Unit Unit).step (.newParam exSigma) = .ok exMem1 := by
  rw [Heap.step, Param.new_ok exSigma ⟨rfl, rfl⟩]; rfl

theorem exMem2_step : exMem1.step (.newState () () (.leaf "sigma".toList 0 .nil) []) = .ok exMem2 := by
  have e : (Dict.leaf "sigma".toList 0 Dict.nil).map exMem1.cells = .leaf "sigma".toList exSigma .nil := rfl
  rw [Heap.step, e, ModelState.new_ok _ _ _ _ (by intro p hp; simp [Dict.leaves] at hp; subst hp; exact ⟨rfl, rfl⟩)]
  rfl

theorem exMem2_reached : Reached exMem2 :=
  ⟨_, _, .ok (op := .newParam exSigma) trivial exMem1_step (.ok
    (op := .newState () () (.leaf "sigma".toList 0 .nil) []) trivial exMem2_step (.done _))⟩

theorem exMem3_reached : Reached exMem3 :=
  ⟨_, _, .ok (op := .newParam exSigma) trivial exMem1_step (.ok
    (op := .newState () () (.leaf "sigma".toList 0 .nil) []) trivial exMem2_step (.ok (op := .setAttr 1 { exSigma with trainable := true })
    trivial rfl (.done _)))⟩

theorem exMem2_shows : shows exMem2 0 = some ⟨(), (), .leaf "sigma".toList exSigma .nil, []⟩ :=
  shows_store_new exMem1 _

theorem exMem3_shows : shows exMem3 0 = some ⟨(), (), .leaf "sigma".toList { exSigma with trainable := true } .nil, []⟩ :=
  rfl

/-- C139. The full claim does not hold: the flag assigned in place is lost. -/
theorem C139_false : ¬ C139_full := by
  intro h
  obtain ⟨H1, r, h1, h2, -, -, -, h6⟩ := h exMem3 0 _ id exMem3_reached exMem3_shows
    (by intro p hp; simp [Dict.leaves] at hp; subst hp; exact ⟨rfl, rfl⟩) (fun p _ => ⟨rfl, rfl⟩)
  have hu : ModelState.treeUnflatten ⟨(), (), Dict.leaf "sigma".toList exSigma .nil, []⟩ [exSigma.value] =
      .ok (⟨(), (), .leaf "sigma".toList exSigma .nil, []⟩ : ModelState Unit Unit Unit) := by
    obtain ⟨r, d', h1, h2, h3, h4, -⟩ := treeUnflatten_ok (K := Unit) (M := Unit) (C := Unit)
      ⟨(), (), Dict.leaf "sigma".toList exSigma .nil, []⟩ [exSigma.value]
      (List.Forall₂.cons ⟨rfl, rfl⟩ List.Forall₂.nil)
    have hd : d' = .leaf "sigma".toList exSigma .nil := Dict.eq_of_struct_leaves _ _ h3 h4
    rw [h1, h2, hd]
    rfl
  have hst : exMem3.step (.treeMap 0 id) = .ok (exMem3.store ⟨(), (), .leaf "sigma".toList exSigma .nil, []⟩) := by
    show (do
      let s ← ModelState.treeUnflatten ⟨(), (), Dict.leaf "sigma".toList exSigma .nil, []⟩ [exSigma.value]
      pure (exMem3.store s)) = _
    rw [hu]
    rfl
  rw [hst] at h1
  cases h1
  have h2' : some r = some (⟨(), (), .leaf "sigma".toList exSigma .nil, []⟩ : ModelState Unit Unit Unit) := by
    rw [← h2]; exact shows_store_new exMem3 _
  cases h2'
  have h7 : exSigma = { exSigma with trainable := true } := h6 ["sigma".toList]
  have h8 := congrArg Param.trainable h7
  cases h8

/-- The hypotheses of C138 are met by a program with a state in it. -/
example : Reached exMem2 ∧ shows exMem2 0 = some ⟨(), (), .leaf "sigma".toList exSigma .nil, []⟩ ∧
    ParamsOK (Dict.leaf "sigma".toList exSigma .nil) ∧ ParamsOK ((Dict.leaf "sigma".toList 0 Dict.nil).map exMem1.cells) :=
  ⟨exMem2_reached, exMem2_shows, by intro p hp; simp [Dict.leaves] at hp; subst hp; exact ⟨rfl, rfl⟩,
    by intro p hp; simp [Dict.leaves, Dict.map] at hp; subst hp; exact ⟨rfl, rfl⟩⟩

/-- Giving the parameter of the state another value, as in `examples/map_estimate.ipynb`, meets the hypotheses of
`C138_assign` and of the partial theorems of C139, and does change the state in place. -/
example : ∃ H3 : Heap Unit Unit Unit,
    exMem2.step (.setAttr 0 exLength) = .ok H3 ∧
    Runs (fun H op => KeepsApart H op ∧ OnlyValues H 0 op) exMem2
      [.setAttr 1 { exSigma with value := ⟨[], "f".toList, [7]⟩ }]
      { exMem2 with cells := Function.update exMem2.cells 1 { exSigma with value := ⟨[], "f".toList, [7]⟩ } } ∧
    ChangesInPlace exMem2 0 (.setAttr 1 { exSigma with value := ⟨[], "f".toList, [7]⟩ }) :=
  ⟨_, rfl, .ok ⟨trivial, fun _ => ⟨rfl, rfl, rfl⟩⟩ rfl (.done _), _, rfl, by simp [allocDict, exMem1, Dict.leaves]⟩

/-- An operation that does not change the state in place: assigning an attribute of the object the state was built
from. -/
example : ¬ ChangesInPlace exMem2 0 (.setAttr 0 exLength) := by
  rintro ⟨o, h, hr⟩
  cases h
  simp [allocDict, exMem1, Dict.leaves] at hr

/-- Without the condition that a program does not put one object into two states, the states are not isolated: the object
is the same. -/
example : ∃ H : Heap Unit Unit Unit, Runs (fun _ _ => True) (Heap.start (fun _ => exLength))
    [.newParam exSigma, .newState () () (.leaf "sigma".toList 0 .nil) [], .update 0 {},
      .assign 0 ["sigma".toList] 0, .assign 1 ["sigma".toList] 0] H ∧ Held H 0 0 ∧ Held H 1 0 := by
  obtain ⟨H1, c, h1, h2, h3, h4, h5, -⟩ := C138_copy exMem2_reached 0 _ exMem2_shows
    (by intro p hp; simp [Dict.leaves] at hp; subst hp; exact ⟨rfl, rfl⟩)
  rcases e0 : H1.states[0]? with _ | o0
  · simp [shows, e0] at h3
  rcases e1 : H1.states[1]? with _ | o1
  · have : H1.states.length = 2 := h2
    rw [List.getElem?_eq_none_iff] at e1
    omega
  have hl0 : 0 < H1.states.length := (List.getElem?_eq_some_iff.mp e0).1
  have hl1 : 1 < H1.states.length := (List.getElem?_eq_some_iff.mp e1).1
  have s0 : H1.step (.assign 0 ["sigma".toList] 0) =
      .ok (H1.setState 0 { o0 with params := o0.params.setLeaf "sigma".toList 0 }) := by
    rw [Heap.step]; simp only [e0]; rfl
  have s1 : (H1.setState 0 { o0 with params := o0.params.setLeaf "sigma".toList 0 }).step
      (.assign 1 ["sigma".toList] 0) =
      .ok ((H1.setState 0 { o0 with params := o0.params.setLeaf "sigma".toList 0 }).setState 1
        { o1 with params := o1.params.setLeaf "sigma".toList 0 }) := by
    have : (H1.setState 0 { o0 with params := o0.params.setLeaf "sigma".toList 0 }).states[1]? = some o1 := by
      simp only [Heap.setState]
      rw [getElem?_set_ne' _ _ _ _ (by omega)]; exact e1
    rw [Heap.step]; simp only [this]; rfl
  have hmem : ∀ d : Dict ℕ, 0 ∈ (d.setLeaf "sigma".toList 0).leaves := by
    intro d
    have : lookup ["sigma".toList] (d.setLeaf "sigma".toList 0) = some (.inl 0) := by
      simp [lookup, get?_setLeaf]
    exact lookup_mem _ _ _ this
  refine ⟨_, .ok trivial exMem1_step (.ok trivial exMem2_step (.ok trivial h1 (.ok trivial s0
    (.ok trivial s1 (.done _))))), ⟨{ o0 with params := o0.params.setLeaf "sigma".toList 0 }, ?_, hmem _⟩,
    ⟨{ o1 with params := o1.params.setLeaf "sigma".toList 0 }, ?_, hmem _⟩⟩
  · simp [Heap.setState, hl0]
  · simp [Heap.setState, hl1]

end examples

end GPX.Props
