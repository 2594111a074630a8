import Verif.Props.API

/-!
# C90: calls of `fit` that raise; C91: the training records of a model object
-/

namespace GPX.Props
open GPX Spec

variable {S O W R K M C Out : Type}

/-! ### C90 -/

/-- C90, full statement: a call of a fit method that raises leaves the model object as it was, for every reachable
`GPR` object, optimiser and data. -/
def C90_full : Prop :=
  ∀ (num : Numerics Unit Unit Unit Unit) (nxt : Unit → Unit) (sample : PriorObj → Unit → Arr)
    (m m' : GPObj (ModelState Unit Unit Unit) Unit) (k : Option Kind), Reach num nxt sample m k →
    ∀ (kind : Kind) (f : ModelState Unit Unit Unit → Except Err (ModelState Unit Unit Unit)), FitCall num kind f →
    ∀ (minim : Unit → ModelState Unit Unit Unit → Except Err (ModelState Unit Unit Unit × Unit) × Unit)
      (loss : ModelState Unit Unit Unit → ℝ) (minimize : Bool) (n : ℕ) (key : Option Unit) (rh : Bool) (e : Err),
      baseFit minim (fun k s => s.randomize nxt sample k []) loss nxt f m minimize n key rh () = (.error e, m', ()) →
      m' = m

/-- C90, every way a call of `fit` can raise, and what the object is afterwards: unchanged when the optimisation raises
(in the first run or in any restart) or when the linear fit raises without optimisation; with the optimised
hyperparameters, the optimiser's result and everything else as before when the linear fit raises after an
optimisation; with the newly fitted state when a history is asked for without optimisation. -/
theorem C90_failed_fit (minim : W → S → Except Err (S × O) × W) (randomize : R → S → Except Err S) (loss : S → ℝ)
    (nxt : R → R) (fitFun : S → Except Err S) (m m' : GPObj S O) (minimize : Bool) (n : ℕ) (key : Option R)
    (rh : Bool) (w w' : W) (e : Err)
    (h : baseFit minim randomize loss nxt fitFun m minimize n key rh w = (.error e, m', w')) :
    (m' = m ∧ ((minimize = true ∧ randomizedMinimization minim randomize loss nxt key m.state n rh w = (.error e, w')) ∨
      (minimize = false ∧ fitFun m.state = .error e))) ∨
    (minimize = true ∧ ∃ s o hist, randomizedMinimization minim randomize loss nxt key m.state n rh w =
      (.ok (s, o, hist), w') ∧ fitFun s = .error e ∧ m' = { m with state := s, optimizeResults := some o }) ∨
    (minimize = false ∧ rh = true ∧ e = .nameError ∧ ∃ s, fitFun m.state = .ok s ∧ m' = { m with state := s }) := by
  cases minimize with
  | false =>
    rcases hf : fitFun m.state with e' | s
    · simp only [baseFit, hf, Bool.false_eq_true, if_false, Prod.mk.injEq, Except.error.injEq] at h
      obtain ⟨rfl, rfl, -⟩ := h
      exact .inl ⟨rfl, .inr ⟨rfl, rfl⟩⟩
    · cases rh with
      | false => simp [baseFit, hf] at h
      | true =>
        rw [C56_always_raises _ _ _ _ _ _ _ _ _ s hf] at h
        simp only [Prod.mk.injEq, Except.error.injEq] at h
        exact .inr (.inr ⟨rfl, rfl, h.1.symm, s, rfl, h.2.1.symm⟩)
  | true =>
    rcases hr : randomizedMinimization minim randomize loss nxt key m.state n rh w with ⟨e' | ⟨s, o, hist⟩, w1⟩
    · simp only [baseFit, hr, if_true, Prod.mk.injEq, Except.error.injEq] at h
      obtain ⟨rfl, rfl, rfl⟩ := h
      exact .inl ⟨rfl, .inl ⟨rfl, rfl⟩⟩
    · rcases hf : fitFun s with e' | s'
      · simp only [baseFit, hr, hf, if_true, Prod.mk.injEq, Except.error.injEq] at h
        obtain ⟨rfl, rfl, rfl⟩ := h
        exact .inr (.inl ⟨rfl, s, o, hist, rfl, hf, rfl⟩)
      · obtain ⟨m'', h2, -⟩ := (C56_fit_returns_partial minim randomize loss nxt fitFun m n key w).2 rh w1 s o hist s' hr hf
        rw [h2] at h
        cases h

/-- C90, what holds: a raising call leaves the object as it was whenever the linear fit cannot raise on optimised
states and no history is asked for without optimisation. -/
theorem C90_unchanged_partial (minim : W → S → Except Err (S × O) × W) (randomize : R → S → Except Err S) (loss : S → ℝ)
    (nxt : R → R) (fitFun : S → Except Err S) (m m' : GPObj S O) (minimize : Bool) (n : ℕ) (key : Option R)
    (rh : Bool) (w w' : W) (e : Err) (hh : ¬ (minimize = false ∧ rh = true))
    (hfit : minimize = true → ∀ s, ∃ s', fitFun s = .ok s')
    (h : baseFit minim randomize loss nxt fitFun m minimize n key rh w = (.error e, m', w')) : m' = m := by
  rcases C90_failed_fit minim randomize loss nxt fitFun m m' minimize n key rh w w' e h with
    ⟨h1, -⟩ | ⟨h1, s, -, -, -, h2, -⟩ | ⟨h1, h2, -⟩
  · exact h1
  · obtain ⟨s', hs'⟩ := hfit h1 s
    rw [hs'] at h2
    cases h2
  · exact absurd ⟨h1, h2⟩ hh

/-- The hypotheses are met: an optimiser that fails in the second run. -/
example : baseFit (S := ℕ) (O := Unit) (W := ℕ) (R := Unit)
    (fun w s => if w = 0 then (.ok (s + 1, ()), 1) else (.error .runtimeError, w + 1)) (fun _ s => .ok s)
    (fun s => (s : ℝ)) id (fun s => .ok s) { state := 5 } true 3 (some ()) true 0 =
      (.error .runtimeError, { state := 5 }, 2) := by
  simp [baseFit, randomizedMinimization, checkRandomKey, restartLoop]

/-- C90 is false of the code: `fit(return_history=True, minimize=False)` raises and leaves a fitted model behind. -/
theorem C90_false : ¬ C90_full := by
  intro h
  have hb := C56_always_raises (W := Unit) (O := Unit) (R := Unit) (fun _ s => (.ok (s, ()), ()))
    (fun k s => s.randomize (fun _ : Unit => ()) (fun _ _ => exDraw) k []) (fun _ => 0) (fun _ => ())
    (gprFit exNum exArr exArr false none) { state := exFresh } 0 none () (exFitted 1) rfl
  have := h exNum (fun _ => ()) (fun _ _ => exDraw) _ _ _ exFresh_reach _ _ (.fit exArr exArr false none)
    (fun _ s => (.ok (s, ()), ())) (fun _ => 0) false 0 none true .nameError hb
  have h2 : assocGet isFittedKey (exFitted 1).opts = assocGet isFittedKey exFresh.opts :=
    congrArg (fun m : GPObj (ModelState Unit Unit Unit) Unit => assocGet isFittedKey m.state.opts) this
  have h3 : assocGet isFittedKey (exFitted 1).opts = some (.bool true) := rfl
  have h4 : assocGet isFittedKey exFresh.opts = some (.bool false) := rfl
  rw [h3, h4] at h2
  simp at h2

/-! ### C91 -/

/-- C91, full statement: the states a model object lists in its history are those of the optimisation its present state
comes from: after every call of `fit` that returns, if the object has a history, its state is the linear fit of one of
the listed states. -/
def C91_full : Prop :=
  ∀ (minim : Unit → ℕ → Except Err (ℕ × Unit) × Unit) (randomize : ℕ → ℕ → Except Err ℕ) (loss : ℕ → ℝ) (nxt : ℕ → ℕ)
    (fitFun : ℕ → Except Err ℕ) (m m1 m2 : GPObj ℕ Unit) (mi1 mi2 rh1 rh2 : Bool) (n1 n2 : ℕ) (key : Option ℕ),
    m.statesHistory = none →
    baseFit minim randomize loss nxt fitFun m mi1 n1 key rh1 () = (.ok (), m1, ()) →
    baseFit minim randomize loss nxt fitFun m1 mi2 n2 key rh2 () = (.ok (), m2, ()) →
    ∀ ss, m2.statesHistory = some ss → ∃ s ∈ ss, fitFun s = .ok m2.state

/-- C91, a call with a requested history: the object then holds the states of the `n + 1` runs, the losses of exactly
these states, the optimiser's result of the best run and the linear fit of the best state. -/
theorem C91_history_partial (minim : W → S → Except Err (S × O) × W) (randomize : R → S → Except Err S) (loss : S → ℝ)
    (nxt : R → R) (fitFun : S → Except Err S) (m m' : GPObj S O) (minimize : Bool) (n : ℕ) (key : Option R) (w w' : W)
    (h : baseFit minim randomize loss nxt fitFun m minimize n key true w = (.ok (), m', w')) :
    ∃ (ss : List S) (ls : List ℝ) (s : S), m'.statesHistory = some ss ∧ m'.lossesHistory = some ls ∧
      ss.length = n + 1 ∧ ls = ss.map loss ∧ s ∈ ss ∧ (∀ t ∈ ss, loss s ≤ loss t) ∧ fitFun s = .ok m'.state ∧
      m'.optimizeResults.isSome := by
  cases minimize with
  | false =>
    rcases hf : fitFun m.state with e' | s
    · simp [baseFit, hf] at h
    · rw [C56_always_raises _ _ _ _ _ _ _ _ _ s hf] at h
      cases h
  | true =>
    rcases hr : randomizedMinimization minim randomize loss nxt key m.state n true w with ⟨e' | ⟨s, o, hist⟩, w1⟩
    · simp [baseFit, hr] at h
    · rcases hf : fitFun s with e' | s'
      · simp [baseFit, hr, hf] at h
      · obtain ⟨m'', h2, h3, h4, h5, -⟩ :=
          (C56_fit_returns_partial minim randomize loss nxt fitFun m n key w).2 true w1 s o hist s' hr hf
        rw [h2] at h
        cases h
        obtain ⟨ss, ls, h6, h7, h8⟩ := h5 rfl
        obtain ⟨start, fin, opt, ws, -, -, -, -, -, ⟨b, hb, hb1, -, hb2, -⟩, hh⟩ :=
          C15_restarts_best minim randomize loss nxt key m.state n true w _ s o hist hr
        rw [h6] at hh
        simp only [if_true, Option.some.injEq, Prod.mk.injEq] at hh
        obtain ⟨rfl, rfl⟩ := hh
        refine ⟨_, _, s, h7, h8, by simp, by simp [Function.comp_def], ?_, ?_, by rw [h3, hf], by simp [h4]⟩
        · exact List.mem_map.mpr ⟨b, List.mem_range.mpr (by omega), hb1.symm⟩
        · intro t ht
          obtain ⟨i, hi, rfl⟩ := List.mem_map.mp ht
          exact hb2 i (by have := List.mem_range.mp hi; omega)

/-- C91, a call without a requested history leaves the old history in place, and one without optimisation also the old
optimiser's result. -/
theorem C91_kept (minim : W → S → Except Err (S × O) × W) (randomize : R → S → Except Err S) (loss : S → ℝ)
    (nxt : R → R) (fitFun : S → Except Err S) (m m' : GPObj S O) (minimize : Bool) (n : ℕ) (key : Option R) (w w' : W)
    (h : baseFit minim randomize loss nxt fitFun m minimize n key false w = (.ok (), m', w')) :
    m'.statesHistory = m.statesHistory ∧ m'.lossesHistory = m.lossesHistory ∧
      (minimize = false → m'.optimizeResults = m.optimizeResults ∧ fitFun m.state = .ok m'.state) := by
  cases minimize with
  | false =>
    rcases hf : fitFun m.state with e' | s
    · simp [baseFit, hf] at h
    · rw [(C56_fit_returns_partial minim randomize loss nxt fitFun m n key w).1 s hf] at h
      cases h
      exact ⟨rfl, rfl, fun _ => ⟨rfl, rfl⟩⟩
  | true =>
    rcases hr : randomizedMinimization minim randomize loss nxt key m.state n false w with ⟨e' | ⟨s, o, hist⟩, w1⟩
    · simp [baseFit, hr] at h
    · rcases hf : fitFun s with e' | s'
      · simp [baseFit, hr, hf] at h
      · obtain ⟨m'', h2, -, -, -, h6⟩ :=
          (C56_fit_returns_partial minim randomize loss nxt fitFun m n key w).2 false w1 s o hist s' hr hf
        rw [h2] at h
        cases h
        exact ⟨(h6 rfl).1, (h6 rfl).2, by simp⟩

/-- C91, `load` and `randomize`: loading replaces the state and keeps every record of the object; randomising gives a new
object without records. -/
theorem C91_load_randomize (m m' : GPObj (ModelState K M C) O) (file : List (Key × Dumped)) (nxt : R → R)
    (sample : PriorObj → R → Arr) (ini : List (Key × OptVal C)) (key : R) (reset : Bool) :
    (m.load file = .ok m' → m.state.load file = .ok m'.state ∧ m'.optimizeResults = m.optimizeResults ∧
      m'.statesHistory = m.statesHistory ∧ m'.lossesHistory = m.lossesHistory) ∧
    (m.randomize nxt sample ini key reset = .ok m' →
      m.state.randomize nxt sample key (if reset then ini else []) = .ok m'.state ∧ m'.optimizeResults = none ∧
      m'.statesHistory = none ∧ m'.lossesHistory = none) := by
  constructor
  · intro h
    unfold GPObj.load at h
    rcases hr : m.state.load file with e | r
    · rw [hr] at h; cases h
    · rw [hr] at h; cases h; exact ⟨rfl, rfl, rfl, rfl⟩
  · intro h
    unfold GPObj.randomize at h
    rcases hr : m.state.randomize nxt sample key (if reset then ini else []) with e | r
    · rw [hr] at h; cases h
    · rw [hr] at h; cases h; exact ⟨rfl, rfl, rfl, rfl⟩

/-- C91 is false of the code: a second `fit`, without a requested history, keeps the history of the first. -/
theorem C91_false : ¬ C91_full := by
  intro h
  obtain ⟨s, hs, hf⟩ := h (fun _ s => (.ok (s + 1, ()), ())) (fun _ s => .ok s) (fun _ => 0) id (fun s => .ok s)
    { state := 0 } ⟨1, some (), some [1], some [0]⟩ ⟨2, some (), some [1], some [0]⟩ true true true false 0 0 none rfl
    (by simp [baseFit, C16_no_restarts]) (by simp [baseFit, C16_no_restarts]) [1] rfl
  simp only [List.mem_singleton] at hs
  subst hs
  cases hf

end GPX.Props
