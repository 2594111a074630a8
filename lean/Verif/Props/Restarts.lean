import Verif.Lemmas.Restarts
import Verif.Props.Params

/-! # C15, C16, C56, C59: random restarts and the control flow of `fit` -/

namespace GPX.Props
open GPX Spec
noncomputable section
variable {S O W R : Type}

/-- C15. Every run of `randomized_minimization` that returns has performed exactly `n + 1` minimisations
(the external state goes through exactly the steps `w = ws 0, ws 1, …, ws (n+1) = w'`), the first from the
given state, each later one from a randomisation of the previous result; it returns the state and the
optimiser result of the run with the smallest final loss, the first one on ties; the history, when
requested, lists all runs in order. -/
theorem C15_restarts_best (minim : W → S → Except Err (S × O) × W) (randomize : R → S → Except Err S)
    (loss : S → ℝ) (nxt : R → R) (key : Option R) (s : S) (n : ℕ) (returnHistory : Bool) (w w' : W)
    (res : S) (optres : O) (hist : Option (List S × List ℝ))
    (h : randomizedMinimization minim randomize loss nxt key s n returnHistory w =
      (.ok (res, optres, hist), w')) :
    ∃ (start fin : ℕ → S) (opt : ℕ → O) (ws : ℕ → W),
      start 0 = s ∧ ws 0 = w ∧ ws (n+1) = w' ∧
      (∀ i ≤ n, minim (ws i) (start i) = (.ok (fin i, opt i), ws (i+1))) ∧
      (∀ i < n, ∃ k, key = some k ∧ randomize (nxt^[i+1] k) (fin i) = .ok (start (i+1))) ∧
      (∃ best ≤ n, res = fin best ∧ optres = opt best ∧
        (∀ i ≤ n, loss res ≤ loss (fin i)) ∧ (∀ i < best, loss res < loss (fin i))) ∧
      hist = if returnHistory then some ((List.range (n+1)).map fin,
          (List.range (n+1)).map (fun i => loss (fin i))) else none := by
  unfold randomizedMinimization at h
  rcases hc : checkRandomKey key n with e | u
  · rw [hc] at h; simp at h
  rw [hc] at h; simp only at h
  rcases hm : minim w s with ⟨⟨e⟩ | ⟨s1, o1⟩, w1⟩
  · rw [hm] at h; simp at h
  rw [hm] at h; simp only at h
  rcases hl : restartLoop minim randomize loss nxt n key s1 w1 with ⟨⟨e⟩ | ⟨rs⟩, w2⟩
  · rw [hl] at h; simp at h
  rw [hl] at h
  simp only [Prod.mk.injEq] at h
  obtain ⟨hp, rfl⟩ := h
  obtain ⟨start, fin, opt, ws, h1, h2, h3, h4, h5, h6⟩ :=
    restartLoop_ok minim randomize loss nxt n key s1 o1 w1 w2 rs hl
  have hruns : (s1, loss s1, o1) :: rs =
      (List.range (n+1)).map (fun i => (fin i, loss (fin i), opt i)) := by
    rw [List.range_succ_eq_map, List.map_cons, List.map_map, h6, h1, h2]; rfl
  obtain ⟨best, hb, hb1, hb2, hb3⟩ := pickBest_range fin loss opt n returnHistory
  rw [hruns, hb3] at hp
  simp only [Except.ok.injEq, Prod.mk.injEq] at hp
  obtain ⟨rfl, rfl, rfl⟩ := hp
  refine ⟨fun i => match i with | 0 => s | i+1 => start (i+1), fin, opt,
    fun i => match i with | 0 => w | i+1 => ws i, rfl, rfl, h4, ?_, ?_,
    ⟨best, hb, rfl, rfl, hb1, hb2⟩, rfl⟩
  · intro i hi
    rcases i with _ | i
    · simp only [hm, h1, h2, h3]
    · obtain ⟨k, -, -, hk⟩ := h5 i (by omega)
      exact hk
  · intro i hi
    obtain ⟨k, hk1, hk2, -⟩ := h5 i hi
    exact ⟨k, hk1, hk2⟩

/-- C15. The result is never worse than the result of a single minimisation from the given state. -/
theorem C15_never_worse (minim : W → S → Except Err (S × O) × W) (randomize : R → S → Except Err S)
    (loss : S → ℝ) (nxt : R → R) (key : Option R) (s : S) (n : ℕ) (rh : Bool) (w w' : W)
    (res : S) (optres : O) (hist : Option (List S × List ℝ))
    (h : randomizedMinimization minim randomize loss nxt key s n rh w =
      (.ok (res, optres, hist), w')) :
    ∃ s1 o1 w1, minim w s = (.ok (s1, o1), w1) ∧ loss res ≤ loss s1 := by
  obtain ⟨start, fin, opt, ws, h1, h2, -, h4, -, ⟨_, _, _, _, h5, _⟩, -⟩ :=
    C15_restarts_best minim randomize loss nxt key s n rh w w' res optres hist h
  exact ⟨fin 0, opt 0, ws 1, by rw [← h1, ← h2]; exact h4 0 (Nat.zero_le _), h5 0 (Nat.zero_le _)⟩

/-- C15. The restarts return whenever every minimisation and every randomisation of a state with the
property `P` succeeds and preserves `P`. -/
theorem C15_restarts_return (minim : W → S → Except Err (S × O) × W)
    (randomize : R → S → Except Err S) (loss : S → ℝ) (nxt : R → R) (key : Option R) (s : S) (n : ℕ)
    (rh : Bool) (w : W) (P : S → Prop) (hs : P s)
    (hm : ∀ w s, P s → ∃ s' o w', minim w s = (.ok (s', o), w') ∧ P s')
    (hr : ∀ k s, P s → ∃ s', randomize k s = .ok s' ∧ P s') (hk : 0 < n → key.isSome) :
    ∃ r w', randomizedMinimization minim randomize loss nxt key s n rh w = (.ok r, w') := by
  obtain ⟨s1, o, w1, h1, p1⟩ := hm w s hs
  obtain ⟨rs, w2, h2⟩ := restartLoop_total minim randomize loss nxt n key s1 w1 P p1 hm hr hk
  obtain ⟨start, fin, opt, ws, e1, e2, e3, e4, e5, e6⟩ :=
    restartLoop_ok minim randomize loss nxt n key s1 o w1 w2 rs h2
  obtain ⟨best, -, -, -, hb⟩ := pickBest_range fin loss opt n rh
  refine ⟨(fin best, opt best, if rh then some ((List.range (n+1)).map fin,
    (List.range (n+1)).map (fun i => loss (fin i))) else none), w2, ?_⟩
  have hc : checkRandomKey key n = .ok () := by
    unfold checkRandomKey
    rw [if_neg]
    rintro ⟨a, b⟩
    have := hk a
    cases key <;> simp_all
  have hruns : (s1, loss s1, o) :: rs =
      (List.range (n+1)).map (fun i => (fin i, loss (fin i), opt i)) := by
    rw [List.range_succ_eq_map, List.map_cons, List.map_map, e6, e1, e2]; rfl
  simp only [randomizedMinimization, hc, h1, h2, hruns, hb]

/-- Non-vacuity of C15: a minimiser that halves a number and counts its calls, randomisation = negate and
add the key. Three minimisations are made and the best one is the second. -/
example : randomizedMinimization (S := ℝ) (O := ℕ) (W := ℕ) (R := ℝ)
    (fun w s => (.ok (s / 2, w), w + 1)) (fun k s => .ok (k - s)) (fun s => s) (fun k => k + 1)
    (some 1) 8 2 true 0 = (.ok (-1, 1, some ([4, -1, 2], [4, -1, 2])), 3) := by
  norm_num [randomizedMinimization, checkRandomKey, restartLoop, pickBest, pyMin, pyIndex, pyGet,
    bind, Except.bind, pure, Except.pure]

/-- C16. Restarts without a key: `ValueError`, and the minimiser is never called (its external state is
unchanged), whatever the minimiser, the loss and the state. -/
theorem C16_no_key (minim : W → S → Except Err (S × O) × W) (randomize : R → S → Except Err S)
    (loss : S → ℝ) (nxt : R → R) (s : S) (n : ℕ) (hn : 0 < n) (rh : Bool) (w : W) :
    randomizedMinimization minim randomize loss nxt none s n rh w = (.error .valueError, w) := by
  simp [randomizedMinimization, checkRandomKey, hn]

/-- C16. Without restarts the key is irrelevant: the outcome is the same with and without one, it is that of
the single minimisation, and it is an error only if the minimiser itself raises. -/
theorem C16_no_restarts (minim : W → S → Except Err (S × O) × W) (randomize : R → S → Except Err S)
    (loss : S → ℝ) (nxt : R → R) (s : S) (key : Option R) (rh : Bool) (w : W) :
    randomizedMinimization minim randomize loss nxt key s 0 rh w =
      match minim w s with
      | (.error e, w') => (.error e, w')
      | (.ok (s1, o), w') => (.ok (s1, o, if rh then some ([s1], [loss s1]) else none), w') := by
  rcases hm : minim w s with ⟨⟨e⟩ | ⟨s1, o1⟩, w1⟩
  · simp [randomizedMinimization, checkRandomKey, hm]
  · simp [randomizedMinimization, checkRandomKey, hm, restartLoop, pickBest, pyMin, pyIndex, pyGet,
      bind, Except.bind, pure, Except.pure]

/-- C16 for the model object: `fit` with restarts and no key raises `ValueError` and leaves the object
(its state included) and the minimiser untouched. -/
theorem C16_fit_no_key (minim : W → S → Except Err (S × O) × W) (randomize : R → S → Except Err S)
    (loss : S → ℝ) (nxt : R → R) (fitFun : S → Except Err S) (m : GPObj S O) (n : ℕ) (hn : 0 < n)
    (rh : Bool) (w : W) :
    baseFit minim randomize loss nxt fitFun m true n none rh w = (.error .valueError, m, w) := by
  simp [baseFit, C16_no_key _ _ _ _ _ _ hn]

/-! ### C56 -/

/-- C56, full statement: `fit(return_history=True, minimize=False)` returns whenever the linear fit itself
succeeds. -/
def C56_full : Prop :=
  ∀ (minim : Unit → ℕ → Except Err (ℕ × Unit) × Unit) (randomize : ℕ → ℕ → Except Err ℕ)
    (loss : ℕ → ℝ) (nxt : ℕ → ℕ) (fitFun : ℕ → Except Err ℕ) (m : GPObj ℕ Unit) (n : ℕ)
    (key : Option ℕ) (s : ℕ), fitFun m.state = .ok s →
    (baseFit minim randomize loss nxt fitFun m false n key true ()).1 = .ok ()

/-- C56 is false of the code, for *every* input for which the linear fit succeeds: a `NameError` is raised,
after the fitted state has already been stored in the object. -/
theorem C56_always_raises (minim : W → S → Except Err (S × O) × W) (randomize : R → S → Except Err S)
    (loss : S → ℝ) (nxt : R → R) (fitFun : S → Except Err S) (m : GPObj S O) (n : ℕ) (key : Option R)
    (w : W) (s : S) (hs : fitFun m.state = .ok s) :
    baseFit minim randomize loss nxt fitFun m false n key true w =
      (.error .nameError, { m with state := s }, w) := by
  simp [baseFit, hs]

theorem C56_false : ¬ C56_full := by
  intro h
  have := h (fun w _ => (.ok (0, ()), w)) (fun _ s => .ok s) (fun _ => 0) id (fun s => .ok s) ⟨0, none, none, none⟩
    0 none 0 rfl
  rw [C56_always_raises _ _ _ _ _ _ _ _ _ 0 rfl] at this
  cases this

/-- C56, what holds: with `minimize=True`, or without a requested history, `fit` returns whenever the
minimisation (if any) and the linear fit succeed; the object then holds the state produced by the
linear fit from the minimised (resp. current) state and, if requested, the history of all runs. -/
theorem C56_fit_returns_partial (minim : W → S → Except Err (S × O) × W)
    (randomize : R → S → Except Err S) (loss : S → ℝ) (nxt : R → R) (fitFun : S → Except Err S)
    (m : GPObj S O) (n : ℕ) (key : Option R) (w : W) :
    (∀ s, fitFun m.state = .ok s →
      baseFit minim randomize loss nxt fitFun m false n key false w = (.ok (), { m with state := s }, w)) ∧
    (∀ rh w' s1 o hist s,
      randomizedMinimization minim randomize loss nxt key m.state n rh w = (.ok (s1, o, hist), w') →
      fitFun s1 = .ok s →
      ∃ m', baseFit minim randomize loss nxt fitFun m true n key rh w = (.ok (), m', w') ∧
        m'.state = s ∧ m'.optimizeResults = some o ∧
        (rh = true → ∃ ss ls, hist = some (ss, ls) ∧ m'.statesHistory = some ss ∧
          m'.lossesHistory = some ls) ∧
        (rh = false → m'.statesHistory = m.statesHistory ∧ m'.lossesHistory = m.lossesHistory)) := by
  refine ⟨fun s hs => by simp [baseFit, hs], ?_⟩
  intro rh w' s1 o hist s h hs
  obtain ⟨_, _, _, _, _, _, _, _, _, _, hh⟩ :=
    C15_restarts_best minim randomize loss nxt key m.state n rh w w' s1 o hist h
  cases rh with
  | false => exact ⟨⟨s, some o, m.statesHistory, m.lossesHistory⟩, by simp [baseFit, h, hs], rfl, rfl,
      by simp, by simp⟩
  | true =>
    simp only [if_true] at hh
    subst hh
    exact ⟨⟨s, some o, _, _⟩, by simp only [baseFit, h, hs, if_true], rfl, rfl,
      fun _ => ⟨_, _, rfl, rfl, rfl⟩, by simp⟩

/-- Non-vacuity of C56: hypotheses met by a halving minimiser. -/
example : randomizedMinimization (S := ℝ) (O := ℕ) (W := ℕ) (R := ℝ)
    (fun w s => (.ok (s / 2, w), w + 1)) (fun k s => .ok (k - s)) (fun s => s) (fun k => k + 1)
    none 8 0 true 0 = (.ok (4, 0, some ([4], [4])), 1) := by
  rw [C16_no_restarts]; norm_num

/-! ### C59 -/

variable {K M C : Type}

/-- C59, full statement: restarts start from fresh draws. With a minimiser that returns its starting point
unchanged (so that the history lists the starting points), a key generator that never revisits a key and
priors whose draws are different for different keys, no starting value of a trainable scalar parameter
with the same bijector occurs in two different restarts. -/
def C59_full : Prop :=
  ∀ (nxt : ℕ → ℕ) (sample : PriorObj → ℕ → Arr) (key n : ℕ) (s : ModelState Unit Unit Unit)
    (res : ModelState Unit Unit Unit) (ss : List (ModelState Unit Unit Unit)) (ls : List ℝ),
    ParamsOK s.params → (∀ p ∈ s.params.leaves, sensible p.bijector) →
    (∀ q k, (sample q k).shape = q.shape ∧ (sample q k).dtype = q.dtype) →
    (∀ q q' k k', (sample q k).data = (sample q' k').data → k = k') →
    (∀ a b, nxt^[a] key = nxt^[b] key → a = b) →
    (randomizedMinimization (O := Unit) (W := Unit) (fun w s => (.ok (s, ()), w))
      (fun k s => s.randomize nxt sample k []) (fun _ => 0) nxt (some key) s n true ()).1 =
        .ok (res, (), some (ss, ls)) →
    ∀ i j, 1 ≤ i → i < j → ∀ si sj, ss[i]? = some si → ss[j]? = some sj →
      ∀ p ∈ si.params.treeLeaves, ∀ q ∈ sj.params.treeLeaves, p.trainable = true → q.trainable = true →
        p.bijector = q.bijector → p.value.data ≠ q.value.data

/-- C59 is false of the code in general: if the second trainable parameter of the state before a restart
has the prior and bijector of the first trainable parameter of the state before the next restart, the
former's new value in one restart *is* the latter's new value in the next one, for every random
generator. -/
theorem C59_restart_reuses_draws {R : Type} (nxt : R → R) (sample : PriorObj → R → Arr) (key : R)
    (p q p' : Param) (ps ps' : List Param) (hp : p.trainable = true) (hq : q.trainable = true)
    (hp' : p'.trainable = true) (hprior : p'.prior = q.prior) (hbij : p'.bijector = q.bijector) :
    (randomizeLoop nxt sample (p :: q :: ps) key).1[1]? =
      (randomizeLoop nxt sample (p' :: ps') (nxt key)).1[0]? := by
  simp [randomizeLoop, hp, hq, hp', hprior, hbij]

def exPrior : PriorObj := ⟨.normal 0 1, [], "f".toList⟩
def exA (x : ℝ) : Param := ⟨⟨[], "f".toList, [x]⟩, true, .identity, exPrior⟩
def exTwo (x y : ℝ) : ModelState Unit Unit Unit :=
  ⟨(), (), .leaf ['a'] (exA x) (.leaf ['b'] (exA y) .nil), []⟩

theorem exTwo_ok (x y : ℝ) : ParamsOK (exTwo x y).params := by
  intro p hp
  simp only [exTwo, Dict.leaves, List.mem_cons, List.not_mem_nil, or_false] at hp
  rcases hp with rfl | rfl <;> exact ⟨rfl, rfl⟩

theorem exTwo_randomize (x y : ℝ) (k : ℕ) :
    (exTwo x y).randomize Nat.succ (fun q k => ⟨q.shape, q.dtype, [(k:ℝ)]⟩) k [] =
      .ok (exTwo ((k+1 : ℕ):ℝ) ((k+2 : ℕ):ℝ)) := by
  rfl

theorem C59_false : ¬ C59_full := by
  intro h
  have h1 := h Nat.succ (fun q k => ⟨q.shape, q.dtype, [(k:ℝ)]⟩) 0 2 (exTwo 0 0) (exTwo 0 0)
    [exTwo 0 0, exTwo 2 3, exTwo 3 4] [0, 0, 0] (exTwo_ok 0 0)
    (fun p hp => by
      simp only [exTwo, Dict.leaves, List.mem_cons, List.not_mem_nil, or_false] at hp
      rcases hp with rfl | rfl <;> trivial) (fun _ _ => ⟨rfl, rfl⟩)
    (by intro _ _ k k' hk; simpa using hk)
    (by
      intro a b hab
      simpa [Nat.succ_iterate] using hab)
    (by
      have e1 := exTwo_randomize 0 0 1
      have e2 := exTwo_randomize ((1+1 : ℕ):ℝ) ((1+2 : ℕ):ℝ) 2
      simp only [randomizedMinimization, checkRandomKey, restartLoop, Option.isNone_some,
        Bool.false_eq_true, and_false, if_false, Nat.succ_eq_add_one, Nat.zero_add] at e1 e2 ⊢
      norm_num at e1 e2 ⊢
      rw [e1]
      simp only
      rw [e2]
      simp [pickBest, pyMin, pyIndex, pyGet, bind, Except.bind, pure, Except.pure])
    1 2 (by norm_num) (by norm_num) (exTwo 2 3) (exTwo 3 4) rfl rfl (exA 3)
    (by show exA 3 ∈ [exA 2, exA 3]; simp) (exA 3) (by show exA 3 ∈ [exA 3, exA 4]; simp) rfl rfl rfl
  exact h1 rfl

end
end GPX.Props
