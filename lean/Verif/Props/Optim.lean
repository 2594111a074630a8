import Verif.Lemmas.Optim

/-! # C45, C57, C60, C61: the optimiser wrappers -/

namespace GPX.Props
open GPX Spec
noncomputable section
variable {K M C O : Type}

/-! ### C60: SciPy and NLopt -/

/-- The solver never returns a point where the objective is larger than at the start. -/
def NeverIncreases (solve : (List ℝ → Except Err ℝ) → List ℝ → Except Err (List ℝ × O)) : Prop :=
  ∀ f x0 x o v0, solve f x0 = .ok (x, o) → f x0 = .ok v0 → ∃ v, f x = .ok v ∧ v ≤ v0

/-- Only values of trainable parameters may differ, and these lie in the range of their bijector. -/
def OnlyTrainablesMoved (d d' : Dict Param) : Prop :=
  AtEveryPath (fun p p' =>
    (p.trainable = false → p' = p) ∧
    (p.trainable = true → p'.trainable = true ∧ p'.bijector = p.bijector ∧ p'.prior = p.prior ∧
      p'.value.shape = p.value.shape ∧ p'.value.dtype = p.value.dtype ∧
      p'.value.data.length = p.value.data.length ∧ ∀ x ∈ p'.value.data, x ∈ range p.bijector)) d d'

/-- The same parameters up to the jitter of the bijectors of trainable parameters. -/
def SameUpToJitter (d d' : Dict Param) : Prop :=
  AtEveryPath (fun p p' =>
    (p.trainable = false → p' = p) ∧
    (p.trainable = true → p'.trainable = true ∧ p'.bijector = p.bijector ∧ p'.prior = p.prior ∧
      closeUnder p.bijector p.value p'.value)) d d'

/-- C60 for SciPy. Whatever the solver and the loss: kernel, mean function and all other entries of the
returned state are those of the given one, only values of trainable parameters moved, and they are in
range. -/
theorem C60_scipy_state (solve : (List ℝ → Except Err ℝ) → List ℝ → Except Err (List ℝ × O))
    (lossFn : ModelState K M C → Except Err ℝ) (s r : ModelState K M C) (o : O)
    (hok : ParamsOK s.params) (hb : ∀ p ∈ s.params.leaves, sensible p.bijector)
    (h : scipyMinimize solve lossFn s = .ok (r, o)) :
    r.kernel = s.kernel ∧ r.meanFn = s.meanFn ∧
    (∀ k, (assocGet k r.opts).map OptVal.norm = (assocGet k s.opts).map OptVal.norm) ∧
    OnlyTrainablesMoved s.params r.params := by
  obtain ⟨x, -, h2⟩ := (scipyMinimize_eq solve lossFn s r o).mp h
  obtain ⟨-, h3, h4, h5, -⟩ := proposeOn_ok s s x hok r h2
  exact ⟨h3, h4, h5, proposeOn_respects s s x hok hb r h2⟩

/-- C60 for SciPy, the objective. The function handed to the solver is, at every vector of the right
length, the loss of a state that differs from the given one in trainable values only; at the starting
vector it is the loss of the given state up to jitter; at the vector the solver returns it is the loss of
the returned state. -/
theorem C60_scipy_objective (solve : (List ℝ → Except Err ℝ) → List ℝ → Except Err (List ℝ × O))
    (lossFn : ModelState K M C → Except Err ℝ) (s r : ModelState K M C) (o : O)
    (hok : ParamsOK s.params) (hb : ∀ p ∈ s.params.leaves, sensible p.bijector)
    (hinv : ∀ p ∈ s.params.leaves, p.trainable = true → ∀ x ∈ p.value.data, invertibleAt p.bijector x)
    (h : scipyMinimize solve lossFn s = .ok (r, o)) :
    ∃ (objective : List ℝ → Except Err ℝ) (x0 x : List ℝ) (s0 : ModelState K M C),
      solve objective x0 = .ok (x, o) ∧
      x0.length = numTrainable s.params ∧ objective x0 = lossFn s0 ∧ SameUpToJitter s.params s0.params ∧
      objective x = lossFn r ∧
      ∀ xt, xt.length = numTrainable s.params → ∃ u, objective xt = lossFn u ∧
        u.kernel = s.kernel ∧ u.meanFn = s.meanFn ∧ OnlyTrainablesMoved s.params u.params := by
  obtain ⟨x, h1, h2⟩ := (scipyMinimize_eq solve lossFn s r o).mp h
  obtain ⟨hl, -⟩ := C13_ravel_roundtrip s.params hok hinv
  obtain ⟨s0, hs0⟩ := proposeOn_total s s _ hok hl
  refine ⟨_, _, x, s0, h1, hl, by simp only [hs0]; rfl, proposeOn_start s s hok hinv s0 hs0,
    by simp only [h2]; rfl, ?_⟩
  intro xt hxt
  obtain ⟨u, hu⟩ := proposeOn_total s s xt hok hxt
  obtain ⟨-, h3, h4, -, -⟩ := proposeOn_ok s s xt hok u hu
  exact ⟨u, by simp only [hu]; rfl, h3, h4, proposeOn_respects s s xt hok hb u hu⟩

/-- C60 for SciPy: with a solver that never increases its objective, the returned state is not worse than
the starting one (up to jitter). -/
theorem C60_scipy_not_worse (solve : (List ℝ → Except Err ℝ) → List ℝ → Except Err (List ℝ × O))
    (hsolve : NeverIncreases solve)
    (lossFn : ModelState K M C → Except Err ℝ) (s r : ModelState K M C) (o : O)
    (hok : ParamsOK s.params) (hb : ∀ p ∈ s.params.leaves, sensible p.bijector)
    (hinv : ∀ p ∈ s.params.leaves, p.trainable = true → ∀ x ∈ p.value.data, invertibleAt p.bijector x)
    (h : scipyMinimize solve lossFn s = .ok (r, o)) :
    ∃ s0, SameUpToJitter s.params s0.params ∧
      ∀ l0, lossFn s0 = .ok l0 → ∃ l, lossFn r = .ok l ∧ l ≤ l0 := by
  obtain ⟨f, x0, x, s0, h1, -, h3, h4, h5, -⟩ := C60_scipy_objective solve lossFn s r o hok hb hinv h
  refine ⟨s0, h4, fun l0 hl0 => ?_⟩
  obtain ⟨v, hv, hle⟩ := hsolve f x0 x o l0 h1 (h3.trans hl0)
  exact ⟨v, h5 ▸ hv, hle⟩

/-- C60 for SciPy: minimisation returns whenever the solver does, with a vector of the length it was
given. -/
theorem C60_scipy_returns (solve : (List ℝ → Except Err ℝ) → List ℝ → Except Err (List ℝ × O))
    (lossFn : ModelState K M C → Except Err ℝ) (s : ModelState K M C) (hok : ParamsOK s.params)
    (hsolve : ∀ f x0, ∃ x o, solve f x0 = .ok (x, o) ∧ x.length = x0.length) :
    ∃ r, scipyMinimize solve lossFn s = .ok r := by
  obtain ⟨x, o, h1, h2⟩ := hsolve (fun xt => proposeOn s s xt >>= lossFn) (ravelBackward s.params)
  obtain ⟨r, hr⟩ := proposeOn_total s s x hok (by
    rw [h2, ← sizes_sum, ravelBackward, List.length_flatMap]; simp [sizes])
  exact ⟨(r, o), (scipyMinimize_eq solve lossFn s r o).mpr ⟨x, h1, hr⟩⟩

/-- C60, full statement for NLopt: as for SciPy, for every state that differs from the one given to the
constructor in parameter values only (the documented condition). -/
def C60_nlopt_full : Prop :=
  ∀ (solve : (List ℝ → Except Err ℝ) → List ℝ → Except Err (List ℝ × Unit))
    (lossFn : ModelState Unit Unit Unit → Except Err ℝ) (orig s r : ModelState Unit Unit Unit) (o : Unit),
    ParamsOK orig.params → ParamsOK s.params → (∀ p ∈ s.params.leaves, sensible p.bijector) →
    AtEveryPath (fun p p' => p'.trainable = p.trainable ∧ p'.bijector = p.bijector ∧ p'.prior = p.prior ∧
      p'.value.shape = p.value.shape ∧ p'.value.data.length = p.value.data.length) orig.params s.params →
    nloptOptimize solve orig lossFn s = .ok (r, o) → OnlyTrainablesMoved s.params r.params

def exFrozen (x : ℝ) : ModelState Unit Unit Unit :=
  ⟨(), (), .leaf ['a'] ⟨⟨[], "f".toList, [x]⟩, false, .identity, ⟨.normal 0 1, [], "f".toList⟩⟩ .nil, []⟩

theorem exFrozen_ok (x : ℝ) : ParamsOK (exFrozen x).params := by
  intro p hp
  simp only [exFrozen, Dict.leaves, List.mem_cons, List.not_mem_nil, or_false] at hp
  subst hp
  exact ⟨rfl, rfl⟩

/-- C60 is false of the code for NLopt: frozen parameters come back with the value they had in the state
given to the constructor. -/
theorem C60_nlopt_false : ¬ C60_nlopt_full := by
  intro h
  have h1 := h (fun _ x => .ok (x, ())) (fun _ => .ok 0) (exFrozen 1) (exFrozen 2) (exFrozen 1) ()
    (exFrozen_ok 1) (exFrozen_ok 2)
    (by
      intro p hp
      simp only [exFrozen, Dict.leaves, List.mem_cons, List.not_mem_nil, or_false] at hp
      subst hp
      trivial)
    (by
      apply atEveryPath_of_rel
      exact .leaf ⟨rfl, rfl, rfl, rfl, rfl⟩ .nil)
    rfl
  have h2 := h1 [['a']]
  have e1 : lookup [['a']] (exFrozen 2).params =
      some (.inl ⟨⟨[], "f".toList, [2]⟩, false, .identity, ⟨.normal 0 1, [], "f".toList⟩⟩) := rfl
  have e2 : lookup [['a']] (exFrozen 1).params =
      some (.inl ⟨⟨[], "f".toList, [1]⟩, false, .identity, ⟨.normal 0 1, [], "f".toList⟩⟩) := rfl
  rw [e1, e2] at h2
  have h3 := h2.1 rfl
  simp at h3

/-- C60, what holds for NLopt: relative to the state given to the constructor, only values of trainable
parameters moved, and they are in range; the rest of the state is that of the state being optimised; the
loss of the result is the solver's objective at the point it returned. If both states are the same this is
the full statement. -/
theorem C60_nlopt_partial (solve : (List ℝ → Except Err ℝ) → List ℝ → Except Err (List ℝ × O))
    (lossFn : ModelState K M C → Except Err ℝ) (orig s r : ModelState K M C) (o : O)
    (hok : ParamsOK orig.params) (hb : ∀ p ∈ orig.params.leaves, sensible p.bijector)
    (h : nloptOptimize solve orig lossFn s = .ok (r, o)) :
    r.kernel = s.kernel ∧ r.meanFn = s.meanFn ∧
    (∀ k, (assocGet k r.opts).map OptVal.norm = (assocGet k s.opts).map OptVal.norm) ∧
    OnlyTrainablesMoved orig.params r.params ∧
    ∃ f x, solve f (ravelBackward s.params) = .ok (x, o) ∧ f x = lossFn r := by
  obtain ⟨x, h1, h2⟩ := (nloptOptimize_eq solve lossFn orig s r o).mp h
  obtain ⟨-, h3, h4, h5, -⟩ := proposeOn_ok orig s x hok r h2
  exact ⟨h3, h4, h5, proposeOn_respects orig s x hok hb r h2, _, x, h1, by simp only [h2]; rfl⟩

/-- Non-vacuity of C60: a solver that keeps the better of the start and the start shifted by one never
increases its objective, and it succeeds on a state with nested, frozen and trainable parameters. -/
def exSolve (f : List ℝ → Except Err ℝ) (x0 : List ℝ) : Except Err (List ℝ × Unit) :=
  match f x0, f (x0.map (· + 1)) with
  | .ok a, .ok b => if b ≤ a then .ok (x0.map (· + 1), ()) else .ok (x0, ())
  | _, _ => .ok (x0, ())

example : NeverIncreases exSolve ∧
    ∃ r, scipyMinimize exSolve (fun _ => .ok 0) exState = .ok r := by
  constructor
  · intro f x0 x o v0 h hv
    unfold exSolve at h
    rw [hv] at h
    rcases hb : f (x0.map (· + 1)) with e | b
    · rw [hb] at h
      cases h
      exact ⟨v0, hv, le_refl _⟩
    · rw [hb] at h
      simp only at h
      split at h
      · cases h; exact ⟨b, hb, by assumption⟩
      · cases h; exact ⟨v0, hv, le_refl _⟩
  · apply C60_scipy_returns _ _ _ exParams_ok
    intro f x0
    unfold exSolve
    split
    · split
      · exact ⟨_, _, rfl, by simp⟩
      · exact ⟨_, _, rfl, rfl⟩
    · exact ⟨_, _, rfl, rfl⟩

/-! ### C45: optax -/

/-- C45. A run of `optax_minimize` that returns has gone through a sequence of unconstrained iterates
`it 0, …, it nsteps`, the first being the unconstrained image of the given state, each next one obtained
by adding the optimiser's updates; the history has exactly `nsteps` losses, the `i`-th being the training
loss of the constrained image of `it i`; the returned state is the constrained image of the last iterate;
with validation data there are also exactly `nsteps` validation losses, of the same states. -/
theorem C45_optax_history {X Y : Type} (opt : Optimizer K M C O)
    (loss : X → Y → ModelState K M C → Except Err ℝ) (x : X) (y : Y) (xval : Option X) (yval : Option Y)
    (nsteps : ℕ) (s r : ModelState K M C) (o : O) (hist : OptaxHistory)
    (h : optaxMinimize opt loss x y xval yval nsteps s = .ok (r, o, hist)) :
    ∃ (it : ℕ → ModelState K M C) (os : ℕ → O),
      s.transform "backward".toList = .ok (it 0) ∧ os 0 = opt.init (it 0) ∧
      (∀ i < nsteps, applyUpdates (it i) (opt.update (it i) (os i)).1 = .ok (it (i+1)) ∧
        os (i+1) = (opt.update (it i) (os i)).2) ∧
      (it nsteps).transform "forward".toList = .ok r ∧ os nsteps = o ∧
      hist.train.length = nsteps ∧
      (∀ i < nsteps, ∃ b l, (it i).transform "forward".toList = .ok b ∧ hist.train[i]? = some l ∧
        loss x y b = .ok l) ∧
      (hist.valid = none ↔ xval = none) ∧ (hist.valid = none ↔ yval = none) ∧
      (∀ xv yv vs, xval = some xv → yval = some yv → hist.valid = some vs →
        vs.length = nsteps ∧
        ∀ i < nsteps, ∃ b l, (it i).transform "forward".toList = .ok b ∧ vs[i]? = some l ∧
          loss xv yv b = .ok l) := by
  rcases xval with _ | xv <;> rcases yval with _ | yv
  · simp only [optaxMinimize, bind, Except.bind, pure, Except.pure] at h
    rcases h1 : constrainedTrain opt (loss x y) nsteps s with e | ⟨a, b, c⟩
    · rw [h1] at h; cases h
    rw [h1] at h
    simp only [Except.ok.injEq, Prod.mk.injEq] at h
    obtain ⟨rfl, rfl, rfl⟩ := h
    obtain ⟨it, os, g1, g2, g3, g4, g5, g6⟩ := constrainedTrain_ok _ _ _ _ _ _ _ h1
    refine ⟨it, os, g1, g2, ?_, g3, g4, g5, ?_, by simp, by simp, by simp⟩
    · intro i hi
      obtain ⟨_, _, _, _, _, k1, k2⟩ := g6 i hi
      exact ⟨k1, k2⟩
    · intro i hi
      obtain ⟨l, b, k1, k2, k3, _, _⟩ := g6 i hi
      exact ⟨b, l, k2, k1, k3⟩
  · simp [optaxMinimize] at h
  · simp [optaxMinimize] at h
  · unfold optaxMinimize at h
    simp only at h
    generalize hL : (fun s : ModelState K M C => (do
      let a ← loss x y s
      let b ← loss xv yv s
      pure (a, b))) = LL at h
    simp only [bind, Except.bind, pure, Except.pure] at h
    rcases h1 : constrainedTrain opt LL nsteps s with e | ⟨a, b, c⟩
    · rw [h1] at h; cases h
    rw [h1] at h
    simp only [Except.ok.injEq, Prod.mk.injEq] at h
    obtain ⟨rfl, rfl, rfl⟩ := h
    obtain ⟨it, os, g1, g2, g3, g4, g5, g6⟩ := constrainedTrain_ok _ _ _ _ _ _ _ h1
    have key : ∀ b l, LL b = .ok l → loss x y b = .ok l.1 ∧ loss xv yv b = .ok l.2 := by
      intro b l hb
      subst hL
      simp only [bind, Except.bind, pure, Except.pure] at hb
      rcases e1 : loss x y b with e | l1
      · rw [e1] at hb; cases hb
      rcases e2 : loss xv yv b with e | l2
      · rw [e1, e2] at hb; cases hb
      rw [e1, e2] at hb
      cases hb
      exact ⟨rfl, rfl⟩
    refine ⟨it, os, g1, g2, ?_, g3, g4, by simp [g5], ?_, by simp, by simp, ?_⟩
    · intro i hi
      obtain ⟨_, _, _, _, _, k1, k2⟩ := g6 i hi
      exact ⟨k1, k2⟩
    · intro i hi
      obtain ⟨l, b, k1, k2, k3, _, _⟩ := g6 i hi
      exact ⟨b, l.1, k2, by simp [k1], (key b l k3).1⟩
    · intro xv' yv' vs e1 e2 e3
      cases e1; cases e2; cases e3
      refine ⟨by simp [g5], fun i hi => ?_⟩
      obtain ⟨l, b, k1, k2, k3, _, _⟩ := g6 i hi
      exact ⟨b, l.2, k2, by simp [k1], (key b l k3).2⟩

/-- C45. `ValueError` when only one of `x_val`, `y_val` is given, before any training. -/
theorem C45_validation_pair {X Y : Type} (opt : Optimizer K M C O)
    (loss : X → Y → ModelState K M C → Except Err ℝ) (x : X) (y : Y) (xval : Option X) (yval : Option Y)
    (nsteps : ℕ) (s : ModelState K M C) (h : xval.isSome ≠ yval.isSome) :
    optaxMinimize opt loss x y xval yval nsteps s = .error .valueError := by
  rcases xval with _ | xv <;> rcases yval with _ | yv <;> simp_all [optaxMinimize]

/-! ### C61: what training by gradient descent does to the parameters -/

theorem inRun_iterate (opt : Optimizer K M C O) (it : ℕ → ModelState K M C) (os : ℕ → O) (nsteps : ℕ)
    (hok : ParamsOK (it 0).params) (h0 : os 0 = opt.init (it 0))
    (h : ∀ i < nsteps, applyUpdates (it i) (opt.update (it i) (os i)).1 = .ok (it (i+1)) ∧
      os (i+1) = (opt.update (it i) (os i)).2) (i : ℕ) (hi : i ≤ nsteps) : InRun opt (it i) (os i) := by
  induction i with
  | zero => rw [h0]; exact .start _ hok
  | succ i ih =>
    obtain ⟨h1, h2⟩ := h i (by omega)
    rw [h2]
    exact .step _ _ _ (ih (by omega)) h1

/-- C61, full statement: frozen parameters come back unchanged. -/
def C61_full : Prop :=
  ∀ (opt : Optimizer Unit Unit Unit Unit) (loss : Unit → Unit → ModelState Unit Unit Unit → Except Err ℝ)
    (nsteps : ℕ) (s r : ModelState Unit Unit Unit) (o : Unit) (hist : OptaxHistory),
    ParamsOK s.params → (∀ p ∈ s.params.leaves, sensible p.bijector) →
    (∀ p ∈ s.params.leaves, ∀ x ∈ p.value.data, invertibleAt p.bijector x) →
    Quiet opt →
    optaxMinimize opt loss () () none none nsteps s = .ok (r, o, hist) →
    AtEveryPath (fun p p' => p.trainable = false → p'.value = p.value) s.params r.params

/-- C61, what holds. For every loss, every number of steps and every optimiser that does not move
parameters without gradient: kernel, mean function and other entries are untouched, every parameter keeps
flag, bijector, prior and shape, every value lies in the range of its bijector, and the value of a frozen
parameter is the old one up to the jitter of its bijector. -/
theorem C61_optax_partial {X Y : Type} (opt : Optimizer K M C O)
    (loss : X → Y → ModelState K M C → Except Err ℝ) (x : X) (y : Y) (xval : Option X) (yval : Option Y)
    (nsteps : ℕ) (s r : ModelState K M C) (o : O) (hist : OptaxHistory)
    (hok : ParamsOK s.params) (hb : ∀ p ∈ s.params.leaves, sensible p.bijector)
    (hopt : Quiet opt)
    (h : optaxMinimize opt loss x y xval yval nsteps s = .ok (r, o, hist)) :
    r.kernel = s.kernel ∧ r.meanFn = s.meanFn ∧
    (∀ k, (assocGet k r.opts).map OptVal.norm = (assocGet k s.opts).map OptVal.norm) ∧
    AtEveryPath (fun p p' => p'.trainable = p.trainable ∧ p'.bijector = p.bijector ∧ p'.prior = p.prior ∧
      p'.value.shape = p.value.shape ∧ p'.value.dtype = p.value.dtype ∧
      p'.value.data.length = p.value.data.length ∧
      (∀ v ∈ p'.value.data, v ∈ range p.bijector) ∧
      (p.trainable = false → (∀ v ∈ p.value.data, invertibleAt p.bijector v) →
        closeUnder p.bijector p.value p'.value)) s.params r.params := by
  obtain ⟨it, os, g1, g0, g2, g3, -⟩ := C45_optax_history opt loss x y xval yval nsteps s r o hist h
  obtain ⟨a1, a2, a3, a4, a5, a6⟩ := transform_leaves "backward".toList (fun p => p.bijector.backward) s
    (it 0) hok (.inr ⟨rfl, fun _ => rfl⟩) g1
  obtain ⟨b1, b2, b3, b4, b5, b6⟩ := iterates_keep it (fun i => (opt.update (it i) (os i)).1) nsteps a4
    (fun s i hi hs => by subst hs; exact hopt _ _ (inRun_iterate opt it os nsteps a4 g0 g2 i hi.le))
    (fun i hi => (g2 i hi).1)
  obtain ⟨c1, c2, c3, c4, c5, c6⟩ := transform_leaves "forward".toList (fun p => p.bijector.forward)
    (it nsteps) r b2 (.inl ⟨rfl, fun _ => rfl⟩) g3
  refine ⟨by rw [c1, b4, a1], by rw [c2, b5, a2], fun k => by rw [c3, b6, a3], ?_⟩
  apply atEveryPath_of_treeLeaves
  · rw [c5, b3, a5]
  · rw [c6]
    rw [a6] at b1
    rw [List.forall₂_map_right_iff]
    rw [List.forall₂_map_left_iff] at b1
    have hb' : ∀ p ∈ s.params.treeLeaves, sensible p.bijector :=
      fun p hp => hb p ((mem_leaves_sortKeys _ _).mp hp)
    generalize s.params.treeLeaves = ps at b1 hb'
    generalize (it nsteps).params.treeLeaves = qs at b1
    induction b1 with
    | nil => exact .nil
    | @cons p q ps qs hpq _ ih =>
      refine .cons ?_ (ih (fun p hp => hb' p (by simp [hp])))
      obtain ⟨d1, d2, d3, d4, d5, d6, d7⟩ := hpq
      refine ⟨d1, d2, d3, d4, d5, by simpa [Arr.map] using d6, ?_, ?_⟩
      · intro v hv
        simp only [Arr.map, List.mem_map] at hv
        obtain ⟨w, -, rfl⟩ := hv
        simp only at d2
        rw [d2]
        exact C01_forward_in_range _ (hb' p (by simp)) w
      · intro ht hinv
        have hv := d7 ht
        simp only at hv d2
        rw [hv, d2]
        refine ⟨rfl, rfl, ?_⟩
        simp only [Arr.map, List.map_map, List.forall₂_map_right_iff, List.forall₂_same]
        intro v hvm
        exact C13_entry_roundtrip p.bijector v (hinv v hvm)

def exFrozenSp (x : ℝ) : Param := ⟨⟨[], "f".toList, [x]⟩, false, .softplus, ⟨.normal 0 1, [], "f".toList⟩⟩

/-- An optimiser that adds one to every trainable entry and counts its calls. -/
def exOpt : Optimizer Unit Unit Unit ℕ where
  init _ := 0
  update s o := (s.params.treeLeaves.map (fun p =>
    { p.value with data := p.value.data.map (fun _ => if p.trainable then 1 else 0) }), o + 1)

theorem exOpt_good (s : ModelState Unit Unit Unit) (o : ℕ) : GoodUpdates s (exOpt.update s o).1 := by
  unfold GoodUpdates exOpt
  rw [List.forall₂_map_right_iff, List.forall₂_same]
  intro p _
  refine ⟨by simp, fun ht => ?_⟩
  intro x hx
  simp only [ht, List.mem_map, Bool.false_eq_true, if_false] at hx
  obtain ⟨_, _, rfl⟩ := hx
  rfl

/-- A state with one frozen parameter. -/
def exSp (x : ℝ) : ModelState Unit Unit Unit := ⟨(), (), .leaf ['a'] (exFrozenSp x) .nil, []⟩

theorem exSp_ok (x : ℝ) : ParamsOK (exSp x).params := by
  intro p hp
  simp only [exSp, Dict.leaves, List.mem_cons, List.not_mem_nil, or_false] at hp
  subst hp
  exact ⟨rfl, rfl⟩

theorem exSp_transform (x : ℝ) :
    (exSp x).transform "backward".toList = .ok (exSp (Bijector.softplus.backward x)) ∧
    (exSp x).transform "forward".toList = .ok (exSp (Bijector.softplus.forward x)) := by
  constructor <;> rfl

/-- C61 is false of the code: a frozen parameter constrained by `Softplus` comes back with the jitter added,
even after zero steps. -/
theorem C61_false : ¬ C61_full := by
  intro h
  have h1 := h ⟨fun _ => (), fun s _ => ((exOpt.update s 0).1, ())⟩ (fun _ _ _ => .ok 0) 0 (exSp 3)
    (exSp (Bijector.softplus.forward (Bijector.softplus.backward 3))) () ⟨[], none⟩ (exSp_ok 3)
    (by
      intro p hp
      simp only [exSp, Dict.leaves, List.mem_cons, List.not_mem_nil, or_false] at hp
      subst hp
      trivial)
    (by
      intro p hp x hx
      simp only [exSp, Dict.leaves, List.mem_cons, List.not_mem_nil, or_false] at hp
      subst hp
      simp only [exFrozenSp, List.mem_cons, List.not_mem_nil, or_false] at hx
      subst hx
      show (3:ℝ) ∈ range .softplus
      simp [range])
    (fun s o _ => exOpt_good s 0) rfl
  have h2 := h1 [['a']]
  have e : ∀ x, lookup [['a']] (exSp x).params = some (.inl (exFrozenSp x)) := fun _ => rfl
  rw [e, e] at h2
  have h3 := h2 rfl
  simp only [exFrozenSp, Arr.mk.injEq, List.cons.injEq, and_true, true_and] at h3
  rw [C02_softplus_roundtrip 3 (by simp [range])] at h3
  have := spJitter_pos
  linarith

/-- Non-vacuity of C45 and C61: with the optimiser above, two steps on a frozen parameter succeed. -/
example : ∃ r o hist, optaxMinimize exOpt (fun (_ _ : Unit) _ => .ok 0) () () none none 2 (exSp 3) =
    .ok (r, o, hist) ∧ o = 2 ∧ hist.train = [0, 0] := ⟨_, _, _, rfl, rfl, rfl⟩

/-! ### C57: particle swarm -/

/-- C57. For every search routine that returns points of the right dimension, every loss and every number of
repetitions, there is a function `obj`, the loss as a function of the trainable values in tree order, such
that: if some repetition of the search on `obj` reports a value below infinity, `pso_minimize` returns the
given state with only trainable values changed; these values are the point of a repetition `i` whose
reported value is a number below infinity, and no repetition reports a smaller one (repetitions before `i`
report `nan` or a greater value); otherwise (no repetition, or only `nan` and infinite values) it raises
`UnboundLocalError`. -/
theorem C57_pso_best (search : (List ℝ → Except Err ℝ) → ℕ → List ℝ × FVal)
    (lossFn : ModelState K M C → Except Err ℝ) (rep : ℕ) (s : ModelState K M C)
    (hok : ParamsOK s.params)
    (hdim : ∀ f i, (search f i).1.length = numTrainable s.params) :
    ∃ obj : List ℝ → Except Err ℝ,
      (∀ xt, xt.length = numTrainable s.params → ∃ u, obj xt = lossFn u ∧
        u.kernel = s.kernel ∧ u.meanFn = s.meanFn ∧
        (u.params.treeLeaves.filter (·.trainable)).flatMap (·.value.data) = xt ∧
        AtEveryPath (fun p p' => p'.trainable = p.trainable ∧ p'.prior = p.prior ∧
          (p.trainable = false → p'.value = p.value)) s.params u.params) ∧
      ((∃ j < rep, (search obj j).2.lt FVal.inf) → ∃ r, ∃ i < rep,
        psoMinimize search lossFn rep s = .ok r ∧
        (search obj i).2.lt FVal.inf ∧ (∀ j < rep, ¬ (search obj j).2.lt (search obj i).2) ∧
        (∀ j < i, (search obj j).2 = FVal.nan ∨ (search obj i).2.lt (search obj j).2) ∧
        r.kernel = s.kernel ∧ r.meanFn = s.meanFn ∧
        (∀ k, (assocGet k r.opts).map OptVal.norm = (assocGet k s.opts).map OptVal.norm) ∧
        (r.params.treeLeaves.filter (·.trainable)).flatMap (·.value.data) = (search obj i).1 ∧
        AtEveryPath (fun p p' => p'.trainable = p.trainable ∧ p'.bijector = p.bijector ∧
          p'.prior = p.prior ∧ p'.value.shape = p.value.shape ∧ p'.value.dtype = p.value.dtype ∧
          p'.value.data.length = p.value.data.length ∧ (p.trainable = false → p' = p)) s.params r.params ∧
        ParamsOK r.params ∧ ∀ p' ∈ r.params.leaves, ∃ p ∈ s.params.leaves, p'.bijector = p.bijector) ∧
      ((∀ j < rep, ¬ (search obj j).2.lt FVal.inf) →
        psoMinimize search lossFn rep s = .error .nameError) := by
  obtain ⟨fake, hfake, f1, f2, f3, f4, f5, f6⟩ := psoFake_ok s hok
  have hn : numTrainable fake.params = numTrainable s.params := by
    rw [← sizes_sum, ← sizes_sum, f6, sizes, sizes, List.filter_map, List.map_map]
    congr 1
  set obj := (fun xt => proposeOn fake fake xt >>= lossFn) with hobj
  have hstate : ∀ xt : List ℝ, xt.length = numTrainable s.params → ∃ u, proposeOn fake fake xt = .ok u ∧
      u.kernel = s.kernel ∧ u.meanFn = s.meanFn ∧
      (∀ k, (assocGet k u.opts).map OptVal.norm = (assocGet k s.opts).map OptVal.norm) ∧
      (u.params.treeLeaves.filter (·.trainable)).flatMap (·.value.data) = xt ∧
      u.params.sortKeys.map (fun _ => ()) = s.params.sortKeys.map (fun _ => ()) ∧
      ParamsOK u.params ∧
      List.Forall₂ (fun p p' => p'.trainable = p.trainable ∧ p'.prior = p.prior ∧
        p'.value.shape = p.value.shape ∧ p'.value.dtype = p.value.dtype ∧
        p'.value.data.length = p.value.data.length ∧ (p.trainable = false → p'.value = p.value)) s.params.treeLeaves u.params.treeLeaves := by
    intro xt hxt
    obtain ⟨u, hu⟩ := proposeOn_total fake fake xt f4 (by rw [hn]; exact hxt)
    obtain ⟨-, k1, k2, k3, d', k4, k5, k6⟩ := proposeOn_ok fake fake xt f4 u hu
    obtain ⟨cs, d, e1, e2, e3, e4, e5⟩ := unravelForward_ok fake.params xt f4
      (by rw [sizes_sum, hn]; exact hxt)
    rw [k4] at e3
    cases e3
    have htl : u.params.treeLeaves = mergePure fake.params.treeLeaves cs := by
      rw [k5, ← e5]
      simp only [Dict.treeLeaves]
      rw [Dict.sortKeys_of_sorted _ (Dict.sorted_sortKeys _),
        Dict.sortKeys_of_sorted _ (Dict.sorted_of_map_eq _ _ e4 (Dict.sorted_sortKeys _))]
    refine ⟨u, hu, by rw [k1, f1], by rw [k2, f2], fun k => by rw [k3, f3], ?_, ?_, k6, ?_⟩
    · rw [htl, List.flatMap_def, mergePure_trainables _ _ e2, ← e1]
      congr 1
      rw [f6, List.filter_map]
      rw [f6, sizes, List.filter_map] at e2
      have hlen : cs.length = ((List.filter ((fun p : Param => p.trainable) ∘
          fun p : Param => { p with bijector := .identity }) s.params.treeLeaves).map
          (fun p : Param => ({ p with bijector := .identity } : Param))).length := by
        have := congrArg List.length e2
        simpa using this
      generalize List.filter ((fun p : Param => p.trainable) ∘
          fun p : Param => { p with bijector := .identity }) s.params.treeLeaves = ps at hlen
      clear e2 e1 htl e5
      induction ps generalizing cs with
      | nil => cases cs with
        | nil => rfl
        | cons _ _ => simp at hlen
      | cons p ps ih => cases cs with
        | nil => simp at hlen
        | cons c cs =>
          simp only [List.map_cons, List.zipWith_cons_cons]
          rw [ih cs (by simpa using hlen)]
          have hid : ∀ l : List ℝ, l.map Bijector.identity.forward = l := fun l => by
            rw [show Bijector.identity.forward = id from rfl, List.map_id]
          rw [hid]
    · rw [k5, Dict.sortKeys_of_sorted _ (Dict.sorted_sortKeys _),
        Dict.sortKeys_of_sorted _ (Dict.sorted_of_map_eq _ _ e4 (Dict.sorted_sortKeys _)), e4, f5]
    · have hm := mergePure_forall₂ fake.params.treeLeaves cs e2
      rw [htl]
      rw [f6] at hm ⊢
      rw [List.forall₂_map_left_iff] at hm
      refine hm.imp ?_
      rintro p q ⟨h1, h2⟩
      cases ht : p.trainable with
      | false =>
        have := h1 ht
        subst this
        exact ⟨ht, rfl, rfl, rfl, rfl, fun _ => rfl⟩
      | true =>
        obtain ⟨c, hc, rfl⟩ := h2 ht
        exact ⟨ht, rfl, rfl, rfl, by simpa using hc, by simp⟩
  refine ⟨obj, ?_, ?_, ?_⟩
  · intro xt hxt
    obtain ⟨v, hv, v1, v2, -, v4, v5, -, v7⟩ := hstate xt hxt
    refine ⟨v, by simp only [hobj, hv]; rfl, v1, v2, v4, ?_⟩
    apply atEveryPath_of_treeLeaves _ _ v5
    exact v7.imp (fun p q h => ⟨h.1, h.2.1, h.2.2.2.2.2⟩)
  rotate_left
  · intro hno
    rw [psoMinimize_eq s search lossFn rep fake hfake, ← hobj, psoLoop_none _ _ hno]
  intro hex
  obtain ⟨i, hi, hbest, hfin, hmin, hfirst⟩ := psoLoop_best (search obj) rep hex
  obtain ⟨u, hu, u1, u2, u3, u4, u5, u6, u7⟩ := hstate _ (hdim obj i)
  have hcopy := copyValues_ok s.params.treeLeaves u.params.treeLeaves (by
    have hok' : ∀ p ∈ s.params.treeLeaves, ParamOK p := fun p hp => hok p ((mem_leaves_sortKeys _ _).mp hp)
    generalize s.params.treeLeaves = ps at u7 hok'
    generalize u.params.treeLeaves = qs at u7
    induction u7 with
    | nil => exact .nil
    | cons hpq _ ih =>
      refine .cons ⟨hpq.2.2.1.trans (hok' _ (by simp)).1, hpq.2.2.2.1.trans (hok' _ (by simp)).2⟩
        (ih (fun p hp => hok' p (by simp [hp]))))
  have hrel : List.Forall₂ (fun p p' => p'.trainable = p.trainable ∧ p'.bijector = p.bijector ∧
        p'.prior = p.prior ∧ p'.value.shape = p.value.shape ∧ p'.value.dtype = p.value.dtype ∧
        p'.value.data.length = p.value.data.length ∧ (p.trainable = false → p' = p)) s.params.treeLeaves
      (List.zipWith (fun (p q : Param) => { p with value := q.value }) s.params.treeLeaves
        u.params.treeLeaves) ∧
      ((List.zipWith (fun (p q : Param) => { p with value := q.value }) s.params.treeLeaves
        u.params.treeLeaves).filter (·.trainable)).flatMap (·.value.data) =
      (u.params.treeLeaves.filter (·.trainable)).flatMap (·.value.data) := by
    clear hcopy u4
    generalize s.params.treeLeaves = ps at u7
    generalize u.params.treeLeaves = qs at u7
    induction u7 with
    | nil => exact ⟨.nil, rfl⟩
    | @cons p q ps qs hpq _ ih =>
      obtain ⟨h1, h2, h3, h4, h6, h5⟩ := hpq
      refine ⟨.cons ⟨rfl, rfl, rfl, h3, h4, h6, fun ht => ?_⟩ ih.1, ?_⟩
      · show ({ p with value := q.value } : Param) = p
        rw [h5 ht]
      · simp only [List.zipWith_cons_cons]
        cases ht : p.trainable with
        | false =>
          rw [List.filter_cons_of_neg (by simp [ht]), List.filter_cons_of_neg (by simp [h1, ht])]
          exact ih.2
        | true =>
          rw [List.filter_cons_of_pos (by simp [ht]), List.filter_cons_of_pos (by simp [h1, ht])]
          simp only [List.flatMap_cons, ih.2]
  obtain ⟨d', t1, t2, t3, t4⟩ := treeUnflatten_rel s.params _ hrel.1
  have hd' : ParamsOK d' := by
    intro p hp
    rw [t3] at hp
    have hok' : ∀ p ∈ s.params.treeLeaves, ParamOK p := fun p hp => hok p ((mem_leaves_sortKeys _ _).mp hp)
    have h1 := hrel.1
    generalize List.zipWith (fun (p q : Param) => { p with value := q.value }) s.params.treeLeaves
        u.params.treeLeaves = qs at h1 hp
    clear u7 hcopy hrel t1 t2 t3 t4
    generalize s.params.treeLeaves = ps at h1 hok'
    induction h1 with
    | nil => simp at hp
    | @cons a b as bs hab _ ih =>
      rcases List.mem_cons.mp hp with rfl | hp
      · have := hok' a (by simp)
        exact ⟨by rw [hab.2.2.2.1, hab.2.2.1]; exact this.1, by rw [hab.2.2.2.2.1, hab.2.2.1]; exact this.2⟩
      · exact ih hp (fun p hp => hok' p (by simp [hp]))
  have hupd := ModelState.update_ok s { params := some d' } hd'
  have hss : d'.sortKeys = d' := Dict.sortKeys_of_sorted _ t4
  refine ⟨⟨s.kernel, s.meanFn, d'.sortKeys, s.opts.map (fun kv => (kv.1, kv.2.norm))⟩, i, hi, ?_, hfin,
    hmin, hfirst, rfl, rfl, ?_, ?_, ?_, by simp only [hss]; exact hd', ?_⟩
  · rw [psoMinimize_eq s search lossFn rep fake hfake, ← hobj, hbest]
    simp only [hu, hcopy, t1, bind, Except.bind]
    exact hupd
  · intro k
    simp only [assocGet_map, Option.map_map]
    congr 1
    funext x
    exact norm_idem x
  · simp only [Dict.treeLeaves, hss]
    rw [t3]
    exact hrel.2.trans u4
  · have := atEveryPath_of_rel t2
    intro path
    have h := this path
    simp only [hss]
    rwa [lookup_sortKeys] at h
  · intro p' hp'
    simp only [hss] at hp'
    rw [t3] at hp'
    have hmem : ∀ p ∈ s.params.treeLeaves, p ∈ s.params.leaves := fun p hp => (mem_leaves_sortKeys _ _).mp hp
    have h1 := hrel.1
    generalize List.zipWith (fun (p q : Param) => { p with value := q.value }) s.params.treeLeaves
        u.params.treeLeaves = qs at h1 hp'
    generalize s.params.treeLeaves = ps at h1 hmem
    clear u7 hcopy hrel t1 t2 t3 t4
    induction h1 with
    | nil => simp at hp'
    | @cons a b as bs hab _ ih =>
      rcases List.mem_cons.mp hp' with rfl | hp'
      · exact ⟨a, hmem a (by simp), hab.2.1⟩
      · exact ih hp' (fun p hp => hmem p (by simp [hp]))

/-- C57, boundary: with no repetition there is nothing to return; the code raises `UnboundLocalError`. -/
theorem C57_no_repetition (search : (List ℝ → Except Err ℝ) → ℕ → List ℝ × FVal)
    (lossFn : ModelState K M C → Except Err ℝ) (s : ModelState K M C) (hok : ParamsOK s.params) :
    psoMinimize search lossFn 0 s = .error .nameError := by
  obtain ⟨fake, hfake, -⟩ := psoFake_ok s hok
  rw [psoMinimize_eq s search lossFn 0 fake hfake]
  rfl

/-- C57 with the final local optimisation (the default): only trainable values change, they end in the range
of their bijectors, and the local optimisation starts from the best repetition: with a solver that never
increases its objective the result is not worse than the swarm's best state, up to the jitter of the
bijectors (provided the swarm's values can be transformed back). -/
theorem C57_local (search : (List ℝ → Except Err ℝ) → ℕ → List ℝ × FVal)
    (solve : (List ℝ → Except Err ℝ) → List ℝ → Except Err (List ℝ × O))
    (lossFn : ModelState K M C → Except Err ℝ) (rep : ℕ) (s r : ModelState K M C)
    (hok : ParamsOK s.params) (hb : ∀ p ∈ s.params.leaves, sensible p.bijector)
    (hdim : ∀ f i, (search f i).1.length = numTrainable s.params)
    (h : psoMinimizeLocal search solve lossFn rep s = .ok r) :
    r.kernel = s.kernel ∧ r.meanFn = s.meanFn ∧ OnlyTrainablesMoved s.params r.params ∧
    ∃ best, psoMinimize search lossFn rep s = .ok best ∧
      (NeverIncreases solve →
        (∀ p ∈ best.params.leaves, p.trainable = true → ∀ x ∈ p.value.data, invertibleAt p.bijector x) →
        ∃ s0, SameUpToJitter best.params s0.params ∧
          ∀ l0, lossFn s0 = .ok l0 → ∃ l, lossFn r = .ok l ∧ l ≤ l0) := by
  unfold psoMinimizeLocal at h
  rcases h1 : psoMinimize search lossFn rep s with e | best
  · rw [h1] at h; cases h
  rcases h2 : scipyMinimize solve lossFn best with e | ⟨r', o⟩
  · simp only [h1, bind, Except.bind, h2] at h; cases h
  simp only [h1, bind, Except.bind, h2, pure, Except.pure, Except.ok.injEq] at h
  subst h
  obtain ⟨obj, -, hyes, hno⟩ := C57_pso_best search lossFn rep s hok hdim
  by_cases hex : ∃ j < rep, (search obj j).2.lt FVal.inf
  swap
  · rw [hno (fun j hj hlt => hex ⟨j, hj, hlt⟩)] at h1; cases h1
  obtain ⟨b, i, -, e, -, -, -, k1, k2, -, -, k3, k4, k5⟩ := hyes hex
  rw [h1] at e
  cases e
  have hb' : ∀ p ∈ best.params.leaves, sensible p.bijector := by
    intro p hp
    obtain ⟨q, hq, hqb⟩ := k5 p hp
    rw [hqb]
    exact hb q hq
  obtain ⟨l1, l2, -, l3⟩ := C60_scipy_state solve lossFn best r' o k4 hb' h2
  refine ⟨l1.trans k1, l2.trans k2, ?_, best, rfl, fun hs hinv =>
    C60_scipy_not_worse solve hs lossFn best r' o k4 hb' hinv h2⟩
  refine atEveryPath_comp k3 l3 ?_
  rintro p hp q z ⟨a1, a2, a3, a4, a5, a7, a6⟩ ⟨b1, b2⟩
  refine ⟨fun ht => ?_, fun ht => ?_⟩
  · rw [b1 (a1.trans ht), a6 ht]
  · obtain ⟨c1, c2, c3, c4, c5, c6, c7⟩ := b2 (a1.trans ht)
    exact ⟨c1, c2.trans a2, c3.trans a3, c4.trans a4, c5.trans a5, c6.trans a7, by rw [← a2]; exact c7⟩

/-- Non-vacuity of C57: a search whose first repetition fails and whose third repetition is the best one, on a
nested dictionary. -/
example : ParamsOK exParams ∧ numTrainable exParams = 3 ∧
    psoLoop (fun i : ℕ => (([i, 2, 3], if i = 0 then FVal.nan else FVal.fin (|(i:ℝ) - 2|)) :
      List ℝ × FVal)) 4 0 none = some ([2, 2, 3], FVal.fin 0) := by
  refine ⟨exParams_ok, by decide, ?_⟩
  rw [psoLoop, if_neg (by simp [FVal.lt, FVal.nan]), psoLoop,
    if_pos (by simp [FVal.lt, FVal.fin, FVal.inf, EReal.coe_lt_top]), psoLoop,
    if_pos (by norm_num [FVal.lt, FVal.fin]), psoLoop, if_neg (by norm_num [FVal.lt, FVal.fin]), psoLoop]
  norm_num

end
end GPX.Props
