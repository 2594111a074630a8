import Verif.Lemmas.Descent
import Verif.Props.Unconstrained
import Verif.Spec.StateGrad

/-!
# C148: gradients with respect to a model state, and training with them
-/

namespace GPX.Props
open GPX GPX.Spec

variable {K M C : Type} {d n o : ℕ} {la : LinAlg}

/-! ## The gradient -/

/-- **C148**, what `jax.grad` of a function of a state returns. For every function, every state and every parameter: the
gradient has the structure of the state; it is zero in the entries of frozen parameters, and in entry `k` of the trainable
parameter at `path` it is the derivative of the function along states that differ from the given one in this entry only. -/
theorem C148_gradient (loss : ModelState K M C → Except Err ℝ) (s : ModelState K M C) (hok : ParamsOK s.params) :
    ∃ g, ModelState.treeUnflatten s.treeFlatten.2 (stateGrad loss s) = .ok g ∧
      AtEveryPath (fun p q => q.trainable = p.trainable ∧ q.bijector = p.bijector ∧ q.prior = p.prior ∧
        q.value.shape = p.value.shape ∧ q.value.data.length = p.value.data.length ∧
        (p.trainable = false → ∀ x ∈ q.value.data, x = 0)) s.params g.params ∧
      ∀ path p, lookup path s.params = some (.inl p) → p.trainable = true → ∀ k, k < p.value.data.length →
        ∃ r : ℝ → ModelState K M C, (∀ t, MovedBy s path k t (r t)) ∧ (∃ q, lookup path g.params = some (.inl q) ∧
          q.value.data[k]? = some (deriv (fun t => numOf (loss (r t))) 0)) := by
  have hgood := goodGrad loss s hok
  have hshape : List.Forall₂ (fun (p : Param) (v : Arr) => v.shape = p.prior.shape ∧ v.dtype = p.prior.dtype)
      s.params.treeLeaves (stateGrad loss s) := by
    rw [stateGrad_eq loss s hok, List.forall₂_iff_get]
    refine ⟨by simp, fun n h1 h2 => ?_⟩
    simp only [List.get_eq_getElem, List.getElem_mapIdx]
    exact treeLeaves_ok s hok _ (List.getElem_mem h1)
  have hfit := (fits_of s _ hshape).1
  obtain ⟨-, a2, a3, a4, a5, a6⟩ := withLeaves_spec s _ hfit
  refine ⟨_, treeUnflatten_withLeaves s _ hshape, ?_, ?_⟩
  · refine atEveryPath_of_treeLeaves _ _ (by rw [a4, a2]) ?_
    rw [a5]
    rw [GoodUpdates] at hgood
    rw [List.forall₂_iff_get] at hgood ⊢
    refine ⟨by simp [hgood.1], fun n h1 h2 => ?_⟩
    have h3 : n < (stateGrad loss s).length := by rw [← hgood.1]; exact h1
    have := hgood.2 n h1 h3
    simp only [List.get_eq_getElem, List.getElem_zipWith] at this ⊢
    refine ⟨trivial, trivial, trivial, ?_, this.1, this.2⟩
    simp only [stateGrad_eq loss s hok, List.getElem_mapIdx]
  · intro path p hp ht k hk
    have hp' := hp
    rw [← lookup_sortKeys, Dict.lookup_idx] at hp'
    obtain ⟨i, h1, h2⟩ := hp'
    have h2' : s.params.treeLeaves[i]? = some p := h2
    have hmf : ∀ t, Fits s (movedLeaves s.params.treeLeaves i k t) := fun t =>
      ⟨by simp [movedLeaves], movedLeaves_ok _ (treeLeaves_ok s hok) _ _ _⟩
    refine ⟨fun t => withLeaves s (movedLeaves s.params.treeLeaves i k t), fun t => ⟨rfl, rfl, fun name => ?_, ?_, ?_⟩,
      ?_⟩
    · simp only [withLeaves, assocGet_map, Option.map_map]
      congr 1
      funext x
      exact norm_idem x
    · intro path' hne
      rcases hj : s.params.sortKeys.idx path' with _ | j
      · exact lookup_withLeaves_other s hok _ (hmf t) path' hj
      · rw [lookup_withLeaves s hok _ (hmf t) path' j hj]
        have hji : j ≠ i := fun h => hne (Dict.idx_inj _ _ _ _ hj (h ▸ h1))
        have hlt : j < s.params.treeLeaves.length := Dict.idx_lt _ _ _ hj
        have e2 : lookup path' s.params = some (.inl s.params.treeLeaves[j]) := by
          rw [← lookup_sortKeys]
          exact (Dict.lookup_idx _ _ _).mpr ⟨j, hj, List.getElem?_eq_getElem hlt⟩
        rw [e2, movedLeaves, List.getElem?_mapIdx, List.getElem?_eq_getElem hlt, Option.map_some, Option.map_some,
          if_neg fun h => hji h.1]
    · intro p₁ hp₁
      rw [hp] at hp₁
      cases hp₁
      refine ⟨{ p with value := p.value.bump k t }, ?_, rfl, rfl, rfl, rfl, rfl, by simp [Arr.bump], fun j hj => ?_⟩
      · rw [lookup_withLeaves s hok _ (hmf t) path i h1, movedLeaves, List.getElem?_mapIdx, h2']
        simp [ht]
      · simp only [Arr.bump, List.getElem?_modify]
        rw [List.getElem?_eq_getElem hj]
        by_cases hjk : k = j
        · subst hjk; simp
        · simp [hjk, Ne.symm hjk]
    · have hlt : i < s.params.treeLeaves.length := Dict.idx_lt _ _ _ h1
      have hz : (List.zipWith (fun (p : Param) v => { p with value := v }) s.params.treeLeaves (stateGrad loss s))[i]? =
          some { p with value := ⟨p.value.shape, p.value.dtype, (List.range p.value.data.length).map fun k =>
            deriv (fun t => numOf (loss (withLeaves s (movedLeaves s.params.treeLeaves i k t)))) 0⟩ } := by
        rw [List.getElem?_zipWith, h2', stateGrad_eq loss s hok, List.getElem?_mapIdx, h2']
        rfl
      refine ⟨{ p with value := ⟨p.value.shape, p.value.dtype, (List.range p.value.data.length).map fun k =>
            deriv (fun t => numOf (loss (withLeaves s (movedLeaves s.params.treeLeaves i k t)))) 0⟩ }, ?_, ?_⟩
      · rw [lookup_withLeaves s hok _ hfit path i h1, hz]
        rfl
      · simp [List.getElem?_range hk]

/-- **C148**, the optimisers of Optax. For every loss and every choice of their constants (with zero gradient the quotient of
Adam is zero), gradient descent, gradient descent with momentum and Adam never move a frozen parameter. -/
theorem C148_optimisers (loss : ModelState K M C → Except Err ℝ) (rate mom b1 b2 eps : ℝ) :
    Quiet ((sgd rate).transform.onLoss loss) ∧ Quiet ((sgdMomentum rate mom).transform.onLoss loss) ∧
      Quiet ((adam rate b1 b2 eps).transform.onLoss loss) :=
  ⟨entryRule_quiet _ (fun t => by simp [sgd]) loss, entryRule_quiet _ (fun t => by simp [sgdMomentum]) loss,
    entryRule_quiet _ (fun t => by simp [adam]) loss⟩

/-- **C61**, training. `optax_minimize` with Adam (the usual choice), however many steps: kernel, mean function and other
entries are untouched, every parameter keeps flag, bijector, prior and shape, every value lies in the range of its bijector,
and frozen values are the old ones up to the jitter of the bijector. -/
theorem C61_adam_partial {X Y : Type} (rate b1 b2 eps : ℝ) (loss : X → Y → ModelState K M C → Except Err ℝ) (x : X) (y : Y)
    (xval : Option X) (yval : Option Y) (nsteps : ℕ) (s r : ModelState K M C) (o) (hist : OptaxHistory)
    (hok : ParamsOK s.params) (hb : ∀ p ∈ s.params.leaves, sensible p.bijector)
    (h : optaxTrain (adam rate b1 b2 eps).transform loss x y xval yval nsteps s = .ok (r, o, hist)) :
    r.kernel = s.kernel ∧ r.meanFn = s.meanFn ∧
    (∀ k, (assocGet k r.opts).map OptVal.norm = (assocGet k s.opts).map OptVal.norm) ∧
    AtEveryPath (fun p p' => p'.trainable = p.trainable ∧ p'.bijector = p.bijector ∧ p'.prior = p.prior ∧
      p'.value.shape = p.value.shape ∧ p'.value.dtype = p.value.dtype ∧
      p'.value.data.length = p.value.data.length ∧
      (∀ v ∈ p'.value.data, v ∈ range p.bijector) ∧
      (p.trainable = false → (∀ v ∈ p.value.data, invertibleAt p.bijector v) →
        closeUnder p.bijector p.value p'.value)) s.params r.params :=
  C61_optax_partial _ loss x y xval yval nsteps s r o hist hok hb (C148_optimisers _ rate 0 b1 b2 eps).2.2 h

/-! ## Optax minimises what SciPy minimises -/

/-- **C148**, the trajectory. Let `s` be any state with valid parameters, `s0` its unconstrained form and `b` the state obtained
by constraining `s0`. If `f` is the objective that SciPy's minimiser sees from `b` and `f` is differentiable, then
`optax_minimize` from `s`, with any optimiser that works entry by entry and leaves entries without gradient alone, runs
without error for every number of steps, and it is that optimiser run on `f`: it starts from the trainable values of `s`
mapped to the unconstrained space, each step applies the rule to every coordinate with the partial derivative of `f`, the
reported losses are the values of `f` along the way, and the returned state is the one SciPy's interface builds from the
last point. -/
theorem C148_trajectory {σ X Y : Type} (e : EntryRule σ) (he : ∀ t, e.step t e.init 0 = (0, e.init))
    (loss : X → Y → ModelState K M C → Except Err ℝ) (x : X) (y : Y) (s s0 b : ModelState K M C) (hok : ParamsOK s.params)
    (hs : s.transform "backward".toList = .ok s0) (hb : s0.transform "forward".toList = .ok b)
    (f : (Fin (ravelBackward b.params).length → ℝ) → ℝ) (hf : SeenBySciPy (loss x y) b f) (hd : Differentiable ℝ f)
    (nsteps : ℕ) :
    ∃ (r : ModelState K M C) (o : ℕ × List (List σ)) (hist : OptaxHistory)
      (u : ℕ → Fin (ravelBackward b.params).length → ℝ) (m : ℕ → Fin (ravelBackward b.params).length → σ),
      optaxTrain e.transform loss x y none none nsteps s = .ok (r, o, hist) ∧
      List.ofFn (u 0) = ravelBackward s.params ∧ (∀ κ, m 0 κ = e.init) ∧
      (∀ i < nsteps, ∀ κ, (u (i + 1) κ, m (i + 1) κ) =
        (u i κ + (e.step (i + 1) (m i κ) (fderiv ℝ f (u i) (Pi.single κ 1))).1,
          (e.step (i + 1) (m i κ) (fderiv ℝ f (u i) (Pi.single κ 1))).2)) ∧
      hist.train = (List.range nsteps).map (fun i => f (u i)) ∧ hist.valid = none ∧
      scipyMinimize (evaluateAt (List.ofFn (u nsteps))) (loss x y) b = .ok (r, f (u nsteps)) := by
  have hs' := hs
  rw [transform_backward s hok] at hs'
  have fb : Fits s (s.params.treeLeaves.map bwd) := ⟨by simp, fun p hp => by
    obtain ⟨q, h1, rfl⟩ := List.mem_map.mp hp
    exact treeLeaves_ok s hok q h1⟩
  obtain ⟨-, -, -, a4, a5, a6⟩ := withLeaves_spec s _ fb
  have e0 : s0 = withLeaves s (s.params.treeLeaves.map bwd) := (Except.ok.inj hs').symm
  rw [← e0] at a4 a5 a6
  have hself : s0 = withLeaves s0 s0.params.treeLeaves := by
    have := withLeaves_withLeaves s _ _ fb fb
    rw [← e0] at this
    rw [a5, this]
  have hkeep0 : List.Forall₂ Keeps s0.params.treeLeaves s0.params.treeLeaves :=
    List.forall₂_same.mpr fun p _ => ⟨rfl, rfl, rfl, rfl, rfl, rfl, fun _ => rfl⟩
  have hstart : Along e s0 s0 ((e.transform (K := K) (M := M) (C := C)).init s0) := by
    refine ⟨hself, hkeep0, a6, ?_⟩
    simp only [Asleep, EntryRule.transform, ModelState.treeFlatten, List.forall₂_map_right_iff]
    exact List.forall₂_same.mpr fun p _ => ⟨by simp, fun _ v hv => by simp at hv; exact hv.2⟩
  have hval : ∀ t o, Along e s0 t o → boundedLoss (loss x y) t = .ok (f (vec _ (raw t.params.treeLeaves))) := by
    rintro t o ⟨h1, h2, h3, h4⟩
    rw [h1]
    obtain ⟨-, -, -, -, c5, -⟩ := withLeaves_spec s0 _ ⟨h2.length_eq.symm, treeLeaves_ok t h3⟩
    rw [c5]
    exact boundedLoss_value (loss x y) s0 b a6 hb rfl f hf _ h2 (treeLeaves_ok t h3)
  obtain ⟨sf, of, ls, hloop, halong⟩ := optaxLoop_total
    ((e.transform (K := K) (M := M) (C := C)).onLoss (boundedLoss (loss x y))) (boundedLoss (loss x y)) (Along e s0)
    (fun t o ht => ⟨⟨_, hval t o ht⟩, by
      obtain ⟨t', h1, h2, -⟩ := along_step e he (boundedLoss (loss x y)) s0 t o ht
      exact ⟨t', h1, h2⟩⟩) nsteps _ _ hstart
  have hfin := transform_forward sf halong.2.2.1
  have hrun : optaxTrain e.transform loss x y none none nsteps s =
      .ok (withLeaves sf (sf.params.treeLeaves.map fwd), of, ⟨ls, none⟩) := by
    simp only [optaxTrain, optaxMinimize, constrainedTrain, hs, bind, Except.bind, pure, Except.pure]
    erw [hloop]
    simp only [hfin]
  refine ⟨withLeaves sf (sf.params.treeLeaves.map fwd), of, ⟨ls, none⟩, ?_⟩
  obtain ⟨it, os, g1, g2, g3, g4, g5, g6, g7, -, -, -⟩ := C45_optax_history _ loss x y none none nsteps s _ _ _ hrun
  have h0 : it 0 = s0 := by rw [hs] at g1; exact (Except.ok.inj g1).symm
  have hal : ∀ i ≤ nsteps, Along e s0 (it i) (os i) ∧ (os i).1 = i := by
    intro i
    induction i with
    | zero => intro _; rw [g2, h0]; exact ⟨hstart, rfl⟩
    | succ i ih =>
      intro hi
      obtain ⟨k1, k2⟩ := ih (by omega)
      obtain ⟨j1, j2⟩ := g3 i (by omega)
      obtain ⟨t', l1, l2, -⟩ := along_step e he (boundedLoss (loss x y)) s0 _ _ k1
      rw [l1] at j1
      cases j1
      refine ⟨by rw [j2]; exact l2, ?_⟩
      rw [j2]
      show (os i).1 + 1 = i + 1
      rw [k2]
  refine ⟨fun i => vec _ (raw (it i).params.treeLeaves), fun i κ => (rawMem (it i).params.treeLeaves (os i).2)[κ.1]?.getD e.init,
    hrun, ?_, ?_, ?_, ?_, rfl, ?_⟩
  · simp only [h0]
    rw [ofFn_vec]
    · rw [a5, raw_bwd]
      rfl
    · rw [transform_forward s0 a6] at hb
      cases hb
      rw [num_fwd s0 a6]
  · intro κ
    simp only [h0, g2]
    show (rawMem s0.params.treeLeaves ((e.transform (K := K) (M := M) (C := C)).init s0).2)[κ.1]?.getD e.init = e.init
    rcases hx : (rawMem s0.params.treeLeaves ((e.transform (K := K) (M := M) (C := C)).init s0).2)[κ.1]? with _ | v
    · rfl
    · show v = e.init
      exact rawMem_init e s0.params.treeLeaves v (List.mem_of_getElem? hx)
  · intro i hi κ
    obtain ⟨k1, k2⟩ := hal i hi.le
    obtain ⟨j1, j2⟩ := g3 i hi
    obtain ⟨t', l1, l2, l3⟩ := along_step e he (boundedLoss (loss x y)) s0 _ _ k1
    rw [l1] at j1
    cases j1
    obtain ⟨m1, m2, -⟩ := applyUpdates_keeps (it i) (it (i + 1)) _ k1.2.2.1
      (entryRule_step e he _ _ _ _ (goodGrad _ (it i) k1.2.2.1) k1.2.2.2).1 l1
    obtain ⟨-, n1, n2⟩ := along_vectors e (loss x y) s0 b (it i) (it (i + 1)) (os i) a6 hb rfl f hf hd k1 m1 l3 κ
    rw [k2] at n1 n2
    refine Prod.ext n1 ?_
    show (rawMem (it (i + 1)).params.treeLeaves (os (i + 1)).2)[κ.1]?.getD e.init = _
    rw [j2, ← n2]
    show (rawMem _ (ruleMem e ((os i).1 + 1) _ _))[κ.1]?.getD e.init = _
    rw [k2]
  · apply List.ext_getElem?
    intro i
    by_cases hi : i < nsteps
    · obtain ⟨b', l, k1, k2, k3⟩ := g7 i hi
      have := hval _ _ (hal i hi.le).1
      simp only [boundedLoss, k1, bind, Except.bind, k3] at this
      rw [k2, List.getElem?_map, List.getElem?_range hi, Option.map_some, Except.ok.inj this]
    · rw [List.getElem?_eq_none (by omega), List.getElem?_eq_none (by simp; omega)]
  · have k1 := (hal nsteps le_rfl).1
    obtain ⟨h1, h2, h3, -⟩ := k1
    have hsf : it nsteps = withLeaves s0 (it nsteps).params.treeLeaves := h1
    rw [evaluateAt_eq]
    have hl : (raw (it nsteps).params.treeLeaves).length = (ravelBackward b.params).length := by
      rw [transform_forward s0 a6] at hb
      cases hb
      rw [num_fwd s0 a6, raw_length, raw_length, keeps_sizes h2]
    rw [ofFn_vec _ _ hl]
    have hp := forward_eq_propose s0 a6 _ h2 (treeLeaves_ok _ h3)
    rw [← hsf, g4] at hp
    have hb' : b = withLeaves s0 (s0.params.treeLeaves.map fwd) := by
      rw [transform_forward s0 a6] at hb
      exact (Except.ok.inj hb).symm
    rw [← hb'] at hp
    refine ⟨hp.symm, ?_⟩
    have := hval _ _ (hal nsteps le_rfl).1
    simpa only [boundedLoss, g4, bind, Except.bind] using this

/-- **C148**, stationary points. If the gradient of the objective vanishes at the trainable values of `s`, no number of steps
of such an optimiser moves them: every reported loss is the one at the start, and the returned state is the one SciPy's
interface builds from the starting vector. -/
theorem C148_stationary {σ X Y : Type} (e : EntryRule σ) (he : ∀ t, e.step t e.init 0 = (0, e.init))
    (loss : X → Y → ModelState K M C → Except Err ℝ) (x : X) (y : Y) (s s0 b : ModelState K M C) (hok : ParamsOK s.params)
    (hs : s.transform "backward".toList = .ok s0) (hb : s0.transform "forward".toList = .ok b)
    (f : (Fin (ravelBackward b.params).length → ℝ) → ℝ) (hf : SeenBySciPy (loss x y) b f) (hd : Differentiable ℝ f)
    (u₀ : Fin (ravelBackward b.params).length → ℝ) (hu : List.ofFn u₀ = ravelBackward s.params) (h0 : fderiv ℝ f u₀ = 0)
    (nsteps : ℕ) :
    ∃ (r : ModelState K M C) (o : ℕ × List (List σ)),
      optaxTrain e.transform loss x y none none nsteps s = .ok (r, o, ⟨List.replicate nsteps (f u₀), none⟩) ∧
      scipyMinimize (evaluateAt (ravelBackward s.params)) (loss x y) b = .ok (r, f u₀) := by
  obtain ⟨r, o, ⟨tr, va⟩, u, m, h1, h2, h3, h4, h5, h6, h7⟩ :=
    C148_trajectory e he loss x y s s0 b hok hs hb f hf hd nsteps
  have hu0 : u 0 = u₀ := List.ofFn_injective (h2.trans hu.symm)
  have hconst : ∀ i ≤ nsteps, u i = u₀ ∧ ∀ κ, m i κ = e.init := by
    intro i
    induction i with
    | zero => exact fun _ => ⟨hu0, h3⟩
    | succ i ih =>
      intro hi
      obtain ⟨k1, k2⟩ := ih (by omega)
      have hstep : ∀ κ, u (i + 1) κ = u₀ κ ∧ m (i + 1) κ = e.init := fun κ => by
        have := h4 i (by omega) κ
        rw [k1, k2, h0, zero_apply, he, add_zero] at this
        exact ⟨congrArg Prod.fst this, congrArg Prod.snd this⟩
      exact ⟨funext fun κ => (hstep κ).1, fun κ => (hstep κ).2⟩
  simp only at h5 h6
  subst h5 h6
  refine ⟨r, o, ?_, ?_⟩
  · rw [h1]
    congr 4
    rw [List.eq_replicate_iff]
    refine ⟨by simp, fun v hv => ?_⟩
    obtain ⟨i, hi, rfl⟩ := List.mem_map.mp hv
    rw [(hconst i (List.mem_range.mp hi).le).1]
  · rw [(hconst nsteps le_rfl).1, hu] at h7
    exact h7

/-- **C148**, descent. For every start there is a learning rate below which the first step of gradient descent lowers the loss,
unless the gradient is zero there (then the loss stays the same). -/
theorem C148_descent {X Y : Type} (loss : X → Y → ModelState K M C → Except Err ℝ) (x : X) (y : Y)
    (s s0 b : ModelState K M C) (hok : ParamsOK s.params)
    (hs : s.transform "backward".toList = .ok s0) (hb : s0.transform "forward".toList = .ok b)
    (f : (Fin (ravelBackward b.params).length → ℝ) → ℝ) (hf : SeenBySciPy (loss x y) b f) (hd : Differentiable ℝ f) :
    ∃ ε > 0, ∀ rate, 0 < rate → rate < ε → ∃ r o l0 l1,
      optaxTrain (sgd rate).transform loss x y none none 2 s = .ok (r, o, ⟨[l0, l1], none⟩) ∧
      (l1 < l0 ∨ l1 = l0 ∧ ∀ u₀, List.ofFn u₀ = ravelBackward s.params → fderiv ℝ f u₀ = 0) := by
  -- the starting vector
  obtain ⟨_, _, _, u, _, -, h2, -⟩ := C148_trajectory (sgd 0) (by simp [sgd]) loss x y s s0 b hok hs hb f hf hd 0
  set w := u 0 with hw
  set g : Fin (ravelBackward b.params).length → ℝ := fun κ => fderiv ℝ f w (Pi.single κ 1) with hg
  have hsum : fderiv ℝ f w g = ∑ κ, g κ ^ 2 := by
    have : g = ∑ κ, g κ • (Pi.single κ (1 : ℝ) : Fin (ravelBackward b.params).length → ℝ) := by
      funext j
      simp [Finset.sum_apply, Pi.single_apply]
    conv_lhs => rw [this]
    rw [map_sum]
    refine Finset.sum_congr rfl fun κ _ => ?_
    rw [map_smul, smul_eq_mul, sq]
  have hder : HasDerivAt (fun t : ℝ => f (w + t • (-g))) (-∑ κ, g κ ^ 2) 0 := by
    have h1 : HasDerivAt (fun t : ℝ => w + t • (-g)) (-g) 0 := by
      have := ((hasDerivAt_id' (0 : ℝ)).smul_const (-g)).const_add w
      rwa [one_smul] at this
    have h3 : HasFDerivAt f (fderiv ℝ f w) (w + (0 : ℝ) • (-g)) := by
      rw [zero_smul, add_zero]
      exact (hd w).hasFDerivAt
    refine (h3.comp_hasDerivAt (0 : ℝ) h1).congr_deriv ?_
    rw [map_neg, hsum]
  have hrun : ∀ rate, ∃ r o, optaxTrain (sgd rate).transform loss x y none none 2 s =
      .ok (r, o, ⟨[f w, f (w + rate • (-g))], none⟩) := by
    intro rate
    obtain ⟨r, o, ⟨tr, va⟩, u', m', k1, k2, -, k4, k5, k6, -⟩ :=
      C148_trajectory (sgd rate) (by simp [sgd]) loss x y s s0 b hok hs hb f hf hd 2
    have e0 : u' 0 = w := List.ofFn_injective (k2.trans h2.symm)
    have e1 : u' 1 = w + rate • (-g) := by
      funext κ
      have := congrArg Prod.fst (k4 0 (by omega) κ)
      simp only [zero_add, sgd] at this
      rw [this, e0]
      simp [hg]
    simp only at k5 k6
    subst k5 k6
    refine ⟨r, o, ?_⟩
    rw [k1]
    simp [List.range_succ, e0, e1]
  by_cases hz : ∑ κ, g κ ^ 2 = 0
  · have hg0 : g = 0 := by
      funext κ
      have := (Finset.sum_eq_zero_iff_of_nonneg fun κ _ => sq_nonneg (g κ)).mp hz κ (Finset.mem_univ _)
      simpa using this
    refine ⟨1, one_pos, fun rate _ _ => ?_⟩
    obtain ⟨r, o, h⟩ := hrun rate
    refine ⟨r, o, _, _, h, .inr ⟨by simp [hg0], fun u₀ h0 => ?_⟩⟩
    have : u₀ = w := List.ofFn_injective (h0.trans h2.symm)
    subst this
    apply ContinuousLinearMap.ext
    intro v
    have hv : v = ∑ κ, v κ • (Pi.single κ (1 : ℝ) : Fin (ravelBackward b.params).length → ℝ) := by
      funext j
      simp [Finset.sum_apply, Pi.single_apply]
    rw [hv, map_sum]
    simp only [map_smul]
    exact Finset.sum_eq_zero fun κ _ => by
      have := congrFun hg0 κ
      simp only [hg] at this
      rw [this]
      simp
  · have hpos : 0 < ∑ κ, g κ ^ 2 := lt_of_le_of_ne (Finset.sum_nonneg fun κ _ => sq_nonneg _) (Ne.symm hz)
    have hslope := hder.tendsto_slope_zero_right
    have hev := hslope.eventually (eventually_lt_nhds (neg_lt_zero.mpr hpos))
    rw [eventually_nhdsWithin_iff, Metric.eventually_nhds_iff] at hev
    obtain ⟨ε, hε, h⟩ := hev
    refine ⟨ε, hε, fun rate h0 h1 => ?_⟩
    obtain ⟨r, o, hr⟩ := hrun rate
    refine ⟨r, o, _, _, hr, .inl ?_⟩
    have := h (y := rate) (by simpa [abs_of_pos h0] using h1) h0
    simp only [zero_add, zero_smul, add_zero, smul_eq_mul] at this
    have h3 : rate⁻¹ * (f (w + rate • -g) - f w) < 0 := this
    by_contra hc
    have h4 := mul_nonneg (inv_pos.mpr h0).le (sub_nonneg.mpr (not_lt.mp hc))
    linarith

/-! ## Exact GPs built and trained through the interface -/

/-- Going to the unconstrained space and back is a training of no steps. -/
theorem round_trained {e : KExpr d} {D : Dict Param} (hD : Sound D) (hp : ¬ HasPolynomial e) {s : ModelState K M C}
    (h : Trained (¬ HasPolynomial e) D s) : ∃ s0 b, s.transform "backward".toList = .ok s0 ∧
      s0.transform "forward".toList = .ok b ∧ Trained (¬ HasPolynomial e) D b ∧ b.kernel = s.kernel ∧ b.meanFn = s.meanFn := by
  have hok := (trained_invariant e D hD s h).1
  have h1 := transform_backward s hok
  have fb : Fits s (s.params.treeLeaves.map bwd) := ⟨by simp, fun p hp => by
    obtain ⟨q, h1, rfl⟩ := List.mem_map.mp hp
    exact treeLeaves_ok s hok q h1⟩
  obtain ⟨-, -, -, -, -, a6⟩ := withLeaves_spec s _ fb
  have h2 := transform_forward _ a6
  refine ⟨_, _, h1, h2, ?_, rfl, rfl⟩
  refine .optax ((sgd 0).transform.onLoss fun _ => .ok 0) (fun (_ _ : Unit) _ => .ok 0) () () none none 0 s _
    ((sgd 0).transform.init (withLeaves s (s.params.treeLeaves.map bwd))) ⟨[], none⟩ hp h
    (C148_optimisers _ 0 0 0 0 0).1 ?_
  · simp only [optaxMinimize, constrainedTrain, h1, optaxLoop, h2, bind, Except.bind, pure, Except.pure]
    rfl

/-- **C148**, exact GPs. For every kernel without polynomial part, every model built with default parameters and trained in any
way, every dataset: the hypotheses of the theorems above hold for the negative log marginal likelihood, so Optax with
gradient descent, momentum or Adam never fails and never reports a loss below the bound of C147; and for small enough
learning rates the first step of gradient descent raises the likelihood or the gradient is zero. -/
theorem C148_gpr (ex : la.Exact) (e : KExpr d) (hp : ¬ HasPolynomial e) (D : Dict Param) (hD : BuiltByDefault e D) {R : Type}
    (num : GprLikNum K M R) (mf : MeanFun) (x : Batch n d) (y : Mat n o) (xa ya : Arr) (s : ModelState K M C)
    (hnum : ∀ params, num.dense params xa ya s.kernel s.meanFn =
      .ok (lmlDense la (GPParams.ofDict params) e.obj mf x y))
    (h : Trained (¬ HasPolynomial e) D s) (a : LikArgs R) (ha : a.iterative = false) (hn : 0 < n) :
    (∀ {σ : Type} (rule : EntryRule σ), (∀ t, rule.step t rule.init 0 = (0, rule.init)) → ∀ nsteps, ∃ r o hist,
      optaxTrain rule.transform (fun xa ya s' => gprNegLml num s' xa ya a) xa ya none none nsteps s = .ok (r, o, hist) ∧
      hist.train.length = nsteps ∧ ∀ l ∈ hist.train, -(1 / 2 * Real.log (10 ^ 10 / (2 * Real.pi))) ≤ l) ∧
    ∃ s0 b f, s.transform "backward".toList = .ok s0 ∧ s0.transform "forward".toList = .ok b ∧
      SeenBySciPy (fun s' => gprNegLml num s' xa ya a) b f ∧ Differentiable ℝ f ∧
      ∃ ε > 0, ∀ rate, 0 < rate → rate < ε → ∃ r o l0 l1,
        optaxTrain (sgd rate).transform (fun xa ya s' => gprNegLml num s' xa ya a) xa ya none none 2 s =
          .ok (r, o, ⟨[l0, l1], none⟩) ∧
        (l1 < l0 ∨ l1 = l0 ∧ ∀ u₀, List.ofFn u₀ = ravelBackward s.params → fderiv ℝ f u₀ = 0) := by
  obtain ⟨hs, -⟩ := built_spec hD
  have hok := (trained_invariant e D hs s h).1
  obtain ⟨s0, b, h1, h2, h3, h4, h5⟩ := round_trained hs hp h
  obtain ⟨f, f1, f2, f3⟩ := C147_gpr ex e D hD num mf x y xa ya b (by rw [h4, h5]; exact hnum) h3 a ha
  refine ⟨fun rule he nsteps => ?_, s0, b, f, h1, h2, f1, f2, ?_⟩
  · obtain ⟨r, o, hist, u, m, k1, -, -, -, k5, -, -⟩ := C148_trajectory rule he (fun xa ya s' => gprNegLml num s' xa ya a)
      xa ya s s0 b hok h1 h2 f f1 f2 nsteps
    refine ⟨r, o, hist, k1, by rw [k5]; simp, fun l hl => ?_⟩
    rw [k5] at hl
    obtain ⟨i, -, rfl⟩ := List.mem_map.mp hl
    exact f3 hn _
  · exact C148_descent (fun xa ya s' => gprNegLml num s' xa ya a) xa ya s s0 b hok h1 h2 f f1 f2

/-! ## The hypotheses are met -/

/-- There are a default model and a dataset such that the gradient vanishes at the start of the training. -/
theorem exists_stationary (e : KExpr 1) (hp : ¬ HasPolynomial e) (xa ya : Arr) : ∃ (s s0 b : ModelState Unit Unit Unit)
    (y : Mat 1 1) (f : (Fin (ravelBackward b.params).length → ℝ) → ℝ) (u₀ : Fin (ravelBackward b.params).length → ℝ),
    ParamsOK s.params ∧ s.transform "backward".toList = .ok s0 ∧ s0.transform "forward".toList = .ok b ∧
    SeenBySciPy (fun s' => gprNegLml (exLik e y) s' xa ya ⟨false, 1, 1, (), none, none⟩) b f ∧ Differentiable ℝ f ∧
    List.ofFn u₀ = ravelBackward s.params ∧ fderiv ℝ f u₀ = 0 := by
  obtain ⟨D, s, hD, hs⟩ := (C86_constructed (K := Unit) (M := Unit) (C := Unit) e () () []).1
  have ht : Trained (¬ HasPolynomial e) D s := .init () () [] s hs
  obtain ⟨hsd, -⟩ := built_spec (.inl hD : BuiltByDefault e D)
  have hok := (trained_invariant e D hsd s ht).1
  obtain ⟨s0, b, h1, h2, h3, -, -⟩ := round_trained hsd hp ht
  have hbok := (trained_invariant e D hsd b h3).1
  have hadm : ∀ u, Admissible e (GPParams.ofDict (proposal b u).params).kernelParams := fun u =>
    (C86_partial e D (.inl hD) _ (proposal_trained D _ b h3 hbok u)).1
  -- the starting vector, from a run of no steps
  obtain ⟨f', g1, g2, -⟩ := C147_gpr LinAlg.ideal_exact e D (.inl hD) (exLik e 0) zeroMean (fun _ _ => 0) 0 xa ya b
    (fun _ => rfl) h3 ⟨false, 1, 1, (), none, none⟩ rfl
  obtain ⟨_, _, _, u, _, -, hu, -⟩ := C148_trajectory (sgd 0) (by simp [sgd])
    (fun xa ya s' => gprNegLml (exLik e 0) s' xa ya ⟨false, 1, 1, (), none, none⟩) xa ya s s0 b hok h1 h2 f' g1 g2 0
  obtain ⟨y, hy⟩ := exists_optimum LinAlg.ideal_exact e (GPParams.ofDict (proposal b (u 0)).params) (hadm _)
  obtain ⟨f, k1, k2, -⟩ := C147_gpr LinAlg.ideal_exact e D (.inl hD) (exLik e y) zeroMean (fun _ _ => 0) y xa ya b
    (fun _ => rfl) h3 ⟨false, 1, 1, (), none, none⟩ rfl
  have hval : ∀ u, f u = -lmlDense LinAlg.ideal (GPParams.ofDict (proposal b u).params) e.obj zeroMean (fun _ _ => 0) y := by
    intro u
    obtain ⟨r, hr⟩ := k1 u
    obtain ⟨g1, g2⟩ := (evaluateAt_eq _ _ _ _ _).mp hr
    rw [proposal_spec b hbok u] at g1
    cases g1
    exact (Except.ok.inj g2).symm
  refine ⟨s, s0, b, y, f, u 0, hok, h1, h2, k1, k2, hu, ?_⟩
  have hmin : IsLocalMin f (u 0) := Filter.Eventually.of_forall fun v => by
    rw [hval, hval]
    exact neg_le_neg (hy _ (hadm v))
  exact hmin.fderiv_eq_zero

/-- Hypotheses of `C148_gradient`: a state with a trainable and a frozen parameter, and a loss that depends on both. -/
example : ∃ (s : ModelState Unit Unit Unit) (p q : Param), ParamsOK s.params ∧ lookup [['a']] s.params = some (.inl p) ∧
    p.trainable = true ∧ 1 < p.value.data.length ∧ lookup [['b']] s.params = some (.inl q) ∧ q.trainable = false :=
  ⟨⟨(), (), .leaf ['a'] ⟨⟨[2], float64, [1, 2]⟩, true, .identity, ⟨.normal 0 1, [2], float64⟩⟩
      (.leaf ['b'] ⟨⟨[], float64, [3]⟩, false, .identity, ⟨.normal 0 1, [], float64⟩⟩ .nil), []⟩,
    _, _, by
      intro p hp
      simp only [Dict.leaves, List.mem_cons, List.not_mem_nil, or_false] at hp
      rcases hp with rfl | rfl <;> exact ⟨rfl, rfl⟩, rfl, rfl, by simp, rfl, rfl⟩

/-- Hypotheses of `C148_trajectory`, `C148_descent` and `C148_stationary`. -/
example (xa ya : Arr) := exists_stationary (.prod (.constant none) (.squaredExponential none)) (by simp [HasPolynomial]) xa ya

/-- Hypotheses of `C148_gpr`. -/
example : ∃ (D : Dict Param) (s : ModelState Unit Unit Unit), ¬ HasPolynomial (.matern12 none : KExpr 1) ∧
    BuiltByDefault (.matern12 none : KExpr 1) D ∧ Trained (¬ HasPolynomial (.matern12 none : KExpr 1)) D s := by
  obtain ⟨D, s, hD, hs⟩ := (C86_constructed (K := Unit) (M := Unit) (C := Unit) (.matern12 none : KExpr 1) () () []).1
  exact ⟨D, s, by simp [HasPolynomial], .inl hD, .init () () [] s hs⟩

end GPX.Props
