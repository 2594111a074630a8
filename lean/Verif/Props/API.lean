import Verif.Lemmas.API
import Verif.Props.SaveLoad

set_option linter.unusedSimpArgs false

/-!
# C42, C43, C69, C70: the estimator interface
-/

namespace GPX.Props
open GPX GPX.Spec
variable {K M C O W R Out : Type}

/-- What a model has been fitted on. -/
inductive Kind where
  | targets
  | derivs
deriving DecidableEq

/-- The fitting methods of the GPR class, with any data and keyword arguments, and what they fit on. -/
inductive FitCall (num : Numerics K M C Out) : Kind → (ModelState K M C → Except Err (ModelState K M C)) → Prop
  | fit (x y : Arr) (iterative : Bool) (nPivots : Option ℕ) :
      FitCall num .targets (callFit gprFuns (gprFit num x y iterative nPivots))
  | fitNlopt (x y : Arr) (iterative : Bool) :
      FitCall num .targets (callFitNlopt gprFuns (gprFit num x y iterative none))
  | fitOl (x y yDerivs jacobian : Arr) :
      FitCall num .targets (callFitOl gprFuns (gprFitOl num x y yDerivs jacobian))
  | fitDerivs (x y jacobian : Arr) (iterative : Bool) (nPivots : Option ℕ) :
      FitCall num .derivs (callFitDerivs gprFuns (gprFitDerivs num x y jacobian iterative nPivots))

/-- Histories of a GPR object: all sequences of construction, fitting calls that return or raise, randomization and
loading. The second index records what the user knows: the kind of the last fit that took place (`none` before any fit
and after a reset). A fitting call that raises leaves it unchanged, except for the call with `return_history=True` and
`minimize=False`, which fits and then raises (property C56). The minimiser is any function that only changes
parameters. -/
inductive Reach (num : Numerics K M C Out) (nxt : R → R) (sample : PriorObj → R → Arr) :
    GPObj (ModelState K M C) O → Option Kind → Prop
  | init {kernel : K} {meanFn : M} {params : Dict Param} {lossFn : C} {s : ModelState K M C}
      (h : gprInit kernel meanFn params lossFn = .ok s) : Reach num nxt sample { state := s } none
  | fit {m m' : GPObj (ModelState K M C) O} {k : Option Kind} (h : Reach num nxt sample m k)
      {kind : Kind} {f : ModelState K M C → Except Err (ModelState K M C)} (hf : FitCall num kind f)
      {W : Type} (minim : W → ModelState K M C → Except Err (ModelState K M C × O) × W) (hk : KeepsState minim)
      (loss : ModelState K M C → ℝ) (minimize : Bool) (n : ℕ) (key : Option R) (rh : Bool) (w w' : W)
      (hr : baseFit minim (fun k s => s.randomize nxt sample k []) loss nxt f m minimize n key rh w =
        (.ok (), m', w')) : Reach num nxt sample m' (some kind)
  | fitRaises {m m' : GPObj (ModelState K M C) O} {k : Option Kind} (h : Reach num nxt sample m k)
      {kind : Kind} {f : ModelState K M C → Except Err (ModelState K M C)} (hf : FitCall num kind f)
      {W : Type} (minim : W → ModelState K M C → Except Err (ModelState K M C × O) × W) (hk : KeepsState minim)
      (loss : ModelState K M C → ℝ) (minimize : Bool) (n : ℕ) (key : Option R) (rh : Bool) (w w' : W) {e : Err}
      (hnh : ¬ (rh = true ∧ minimize = false))
      (hr : baseFit minim (fun k s => s.randomize nxt sample k []) loss nxt f m minimize n key rh w =
        (.error e, m', w')) : Reach num nxt sample m' k
  | fitNoHistory {m m' : GPObj (ModelState K M C) O} {k : Option Kind} (h : Reach num nxt sample m k)
      {kind : Kind} {f : ModelState K M C → Except Err (ModelState K M C)} (hf : FitCall num kind f)
      {W : Type} (minim : W → ModelState K M C → Except Err (ModelState K M C × O) × W)
      (loss : ModelState K M C → ℝ) (n : ℕ) (key : Option R) (w w' : W) {e : Err} {s : ModelState K M C}
      (hs : f m.state = .ok s)
      (hr : baseFit minim (fun k s => s.randomize nxt sample k []) loss nxt f m false n key true w =
        (.error e, m', w')) : Reach num nxt sample m' (some kind)
  | fitNoHistoryRaises {m m' : GPObj (ModelState K M C) O} {k : Option Kind} (h : Reach num nxt sample m k)
      {kind : Kind} {f : ModelState K M C → Except Err (ModelState K M C)} (hf : FitCall num kind f)
      {W : Type} (minim : W → ModelState K M C → Except Err (ModelState K M C × O) × W)
      (loss : ModelState K M C → ℝ) (n : ℕ) (key : Option R) (w w' : W) {e e' : Err}
      (hs : f m.state = .error e')
      (hr : baseFit minim (fun k s => s.randomize nxt sample k []) loss nxt f m false n key true w =
        (.error e, m', w')) : Reach num nxt sample m' k
  | randomize {m m' : GPObj (ModelState K M C) O} {k : Option Kind} (h : Reach num nxt sample m k) (key : R)
      (reset : Bool) (hr : m.randomize nxt sample gprInitDefault key reset = .ok m') :
      Reach num nxt sample m' (if reset then none else k)
  | load {m m2 m' : GPObj (ModelState K M C) O} {k k2 : Option Kind} (h : Reach num nxt sample m k)
      (h2 : Reach num nxt sample m2 k2) (hs : Saveable m2.state) (hd : m.state.params.KeysDistinct)
      (hp : AtEveryPath (fun p q => p.value.shape = q.prior.shape ∧ p.value.dtype = q.prior.dtype)
        m2.state.params m.state.params) {file : List (Key × Dumped)} (hf : m2.state.save = .ok file)
      (hl : m.load file = .ok m') : Reach num nxt sample m' k2

/-- The flags and stored values that go with what the model has been fitted on. -/
structure FlagInv (s : ModelState K M C) (k : Option Kind) : Prop where
  fitted : assocGet isFittedKey s.opts = some (.bool (decide (k = some .targets)))
  derivs : assocGet isFittedDerivsKey s.opts = some (.bool (decide (k = some .derivs)))
  x : (assocGet xTrainKey s.opts).isSome
  c : (assocGet cKey s.opts).isSome
  mu : (assocGet muKey s.opts).isSome
  jac : k = some .derivs → ∃ a, (assocGet jacobianTrainKey s.opts).map OptVal.norm = some (.arr a)
  jaccoef : k = some .derivs → ∃ a, (assocGet jaccoefKey s.opts).map OptVal.norm = some (.arr a)

theorem norm_bool {o : Option (OptVal C)} {b : Bool} (h : o.map OptVal.norm = some (.bool b)) : o = some (.bool b) := by
  rcases o with _ | v
  · cases h
  · cases v <;> simp_all [OptVal.norm]

theorem FlagInv.of_opts {s s' : ModelState K M C} {k : Option Kind} (h : FlagInv s k)
    (hs : ∀ k, (assocGet k s'.opts).map OptVal.norm = (assocGet k s.opts).map OptVal.norm) : FlagInv s' k := by
  have some' : ∀ q, (assocGet q s.opts).isSome → (assocGet q s'.opts).isSome := fun q hq => by
    have := congrArg Option.isSome (hs q)
    simpa [hq] using this
  exact ⟨norm_bool (by rw [hs, h.fitted]; rfl), norm_bool (by rw [hs, h.derivs]; rfl), some' _ h.x, some' _ h.c,
    some' _ h.mu, (fun hk => by rw [hs]; exact h.jac hk), (fun hk => by rw [hs]; exact h.jaccoef hk)⟩

/-- The options after an update. -/
theorem get_update {s r : ModelState K M C} {u : StateUpdate K M C} (h : (s.update u).1 = .ok r)
    (hn : (u.opts.map Prod.fst).Nodup) (k : Key) :
    assocGet k r.opts = ((assocGet k u.opts).or (assocGet k s.opts)).map OptVal.norm := by
  rw [ModelState.update_eq h, ← assocGet_fold k _ _ hn]
  exact assocGet_map _ _ _

theorem nodup_fit : [xTrainKey, yTrainKey, cKey, muKey, isFittedKey, isFittedDerivsKey].Nodup := by decide
theorem nodup_ol : [xTrainKey, yTrainKey, yDerivsTrainKey, jacobianTrainKey, cKey, muKey, isFittedKey,
    isFittedDerivsKey].Nodup := by decide
theorem nodup_derivs : [xTrainKey, yTrainKey, jacobianTrainKey, jaccoefKey, cKey, muKey, isFittedKey,
    isFittedDerivsKey].Nodup := by decide
theorem nodup_init : [isFittedKey, isFittedDerivsKey, cKey, muKey].Nodup := by decide

theorem fitCall_ok {num : Numerics K M C Out} {kind : Kind} {f : ModelState K M C → Except Err (ModelState K M C)}
    (hf : FitCall num kind f) {s s' : ModelState K M C} (h : f s = .ok s') : FlagInv s' (some kind) := by
  cases hf with
  | fit x y it np =>
    simp only [callFit, gprFit, bind, Except.bind] at h
    rw [show gprFuns.fit.bind 1 _ = .ok () from rfl] at h
    simp only at h
    rcases hn : num.fit s.kernel s.meanFn s.params x y it np with e | r
    · rw [hn] at h; cases h
    rw [hn] at h
    simp only at h
    exact ⟨get_update h nodup_fit isFittedKey, get_update h nodup_fit isFittedDerivsKey,
      by rw [get_update h nodup_fit]; rfl, by rw [get_update h nodup_fit]; rfl, by rw [get_update h nodup_fit]; rfl,
      (fun h => by cases h), (fun h => by cases h)⟩
  | fitNlopt x y it =>
    simp only [callFitNlopt, gprFit, bind, Except.bind] at h
    rw [show gprFuns.fit.bind 1 _ = .ok () from rfl] at h
    simp only at h
    rcases hn : num.fit s.kernel s.meanFn s.params x y it none with e | r
    · rw [hn] at h; cases h
    rw [hn] at h
    simp only at h
    exact ⟨get_update h nodup_fit isFittedKey, get_update h nodup_fit isFittedDerivsKey,
      by rw [get_update h nodup_fit]; rfl, by rw [get_update h nodup_fit]; rfl, by rw [get_update h nodup_fit]; rfl,
      (fun h => by cases h), (fun h => by cases h)⟩
  | fitOl x y yd j =>
    simp only [callFitOl, gprFitOl, gprFuns, bind, Except.bind] at h
    rw [show (sig ["state", "x", "y", "y_derivs", "jacobian"] []).bind 1 _ = .ok () from rfl] at h
    simp only at h
    rcases hn : num.fitOl s.kernel s.meanFn s.params x y yd j with e | r
    · rw [hn] at h; cases h
    rw [hn] at h
    simp only at h
    exact ⟨get_update h nodup_ol isFittedKey, get_update h nodup_ol isFittedDerivsKey,
      by rw [get_update h nodup_ol]; rfl, by rw [get_update h nodup_ol]; rfl, by rw [get_update h nodup_ol]; rfl,
      (fun h => by cases h), (fun h => by cases h)⟩
  | fitDerivs x y j it np =>
    simp only [callFitDerivs, gprFitDerivs, bind, Except.bind] at h
    rw [show gprFuns.fitDerivs.bind 1 _ = .ok () from rfl] at h
    simp only at h
    rcases hn : num.fitDerivs s.kernel s.params x y j it np with e | r
    · rw [hn] at h; cases h
    rw [hn] at h
    simp only at h
    rcases hj : num.jaccoef r.1 j with e | jc
    · rw [hj] at h; cases h
    rw [hj] at h
    simp only at h
    exact ⟨get_update h nodup_derivs isFittedKey, get_update h nodup_derivs isFittedDerivsKey,
      by rw [get_update h nodup_derivs]; rfl, by rw [get_update h nodup_derivs]; rfl, by rw [get_update h nodup_derivs]; rfl,
      (fun _ => ⟨_, by rw [get_update h nodup_derivs]; rfl⟩), (fun _ => ⟨_, by rw [get_update h nodup_derivs]; rfl⟩)⟩

/-- What a fitting call does to the object. -/
theorem baseFit_cases {minim : W → ModelState K M C → Except Err (ModelState K M C × O) × W} (hk : KeepsState minim)
    {nxt : R → R} {sample : PriorObj → R → Arr} {loss : ModelState K M C → ℝ}
    {f : ModelState K M C → Except Err (ModelState K M C)} {m m' : GPObj (ModelState K M C) O} {minimize : Bool}
    {n : ℕ} {key : Option R} {rh : Bool} {w w' : W} {res : Except Err Unit}
    (h : baseFit minim (fun k s => s.randomize nxt sample k []) loss nxt f m minimize n key rh w = (res, m', w')) :
    (SameBut m.state m'.state ∧ (∃ e, res = .error e) ∧ (minimize = false → m'.state = m.state)) ∨
    ∃ s1, SameBut m.state s1 ∧ f s1 = .ok m'.state ∧ (minimize = false → s1 = m.state) ∧
      (res = .ok () ∨ (rh = true ∧ minimize = false)) := by
  unfold baseFit at h
  cases minimize with
  | false =>
    simp only [Bool.false_eq_true, if_false] at h
    rcases hs : f m.state with e | s
    · rw [hs] at h
      simp only [Prod.mk.injEq] at h
      obtain ⟨rfl, rfl, -⟩ := h
      exact .inl ⟨SameBut.refl _, ⟨_, rfl⟩, fun _ => rfl⟩
    · rw [hs] at h
      cases rh with
      | false =>
        simp only [Bool.false_eq_true, if_false, Prod.mk.injEq] at h
        obtain ⟨rfl, rfl, -⟩ := h
        exact .inr ⟨m.state, SameBut.refl _, hs, fun _ => rfl, .inl rfl⟩
      | true =>
        simp only [if_true, Prod.mk.injEq] at h
        obtain ⟨rfl, rfl, -⟩ := h
        exact .inr ⟨m.state, SameBut.refl _, hs, fun _ => rfl, .inr ⟨rfl, rfl⟩⟩
  | true =>
    simp only [if_true] at h
    rcases hm : randomizedMinimization minim (fun k s => s.randomize nxt sample k []) loss nxt key m.state n rh w with
      ⟨⟨e⟩ | ⟨s1, o, hist⟩, w1⟩
    · rw [hm] at h
      simp only [Prod.mk.injEq] at h
      obtain ⟨rfl, rfl, -⟩ := h
      exact .inl ⟨SameBut.refl _, ⟨_, rfl⟩, fun _ => rfl⟩
    · obtain ⟨hsame, hh⟩ := randomizedMinimization_keeps hk hm
      rw [hm] at h
      simp only at h
      rcases hs : f s1 with e | s
      · rw [hs] at h
        simp only [Prod.mk.injEq] at h
        obtain ⟨rfl, rfl, -⟩ := h
        exact .inl ⟨hsame, ⟨_, rfl⟩, (fun h => by cases h)⟩
      · rw [hs] at h
        simp only at h
        cases rh with
        | false =>
          simp only [Bool.false_eq_true, if_false, Prod.mk.injEq] at h
          obtain ⟨rfl, rfl, -⟩ := h
          exact .inr ⟨s1, hsame, hs, (fun h => by cases h), .inl rfl⟩
        | true =>
          obtain ⟨⟨ss, ls⟩, rfl⟩ := Option.isSome_iff_exists.mp (hh rfl)
          simp only [if_true, Prod.mk.injEq] at h
          obtain ⟨rfl, rfl, -⟩ := h
          exact .inr ⟨s1, hsame, hs, (fun h => by cases h), .inl rfl⟩

/-- The flags match what the user knows, after every history. -/
theorem reach_flags {num : Numerics K M C Out} {nxt : R → R} {sample : PriorObj → R → Arr}
    {m : GPObj (ModelState K M C) O} {k : Option Kind} (h : Reach num nxt sample m k) : FlagInv m.state k := by
  induction h with
  | init h =>
    rw [ModelState.new_eq h]
    constructor <;> simp <;> rfl
  | fit h hf minim hk loss minimize n key rh w w' hr ih =>
    rcases baseFit_cases hk hr with ⟨-, ⟨e, he⟩, -⟩ | ⟨s1, -, h2, -⟩
    · cases he
    · exact fitCall_ok hf h2
  | fitRaises h hf minim hk loss minimize n key rh w w' hnh hr ih =>
    rcases baseFit_cases hk hr with ⟨h1, -, -⟩ | ⟨s1, -, h2, -, h3⟩
    · exact ih.of_opts h1.opts
    · rcases h3 with h3 | h3
      · cases h3
      · exact absurd h3 hnh
  | fitNoHistory h hf minim loss n key w w' hs hr ih =>
    simp only [baseFit, Bool.false_eq_true, if_false, hs, if_true, Prod.mk.injEq] at hr
    obtain ⟨-, rfl, -⟩ := hr
    exact fitCall_ok hf hs
  | fitNoHistoryRaises h hf minim loss n key w w' hs hr ih =>
    simp only [baseFit, Bool.false_eq_true, if_false, hs, Prod.mk.injEq] at hr
    obtain ⟨-, rfl, -⟩ := hr
    exact ih
  | @randomize m m' k h key reset hr ih =>
    unfold GPObj.randomize at hr
    rcases hs : m.state.randomize nxt sample key (if reset then gprInitDefault else []) with e | s
    · rw [hs] at hr; cases hr
    rw [hs] at hr
    cases hr
    cases reset with
    | false => exact ih.of_opts (sameBut_randomize hs).opts
    | true =>
      simp only [if_true] at hs ⊢
      unfold ModelState.randomize at hs
      rcases h1 : (m.state.update {}).1 with e | s1
      · rw [h1] at hs; cases hs
      rw [h1] at hs
      simp only [bind, Except.bind] at hs
      rcases h2 : rebuildParams s1.params (randomizeLoop nxt sample s1.params.treeLeaves key).1 with e | p
      · rw [h2] at hs; cases hs
      rw [h2] at hs
      have hi := ih.of_opts (sameBut_update h1).opts
      exact ⟨get_update hs nodup_init isFittedKey, get_update hs nodup_init isFittedDerivsKey,
        by rw [get_update hs nodup_init]; simp [hi.x],
        by rw [get_update hs nodup_init]; rfl, by rw [get_update hs nodup_init]; rfl,
        (fun h => by cases h), (fun h => by cases h)⟩
  | @load m m2 m' k k2 h h2 hs hd hp file hf hl ih ih2 =>
    obtain ⟨file', r, e1, e2, -, -, -, -, hopts⟩ := C08_save_load_partial m2.state m.state hs hd hp
    rw [hf] at e1
    cases e1
    unfold GPObj.load at hl
    rw [e2] at hl
    cases hl
    have get : ∀ q v, assocGet q m2.state.opts = some v → (∀ c, v ≠ .callable c) →
        (assocGet q r.opts).map OptVal.norm = some v.norm := by
      intro q v hv hc
      rw [hopts q, hv]
      cases v <;> first | rfl | exact absurd rfl (hc _)
    have someq : ∀ q, (assocGet q m.state.opts).isSome → (assocGet q r.opts).isSome := by
      intro q hq
      have := congrArg Option.isSome (hopts q)
      rw [Option.isSome_map] at this
      rw [this]
      split <;> simp_all
    have arrq : ∀ q a, (assocGet q m2.state.opts).map OptVal.norm = some (.arr a) →
        (assocGet q r.opts).map OptVal.norm = some (.arr a) := by
      intro q a hq
      obtain ⟨v, hv, hva⟩ := Option.map_eq_some_iff.mp hq
      rw [get q v hv (by rintro c rfl; cases hva), hva]
    exact ⟨norm_bool (get _ _ ih2.fitted (by simp)), norm_bool (get _ _ ih2.derivs (by simp)), someq _ ih.x,
      someq _ ih.c, someq _ ih.mu, fun hk => (ih2.jac hk).imp (arrq _), fun hk => (ih2.jaccoef hk).imp (arrq _)⟩

/-! ### C42 -/

/-- C42, flags: after every history at most one of the two flags is set, and they tell what the last fit was on. -/
theorem C42_flags {num : Numerics K M C Out} {nxt : R → R} {sample : PriorObj → R → Arr}
    {m : GPObj (ModelState K M C) O} {k : Option Kind} (h : Reach num nxt sample m k) :
    ∃ f d : Bool, m.state.attr isFittedKey = .ok (.bool f) ∧ m.state.attr isFittedDerivsKey = .ok (.bool d) ∧
      (f = true ↔ k = some .targets) ∧ (d = true ↔ k = some .derivs) ∧ ¬ (f = true ∧ d = true) := by
  have hi := reach_flags h
  refine ⟨decide (k = some .targets), decide (k = some .derivs), ?_, ?_, by simp, by simp, ?_⟩
  · rw [ModelState.attr, hi.fitted]
  · rw [ModelState.attr, hi.derivs]
  · rintro ⟨h1, h2⟩
    rw [of_decide_eq_true h1] at h2
    simp at h2

theorem attr_of_isSome {s : ModelState K M C} {q : Key} (h : (assocGet q s.opts).isSome) :
    ∃ v, s.attr q = .ok v := by
  obtain ⟨v, hv⟩ := Option.isSome_iff_exists.mp h
  exact ⟨v, by rw [ModelState.attr, hv]⟩

/-- C42, `predict`: after every history it raises `RuntimeError` unless the last fit was on targets, and otherwise
gives the numerical prediction from the stored training inputs, coefficients and mean. With `full_covariance` and
`iterative` together it always raises `RuntimeError`. -/
theorem C42_predict {num : Numerics K M C Out} {nxt : R → R} {sample : PriorObj → R → Arr}
    {m : GPObj (ModelState K M C) O} {k : Option Kind} (h : Reach num nxt sample m k) (x : Arr) (fc it : Bool) :
    (k = some .targets → ¬ (fc = true ∧ it = true) → ∃ xt c mu, m.state.attr xTrainKey = .ok xt ∧
      m.state.attr cKey = .ok c ∧ m.state.attr muKey = .ok mu ∧
      m.predict num x fc it = num.predict m.state.kernel m.state.params xt x c mu fc it) ∧
    (k ≠ some .targets ∨ (fc = true ∧ it = true) → m.predict num x fc it = .error .runtimeError) := by
  have hi := reach_flags h
  have hf : m.state.attr isFittedKey = .ok (.bool (decide (k = some .targets))) := by rw [ModelState.attr, hi.fitted]
  have hd : m.state.attr isFittedDerivsKey = .ok (.bool (decide (k = some .derivs))) := by
    rw [ModelState.attr, hi.derivs]
  obtain ⟨xt, hx⟩ := attr_of_isSome hi.x
  obtain ⟨c, hc⟩ := attr_of_isSome hi.c
  obtain ⟨mu, hmu⟩ := attr_of_isSome hi.mu
  constructor
  · rintro rfl hfc
    refine ⟨xt, c, mu, hx, hc, hmu, ?_⟩
    cases fc <;> cases it <;>
      simp_all [GPObj.predict, gprPredict, checkIsFitted, OptVal.truthy, bind, Except.bind, pure, Except.pure, throw,
        throwThe, MonadExceptOf.throw]
  · intro hk
    by_cases hkt : k = some .targets
    · subst hkt
      obtain ⟨rfl, rfl⟩ := hk.resolve_left (by simp)
      simp_all [GPObj.predict, gprPredict, checkIsFitted, OptVal.truthy, bind, Except.bind, pure, Except.pure, throw,
        throwThe, MonadExceptOf.throw]
    · simp_all [GPObj.predict, gprPredict, checkIsFitted, OptVal.truthy, bind, Except.bind, pure, Except.pure, throw,
        throwThe, MonadExceptOf.throw]

theorem attr_of_arr {s : ModelState K M C} {q : Key} (h : ∃ a, (assocGet q s.opts).map OptVal.norm = some (.arr a)) :
    ∃ v, s.attr q = .ok v := by
  obtain ⟨a, ha⟩ := h
  apply attr_of_isSome
  have := congrArg Option.isSome ha
  simpa using this

/-- C42, `predict_derivs`: after every history it raises `RuntimeError` unless the last fit was on derivatives, and
otherwise gives the numerical prediction from the stored values. -/
theorem C42_predict_derivs {num : Numerics K M C Out} {nxt : R → R} {sample : PriorObj → R → Arr}
    {m : GPObj (ModelState K M C) O} {k : Option Kind} (h : Reach num nxt sample m k) (x jac : Arr) (fc it : Bool) :
    (k = some .derivs → ¬ (fc = true ∧ it = true) → ∃ xt jt c jc, m.state.attr xTrainKey = .ok xt ∧
      m.state.attr jacobianTrainKey = .ok jt ∧ m.state.attr cKey = .ok c ∧ m.state.attr jaccoefKey = .ok jc ∧
      m.predictDerivs num x jac fc it = num.predictDerivs m.state.kernel m.state.params xt jt x jac c
        (if it || fc then .none else jc) fc it) ∧
    (k ≠ some .derivs ∨ (fc = true ∧ it = true) → m.predictDerivs num x jac fc it = .error .runtimeError) := by
  have hi := reach_flags h
  have hf : m.state.attr isFittedKey = .ok (.bool (decide (k = some .targets))) := by rw [ModelState.attr, hi.fitted]
  have hd : m.state.attr isFittedDerivsKey = .ok (.bool (decide (k = some .derivs))) := by
    rw [ModelState.attr, hi.derivs]
  obtain ⟨xt, hx⟩ := attr_of_isSome hi.x
  obtain ⟨c, hc⟩ := attr_of_isSome hi.c
  constructor
  · rintro rfl hfc
    obtain ⟨jt, hjt⟩ := attr_of_arr (hi.jac rfl)
    obtain ⟨jc, hjc⟩ := attr_of_arr (hi.jaccoef rfl)
    refine ⟨xt, jt, c, jc, hx, hjt, hc, hjc, ?_⟩
    cases fc <;> cases it <;>
      simp_all [GPObj.predictDerivs, gprPredictDerivs, checkIsFitted, OptVal.truthy, bind, Except.bind, pure,
        Except.pure, throw, throwThe, MonadExceptOf.throw]
  · intro hk
    by_cases hkt : k = some .derivs
    · subst hkt
      obtain ⟨rfl, rfl⟩ := hk.resolve_left (by simp)
      simp_all [GPObj.predictDerivs, gprPredictDerivs, checkIsFitted, OptVal.truthy, bind, Except.bind, pure,
        Except.pure, throw, throwThe, MonadExceptOf.throw]
    · simp_all [GPObj.predictDerivs, gprPredictDerivs, checkIsFitted, OptVal.truthy, bind, Except.bind, pure,
        Except.pure, throw, throwThe, MonadExceptOf.throw]

/-- C42, `predict_y_derivs`: as `predict_derivs`. -/
theorem C42_predict_y_derivs {num : Numerics K M C Out} {nxt : R → R} {sample : PriorObj → R → Arr}
    {m : GPObj (ModelState K M C) O} {k : Option Kind} (h : Reach num nxt sample m k) (x : Arr) (fc it : Bool) :
    (k = some .derivs → ¬ (fc = true ∧ it = true) → ∃ xt jt c mu jc, m.state.attr xTrainKey = .ok xt ∧
      m.state.attr jacobianTrainKey = .ok jt ∧ m.state.attr cKey = .ok c ∧ m.state.attr muKey = .ok mu ∧
      m.state.attr jaccoefKey = .ok jc ∧
      m.predictYDerivs num x fc it = num.predictYDerivs m.state.kernel m.state.params xt jt x c mu
        (if it || fc then .none else jc) fc it) ∧
    (k ≠ some .derivs ∨ (fc = true ∧ it = true) → m.predictYDerivs num x fc it = .error .runtimeError) := by
  have hi := reach_flags h
  have hf : m.state.attr isFittedKey = .ok (.bool (decide (k = some .targets))) := by rw [ModelState.attr, hi.fitted]
  have hd : m.state.attr isFittedDerivsKey = .ok (.bool (decide (k = some .derivs))) := by
    rw [ModelState.attr, hi.derivs]
  obtain ⟨xt, hx⟩ := attr_of_isSome hi.x
  obtain ⟨c, hc⟩ := attr_of_isSome hi.c
  obtain ⟨mu, hmu⟩ := attr_of_isSome hi.mu
  constructor
  · rintro rfl hfc
    obtain ⟨jt, hjt⟩ := attr_of_arr (hi.jac rfl)
    obtain ⟨jc, hjc⟩ := attr_of_arr (hi.jaccoef rfl)
    refine ⟨xt, jt, c, mu, jc, hx, hjt, hc, hmu, hjc, ?_⟩
    cases fc <;> cases it <;>
      simp_all [GPObj.predictYDerivs, gprPredictYDerivs, checkIsFitted, OptVal.truthy, bind, Except.bind, pure,
        Except.pure, throw, throwThe, MonadExceptOf.throw]
  · intro hk
    by_cases hkt : k = some .derivs
    · subst hkt
      obtain ⟨rfl, rfl⟩ := hk.resolve_left (by simp)
      simp_all [GPObj.predictYDerivs, gprPredictYDerivs, checkIsFitted, OptVal.truthy, bind, Except.bind, pure,
        Except.pure, throw, throwThe, MonadExceptOf.throw]
    · simp_all [GPObj.predictYDerivs, gprPredictYDerivs, checkIsFitted, OptVal.truthy, bind, Except.bind, pure,
        Except.pure, throw, throwThe, MonadExceptOf.throw]

/-- C42, states made by hand: whatever a state holds (`state.update` and state files can set both flags), `predict`
raises `RuntimeError` when `is_fitted_derivs` is set, and `predict_derivs` and `predict_y_derivs` raise it when
`is_fitted` is set: a state that claims both fits is never used for a prediction that needs one of them. -/
theorem C42_both_flags {num : Numerics K M C Out} (s : ModelState K M C)
    (hf : s.attr isFittedKey = .ok (.bool true)) (hd : s.attr isFittedDerivsKey = .ok (.bool true)) (x jac : Arr)
    (fc it : Bool) :
    gprPredict num s x fc it = .error .runtimeError ∧ gprPredictDerivs num s x jac fc it = .error .runtimeError ∧
      gprPredictYDerivs num s x fc it = .error .runtimeError := by
  refine ⟨?_, ?_, ?_⟩
  · simp [gprPredict, hf, hd, OptVal.truthy, bind, Except.bind, pure, Except.pure, throw, throwThe,
      MonadExceptOf.throw]
  · simp [gprPredictDerivs, hf, hd, OptVal.truthy, bind, Except.bind, pure, Except.pure, throw, throwThe,
      MonadExceptOf.throw]
  · simp [gprPredictYDerivs, hf, hd, OptVal.truthy, bind, Except.bind, pure, Except.pure, throw, throwThe,
      MonadExceptOf.throw]

/-- Such a state exists: a fresh one updated with both flags. -/
example (k : K) (mf : M) (l : C) : ∃ s s' : ModelState K M C, gprInit k mf .nil l = .ok s ∧
    (s.update { opts := [(isFittedKey, .bool true), (isFittedDerivsKey, .bool true)] }).1 = .ok s' ∧
    s'.attr isFittedKey = .ok (.bool true) ∧ s'.attr isFittedDerivsKey = .ok (.bool true) :=
  ⟨_, _, rfl, rfl, rfl, rfl⟩

/-- The values Python takes for false in `if`: `None`, `False`, the number zero and an array whose only entry is zero
(a flag read back from a file is such an array). -/
def FalsyFlag (v : OptVal C) : Prop :=
  v = .none ∨ v = .bool false ∨ (∃ w, v = .number w 0) ∨ ∃ a : Arr, v = .arr a ∧ a.data = [0]

/-- The values Python takes for true: `True`, a number other than zero, an array with one entry other than zero, a
function. -/
def TruthyFlag (v : OptVal C) : Prop :=
  v = .bool true ∨ (∃ w x, v = .number w x ∧ x ≠ 0) ∨ (∃ (a : Arr) (x : ℝ), v = .arr a ∧ a.data = [x] ∧ x ≠ 0) ∨
    ∃ f, v = .callable f

theorem truthy_false {v : OptVal C} (h : FalsyFlag v) : v.truthy = .ok false := by
  rcases h with rfl | rfl | ⟨w, rfl⟩ | ⟨a, rfl, ha⟩
  · rfl
  · rfl
  · simp [OptVal.truthy]
  · simp [OptVal.truthy, ha]

theorem truthy_true {v : OptVal C} (h : TruthyFlag v) : v.truthy = .ok true := by
  rcases h with rfl | ⟨w, x, rfl, hx⟩ | ⟨a, x, rfl, ha, hx⟩ | ⟨f, rfl⟩
  · rfl
  · simp [OptVal.truthy, hx]
  · simp [OptVal.truthy, ha, hx]
  · rfl

theorem truthy_error {a : Arr} (h : a.data.length ≠ 1) : (OptVal.arr a : OptVal C).truthy = .error .valueError := by
  obtain ⟨sh, dt, data⟩ := a
  match data, h with
  | [], _ => rfl
  | [_], h => exact absurd rfl h
  | _ :: _ :: _, _ => rfl

/-- **C42**, states made by hand or read from a file: whatever kind of value the flags have, `predict` and `predict_ol`
raise `RuntimeError` when `is_fitted` is false in Python's sense, and the derivative predictions when
`is_fitted_derivs` is; an array with no or several entries raises `ValueError`; true values go on to the computation. -/
theorem C42_flag_values {num : Numerics K M C Out} (s : ModelState K M C) (f g : OptVal C)
    (hf : s.attr isFittedKey = .ok f) (hg : s.attr isFittedDerivsKey = .ok g) (x jac : Arr) (fc it : Bool) :
    (FalsyFlag f → gprPredict num s x fc it = .error .runtimeError ∧
      gprPredictOl num s x jac fc = .error .runtimeError) ∧
    (FalsyFlag g → gprPredictDerivs num s x jac fc it = .error .runtimeError ∧
      gprPredictYDerivs num s x fc it = .error .runtimeError) ∧
    (∀ a : Arr, f = .arr a → a.data.length ≠ 1 → gprPredict num s x fc it = .error .valueError ∧
      gprPredictOl num s x jac fc = .error .valueError) ∧
    (∀ a : Arr, g = .arr a → a.data.length ≠ 1 → gprPredictDerivs num s x jac fc it = .error .valueError ∧
      gprPredictYDerivs num s x fc it = .error .valueError) ∧
    ∀ xt c mu, s.attr xTrainKey = .ok xt → s.attr cKey = .ok c → s.attr muKey = .ok mu → TruthyFlag f → FalsyFlag g →
      ¬ (fc = true ∧ it = true) →
      gprPredict num s x fc it = num.predict s.kernel s.params xt x c mu fc it := by
  refine ⟨fun h => ?_, fun h => ?_, ?_, ?_, ?_⟩
  · simp [gprPredict, gprPredictOl, hf, truthy_false h, bind, Except.bind, pure, Except.pure, throw, throwThe,
      MonadExceptOf.throw]
  · simp [gprPredictDerivs, gprPredictYDerivs, hg, truthy_false h, bind, Except.bind, pure, Except.pure, throw,
      throwThe, MonadExceptOf.throw]
  · rintro a rfl h
    simp [gprPredict, gprPredictOl, hf, truthy_error h, bind, Except.bind]
  · rintro a rfl h
    simp [gprPredictDerivs, gprPredictYDerivs, hg, truthy_error h, bind, Except.bind]
  · intro xt c mu hx hc hm h1 h2 h3
    cases fc <;> cases it <;> simp_all [gprPredict, truthy_true h1, truthy_false h2, bind, Except.bind, pure,
      Except.pure]

/-- Such states exist, with every kind of flag: a fresh state updated with `is_fitted=None` and
`is_fitted_derivs=jnp.zeros(2)`, and one with `is_fitted=1.0`. -/
example (k : K) (mf : M) (l : C) (dt : Key) : ∃ s s' s'' : ModelState K M C, gprInit k mf .nil l = .ok s ∧
    (s.update { opts := [(isFittedKey, .none), (isFittedDerivsKey, .arr ⟨[2], dt, [0, 0]⟩)] }).1 = .ok s' ∧
    (s.update { opts := [(isFittedKey, .number dt 1)] }).1 = .ok s'' ∧
    s'.attr isFittedKey = .ok .none ∧ s'.attr isFittedDerivsKey = .ok (.arr ⟨[2], dt, [0, 0]⟩) ∧
    ∃ f, s''.attr isFittedKey = .ok f ∧ TruthyFlag f :=
  ⟨_, _, _, rfl, rfl, rfl, rfl, rfl, .arr ⟨[], dt, [1]⟩, rfl, Or.inr (Or.inr (Or.inl ⟨_, 1, rfl, rfl, one_ne_zero⟩))⟩

/-- C42, `predict_ol`: as `predict`. -/
theorem C42_predict_ol {num : Numerics K M C Out} {nxt : R → R} {sample : PriorObj → R → Arr}
    {m : GPObj (ModelState K M C) O} {k : Option Kind} (h : Reach num nxt sample m k) (x jac : Arr) (fc : Bool) :
    (k = some .targets → ∃ xt c mu, m.state.attr xTrainKey = .ok xt ∧
      m.state.attr cKey = .ok c ∧ m.state.attr muKey = .ok mu ∧
      m.predictOl num x jac fc = num.predictOl m.state.kernel m.state.params xt x jac c mu fc) ∧
    (k ≠ some .targets → m.predictOl num x jac fc = .error .runtimeError) := by
  have hi := reach_flags h
  have hf : m.state.attr isFittedKey = .ok (.bool (decide (k = some .targets))) := by rw [ModelState.attr, hi.fitted]
  obtain ⟨xt, hx⟩ := attr_of_isSome hi.x
  obtain ⟨c, hc⟩ := attr_of_isSome hi.c
  obtain ⟨mu, hmu⟩ := attr_of_isSome hi.mu
  constructor
  · rintro rfl
    refine ⟨xt, c, mu, hx, hc, hmu, ?_⟩
    simp_all [GPObj.predictOl, gprPredictOl, checkIsFitted, OptVal.truthy, bind, Except.bind, pure, Except.pure, throw,
        throwThe, MonadExceptOf.throw]
  · intro hk
    simp_all [GPObj.predictOl, gprPredictOl, checkIsFitted, OptVal.truthy, bind, Except.bind, pure, Except.pure, throw,
        throwThe, MonadExceptOf.throw]

/-! ### C43 -/

/-- C43, full statement: for every model class, the fitting methods get as far as running the linear fit, and return
what it returns. -/
def C43_full : Prop :=
  ∀ cls : FitFuns, cls ∈ [gprFuns, sgprFuns, sgprRpcholFuns] →
    ∀ (body : ModelState Unit Unit Unit → Except Err (ModelState Unit Unit Unit)) (s : ModelState Unit Unit Unit),
      callFit cls body s = body s ∧ callFitDerivs cls body s = body s ∧ callFitNlopt cls body s = body s

/-- The calls made by `BaseGP.fit` and `BaseGP.fit_derivs` to the functions of the sparse models raise `TypeError`,
whatever the data, because these functions have no arguments `n_pivots` and `key_precond`. -/
theorem C43_sgpr_call_raises (body : ModelState K M C → Except Err (ModelState K M C)) (s : ModelState K M C) :
    callFit sgprFuns body s = .error .typeError ∧ callFitDerivs sgprFuns body s = .error .typeError ∧
    callFit sgprRpcholFuns body s = .error .typeError ∧ callFitDerivs sgprRpcholFuns body s = .error .typeError ∧
    callFitOl sgprFuns body s = .error .attributeError ∧ callFitOl sgprRpcholFuns body s = .error .attributeError :=
  ⟨rfl, rfl, rfl, rfl, rfl, rfl⟩

theorem baseFit_error {S : Type} (minim : W → S → Except Err (S × O) × W) (randomize : R → S → Except Err S)
    (loss : S → ℝ) (nxt : R → R) (fitFun : S → Except Err S) (hf : ∀ s, ∃ e, fitFun s = .error e) (m : GPObj S O)
    (minimize : Bool) (n : ℕ) (key : Option R) (rh : Bool) (w : W) :
    ∃ e, (baseFit minim randomize loss nxt fitFun m minimize n key rh w).1 = .error e := by
  unfold baseFit
  cases minimize with
  | false =>
    obtain ⟨e, he⟩ := hf m.state
    exact ⟨e, by simp [he]⟩
  | true =>
    simp only [if_true]
    rcases randomizedMinimization minim randomize loss nxt key m.state n rh w with ⟨⟨e⟩ | ⟨s, o, h⟩, w'⟩
    · exact ⟨e, rfl⟩
    · obtain ⟨e, he⟩ := hf s
      exact ⟨e, by simp [he]⟩

/-- C43 fails for the sparse models: `fit`, `fit_derivs` and `fit_ol` of SGPR and of SGPR_RPChol raise for every
minimiser, loss, data, number of restarts and key, whether or not the hyperparameters are to be optimised. -/
theorem C43_sgpr_fit_raises (minim : W → ModelState K M C → Except Err (ModelState K M C × O) × W)
    (randomize : R → ModelState K M C → Except Err (ModelState K M C)) (loss : ModelState K M C → ℝ) (nxt : R → R)
    (body : ModelState K M C → Except Err (ModelState K M C)) (m : GPObj (ModelState K M C) O) (minimize : Bool)
    (n : ℕ) (key : Option R) (rh : Bool) (w : W) :
    ∀ cls ∈ [sgprFuns, sgprRpcholFuns], ∀ call ∈ [callFit cls body, callFitDerivs cls body, callFitOl cls body],
      ∃ e, (baseFit minim randomize loss nxt call m minimize n key rh w).1 = .error e := by
  intro cls hc call hcall
  apply baseFit_error
  intro s
  obtain ⟨h1, h2, h3, h4, h5, h6⟩ := C43_sgpr_call_raises body s
  simp only [List.mem_cons, List.not_mem_nil, or_false] at hc hcall
  rcases hc with rfl | rfl <;> rcases hcall with rfl | rfl | rfl <;> exact ⟨_, by assumption⟩

theorem C43_false : ¬ C43_full := by
  intro h
  have h1 := (h sgprFuns (by simp) (fun s => .ok s) ⟨(), (), .nil, []⟩).1
  rw [(C43_sgpr_call_raises _ _).1] at h1
  cases h1

/-- `RBFNet.fit` never returns: the call of `randomized_minimization` lacks the argument `loss_fn`. -/
theorem C43_rbfnet_fit_raises (rest : ModelState K M C → Except Err (ModelState K M C)) (s : ModelState K M C) :
    ∃ e, (rbfnetFit rest s).1 = .error e := by
  unfold rbfnetFit
  rcases (s.update { opts := [("k_mean".toList, OptVal.none)] }).1 with e | s1
  · exact ⟨e, rfl⟩
  · exact ⟨.typeError, rfl⟩

/-- C43, what holds: `fit`, `fit_derivs`, `fit_ol` and `fit_nlopt` of GPR, and `fit_nlopt` of the sparse models, run
the linear fit. -/
theorem C43_fit_partial (body : ModelState K M C → Except Err (ModelState K M C)) (s : ModelState K M C) :
    callFit gprFuns body s = body s ∧ callFitDerivs gprFuns body s = body s ∧ callFitOl gprFuns body s = body s ∧
    callFitNlopt gprFuns body s = body s ∧ callFitNlopt sgprFuns body s = body s ∧
    callFitNlopt sgprRpcholFuns body s = body s :=
  ⟨rfl, rfl, rfl, rfl, rfl, rfl⟩

/-! ### C69 -/

/-- The stored coefficients are what the linear fit gives for the stored training data at the current
hyperparameters. -/
def Coherent (num : Numerics K M C Out) (s : ModelState K M C) : Kind → Prop
  | .targets => ∃ x y c mu, s.attr xTrainKey = .ok (.arr x) ∧ s.attr yTrainKey = .ok (.arr y) ∧
      s.attr cKey = .ok (.arr c) ∧ s.attr muKey = .ok mu.norm ∧
      ((∃ it np, num.fit s.kernel s.meanFn s.params x y it np = .ok (c, mu)) ∨
        ∃ yd j, s.attr yDerivsTrainKey = .ok (.arr yd) ∧ s.attr jacobianTrainKey = .ok (.arr j) ∧
          num.fitOl s.kernel s.meanFn s.params x y yd j = .ok (c, mu))
  | .derivs => ∃ x y j c mu jc it np, s.attr xTrainKey = .ok (.arr x) ∧ s.attr yTrainKey = .ok (.arr y) ∧
      s.attr jacobianTrainKey = .ok (.arr j) ∧ s.attr jaccoefKey = .ok (.arr jc) ∧ s.attr cKey = .ok (.arr c) ∧
      s.attr muKey = .ok mu.norm ∧ num.fitDerivs s.kernel s.params x y j it np = .ok (c, mu) ∧
      num.jaccoef c j = .ok jc

/-- C69, full statement: after every history, a model that reports being fitted has the coefficients of its own
hyperparameters and data. False of the code, see `C69_false`. -/
def C69_full : Prop :=
  ∀ (num : Numerics Unit Unit Unit Unit) (nxt : Unit → Unit) (sample : PriorObj → Unit → Arr)
    (m : GPObj (ModelState Unit Unit Unit) Unit) (k : Kind), Reach num nxt sample m (some k) →
    Coherent num m.state k

theorem attr_update {s r : ModelState K M C} {u : StateUpdate K M C} (h : (s.update u).1 = .ok r)
    (hn : (u.opts.map Prod.fst).Nodup) {k : Key} {v : OptVal C} (hv : assocGet k u.opts = some v) :
    r.attr k = .ok v.norm := by
  rw [ModelState.attr, get_update h hn, hv]
  rfl

theorem params_update {s r : ModelState K M C} {u : StateUpdate K M C} (h : (s.update u).1 = .ok r)
    (hu : u.params = none) (hk : u.kernel = none) (hm : u.meanFn = none) (hs : s.params.sortKeys = s.params) :
    r.params = s.params ∧ r.kernel = s.kernel ∧ r.meanFn = s.meanFn := by
  rw [ModelState.update_eq h]
  simp [hu, hk, hm, hs]

theorem attr_arr {s r : ModelState K M C} {u : StateUpdate K M C} (h : (s.update u).1 = .ok r)
    (hn : (u.opts.map Prod.fst).Nodup) {k : Key} {a : Arr} (hv : assocGet k u.opts = some (.arr a)) :
    r.attr k = .ok (.arr a) := attr_update h hn hv

theorem fitCall_coherent {num : Numerics K M C Out} {kind : Kind}
    {f : ModelState K M C → Except Err (ModelState K M C)} (hf : FitCall num kind f) {s s' : ModelState K M C}
    (hso : s.params.sortKeys = s.params) (h : f s = .ok s') : Coherent num s' kind := by
  cases hf with
  | fit x y it np =>
    simp only [callFit, gprFit, bind, Except.bind] at h
    rw [show gprFuns.fit.bind 1 _ = .ok () from rfl] at h
    simp only at h
    rcases hn : num.fit s.kernel s.meanFn s.params x y it np with e | r
    · rw [hn] at h; cases h
    rw [hn] at h
    simp only at h
    obtain ⟨e1, e2, e3⟩ := params_update h rfl rfl rfl hso
    exact ⟨x, y, r.1, r.2, attr_arr h nodup_fit rfl, attr_arr h nodup_fit rfl, attr_arr h nodup_fit rfl,
      attr_update h nodup_fit rfl, .inl ⟨it, np, by rw [e1, e2, e3, hn]⟩⟩
  | fitNlopt x y it =>
    simp only [callFitNlopt, gprFit, bind, Except.bind] at h
    rw [show gprFuns.fit.bind 1 _ = .ok () from rfl] at h
    simp only at h
    rcases hn : num.fit s.kernel s.meanFn s.params x y it none with e | r
    · rw [hn] at h; cases h
    rw [hn] at h
    simp only at h
    obtain ⟨e1, e2, e3⟩ := params_update h rfl rfl rfl hso
    exact ⟨x, y, r.1, r.2, attr_arr h nodup_fit rfl, attr_arr h nodup_fit rfl, attr_arr h nodup_fit rfl,
      attr_update h nodup_fit rfl, .inl ⟨it, none, by rw [e1, e2, e3, hn]⟩⟩
  | fitOl x y yd j =>
    simp only [callFitOl, gprFitOl, gprFuns, bind, Except.bind] at h
    rw [show (sig ["state", "x", "y", "y_derivs", "jacobian"] []).bind 1 _ = .ok () from rfl] at h
    simp only at h
    rcases hn : num.fitOl s.kernel s.meanFn s.params x y yd j with e | r
    · rw [hn] at h; cases h
    rw [hn] at h
    simp only at h
    obtain ⟨e1, e2, e3⟩ := params_update h rfl rfl rfl hso
    exact ⟨x, y, r.1, r.2, attr_arr h nodup_ol rfl, attr_arr h nodup_ol rfl, attr_arr h nodup_ol rfl,
      attr_update h nodup_ol rfl, .inr ⟨yd, j, attr_arr h nodup_ol rfl, attr_arr h nodup_ol rfl,
        by rw [e1, e2, e3, hn]⟩⟩
  | fitDerivs x y j it np =>
    simp only [callFitDerivs, gprFitDerivs, bind, Except.bind] at h
    rw [show gprFuns.fitDerivs.bind 1 _ = .ok () from rfl] at h
    simp only at h
    rcases hn : num.fitDerivs s.kernel s.params x y j it np with e | r
    · rw [hn] at h; cases h
    rw [hn] at h
    simp only at h
    rcases hj : num.jaccoef r.1 j with e | jc
    · rw [hj] at h; cases h
    rw [hj] at h
    simp only at h
    obtain ⟨e1, e2, e3⟩ := params_update h rfl rfl rfl hso
    exact ⟨x, y, j, r.1, r.2, jc, it, np, attr_arr h nodup_derivs rfl, attr_arr h nodup_derivs rfl,
      attr_arr h nodup_derivs rfl, attr_arr h nodup_derivs rfl, attr_arr h nodup_derivs rfl,
      attr_update h nodup_derivs rfl, by rw [e1, e2, hn], hj⟩

theorem sorted_of_update {s r : ModelState K M C} {u : StateUpdate K M C} (h : (s.update u).1 = .ok r) :
    r.params.sortKeys = r.params := by
  rw [ModelState.update_eq h]
  exact Dict.sortKeys_idem _

theorem fitCall_sorted {num : Numerics K M C Out} {kind : Kind} {f : ModelState K M C → Except Err (ModelState K M C)}
    (hf : FitCall num kind f) {s s' : ModelState K M C} (h : f s = .ok s') :
    s'.params.sortKeys = s'.params := by
  cases hf with
  | fit x y it np =>
    simp only [callFit, gprFit, bind, Except.bind] at h
    rw [show gprFuns.fit.bind 1 _ = .ok () from rfl] at h
    simp only at h
    rcases hn : num.fit s.kernel s.meanFn s.params x y it np with e | r
    · rw [hn] at h; cases h
    rw [hn] at h
    exact sorted_of_update h
  | fitNlopt x y it =>
    simp only [callFitNlopt, gprFit, bind, Except.bind] at h
    rw [show gprFuns.fit.bind 1 _ = .ok () from rfl] at h
    simp only at h
    rcases hn : num.fit s.kernel s.meanFn s.params x y it none with e | r
    · rw [hn] at h; cases h
    rw [hn] at h
    exact sorted_of_update h
  | fitOl x y yd j =>
    simp only [callFitOl, gprFitOl, gprFuns, bind, Except.bind] at h
    rw [show (sig ["state", "x", "y", "y_derivs", "jacobian"] []).bind 1 _ = .ok () from rfl] at h
    simp only at h
    rcases hn : num.fitOl s.kernel s.meanFn s.params x y yd j with e | r
    · rw [hn] at h; cases h
    rw [hn] at h
    exact sorted_of_update h
  | fitDerivs x y j it np =>
    simp only [callFitDerivs, gprFitDerivs, bind, Except.bind] at h
    rw [show gprFuns.fitDerivs.bind 1 _ = .ok () from rfl] at h
    simp only at h
    rcases hn : num.fitDerivs s.kernel s.params x y j it np with e | r
    · rw [hn] at h; cases h
    rw [hn] at h
    simp only at h
    rcases hj : num.jaccoef r.1 j with e | jc
    · rw [hj] at h; cases h
    rw [hj] at h
    exact sorted_of_update h

theorem reach_sorted {num : Numerics K M C Out} {nxt : R → R} {sample : PriorObj → R → Arr}
    {m : GPObj (ModelState K M C) O} {k : Option Kind} (h : Reach num nxt sample m k) :
    m.state.params.sortKeys = m.state.params := by
  induction h with
  | init h =>
    rw [ModelState.new_eq h]
    exact Dict.sortKeys_idem _
  | fit h hf minim hk loss minimize n key rh w w' hr ih =>
    rcases baseFit_cases hk hr with ⟨-, ⟨e, he⟩, -⟩ | ⟨s1, -, h2, -⟩
    · cases he
    · exact fitCall_sorted hf h2
  | fitRaises h hf minim hk loss minimize n key rh w w' hnh hr ih =>
    rcases baseFit_cases hk hr with ⟨h1, -, -⟩ | ⟨s1, -, h2, -, h3⟩
    · exact h1.sorted ih
    · exact fitCall_sorted hf h2
  | fitNoHistory h hf minim loss n key w w' hs hr ih =>
    simp only [baseFit, Bool.false_eq_true, if_false, hs, if_true, Prod.mk.injEq] at hr
    obtain ⟨-, rfl, -⟩ := hr
    exact fitCall_sorted hf hs
  | fitNoHistoryRaises h hf minim loss n key w w' hs hr ih =>
    simp only [baseFit, Bool.false_eq_true, if_false, hs, Prod.mk.injEq] at hr
    obtain ⟨-, rfl, -⟩ := hr
    exact ih
  | @randomize m m' k h key reset hr ih =>
    unfold GPObj.randomize at hr
    rcases hs : m.state.randomize nxt sample key (if reset then gprInitDefault else []) with e | s
    · rw [hs] at hr; cases hr
    rw [hs] at hr
    cases hr
    unfold ModelState.randomize at hs
    rcases h1 : (m.state.update {}).1 with e | s1
    · rw [h1] at hs; cases hs
    rw [h1] at hs
    simp only [bind, Except.bind] at hs
    rcases h2 : rebuildParams s1.params (randomizeLoop nxt sample s1.params.treeLeaves key).1 with e | p
    · rw [h2] at hs; cases hs
    rw [h2] at hs
    exact sorted_of_update hs
  | @load m m2 m' k k2 h h2 hs hd hp file hf hl ih ih2 =>
    unfold GPObj.load at hl
    rcases hr : m.state.load file with e | r
    · rw [hr] at hl; cases hl
    rw [hr] at hl
    cases hl
    unfold ModelState.load at hr
    split at hr
    · cases hr
    split at hr
    · cases hr
    split_ifs at hr
    simp only [bind, Except.bind] at hr
    split at hr
    · cases hr
    split at hr
    · cases hr
    split at hr
    · cases hr
    exact sorted_of_update hr

/-- Histories that end with a fitting call that took place, possibly followed by fitting calls that raise in the linear
fit without having optimised the hyperparameters. -/
inductive FreshlyFitted (num : Numerics K M C Out) (nxt : R → R) (sample : PriorObj → R → Arr) :
    GPObj (ModelState K M C) O → Kind → Prop
  | fit {m m' : GPObj (ModelState K M C) O} {k : Option Kind} (h : Reach num nxt sample m k)
      {kind : Kind} {f : ModelState K M C → Except Err (ModelState K M C)} (hf : FitCall num kind f)
      {W : Type} (minim : W → ModelState K M C → Except Err (ModelState K M C × O) × W) (hk : KeepsState minim)
      (loss : ModelState K M C → ℝ) (minimize : Bool) (n : ℕ) (key : Option R) (rh : Bool) (w w' : W)
      (hr : baseFit minim (fun k s => s.randomize nxt sample k []) loss nxt f m minimize n key rh w =
        (.ok (), m', w')) : FreshlyFitted num nxt sample m' kind
  | fitRaises {m m' : GPObj (ModelState K M C) O} {k : Kind} (h : FreshlyFitted num nxt sample m k)
      {kind : Kind} {f : ModelState K M C → Except Err (ModelState K M C)} (_hf : FitCall num kind f)
      {W : Type} (minim : W → ModelState K M C → Except Err (ModelState K M C × O) × W) (hk : KeepsState minim)
      (loss : ModelState K M C → ℝ) (n : ℕ) (key : Option R) (w w' : W) {e : Err}
      (hr : baseFit minim (fun k s => s.randomize nxt sample k []) loss nxt f m false n key false w =
        (.error e, m', w')) : FreshlyFitted num nxt sample m' k

/-- C69, what holds: right after a fitting call (with or without optimisation and restarts, from any earlier history),
and as long as later calls only raise in the linear fit, the coefficients are those of the model's own hyperparameters
and stored data. Missing: `randomize(reset=False)`, loading a file, and a fit that raises after having optimised the
hyperparameters. -/
theorem C69_fresh_partial {num : Numerics K M C Out} {nxt : R → R} {sample : PriorObj → R → Arr}
    {m : GPObj (ModelState K M C) O} {k : Kind} (h : FreshlyFitted num nxt sample m k) :
    Coherent num m.state k := by
  induction h with
  | fit h hf minim hk loss minimize n key rh w w' hr =>
    rcases baseFit_cases hk hr with ⟨-, ⟨e, he⟩, -⟩ | ⟨s1, hsame, h2, -⟩
    · cases he
    · exact fitCall_coherent hf (hsame.sorted (reach_sorted h)) h2
  | fitRaises h hf minim hk loss n key w w' hr ih =>
    rcases baseFit_cases hk hr with ⟨-, -, h1⟩ | ⟨s1, -, -, -, h3⟩
    · rw [h1 rfl]; exact ih
    · rcases h3 with h3 | ⟨h3, -⟩ <;> cases h3

/-- A parameter with an identity bijector. -/
noncomputable def exId : Param := ⟨⟨[], ['f'], [1]⟩, true, .identity, ⟨.normal 0 1, [], ['f']⟩⟩

/-- Numerical functions of a toy model: the coefficients are the values of the hyperparameters. -/
noncomputable def exNum : Numerics Unit Unit Unit Unit where
  fit _ _ p _ _ _ _ := .ok (⟨[], ['f'], p.treeLeaves.flatMap (fun p => p.value.data)⟩, .none)
  fitDerivs _ p _ _ _ _ _ := .ok (⟨[], ['f'], p.treeLeaves.flatMap (fun p => p.value.data)⟩, .none)
  jaccoef c _ := .ok c
  fitOl _ _ _ _ _ _ _ := .error .valueError
  predict _ _ _ _ _ _ _ _ := .ok ()
  predictDerivs _ _ _ _ _ _ _ _ _ _ := .ok ()
  predictYDerivs _ _ _ _ _ _ _ _ _ _ := .ok ()
  predictOl _ _ _ _ _ _ _ _ := .ok ()

noncomputable def exArr : Arr := ⟨[1], ['f'], [7]⟩
noncomputable def exDraw : Arr := ⟨[], ['f'], [2]⟩

noncomputable def exFresh : ModelState Unit Unit Unit :=
  ⟨(), (), .leaf "sigma".toList exId .nil, [(xTrainKey, .none), (yTrainKey, .none), (lossFnKey, .callable ()),
    (isFittedKey, .bool false), (isFittedDerivsKey, .bool false), (cKey, .none), (muKey, .none)]⟩

noncomputable def exFitted (sigma : ℝ) : ModelState Unit Unit Unit :=
  ⟨(), (), .leaf "sigma".toList { exId with value := ⟨[], ['f'], [sigma]⟩ } .nil,
    [(xTrainKey, .arr exArr), (yTrainKey, .arr exArr), (lossFnKey, .callable ()),
    (isFittedKey, .bool true), (isFittedDerivsKey, .bool false), (cKey, .arr ⟨[], ['f'], [1]⟩), (muKey, .none)]⟩

theorem exFresh_reach : Reach (O := Unit) exNum (fun _ : Unit => ()) (fun _ _ => exDraw) { state := exFresh } none :=
  .init (kernel := ()) (meanFn := ()) (params := .leaf "sigma".toList exId .nil) (lossFn := ()) rfl

theorem exFitted_fresh :
    FreshlyFitted (O := Unit) exNum (fun _ : Unit => ()) (fun _ _ => exDraw) { state := exFitted 1 } .targets :=
  .fit exFresh_reach (.fit exArr exArr false none) (W := Unit) (fun _ s => (.ok (s, ()), ()))
    (fun _ _ _ _ _ h => by cases h; exact SameBut.refl _) (fun _ => 0) false 0 none false () () rfl

theorem exFitted_reach :
    Reach (O := Unit) exNum (fun _ : Unit => ()) (fun _ _ => exDraw) { state := exFitted 1 } (some .targets) :=
  .fit exFresh_reach (.fit exArr exArr false none) (W := Unit) (fun _ s => (.ok (s, ()), ()))
    (fun _ _ _ _ _ h => by cases h; exact SameBut.refl _) (fun _ => 0) false 0 none false () () rfl

theorem exRandomized_reach :
    Reach (O := Unit) exNum (fun _ : Unit => ()) (fun _ _ => exDraw) { state := exFitted 2 } (some .targets) :=
  .randomize exFitted_reach () false rfl

/-- C69 is false of the code: `randomize(reset=False)` on a fitted model gives a model that reports being fitted, and
predicts, with the coefficients of the old hyperparameters. -/
theorem C69_false : ¬ C69_full := by
  intro h
  obtain ⟨x, y, c, mu, -, -, h3, -, h5⟩ := h _ _ _ _ _ exRandomized_reach
  have hc : c = ⟨[], ['f'], [1]⟩ := by cases h3; rfl
  rcases h5 with ⟨it, np, h5⟩ | ⟨yd, j, -, -, h5⟩
  · have h6 : (⟨[], ['f'], [2]⟩ : Arr) = c := by
      have : exNum.fit () () (exFitted 2).params x y it np = .ok (⟨[], ['f'], [2]⟩, .none) := rfl
      rw [show (exFitted 2).kernel = () from rfl, show (exFitted 2).meanFn = () from rfl] at h5
      rw [this] at h5
      cases h5
      rfl
    rw [hc] at h6
    simp at h6
  · cases h5

/-- Histories meeting the hypotheses of C42: a model fitted on targets, then on derivatives, then a failing `fit_ol`. -/
example : ∃ s : ModelState Unit Unit Unit,
    Reach (O := Unit) exNum (fun _ : Unit => ()) (fun _ _ => exDraw) { state := s } (some .derivs) :=
  ⟨_, .fitRaises (.fit exFitted_reach (.fitDerivs exArr exArr exArr false none) (W := Unit)
      (fun _ s => (.ok (s, ()), ())) (fun _ _ _ _ _ h => by cases h; exact SameBut.refl _) (fun _ => 0) false 0 none
      false () () rfl)
    (.fitOl exArr exArr exArr exArr) (W := Unit)
      (fun _ s => (.ok (s, ()), ())) (fun _ _ _ _ _ h => by cases h; exact SameBut.refl _) (fun _ => 0) false 0 none
      false () () (by simp) rfl⟩

/-- A minimiser of the library meets the hypothesis on minimisers. -/
example (solve : (List ℝ → Except Err ℝ) → List ℝ → Except Err (List ℝ × O))
    (lossFn : ModelState K M C → Except Err ℝ) :
    KeepsState (W := Unit) (fun _ s => (scipyMinimize solve lossFn s, ())) :=
  fun _ _ _ _ _ h => scipyMinimize_keeps solve lossFn (Prod.mk.inj h).1

end GPX.Props
