import Verif.Model.Getters
import Verif.Props.API

/-!
# C135: the training data a model shows
-/

namespace GPX.Props
open GPX GPX.Spec

variable {K M C O W R Out : Type}

/-- The data of one fit: inputs, targets, and the Jacobian for the methods that take one. -/
structure FitData where
  x : Arr
  y : Arr
  jacobian : Option Arr

/-- The fitting methods of the GPR class, with the data they are given. -/
inductive DataCall (num : Numerics K M C Out) : FitData → (ModelState K M C → Except Err (ModelState K M C)) → Prop
  | fit (x y : Arr) (iterative : Bool) (nPivots : Option ℕ) :
      DataCall num ⟨x, y, none⟩ (callFit gprFuns (gprFit num x y iterative nPivots))
  | fitNlopt (x y : Arr) (iterative : Bool) :
      DataCall num ⟨x, y, none⟩ (callFitNlopt gprFuns (gprFit num x y iterative none))
  | fitOl (x y yDerivs jacobian : Arr) :
      DataCall num ⟨x, y, some jacobian⟩ (callFitOl gprFuns (gprFitOl num x y yDerivs jacobian))
  | fitDerivs (x y jacobian : Arr) (iterative : Bool) (nPivots : Option ℕ) :
      DataCall num ⟨x, y, some jacobian⟩ (callFitDerivs gprFuns (gprFitDerivs num x y jacobian iterative nPivots))

/-- What the user remembers of a history: the data of the last fit, the Jacobian of the last fit that took one, and
whether the model was reset since the last fit. -/
structure Memory where
  last : Option FitData := none
  jacobian : Option Arr := none
  reset : Bool := true

/-- What the user remembers after one more fit. -/
def Memory.note (b : Memory) (d : FitData) : Memory := ⟨some d, d.jacobian.or b.jacobian, false⟩

/-- Histories of a GPR object, with what the user remembers: construction, fitting calls that take place or raise,
randomization with and without reset, and loading a file that another object wrote. A call with `return_history=True`
and `minimize=False` fits and then raises (property C56). The minimiser is any function that only changes
parameters. -/
inductive Remembered (num : Numerics K M C Out) (nxt : R → R) (sample : PriorObj → R → Arr) :
    GPObj (ModelState K M C) O → Memory → Prop
  | init {kernel : K} {meanFn : M} {params : Dict Param} {lossFn : C} {s : ModelState K M C}
      (h : gprInit kernel meanFn params lossFn = .ok s) : Remembered num nxt sample { state := s } {}
  | fit {m m' : GPObj (ModelState K M C) O} {b : Memory} (h : Remembered num nxt sample m b)
      {d : FitData} {f : ModelState K M C → Except Err (ModelState K M C)} (hf : DataCall num d f)
      {W : Type} (minim : W → ModelState K M C → Except Err (ModelState K M C × O) × W) (hk : KeepsState minim)
      (loss : ModelState K M C → ℝ) (minimize : Bool) (n : ℕ) (key : Option R) (rh : Bool) (w w' : W)
      (hr : baseFit minim (fun k s => s.randomize nxt sample k []) loss nxt f m minimize n key rh w =
        (.ok (), m', w')) : Remembered num nxt sample m' (b.note d)
  | fitRaises {m m' : GPObj (ModelState K M C) O} {b : Memory} (h : Remembered num nxt sample m b)
      {d : FitData} {f : ModelState K M C → Except Err (ModelState K M C)} (hf : DataCall num d f)
      {W : Type} (minim : W → ModelState K M C → Except Err (ModelState K M C × O) × W) (hk : KeepsState minim)
      (loss : ModelState K M C → ℝ) (minimize : Bool) (n : ℕ) (key : Option R) (rh : Bool) (w w' : W) {e : Err}
      (hnh : ¬ (rh = true ∧ minimize = false))
      (hr : baseFit minim (fun k s => s.randomize nxt sample k []) loss nxt f m minimize n key rh w =
        (.error e, m', w')) : Remembered num nxt sample m' b
  | fitNoHistory {m m' : GPObj (ModelState K M C) O} {b : Memory} (h : Remembered num nxt sample m b)
      {d : FitData} {f : ModelState K M C → Except Err (ModelState K M C)} (hf : DataCall num d f)
      {W : Type} (minim : W → ModelState K M C → Except Err (ModelState K M C × O) × W)
      (loss : ModelState K M C → ℝ) (n : ℕ) (key : Option R) (w w' : W) {e : Err} {s : ModelState K M C}
      (hs : f m.state = .ok s)
      (hr : baseFit minim (fun k s => s.randomize nxt sample k []) loss nxt f m false n key true w =
        (.error e, m', w')) : Remembered num nxt sample m' (b.note d)
  | fitNoHistoryRaises {m m' : GPObj (ModelState K M C) O} {b : Memory} (h : Remembered num nxt sample m b)
      {d : FitData} {f : ModelState K M C → Except Err (ModelState K M C)} (hf : DataCall num d f)
      {W : Type} (minim : W → ModelState K M C → Except Err (ModelState K M C × O) × W)
      (loss : ModelState K M C → ℝ) (n : ℕ) (key : Option R) (w w' : W) {e e' : Err}
      (hs : f m.state = .error e')
      (hr : baseFit minim (fun k s => s.randomize nxt sample k []) loss nxt f m false n key true w =
        (.error e, m', w')) : Remembered num nxt sample m' b
  | randomize {m m' : GPObj (ModelState K M C) O} {b : Memory} (h : Remembered num nxt sample m b) (key : R)
      (reset : Bool) (hr : m.randomize nxt sample gprInitDefault key reset = .ok m') :
      Remembered num nxt sample m' { b with reset := b.reset || reset }
  | load {m m2 m' : GPObj (ModelState K M C) O} {b b2 : Memory} (h : Remembered num nxt sample m b)
      (h2 : Remembered num nxt sample m2 b2) (hs : Saveable m2.state) (hd : m.state.params.KeysDistinct)
      (hp : AtEveryPath (fun p q => p.value.shape = q.prior.shape ∧ p.value.dtype = q.prior.dtype)
        m2.state.params m.state.params) {file : List (Key × Dumped)} (hf : m2.state.save = .ok file)
      (hl : m.load file = .ok m') :
      Remembered num nxt sample m' { b2 with jacobian := b2.jacobian.or b.jacobian }

/-- Reading the attribute gives the array `a`. -/
def ShowsArr (r : Except Err (OptVal C)) (a : Arr) : Prop := ∃ v, r = .ok v ∧ v.norm = .arr a

/-- Reading the attribute gives `None`. -/
def ShowsNone (r : Except Err (OptVal C)) : Prop := r = .ok .none

/-- The attributes show exactly this fit. -/
structure ShowsFit (m : GPObj (ModelState K M C) O) (d : FitData) : Prop where
  x : ShowsArr m.shownX d.x
  y : ShowsArr m.shownY d.y
  jacobian : ∀ j, d.jacobian = some j → ShowsArr m.shownJacobian j
  noJacobian : d.jacobian = none → ∀ j, ¬ ShowsArr m.shownJacobian j

/-- C135, full statement: after every history the data a model shows are those of its last fit. False of the code, see
`C135_false`. -/
def C135_full : Prop :=
  ∀ (num : Numerics Unit Unit Unit Unit) (nxt : Unit → Unit) (sample : PriorObj → Unit → Arr)
    (m : GPObj (ModelState Unit Unit Unit) Unit) (b : Memory) (d : FitData), Remembered num nxt sample m b →
    b.last = some d → ShowsFit m d

/-- The stored options that go with what the user remembers. -/
structure DataInv (s : ModelState K M C) (b : Memory) : Prop where
  x : (assocGet xTrainKey s.opts).map OptVal.norm = some (match b.last with | some d => .arr d.x | none => .none)
  y : (assocGet yTrainKey s.opts).map OptVal.norm = some (match b.last with | some d => .arr d.y | none => .none)
  jac : (assocGet jacobianTrainKey s.opts).map OptVal.norm = b.jacobian.map .arr
  c : b.reset = true → (assocGet cKey s.opts).map OptVal.norm = some .none
  mu : b.reset = true → (assocGet muKey s.opts).map OptVal.norm = some .none
  c' : b.reset = false → ∃ a, (assocGet cKey s.opts).map OptVal.norm = some (.arr a)
  unfit : b.last = none → b.reset = true

theorem DataInv.of_opts {s s' : ModelState K M C} {b : Memory} (h : DataInv s b)
    (hs : ∀ k, (assocGet k s'.opts).map OptVal.norm = (assocGet k s.opts).map OptVal.norm) : DataInv s' b :=
  ⟨by rw [hs, h.x], by rw [hs, h.y], by rw [hs, h.jac], fun hb => by rw [hs, h.c hb], fun hb => by rw [hs, h.mu hb],
    fun hb => by rw [hs]; exact h.c' hb, h.unfit⟩

theorem norm_norm (o : Option (OptVal C)) : (o.map OptVal.norm).map OptVal.norm = o.map OptVal.norm := by
  rcases o with _ | v
  · rfl
  · cases v <;> rfl

theorem dataCall_ok {num : Numerics K M C Out} {d : FitData} {f : ModelState K M C → Except Err (ModelState K M C)}
    (hf : DataCall num d f) {s s' : ModelState K M C} {b : Memory}
    (hj : (assocGet jacobianTrainKey s.opts).map OptVal.norm = b.jacobian.map .arr) (h : f s = .ok s') :
    DataInv s' (b.note d) := by
  cases hf with
  | fit x y it np =>
    simp only [callFit, gprFit, bind, Except.bind] at h
    rw [show gprFuns.fit.bind 1 _ = .ok () from rfl] at h
    simp only at h
    rcases hn : num.fit s.kernel s.meanFn s.params x y it np with e | r
    · rw [hn] at h; cases h
    rw [hn] at h
    simp only at h
    exact ⟨by rw [get_update h nodup_fit]; rfl, by rw [get_update h nodup_fit]; rfl,
      by rw [get_update h nodup_fit, norm_norm]; exact hj, (fun h => by cases h), (fun h => by cases h),
      (fun _ => ⟨_, by rw [get_update h nodup_fit]; rfl⟩), (fun h => by cases h)⟩
  | fitNlopt x y it =>
    simp only [callFitNlopt, gprFit, bind, Except.bind] at h
    rw [show gprFuns.fit.bind 1 _ = .ok () from rfl] at h
    simp only at h
    rcases hn : num.fit s.kernel s.meanFn s.params x y it none with e | r
    · rw [hn] at h; cases h
    rw [hn] at h
    simp only at h
    exact ⟨by rw [get_update h nodup_fit]; rfl, by rw [get_update h nodup_fit]; rfl,
      by rw [get_update h nodup_fit, norm_norm]; exact hj, (fun h => by cases h), (fun h => by cases h),
      (fun _ => ⟨_, by rw [get_update h nodup_fit]; rfl⟩), (fun h => by cases h)⟩
  | fitOl x y yd j =>
    simp only [callFitOl, gprFitOl, gprFuns, bind, Except.bind] at h
    rw [show (sig ["state", "x", "y", "y_derivs", "jacobian"] []).bind 1 _ = .ok () from rfl] at h
    simp only at h
    rcases hn : num.fitOl s.kernel s.meanFn s.params x y yd j with e | r
    · rw [hn] at h; cases h
    rw [hn] at h
    simp only at h
    exact ⟨by rw [get_update h nodup_ol]; rfl, by rw [get_update h nodup_ol]; rfl,
      by rw [get_update h nodup_ol]; rfl, (fun h => by cases h), (fun h => by cases h),
      (fun _ => ⟨_, by rw [get_update h nodup_ol]; rfl⟩), (fun h => by cases h)⟩
  | fitDerivs x y j it np =>
    simp only [callFitDerivs, gprFitDerivs, bind, Except.bind] at h
    rw [show gprFuns.fitDerivs.bind 1 _ = .ok () from rfl] at h
    simp only at h
    rcases hn : num.fitDerivs s.kernel s.params x y j it np with e | r
    · rw [hn] at h; cases h
    rw [hn] at h
    simp only at h
    rcases hj : num.jaccoef r.1 j with e | jc
    · rw [hj] at h; cases h
    rw [hj] at h
    simp only at h
    exact ⟨by rw [get_update h nodup_derivs]; rfl, by rw [get_update h nodup_derivs]; rfl,
      by rw [get_update h nodup_derivs]; rfl, (fun h => by cases h), (fun h => by cases h),
      (fun _ => ⟨_, by rw [get_update h nodup_derivs]; rfl⟩), (fun h => by cases h)⟩

/-- The stored options match what the user remembers, after every history. -/
theorem remembered_data {num : Numerics K M C Out} {nxt : R → R} {sample : PriorObj → R → Arr}
    {m : GPObj (ModelState K M C) O} {b : Memory} (h : Remembered num nxt sample m b) : DataInv m.state b := by
  induction h with
  | init h =>
    rw [ModelState.new_eq h]
    exact ⟨rfl, rfl, rfl, fun _ => rfl, fun _ => rfl, (fun h => by cases h), fun _ => rfl⟩
  | fit h hf minim hk loss minimize n key rh w w' hr ih =>
    rcases baseFit_cases hk hr with ⟨-, ⟨e, he⟩, -⟩ | ⟨s1, h1, h2, -⟩
    · cases he
    · exact dataCall_ok hf (by rw [h1.opts]; exact ih.jac) h2
  | fitRaises h hf minim hk loss minimize n key rh w w' hnh hr ih =>
    rcases baseFit_cases hk hr with ⟨h1, -, -⟩ | ⟨s1, -, h2, -, h3⟩
    · exact ih.of_opts h1.opts
    · rcases h3 with h3 | h3
      · cases h3
      · exact absurd h3 hnh
  | fitNoHistory h hf minim loss n key w w' hs hr ih =>
    simp only [baseFit, Bool.false_eq_true, if_false, hs, if_true, Prod.mk.injEq] at hr
    obtain ⟨-, rfl, -⟩ := hr
    exact dataCall_ok hf ih.jac hs
  | fitNoHistoryRaises h hf minim loss n key w w' hs hr ih =>
    simp only [baseFit, Bool.false_eq_true, if_false, hs, Prod.mk.injEq] at hr
    obtain ⟨-, rfl, -⟩ := hr
    exact ih
  | @randomize m m' b h key reset hr ih =>
    unfold GPObj.randomize at hr
    rcases hs : m.state.randomize nxt sample key (if reset then gprInitDefault else []) with e | s
    · rw [hs] at hr; cases hr
    rw [hs] at hr
    cases hr
    cases reset with
    | false =>
      have := ih.of_opts (sameBut_randomize hs).opts
      simpa using this
    | true =>
      simp only [if_true] at hs
      unfold ModelState.randomize at hs
      rcases h1 : (m.state.update {}).1 with e | s1
      · rw [h1] at hs; cases hs
      rw [h1] at hs
      simp only [bind, Except.bind] at hs
      rcases h2 : rebuildParams s1.params (randomizeLoop nxt sample s1.params.treeLeaves key).1 with e | p
      · rw [h2] at hs; cases hs
      rw [h2] at hs
      have hi := ih.of_opts (sameBut_update h1).opts
      exact ⟨by rw [get_update hs nodup_init, norm_norm]; exact hi.x,
        by rw [get_update hs nodup_init, norm_norm]; exact hi.y,
        by rw [get_update hs nodup_init, norm_norm]; exact hi.jac,
        (fun _ => by rw [get_update hs nodup_init]; rfl), (fun _ => by rw [get_update hs nodup_init]; rfl),
        (fun h => by simp at h), fun _ => by simp⟩
  | @load m m2 m' b b2 h h2 hs hd hp file hf hl ih ih2 =>
    obtain ⟨file', r, e1, e2, -, -, -, -, hopts⟩ := C08_save_load_partial m2.state m.state hs hd hp
    rw [hf] at e1
    cases e1
    unfold GPObj.load at hl
    rw [e2] at hl
    cases hl
    have get : ∀ q u, (assocGet q m2.state.opts).map OptVal.norm = some u → (∀ c, u ≠ .callable c) →
        (assocGet q r.opts).map OptVal.norm = some u := by
      intro q u hu hc
      obtain ⟨v, hv, rfl⟩ := Option.map_eq_some_iff.mp hu
      rw [hopts q, hv]
      cases v <;> first | rfl | exact absurd rfl (hc _)
    have miss : ∀ q, (assocGet q m2.state.opts).map OptVal.norm = none →
        (assocGet q r.opts).map OptVal.norm = (assocGet q m.state.opts).map OptVal.norm := by
      intro q hq
      rw [hopts q, Option.map_eq_none_iff.mp hq]
    refine ⟨get _ _ ih2.x ?_, get _ _ ih2.y ?_, ?_, fun hb => get _ _ (ih2.c hb) (by simp),
      fun hb => get _ _ (ih2.mu hb) (by simp), fun hb => ?_, ih2.unfit⟩
    · intro c hc; rcases hl : b2.last with _ | d <;> rw [hl] at hc <;> cases hc
    · intro c hc; rcases hl : b2.last with _ | d <;> rw [hl] at hc <;> cases hc
    · have h3 := ih2.jac
      rcases hj : b2.jacobian with _ | j
      · rw [hj] at h3
        rw [miss _ h3]
        exact ih.jac
      · rw [hj] at h3
        exact get _ _ h3 (by simp)
    · obtain ⟨a, ha⟩ := ih2.c' hb
      exact ⟨a, get _ _ ha (by simp)⟩

theorem shows_of_opts {s : ModelState K M C} {k : Key} {a : Arr}
    (h : (assocGet k s.opts).map OptVal.norm = some (.arr a)) : ShowsArr (s.attr k) a := by
  obtain ⟨v, hv, ha⟩ := Option.map_eq_some_iff.mp h
  exact ⟨v, by rw [ModelState.attr, hv], ha⟩

theorem showsNone_of_opts {s : ModelState K M C} {k : Key}
    (h : (assocGet k s.opts).map OptVal.norm = some .none) : ShowsNone (s.attr k) := by
  obtain ⟨v, hv, ha⟩ := Option.map_eq_some_iff.mp h
  rw [ShowsNone, ModelState.attr, hv]
  cases v <;> first | rfl | cases ha

/-- C135, what holds: after every history `x_train` and `y_train` are those of the last fit (of the history whose file
was loaded, if one was), `None` before any fit; when the last fit took a Jacobian, `jacobian_train` is that Jacobian;
in general it is the Jacobian of the last fit that took one, and reading it raises `AttributeError` when there was none;
`c_` and `mu_` are `None` before any fit and after a reset, and `c_` is an array after a fit. Missing: after a fit
without Jacobian `jacobian_train` still shows the Jacobian of an earlier fit, see `C135_false`. -/
theorem C135_shown_partial {num : Numerics K M C Out} {nxt : R → R} {sample : PriorObj → R → Arr}
    {m : GPObj (ModelState K M C) O} {b : Memory} (h : Remembered num nxt sample m b) :
    (∀ d, b.last = some d → ShowsArr m.shownX d.x ∧ ShowsArr m.shownY d.y) ∧
    (b.last = none → ShowsNone m.shownX ∧ ShowsNone m.shownY ∧ ShowsNone m.shownC ∧ ShowsNone m.shownMu) ∧
    (∀ j, b.jacobian = some j → ShowsArr m.shownJacobian j) ∧
    (b.jacobian = none → m.shownJacobian = .error .attributeError) ∧
    (b.reset = true → ShowsNone m.shownC ∧ ShowsNone m.shownMu) ∧
    (b.reset = false → ∃ c, ShowsArr m.shownC c) := by
  have hi := remembered_data h
  refine ⟨fun d hd => ?_, fun hn => ?_, fun j hj => ?_, fun hj => ?_, fun hb => ?_, fun hb => ?_⟩
  · have hx := hi.x
    have hy := hi.y
    rw [hd] at hx hy
    exact ⟨shows_of_opts hx, shows_of_opts hy⟩
  · have hx := hi.x
    have hy := hi.y
    rw [hn] at hx hy
    exact ⟨showsNone_of_opts hx, showsNone_of_opts hy, showsNone_of_opts (hi.c (hi.unfit hn)),
      showsNone_of_opts (hi.mu (hi.unfit hn))⟩
  · have := hi.jac
    rw [hj] at this
    exact shows_of_opts this
  · have := hi.jac
    rw [hj] at this
    rw [GPObj.shownJacobian, ModelState.attr, Option.map_eq_none_iff.mp this]
  · exact ⟨showsNone_of_opts (hi.c hb), showsNone_of_opts (hi.mu hb)⟩
  · obtain ⟨a, ha⟩ := hi.c' hb
    exact ⟨a, shows_of_opts ha⟩

/-- C135, fits with a Jacobian: right after `fit_derivs` or `fit_ol` all attributes show that fit, whatever the
history. -/
theorem C135_derivs_partial {num : Numerics K M C Out} {nxt : R → R} {sample : PriorObj → R → Arr}
    {m m' : GPObj (ModelState K M C) O} {b : Memory} (h : Remembered num nxt sample m b)
    {d : FitData} {f : ModelState K M C → Except Err (ModelState K M C)} (hf : DataCall num d f)
    (hd : d.jacobian.isSome)
    (minim : W → ModelState K M C → Except Err (ModelState K M C × O) × W) (hk : KeepsState minim)
    (loss : ModelState K M C → ℝ) (minimize : Bool) (n : ℕ) (key : Option R) (rh : Bool) (w w' : W)
    (hr : baseFit minim (fun k s => s.randomize nxt sample k []) loss nxt f m minimize n key rh w = (.ok (), m', w')) :
    ShowsFit m' d := by
  obtain ⟨j, hj⟩ := Option.isSome_iff_exists.mp hd
  obtain ⟨h1, -, h2, -⟩ := C135_shown_partial (Remembered.fit h hf minim hk loss minimize n key rh w w' hr)
  refine ⟨(h1 d rfl).1, (h1 d rfl).2, fun i hi => h2 i ?_, fun hn => by rw [hn] at hj; cases hj⟩
  rw [Memory.note, hi]
  rfl

/-- A history: fitted on derivatives, then on targets. -/
noncomputable def exTwice : ModelState Unit Unit Unit :=
  ⟨(), (), .leaf "sigma".toList exId .nil,
    [(xTrainKey, .arr exDraw), (yTrainKey, .arr exDraw), (lossFnKey, .callable ()),
    (isFittedKey, .bool true), (isFittedDerivsKey, .bool false), (cKey, .arr ⟨[], ['f'], [1]⟩), (muKey, .none),
    (jacobianTrainKey, .arr exArr), (jaccoefKey, .arr ⟨[], ['f'], [1]⟩)]⟩

theorem exTwice_reach : Remembered (O := Unit) exNum (fun _ : Unit => ()) (fun _ _ => exDraw) { state := exTwice }
    ⟨some ⟨exDraw, exDraw, none⟩, some exArr, false⟩ :=
  .fit (.fit (.init (kernel := ()) (meanFn := ()) (params := .leaf "sigma".toList exId .nil) (lossFn := ()) rfl)
      (.fitDerivs exArr exArr exArr false none) (W := Unit) (fun _ s => (.ok (s, ()), ()))
      (fun _ _ _ _ _ h => by cases h; exact SameBut.refl _) (fun _ => 0) false 0 none false () () rfl)
    (.fit exDraw exDraw false none) (W := Unit) (fun _ s => (.ok (s, ()), ()))
    (fun _ _ _ _ _ h => by cases h; exact SameBut.refl _) (fun _ => 0) false 0 none false () () rfl

/-- C135 is false of the code: after `fit_derivs` and then `fit`, `jacobian_train` still shows the Jacobian of the
first fit, next to the inputs of the second. -/
theorem C135_false : ¬ C135_full := by
  intro h
  exact (h _ _ _ _ _ _ exTwice_reach rfl).noJacobian rfl exArr ⟨_, rfl, rfl⟩

/-- The case meets the hypotheses of `C135_derivs_partial`. -/
example : ∃ (m m' : GPObj (ModelState Unit Unit Unit) Unit) (b : Memory) (d : FitData)
    (f : ModelState Unit Unit Unit → Except Err (ModelState Unit Unit Unit)),
    Remembered exNum (fun _ : Unit => ()) (fun _ _ => exDraw) m b ∧ DataCall exNum d f ∧ d.jacobian.isSome ∧
    baseFit (W := Unit) (fun _ s => (.ok (s, ()), ())) (fun k s => s.randomize (fun _ => ()) (fun _ _ => exDraw) k [])
      (fun _ => 0) (fun _ => ()) f m false 0 none false () = (.ok (), m', ()) :=
  ⟨_, _, _, _, _, exTwice_reach, .fitDerivs exDraw exArr exDraw false none, rfl, rfl⟩

end GPX.Props
