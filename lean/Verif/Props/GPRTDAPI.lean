import Verif.Model.GPRTDAPI
import Verif.Props.SparseAPI
import Verif.Props.Records
import Verif.Props.SaveLoad

/-!
# C98: the life of a GPR_TD object; C99: saving it; C100: the random key of its preconditioner
-/

namespace GPX.Props
open GPX Spec

variable {K M C O P R Out : Type}

/-! ## C98 -/

/-- Histories of a GPR_TD object: construction and any sequence of calls of `fit`, with any data and arguments, that return or
raise. The last index records what the user knows: the data of the last fit that took place. The minimiser is any function
that only changes parameters. -/
inductive TDReach (num : TDNumerics K M C P Out) (missing : List Key) (gpxKey : P) (nxt : R → R)
    (sample : PriorObj → R → Arr) : GPObj (ModelState K M C) O → Option (TDFitArgs P) → Prop
  | init {kernel : K} {meanFn : M} {params : Dict Param} {lossFn : C} {s : ModelState K M C}
      (h : tdInit kernel meanFn params lossFn = .ok s) : TDReach num missing gpxKey nxt sample { state := s } none
  | fit {m m' : GPObj (ModelState K M C) O} {k : Option (TDFitArgs P)} (h : TDReach num missing gpxKey nxt sample m k)
      (a : TDFitArgs P) {W : Type} (minim : W → ModelState K M C → Except Err (ModelState K M C × O) × W)
      (hk : KeepsState minim) (loss : ModelState K M C → ℝ) (minimize : Bool) (n : ℕ) (key : Option R) (rh : Bool)
      (w w' : W)
      (hr : baseFit minim (fun k s => s.randomize nxt sample k []) loss nxt (tdFit num missing gpxKey a) m minimize n key rh
        w = (.ok (), m', w')) : TDReach num missing gpxKey nxt sample m' (some a)
  | fitRaises {m m' : GPObj (ModelState K M C) O} {k : Option (TDFitArgs P)}
      (h : TDReach num missing gpxKey nxt sample m k) (a : TDFitArgs P) {W : Type}
      (minim : W → ModelState K M C → Except Err (ModelState K M C × O) × W) (hk : KeepsState minim)
      (loss : ModelState K M C → ℝ) (minimize : Bool) (n : ℕ) (key : Option R) (rh : Bool) (w w' : W) {e : Err}
      (hn : ¬ (rh = true ∧ minimize = false) ∨ ∃ e', tdFit num missing gpxKey a m.state = .error e')
      (hr : baseFit minim (fun k s => s.randomize nxt sample k []) loss nxt (tdFit num missing gpxKey a) m minimize n key rh
        w = (.error e, m', w')) : TDReach num missing gpxKey nxt sample m' k
  | fitNoHistory {m m' : GPObj (ModelState K M C) O} {k : Option (TDFitArgs P)}
      (h : TDReach num missing gpxKey nxt sample m k) (a : TDFitArgs P) {W : Type}
      (minim : W → ModelState K M C → Except Err (ModelState K M C × O) × W) (hk : KeepsState minim)
      (loss : ModelState K M C → ℝ) (n : ℕ) (key : Option R) (w w' : W) {e : Err}
      {s : ModelState K M C} (hs : tdFit num missing gpxKey a m.state = .ok s)
      (hr : baseFit minim (fun k s => s.randomize nxt sample k []) loss nxt (tdFit num missing gpxKey a) m false n key true
        w = (.error e, m', w')) : TDReach num missing gpxKey nxt sample m' (some a)

/-- How an optional argument is recorded: the array, or Python's `None`. -/
def StoredAs (v : OptVal C) (o : Option Arr) : Prop := (∀ a, o = some a → v = .arr a) ∧ (o = none → v = .none)

theorem storedAs_optArr (o : Option Arr) : StoredAs (optArr o : OptVal C) o := by
  cases o
  · exact ⟨fun a h => (nomatch h), fun _ => rfl⟩
  · exact ⟨fun a h => congrArg OptVal.arr (Option.some.inj h), fun h => nomatch h⟩

/-- What a state says after a fit on the data `a` with the parameters `p`: the flag, the data of that call (all of them), and
the coefficients and mean computed from them. Options are compared up to `norm`, which turns Python numbers into arrays. -/
structure FittedOn (num : TDNumerics K M C P Out) (missing : List Key) (gpxKey : P) (s : ModelState K M C)
    (a : TDFitArgs P) (p : Dict Param) (c : Arr) (mu : OptVal C) : Prop where
  coefs : tdFitCoefs num missing gpxKey a { s with params := p } = .ok (c, mu)
  fitted : assocGet isFittedKey s.opts = some (.bool true)
  x : (assocGet xTrainKey s.opts).map OptVal.norm = some (.arr a.x)
  y : (assocGet yTrainKey s.opts).map OptVal.norm = some (.arr a.y)
  jac : (assocGet jacobianTrainKey s.opts).map OptVal.norm = some (.arr a.jacobian)
  jac2 : ∃ v, (assocGet jacobianTrain2Key s.opts).map OptVal.norm = some v ∧ StoredAs v a.jacobian2
  yd : (assocGet yDerivsTrainKey s.opts).map OptVal.norm = some (.arr a.yDerivs)
  yd2 : ∃ v, (assocGet yDerivsTrain2Key s.opts).map OptVal.norm = some v ∧ StoredAs v a.yDerivs2
  c : (assocGet cKey s.opts).map OptVal.norm = some (.arr c)
  mu : (assocGet muKey s.opts).map OptVal.norm = some mu.norm

theorem optArr_norm (o : Option Arr) : (optArr o : OptVal C).norm = optArr o := by cases o <;> rfl

theorem nodup_td : [xTrainKey, yTrainKey, jacobianTrainKey, jacobianTrain2Key, jaccoefKey, jaccoef2Key, yDerivsTrainKey,
    yDerivsTrain2Key, cKey, cTargetsKey, muKey, isFittedKey].Nodup := by decide

theorem FittedOn.of_same {num : TDNumerics K M C P Out} {missing : List Key} {gpxKey : P} {s s' : ModelState K M C}
    {a : TDFitArgs P} {p : Dict Param} {c : Arr} {mu : OptVal C} (h : FittedOn num missing gpxKey s a p c mu)
    (hs : SameBut s s') : FittedOn num missing gpxKey s' a p c mu := by
  refine ⟨?_, norm_bool ?_, ?_, ?_, ?_, ?_, ?_, ?_, ?_, ?_⟩
  · have := h.coefs
    unfold tdFitCoefs at this ⊢
    simpa only [hs.kernel, hs.meanFn] using this
  · rw [hs.opts, h.fitted]; rfl
  · rw [hs.opts, h.x]
  · rw [hs.opts, h.y]
  · rw [hs.opts, h.jac]
  · rw [hs.opts]; exact h.jac2
  · rw [hs.opts, h.yd]
  · rw [hs.opts]; exact h.yd2
  · rw [hs.opts, h.c]
  · rw [hs.opts, h.mu]

/-- A linear fit that returns. -/
theorem tdFit_ok {num : TDNumerics K M C P Out} {missing : List Key} {gpxKey : P} {a : TDFitArgs P}
    {s s' : ModelState K M C} (h : tdFit num missing gpxKey a s = .ok s') (hso : s.params.sortKeys = s.params) :
    (∃ c mu, FittedOn num missing gpxKey s' a s'.params c mu) ∧ s'.params.sortKeys = s'.params := by
  unfold tdFit at h
  rcases hc : tdFitCoefs num missing gpxKey a s with e | ⟨c, mu⟩
  · rw [hc] at h; cases h
  rw [hc] at h
  dsimp only at h
  obtain ⟨ct, h1, h⟩ := sparse_bind_ok h
  obtain ⟨jc, h2, h⟩ := sparse_bind_ok h
  obtain ⟨u, hu, hux⟩ : ∃ u : StateUpdate K M C, (s.update u).1 = .ok s' ∧ ∃ jc2, u = { opts := [(xTrainKey, .arr a.x), (yTrainKey, .arr a.y),
      (jacobianTrainKey, .arr a.jacobian), (jacobianTrain2Key, optArr a.jacobian2), (jaccoefKey, .arr jc),
      (jaccoef2Key, jc2), (yDerivsTrainKey, .arr a.yDerivs), (yDerivsTrain2Key, optArr a.yDerivs2), (cKey, .arr c),
      (cTargetsKey, .arr ct), (muKey, mu), (isFittedKey, .bool true)] } := by
    rcases hj : a.jacobian2 with _ | j2
    · rw [hj] at h
      exact ⟨_, h, _, rfl⟩
    · rw [hj] at h
      dsimp only at h
      obtain ⟨jc2, h3, h⟩ := sparse_bind_ok h
      exact ⟨_, h, _, rfl⟩
  obtain ⟨jc2, rfl⟩ := hux
  obtain ⟨hp, hk, hm⟩ := params_update hu rfl rfl rfl hso
  have key : ∀ k v, assocGet k ([(xTrainKey, .arr a.x), (yTrainKey, .arr a.y),
      (jacobianTrainKey, .arr a.jacobian), (jacobianTrain2Key, optArr a.jacobian2), (jaccoefKey, .arr jc),
      (jaccoef2Key, jc2), (yDerivsTrainKey, .arr a.yDerivs), (yDerivsTrain2Key, optArr a.yDerivs2), (cKey, .arr c),
      (cTargetsKey, .arr ct), (muKey, mu), (isFittedKey, .bool true)] : List (Key × OptVal C)) = some v →
      assocGet k s'.opts = some v.norm := by
    intro k v hv
    rw [get_update hu nodup_td, hv]
    rfl
  refine ⟨⟨c, mu, ?_, ?_, ?_, ?_, ?_, ?_, ?_, ?_, ?_, ?_⟩, sorted_of_update hu⟩
  · rw [hp]
    unfold tdFitCoefs at hc ⊢
    simpa only [hk, hm] using hc
  · exact key isFittedKey _ rfl
  · rw [key xTrainKey _ rfl]; rfl
  · rw [key yTrainKey _ rfl]; rfl
  · rw [key jacobianTrainKey _ rfl]; rfl
  · exact ⟨_, by rw [key jacobianTrain2Key _ rfl, Option.map_some, optArr_norm, optArr_norm], storedAs_optArr _⟩
  · rw [key yDerivsTrainKey _ rfl]; rfl
  · exact ⟨_, by rw [key yDerivsTrain2Key _ rfl, Option.map_some, optArr_norm, optArr_norm], storedAs_optArr _⟩
  · rw [key cKey _ rfl]; rfl
  · rw [key muKey _ rfl, Option.map_some, norm_idem]

/-- The invariant of all histories. -/
structure TDInv (num : TDNumerics K M C P Out) (missing : List Key) (gpxKey : P) (s : ModelState K M C)
    (k : Option (TDFitArgs P)) : Prop where
  sorted : s.params.sortKeys = s.params
  unfitted : k = none → assocGet isFittedKey s.opts = some (.bool false)
  fitted : ∀ a, k = some a → ∃ p c mu, FittedOn num missing gpxKey s a p c mu

theorem TDInv.of_same {num : TDNumerics K M C P Out} {missing : List Key} {gpxKey : P} {s s' : ModelState K M C}
    {k : Option (TDFitArgs P)} (h : TDInv num missing gpxKey s k) (hs : SameBut s s') :
    TDInv num missing gpxKey s' k :=
  ⟨hs.sorted h.sorted, fun hk => norm_bool (by rw [hs.opts, h.unfitted hk]; rfl), fun a ha => by
    obtain ⟨p, c, mu, hf⟩ := h.fitted a ha
    exact ⟨p, c, mu, hf.of_same hs⟩⟩

theorem TDInv.of_fit {num : TDNumerics K M C P Out} {missing : List Key} {gpxKey : P} {s s' : ModelState K M C}
    {a : TDFitArgs P} (hs : s.params.sortKeys = s.params) (h : tdFit num missing gpxKey a s = .ok s') :
    TDInv num missing gpxKey s' (some a) := by
  obtain ⟨⟨c, mu, hf⟩, hso⟩ := tdFit_ok h hs
  refine ⟨hso, (fun hk => by cases hk), fun b hb => ?_⟩
  cases hb
  exact ⟨_, c, mu, hf⟩

theorem reach_inv {num : TDNumerics K M C P Out} {missing : List Key} {gpxKey : P} {nxt : R → R}
    {sample : PriorObj → R → Arr} {m : GPObj (ModelState K M C) O} {k : Option (TDFitArgs P)}
    (h : TDReach num missing gpxKey nxt sample m k) : TDInv num missing gpxKey m.state k := by
  induction h with
  | init h =>
    rw [tdInit] at h
    refine ⟨?_, fun _ => ?_, fun _ h => by cases h⟩
    · exact Constructed.sorted ⟨_, _, _, _, h⟩
    · rw [ModelState.new_eq h]; rfl
  | fit h a minim hk loss minimize n key rh w w' hr ih =>
    rcases baseFit_cases hk hr with ⟨_, ⟨e, he⟩, _⟩ | ⟨s1, h1, h2, _, _⟩
    · cases he
    · exact .of_fit (h1.sorted ih.sorted) h2
  | @fitRaises m m' k h a W minim hk loss minimize n key rh w w' e hn hr ih =>
    rcases baseFit_cases hk hr with ⟨h1, _⟩ | ⟨s1, h1, h2, h3, h4 | h4⟩
    · exact ih.of_same h1
    · cases h4
    · rcases hn with hn | ⟨e', hn⟩
      · exact absurd h4 hn
      · rw [h3 h4.2, hn] at h2
        cases h2
  | fitNoHistory h a minim hk loss n key w w' hs hr ih =>
    rcases C90_failed_fit _ _ _ _ _ _ _ _ _ _ _ _ _ _ hr with ⟨_, ⟨h1, _⟩ | ⟨_, h1⟩⟩ | ⟨h1, _⟩ | ⟨_, _, _, s, h1, h2⟩
    · cases h1
    · rw [hs] at h1; cases h1
    · cases h1
    · rw [h2]
      exact .of_fit ih.sorted h1

/-- **C98**, predictions: after every history, `predict` raises `RuntimeError` if no fit has taken place, and otherwise
computes with the samples and jacobians of the last fit (its second jacobian if it had one, none if it had none, whatever
earlier fits had), with the coefficients and mean that fit computed from its own data, and with the arguments of the
call. -/
theorem C98_predict (num : TDNumerics K M C P Out) (missing : List Key) (gpxKey : P) (nxt : R → R)
    (sample : PriorObj → R → Arr) (m : GPObj (ModelState K M C) O) (k : Option (TDFitArgs P))
    (h : TDReach num missing gpxKey nxt sample m k) :
    (k = none → ∀ x J J2 it, tdPredictState num m.state x J J2 it = .error .runtimeError) ∧
    ∀ a, k = some a → ∃ p c mu, tdFitCoefs num missing gpxKey a { m.state with params := p } = .ok (c, mu) ∧
      ∃ xt Jt Jt2 c' mu', xt.norm = .arr a.x ∧ Jt.norm = .arr a.jacobian ∧ StoredAs Jt2.norm a.jacobian2 ∧
        c'.norm = .arr c ∧ mu'.norm = mu.norm ∧
        ∀ x J J2 it, tdPredictState num m.state x J J2 it =
          num.predict m.state.kernel m.state.params xt Jt Jt2 x J J2 c' mu' it := by
  have inv := reach_inv h
  refine ⟨fun hk x J J2 it => ?_, fun a ha => ?_⟩
  · simp only [tdPredictState, ModelState.attr, inv.unfitted hk]
    rfl
  · obtain ⟨p, c, mu, hf⟩ := inv.fitted a ha
    have get : ∀ {q : Key} {v : OptVal C}, (assocGet q m.state.opts).map OptVal.norm = some v →
        ∃ u, assocGet q m.state.opts = some u ∧ u.norm = v := by
      intro q v hv
      rcases hq : assocGet q m.state.opts with _ | u
      · rw [hq] at hv; cases hv
      · rw [hq] at hv
        exact ⟨u, rfl, Option.some.inj hv⟩
    obtain ⟨xt, h1, n1⟩ := get hf.x
    obtain ⟨Jt, h2, n2⟩ := get hf.jac
    obtain ⟨v2, hv2, s2⟩ := hf.jac2
    obtain ⟨Jt2, h3, n3⟩ := get hv2
    rw [← n3] at s2
    obtain ⟨c', h4, n4⟩ := get hf.c
    obtain ⟨mu', h5, n5⟩ := get hf.mu
    refine ⟨p, c, mu, hf.coefs, xt, Jt, Jt2, c', mu', n1, n2, s2, n4, n5, fun x J J2 it => ?_⟩
    simp only [tdPredictState, ModelState.attr, hf.fitted, h1, h2, h3, h4, h5]
    rfl

/-- **C98**, right after a call of `fit` that returns (with or without optimisation and restarts, from any earlier history)
the coefficients are those of the model's own parameters, and all the training data are recorded. -/
theorem C98_after_fit (num : TDNumerics K M C P Out) (missing : List Key) (gpxKey : P) (nxt : R → R)
    (sample : PriorObj → R → Arr) (m m' : GPObj (ModelState K M C) O) (k : Option (TDFitArgs P))
    (h : TDReach num missing gpxKey nxt sample m k) (a : TDFitArgs P) {W : Type}
    (minim : W → ModelState K M C → Except Err (ModelState K M C × O) × W) (hk : KeepsState minim)
    (loss : ModelState K M C → ℝ) (minimize : Bool) (n : ℕ) (key : Option R) (rh : Bool) (w w' : W)
    (hr : baseFit minim (fun k s => s.randomize nxt sample k []) loss nxt (tdFit num missing gpxKey a) m minimize n key rh w =
      (.ok (), m', w')) :
    ∃ c mu, FittedOn num missing gpxKey m'.state a m'.state.params c mu := by
  rcases baseFit_cases hk hr with ⟨_, ⟨e, he⟩, _⟩ | ⟨s1, h1, h2, _, _⟩
  · cases he
  · exact (tdFit_ok h2 (h1.sorted (reach_inv h).sorted)).1

/-- What is stored under a name in a dictionary of parameters and what was passed for it: the parameter, or nothing. -/
def HoldsArg (d : Dict Param) (name : String) (o : Option Param) : Prop :=
  (∀ p, o = some p → lookup [name.toList] d = some (.inl p)) ∧ (o = none → lookup [name.toList] d = none)

/-- **C98**, construction: a new GPR_TD holds, under the names of the arguments, the parameters it was constructed with
(and the kernel parameters under `kernel_params`), the kernel, mean function and loss it was given, and no training data;
the names that are missing are those of the arguments that were not given. -/
theorem C98_constructor (kernel : K) (meanFn : M) (lossFn : C) (kp : Option (Dict Param)) (sT sD sD2 : Option Param)
    (s : ModelState K M C) (h : tdInit kernel meanFn (tdParams kp sT sD sD2) lossFn = .ok s) :
    s.kernel = kernel ∧ s.meanFn = meanFn ∧ HoldsArg s.params "sigma_targets" sT ∧ HoldsArg s.params "sigma_derivs" sD ∧
      HoldsArg s.params "sigma_derivs2" sD2 ∧
      (∀ d, kp = some d → ∀ path, path ≠ [] → lookup ("kernel_params".toList :: path) s.params = lookup path d) ∧
      (kp = none → ∀ path, lookup ("kernel_params".toList :: path) s.params = none) ∧
      assocGet "loss_fn".toList s.opts = some (.callable lossFn) ∧ assocGet "is_fitted".toList s.opts = some (.bool false) ∧
      (∀ k ∈ ["x_train", "y_train", "jacobian_train", "jacobian_train_2", "jaccoef", "jaccoef_2", "y_derivs_train",
        "y_derivs_train_2", "c", "c_targets", "mu"], assocGet k.toList s.opts = some .none) ∧
      ∀ k, k ∈ tdMissing kp sT sD sD2 ↔ (k = "kernel_params".toList ∧ kp = none) ∨ (k = "sigma_targets".toList ∧ sT = none) ∨
        (k = "sigma_derivs".toList ∧ sD = none) ∨ (k = "sigma_derivs2".toList ∧ sD2 = none) := by
  rw [ModelState.new_eq h]
  refine ⟨rfl, rfl, ?_, ?_, ?_, ?_, ?_, rfl, rfl, ?_, fun k => ?_⟩
  · unfold HoldsArg
    rw [lookup_sortKeys]
    constructor
    · rintro p rfl; cases kp <;> cases sD <;> cases sD2 <;> rfl
    · rintro rfl; cases kp <;> cases sD <;> cases sD2 <;> rfl
  · unfold HoldsArg
    rw [lookup_sortKeys]
    constructor
    · rintro p rfl; cases kp <;> cases sT <;> cases sD2 <;> rfl
    · rintro rfl; cases kp <;> cases sT <;> cases sD2 <;> rfl
  · unfold HoldsArg
    rw [lookup_sortKeys]
    constructor
    · rintro p rfl; cases kp <;> cases sT <;> cases sD <;> rfl
    · rintro rfl; cases kp <;> cases sT <;> cases sD <;> rfl
  · rintro d rfl path -
    rw [lookup_sortKeys]
    cases sT <;> cases sD <;> cases sD2 <;> rfl
  · rintro rfl path
    rw [lookup_sortKeys]
    cases sT <;> cases sD <;> cases sD2 <;> rfl
  · intro k hk
    simp only [List.mem_cons, List.not_mem_nil, or_false] at hk
    rcases hk with rfl | rfl | rfl | rfl | rfl | rfl | rfl | rfl | rfl | rfl | rfl <;> rfl
  · have mem_if : ∀ (b : Bool) (q : Key), k ∈ (if b then [q] else []) ↔ k = q ∧ b = true := by
      intro b q; cases b <;> simp
    unfold tdMissing
    rw [List.mem_append, List.mem_append, List.mem_append, mem_if, mem_if, mem_if, mem_if, Option.isNone_iff_eq_none,
      Option.isNone_iff_eq_none, Option.isNone_iff_eq_none, Option.isNone_iff_eq_none, or_assoc, or_assoc]
    rfl

/-- **C98**, missing noise parameters: a model that was constructed without `sigma_targets` or `sigma_derivs` cannot be
fitted, and one without `sigma_derivs2` cannot be fitted with a second set of derivatives; without optimisation the object is
as before. -/
theorem C98_missing_parameter (num : TDNumerics K M C P Out) (gpxKey : P) (kp : Option (Dict Param))
    (sT sD sD2 : Option Param) (a : TDFitArgs P) (hm : sT = none ∨ sD = none ∨ (sD2 = none ∧ a.jacobian2.isSome))
    (s : ModelState K M C) :
    tdFit num (tdMissing kp sT sD sD2) gpxKey a s = .error .attributeError ∧
    ∀ {W : Type} (minim : W → ModelState K M C → Except Err (ModelState K M C × O) × W)
      (rnd : R → ModelState K M C → Except Err (ModelState K M C)) (loss : ModelState K M C → ℝ) (nxt : R → R)
      (m : GPObj (ModelState K M C) O) (n : ℕ) (key : Option R) (rh : Bool) (w : W),
      baseFit minim rnd loss nxt (tdFit num (tdMissing kp sT sD sD2) gpxKey a) m false n key rh w =
        (.error .attributeError, m, w) := by
  have h1 : tdNeeds (tdMissing kp sT sD sD2) a.jacobian2 = .error .attributeError := by
    unfold tdNeeds
    rw [if_pos]
    rcases hm with rfl | rfl | ⟨rfl, hj⟩
    · left; simp [tdMissing]
    · right; left; simp [tdMissing]
    · right; right; exact ⟨hj, by simp [tdMissing]⟩
  have h2 : ∀ s : ModelState K M C, tdFit num (tdMissing kp sT sD sD2) gpxKey a s = .error .attributeError := by
    intro s
    unfold tdFit tdFitCoefs
    rw [h1]
    rfl
  refine ⟨h2 s, fun minim rnd loss nxt m n key rh w => ?_⟩
  simp [baseFit, h2]

/-- **C98**, and these are the only parameters it looks at: with the noise parameters of the sets in use, the fit is that of
the numerical function. -/
theorem C98_enough_parameters (num : TDNumerics K M C P Out) (gpxKey : P) (kp : Option (Dict Param))
    (sT sD : Param) (sD2 : Option Param) (a : TDFitArgs P) (ha : a.jacobian2 = none ∨ sD2.isSome)
    (s : ModelState K M C) :
    tdFitCoefs num (tdMissing kp (some sT) (some sD) sD2) gpxKey a s =
      if a.iterative then num.fitIter s.kernel s.meanFn s.params a.x a.y a.jacobian a.yDerivs a.jacobian2 a.yDerivs2
        a.nPivots gpxKey a.cGuess
      else num.fitDense s.kernel s.meanFn s.params a.x a.y a.jacobian a.yDerivs a.jacobian2 a.yDerivs2 := by
  have h1 : tdNeeds (tdMissing kp (some sT) (some sD) sD2) a.jacobian2 = .ok () := by
    unfold tdNeeds
    rw [if_neg]
    have e1 : sigmaTargetsKey ≠ kernelParamsKey := by decide
    have e2 : sigmaTargetsKey ≠ sigmaDerivs2Key := by decide
    have e3 : sigmaDerivsKey ≠ kernelParamsKey := by decide
    have e4 : sigmaDerivsKey ≠ sigmaDerivs2Key := by decide
    have e5 : sigmaDerivs2Key ≠ kernelParamsKey := by decide
    rcases ha with ha | ha
    · cases kp <;> cases sD2 <;> simp [tdMissing, ha, e1, e2, e3, e4]
    · obtain ⟨p, rfl⟩ := Option.isSome_iff_exists.1 ha
      cases kp <;> simp [tdMissing, e1, e3, e5]
  unfold tdFitCoefs
  rw [h1]
  rfl

/-! ### Examples -/

/-- Numerical functions of a toy model: the coefficients are the sample, the key and the values of the hyperparameters. -/
noncomputable def exTDNum : TDNumerics Unit Unit Unit ℝ (List ℝ) where
  fitDense _ _ p x _ _ _ _ _ := .ok (⟨[], ['f'], x.data ++ p.treeLeaves.flatMap (fun p => p.value.data)⟩, .none)
  fitIter _ _ p x _ _ _ _ _ _ key _ :=
    .ok (⟨[], ['f'], key :: x.data ++ p.treeLeaves.flatMap (fun p => p.value.data)⟩, .none)
  cTargets c _ := .ok c
  jaccoef c _ := .ok c
  jaccoef2 c _ _ := .ok c
  predict _ _ _ _ _ x _ _ _ _ _ := .ok x.data

/-- Kernel parameters of the example models. -/
noncomputable def exTDKernel : Dict Param := .leaf "lengthscale".toList exLength .nil

/-- A model for two sets of derivatives, just constructed. -/
noncomputable def exTDState : ModelState Unit Unit Unit :=
  ⟨(), (), (tdParams (some exTDKernel) (some exSigma) (some exSigma) (some exSigma)).sortKeys,
    [(lossFnKey, .callable ()), (xTrainKey, .none), (jacobianTrainKey, .none), (jacobianTrain2Key, .none),
      (jaccoefKey, .none), (jaccoef2Key, .none), (yTrainKey, .none), (yDerivsTrainKey, .none),
      (yDerivsTrain2Key, .none), (isFittedKey, .bool false), (cKey, .none), (cTargetsKey, .none), (muKey, .none)]⟩

theorem exTDState_init : tdInit () () (tdParams (some exTDKernel) (some exSigma) (some exSigma) (some exSigma)) () =
    .ok exTDState := rfl

/-- Training data of the examples, with a second set of derivatives and a key. -/
noncomputable def exTDArgs : TDFitArgs ℝ :=
  { x := exArr, y := exArr, jacobian := exArr, yDerivs := exArr, jacobian2 := some exArr, yDerivs2 := some exArr,
    iterative := true, nPivots := some 1, keyPrecond := some 1 }

/-- Non-vacuity of `C98_predict` and `C98_after_fit`: a fresh model is reachable, its first fit (without optimisation) returns,
and what is reached then is fitted. -/
example : ∃ m m' : GPObj (ModelState Unit Unit Unit) Unit,
    TDReach (R := Unit) exTDNum [] 0 (fun _ => ()) (fun _ _ => exDraw) m none ∧
    TDReach (R := Unit) exTDNum [] 0 (fun _ => ()) (fun _ _ => exDraw) m' (some exTDArgs) ∧
    tdPredictState exTDNum m.state exArr exArr none false = .error .runtimeError ∧
    tdPredictState exTDNum m'.state exArr exArr none false = .ok [7] := by
  have h0 : TDReach (O := Unit) (R := Unit) exTDNum [] 0 (fun _ => ()) (fun _ _ => exDraw) { state := exTDState } none :=
    .init exTDState_init
  have h1 := TDReach.fit (m' := (baseFit (W := Unit) (R := Unit) (fun _ s => (.ok (s, ()), ()))
    (fun k s => s.randomize (fun _ => ()) (fun _ _ => exDraw) k []) (fun _ => 0) (fun _ => ()) (tdFit exTDNum [] 0 exTDArgs)
    { state := exTDState } false 0 none false ()).2.1) h0 exTDArgs (W := Unit) (fun _ s => (.ok (s, ()), ()))
    (fun _ _ _ _ _ h => by cases h; exact SameBut.refl _) (fun _ => 0) false 0 none false () () rfl
  refine ⟨_, _, h0, h1, rfl, rfl⟩

/-- Non-vacuity of `C98_constructor`. -/
example : lookup ["sigma_derivs".toList] exTDState.params = some (.inl exSigma) :=
  (C98_constructor () () () _ _ _ _ _ exTDState_init).2.2.2.1.1 _ rfl

/-- Non-vacuity of `C98_missing_parameter`: a model for one set of derivatives, fitted on two. -/
example : tdFit exTDNum (tdMissing (some exTDKernel) (some exSigma) (some exSigma) none) 0 exTDArgs exTDState =
    .error .attributeError :=
  (C98_missing_parameter (O := Unit) (R := Unit) exTDNum 0 _ _ _ _ exTDArgs (.inr (.inr ⟨rfl, rfl⟩)) exTDState).1

/-! ## C99 -/

/-- **C99**, full statement: every GPR_TD that was given its kernel parameters and the noise parameters of the targets and of
the first derivatives can be saved (names as in C08). -/
def C99_full : Prop :=
  ∀ (kp : Dict Param) (sT sD : Param) (sD2 : Option Param) (s : ModelState Unit Unit Unit),
    tdInit () () (tdParams (some kp) (some sT) (some sD) sD2) () = .ok s → Saveable s →
    ∃ file, tdSave (tdMissing (some kp) (some sT) (some sD) sD2) s = .ok file

/-- **C99**, what holds: a model that was given all four parameters is saved, and loading the file into a GPR_TD with the same
parameter names restores the parameter values and the training record, as for the other models (C08). Missing: models
without `sigma_derivs2`. -/
theorem C99_two_sets_partial (kp : Dict Param) (sT sD sD2 : Param) (s t : ModelState K M C)
    (hs : Saveable s) (ht : t.params.KeysDistinct)
    (hst : AtEveryPath (fun p q => p.value.shape = q.prior.shape ∧ p.value.dtype = q.prior.dtype) s.params t.params) :
    ∃ file r, tdSave (tdMissing (some kp) (some sT) (some sD) (some sD2)) s = .ok file ∧ tdLoad t file = .ok r ∧
      r.kernel = t.kernel ∧ r.meanFn = t.meanFn ∧ AtEveryPath (fun p p' => p'.value = p.value) s.params r.params ∧
      AtEveryPath (fun q p' => p'.trainable = q.trainable ∧ p'.bijector = q.bijector ∧ p'.prior = q.prior)
        t.params r.params ∧
      ∀ k, (assocGet k r.opts).map OptVal.norm =
        match assocGet k s.opts with
        | some (.callable _) => (assocGet k t.opts).map OptVal.norm
        | some v => some v.norm
        | none => (assocGet k t.opts).map OptVal.norm := by
  have : tdMissing (some kp) (some sT) (some sD) (some sD2) = [] := rfl
  rw [this]
  exact C08_save_load_partial s t hs ht hst

/-- **C99**, what happens otherwise: a GPR_TD that was constructed without one of its parameters, in particular every model for
one set of derivatives that was not given a superfluous `sigma_derivs2`, cannot be saved, in whatever state it is. -/
theorem C99_unsaveable (kp : Option (Dict Param)) (sT sD sD2 : Option Param)
    (h : kp = none ∨ sT = none ∨ sD = none ∨ sD2 = none) (s : ModelState K M C) :
    tdSave (tdMissing kp sT sD sD2) s = .error .attributeError := by
  unfold tdSave
  rw [if_neg]
  rcases h with rfl | rfl | rfl | rfl <;> simp [tdMissing]

theorem exTD_params (sD2 : Option Param) :
    (tdParams (some exTDKernel) (some exSigma) (some exSigma) sD2).sortKeys =
      .node kernelParamsKey exTDKernel (.leaf sigmaDerivsKey exSigma (match sD2 with
        | some p => .leaf sigmaDerivs2Key p (.leaf sigmaTargetsKey exSigma .nil)
        | none => .leaf sigmaTargetsKey exSigma .nil)) := by cases sD2 <;> rfl

theorem exTD_saveable (sD2 : Option Param) (s : ModelState Unit Unit Unit)
    (h : tdInit () () (tdParams (some exTDKernel) (some exSigma) (some exSigma) sD2) () = .ok s) : Saveable s := by
  rw [tdInit] at h
  have hs := ModelState.new_eq h
  have hp : s.params = _ := (congrArg ModelState.params hs).trans (exTD_params sD2)
  have ho : s.opts = [(lossFnKey, .callable ()), (xTrainKey, .none), (jacobianTrainKey, .none), (jacobianTrain2Key, .none),
      (jaccoefKey, .none), (jaccoef2Key, .none), (yTrainKey, .none), (yDerivsTrainKey, .none),
      (yDerivsTrain2Key, .none), (isFittedKey, .bool false), (cKey, .none), (cTargetsKey, .none), (muKey, .none)] :=
    congrArg ModelState.opts hs
  clear hs h
  unfold Saveable
  rw [hp, ho]
  refine ⟨?_, ?_, ?_, ?_, ?_, ?_⟩
  · unfold exTDKernel
    cases sD2 <;> simp only [Dict.KeysDistinct, Dict.keys] <;> decide
  · unfold exTDKernel
    cases sD2 <;> simp only [WellKeyed, goodKey] <;> decide
  · unfold exTDKernel
    cases sD2 <;> simp only [NoShortShadow, leafKeys] <;> decide
  · exact ⟨exTDKernel, rfl⟩
  · simp only [List.map_cons, List.map_nil]
    decide
  · intro kv hkv
    simp only [List.mem_cons, List.not_mem_nil, or_false] at hkv
    rcases hkv with rfl | rfl | rfl | rfl | rfl | rfl | rfl | rfl | rfl | rfl | rfl | rfl | rfl <;>
      simp only [goodKey] <;> decide

/-- **C99** is false of the code: a model for one set of derivatives. -/
theorem C99_false : ¬ C99_full := by
  intro h
  obtain ⟨file, hf⟩ := h exTDKernel exSigma exSigma none _ rfl (exTD_saveable none _ rfl)
  rw [C99_unsaveable _ _ _ _ (.inr (.inr (.inr rfl)))] at hf
  cases hf

/-- Non-vacuity of `C99_two_sets_partial`. -/
example : Saveable exTDState ∧ exTDState.params.KeysDistinct ∧
    AtEveryPath (fun p q => p.value.shape = q.prior.shape ∧ p.value.dtype = q.prior.dtype) exTDState.params
      exTDState.params := by
  have h := exTD_saveable (some exSigma) _ exTDState_init
  refine ⟨h, h.1, ?_⟩
  apply atEveryPath_of_rel
  have := Dict.Rel.map_self (fun a => a) (fun p q : Param => p.value.shape = q.prior.shape ∧
    p.value.dtype = q.prior.dtype) exTDState.params (by
      intro p hp
      have : p = exLength ∨ p = exSigma := by
        have h2 : p ∈ [exLength, exSigma, exSigma, exSigma] := hp
        simpa using h2
      rcases this with rfl | rfl <;> exact ⟨rfl, rfl⟩)
  rwa [map_id_dict] at this

/-! ## C100 -/

/-- **C100**, full statement: the random key given to `fit` for the preconditioner is the one the iterative fit uses. -/
def C100_full : Prop :=
  ∀ (num : TDNumerics Unit Unit Unit ℝ (List ℝ)) (missing : List Key) (gpxKey : ℝ) (a : TDFitArgs ℝ) (key : ℝ)
    (s : ModelState Unit Unit Unit), a.keyPrecond = some key →
    tdFit num missing gpxKey a s = tdFit num missing key a s

/-- **C100**, what happens: the argument is ignored. -/
theorem C100_ignored (num : TDNumerics K M C P Out) (missing : List Key) (gpxKey : P) (a : TDFitArgs P)
    (key : Option P) (s : ModelState K M C) :
    tdFit num missing gpxKey { a with keyPrecond := key } s = tdFit num missing gpxKey a s := rfl

/-- **C100**, what holds: the key given is the one that counts when it is the default one, and when the fit is not iterative. -/
theorem C100_partial (num : TDNumerics K M C P Out) (missing : List Key) (gpxKey : P) (a : TDFitArgs P)
    (key : P) (s : ModelState K M C) (_h : a.keyPrecond = some key) (hd : key = gpxKey ∨ a.iterative = false) :
    tdFit num missing gpxKey a s = tdFit num missing key a s := by
  rcases hd with rfl | hd
  · rfl
  · simp [tdFit, tdFitCoefs, hd]

/-- **C100** is false of the code. -/
theorem C100_false : ¬ C100_full := by
  intro h
  have h1 := h exTDNum [] 0 exTDArgs 1 exTDState rfl
  have h2 := congrArg (fun r : Except Err (ModelState Unit Unit Unit) => r.map fun s =>
    (match assocGet cKey s.opts with | some (OptVal.arr a) => a.data.head? | _ => none)) h1
  have h3 : (Except.ok (some (0 : ℝ)) : Except Err (Option ℝ)) = .ok (some 1) := h2
  simp at h3

end GPX.Props
