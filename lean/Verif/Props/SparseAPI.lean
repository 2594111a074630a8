import Verif.Model.SparseAPI
import Verif.Props.API

/-!
# C95, C96: the functional interface of the sparse models
-/

namespace GPX.Props
open GPX GPX.Spec
variable {K M C O R Out : Type}

/-- A state made by the constructor of `ModelState`. Every state is: `update`, `randomize`, `load`, `copy` and the
optimisers all end in it. -/
def Constructed (s : ModelState K M C) : Prop :=
  ∃ kernel meanFn params kwargs, ModelState.new kernel meanFn params kwargs = .ok s

theorem Constructed.sorted {s : ModelState K M C} (h : Constructed s) : s.params.sortKeys = s.params := by
  obtain ⟨_, _, _, _, h⟩ := h
  rw [ModelState.new_eq h]
  exact Dict.sortKeys_idem _

theorem Constructed.update {s r : ModelState K M C} {u : StateUpdate K M C} (h : (s.update u).1 = .ok r) :
    Constructed r := ⟨_, _, _, _, h⟩

theorem sparse_bind_ok {α β : Type} {m : Except Err α} {f : α → Except Err β} {b : β} (h : m >>= f = .ok b) :
    ∃ a, m = .ok a ∧ f a = .ok b := by
  rcases m with e | a
  · cases h
  · exact ⟨a, rfl, h⟩

theorem guardTargets_eq {s : ModelState K M C} {f d : Bool} (h1 : s.attr isFittedKey = .ok (.bool f))
    (h2 : s.attr isFittedDerivsKey = .ok (.bool d)) (fc it : Bool) :
    guardTargets s fc it = if f && !d && !(fc && it) then .ok () else .error .runtimeError := by
  unfold guardTargets
  rw [h1, h2]
  cases f <;> cases d <;> cases fc <;> cases it <;> rfl

theorem guardDerivs_eq {s : ModelState K M C} {f d : Bool} (h1 : s.attr isFittedKey = .ok (.bool f))
    (h2 : s.attr isFittedDerivsKey = .ok (.bool d)) (fc it : Bool) :
    guardDerivs s fc it = if d && !f && !(fc && it) then .ok () else .error .runtimeError := by
  unfold guardDerivs
  rw [h1, h2]
  cases f <;> cases d <;> cases fc <;> cases it <;> rfl

/-- No prediction is possible: all three functions raise RuntimeError, whatever their arguments. -/
def SgprUnfitted (num : SgprNumerics K M C Out) (s : ModelState K M C) : Prop :=
  (∀ x fc it, sgprStatePredict num s x fc it = .error .runtimeError) ∧
  (∀ x j fc it, sgprStatePredictDerivs num s x j fc it = .error .runtimeError) ∧
  ∀ x fc it, sgprStatePredictYDerivs num s x fc it = .error .runtimeError

/-- The same for SGPR_RPChol. -/
def RpcUnfitted (num : RpcNumerics K M C Out) (s : ModelState K M C) : Prop :=
  (∀ x fc it, rpcPredict num s x fc it = .error .runtimeError) ∧
  (∀ x j fc it, rpcPredictDerivs num s x j fc it = .error .runtimeError) ∧
  ∀ x fc it, rpcPredictYDerivs num s x fc it = .error .runtimeError

theorem unfitted_of_flags {s : ModelState K M C} (h1 : s.attr isFittedKey = .ok (.bool false))
    (h2 : s.attr isFittedDerivsKey = .ok (.bool false)) (num : SgprNumerics K M C Out) (num' : RpcNumerics K M C Out) :
    SgprUnfitted num s ∧ RpcUnfitted num' s := by
  refine ⟨⟨?_, ?_, ?_⟩, ?_, ?_, ?_⟩ <;> intros <;>
    simp [sgprStatePredict, sgprStatePredictDerivs, sgprStatePredictYDerivs, rpcPredict, rpcPredictDerivs, rpcPredictYDerivs,
      guardTargets_eq h1 h2, guardDerivs_eq h1 h2, bind, Except.bind]

theorem paramValue_update {s r : ModelState K M C} {u : StateUpdate K M C} (h : (s.update u).1 = .ok r)
    (hu : u.params = none) (hk : u.kernel = none) (hm : u.meanFn = none) (hs : s.params.sortKeys = s.params) (q : Key) :
    paramValue r q = paramValue s q := by
  rw [paramValue, paramValue, (params_update h hu hk hm hs).1]

/-- C95: a freshly constructed sparse model makes no prediction. -/
theorem C95_init (kernel : K) (meanFn : M) (params : Dict Param) (lossFn : C) :
    (∀ {s : ModelState K M C}, sgprInit kernel meanFn params lossFn = .ok s →
      ∀ num : SgprNumerics K M C Out, SgprUnfitted num s) ∧
    ∀ {s : ModelState K M C} (nLocs : OptVal C) (key : Option (OptVal C)) (now : ℝ),
      rpcInit kernel nLocs key meanFn params lossFn now = .ok s → ∀ num : RpcNumerics K M C Out, RpcUnfitted num s := by
  constructor
  · intro s h num
    have h' := ModelState.new_eq h
    refine (unfitted_of_flags ?_ ?_ num
      (RpcNumerics.mk (fun _ _ _ _ _ _ _ _ => .error .typeError) (fun _ _ _ _ _ _ _ _ => .error .typeError)
        (fun _ _ => .error .typeError) (fun _ _ _ _ _ _ _ _ => .error .typeError)
        (fun _ _ _ _ _ _ _ _ _ _ => .error .typeError) (fun _ _ _ _ _ _ _ _ _ _ => .error .typeError))).1 <;>
      rw [h'] <;> rfl
  · intro s nLocs key now h num
    rcases key with - | k
    · cases h
    have h' := ModelState.new_eq (show ModelState.new kernel meanFn params _ = .ok s from h)
    refine (unfitted_of_flags ?_ ?_
      (SgprNumerics.mk (fun _ _ _ _ _ _ _ => .error .typeError) (fun _ _ _ _ _ _ _ _ => .error .typeError)
        (fun _ _ => .error .typeError) (fun _ _ _ _ _ _ _ _ => .error .typeError)
        (fun _ _ _ _ _ _ _ _ _ _ => .error .typeError) (fun _ _ _ _ _ _ _ _ _ _ => .error .typeError)) num).2 <;>
      rw [h'] <;> rfl

theorem nodup_sparseInit : [isFittedKey, isFittedDerivsKey, cKey, yMeanKey].Nodup := by decide
theorem nodup_rpcFit : [xTrainKey, yTrainKey, cKey, muKey, isFittedKey, isFittedDerivsKey, xLocsKey].Nodup := by decide
theorem nodup_rpcDerivs : [xTrainKey, yTrainKey, jacobianTrainKey, jaccoefKey, cKey, muKey, isFittedKey,
    isFittedDerivsKey, xLocsKey, jacobianLocsKey].Nodup := by decide

/-- C95: after `randomize(reset=True)` no prediction is possible, from any state. -/
theorem C95_reset {nxt : R → R} {sample : PriorObj → R → Arr} {m m' : GPObj (ModelState K M C) O} {key : R}
    (h : m.randomize nxt sample sparseInitDefault key true = .ok m') (num : SgprNumerics K M C Out)
    (num' : RpcNumerics K M C Out) : SgprUnfitted num m'.state ∧ RpcUnfitted num' m'.state := by
  unfold GPObj.randomize at h
  obtain ⟨s, hs, h⟩ := sparse_bind_ok h
  cases h
  obtain ⟨s1, -, hs⟩ := sparse_bind_ok hs
  obtain ⟨p, -, hs⟩ := sparse_bind_ok hs
  exact unfitted_of_flags (attr_update (v := .bool false) hs nodup_sparseInit rfl)
    (attr_update (v := .bool false) hs nodup_sparseInit rfl) num num'

/-- C95, SGPR after `fit`, from any state: `predict` is evaluated at the coefficients and the mean this very fit has
computed, with the inducing points and hyperparameters the fit has used; a full covariance with the iterative method
and the predictions for models fitted on derivatives raise RuntimeError. -/
theorem C95_sgpr_fit {num : SgprNumerics K M C Out} {s s' : ModelState K M C} (hs : Constructed s) {x y : Arr}
    {it : Bool} (h : sgprFit num x y it s = .ok s') :
    ∃ xLocs c mu, paramValue s "x_locs".toList = .ok xLocs ∧
      num.fit s.kernel s.meanFn s.params xLocs x y it = .ok (c, mu) ∧
      (∀ x' fc it', sgprStatePredict num s' x' fc it' = if fc && it' then .error .runtimeError else
        num.predict s.kernel s.params xLocs x' (.arr c) mu.norm fc it') ∧
      (∀ x' j fc it', sgprStatePredictDerivs num s' x' j fc it' = .error .runtimeError) ∧
      ∀ x' fc it', sgprStatePredictYDerivs num s' x' fc it' = .error .runtimeError := by
  obtain ⟨xLocs, hx, h⟩ := sparse_bind_ok h
  obtain ⟨⟨c, mu⟩, hc, h⟩ := sparse_bind_ok h
  obtain ⟨e1, e2, e3⟩ := params_update h rfl rfl rfl hs.sorted
  have f1 : s'.attr isFittedKey = .ok (.bool true) := attr_update (v := .bool true) h nodup_fit rfl
  have f2 : s'.attr isFittedDerivsKey = .ok (.bool false) := attr_update (v := .bool false) h nodup_fit rfl
  have f3 : s'.attr cKey = .ok (.arr c) := attr_arr h nodup_fit rfl
  have f4 : s'.attr muKey = .ok mu.norm := attr_update h nodup_fit rfl
  have f5 : paramValue s' xLocsKey = .ok xLocs := by rw [paramValue_update h rfl rfl rfl hs.sorted, hx]
  refine ⟨xLocs, c, mu, hx, hc, fun x' fc it' => ?_, fun x' j fc it' => ?_, fun x' fc it' => ?_⟩
  · rw [sgprStatePredict, guardTargets_eq f1 f2, f3, f4, f5, e1, e2]
    cases fc <;> cases it' <;> rfl
  · rw [sgprStatePredictDerivs, guardDerivs_eq f1 f2]
    rfl
  · rw [sgprStatePredictYDerivs, guardDerivs_eq f1 f2]
    rfl

/-- C95, SGPR after `fit_derivs`. The contracted jacobian handed to the dense predictions is the one of these
coefficients; it is not used with a full covariance nor by the iterative version. -/
theorem C95_sgpr_fit_derivs {num : SgprNumerics K M C Out} {s s' : ModelState K M C} (hs : Constructed s)
    {x y jacobian : Arr} {it : Bool} (h : sgprFitDerivs num x y jacobian it s = .ok s') :
    ∃ xLocs jacobianLocs c mu jc, paramValue s "x_locs".toList = .ok xLocs ∧
      paramValue s "jacobian_locs".toList = .ok jacobianLocs ∧
      num.fitDerivs s.kernel s.params xLocs jacobianLocs x y jacobian it = .ok (c, mu) ∧
      num.jaccoef c jacobianLocs = .ok jc ∧
      (∀ x' j fc it', sgprStatePredictDerivs num s' x' j fc it' = if fc && it' then .error .runtimeError else
        num.predictDerivs s.kernel s.params xLocs jacobianLocs x' j (.arr c)
          (if fc || it' then .none else .arr jc) fc it') ∧
      (∀ x' fc it', sgprStatePredictYDerivs num s' x' fc it' = if fc && it' then .error .runtimeError else
        num.predictYDerivs s.kernel s.params xLocs jacobianLocs x' (.arr c) mu.norm
          (if fc || it' then .none else .arr jc) fc it') ∧
      ∀ x' fc it', sgprStatePredict num s' x' fc it' = .error .runtimeError := by
  obtain ⟨xLocs, hx, h⟩ := sparse_bind_ok h
  obtain ⟨jacobianLocs, hl, h⟩ := sparse_bind_ok h
  obtain ⟨⟨c, mu⟩, hc, h⟩ := sparse_bind_ok h
  obtain ⟨jc, hj, h⟩ := sparse_bind_ok h
  obtain ⟨e1, e2, e3⟩ := params_update h rfl rfl rfl hs.sorted
  have f1 : s'.attr isFittedKey = .ok (.bool false) := attr_update (v := .bool false) h nodup_derivs rfl
  have f2 : s'.attr isFittedDerivsKey = .ok (.bool true) := attr_update (v := .bool true) h nodup_derivs rfl
  have f3 : s'.attr cKey = .ok (.arr c) := attr_arr h nodup_derivs rfl
  have f4 : s'.attr muKey = .ok mu.norm := attr_update h nodup_derivs rfl
  have f5 : paramValue s' xLocsKey = .ok xLocs := by rw [paramValue_update h rfl rfl rfl hs.sorted, hx]
  have f6 : paramValue s' jacobianLocsKey = .ok jacobianLocs := by rw [paramValue_update h rfl rfl rfl hs.sorted, hl]
  have f7 : s'.attr jaccoefKey = .ok (.arr jc) := attr_arr h nodup_derivs rfl
  refine ⟨xLocs, jacobianLocs, c, mu, jc, hx, hl, hc, hj, fun x' j fc it' => ?_, fun x' fc it' => ?_,
    fun x' fc it' => ?_⟩
  · rw [sgprStatePredictDerivs, guardDerivs_eq f1 f2, f3, f5, f6, f7, e1, e2]
    cases fc <;> cases it' <;> rfl
  · rw [sgprStatePredictYDerivs, guardDerivs_eq f1 f2, f3, f4, f5, f6, f7, e1, e2]
    cases fc <;> cases it' <;> rfl
  · rw [sgprStatePredict, guardTargets_eq f1 f2]
    rfl

/-- C95: SGPR built without jacobians of the inducing points raises KeyError in `fit_derivs`, whatever the data. -/
theorem C95_sgpr_no_jacobian (num : SgprNumerics K M C Out) {s : ModelState K M C} {p : Param}
    (hx : s.params.get? "x_locs".toList = some (.inl p)) (hj : s.params.get? "jacobian_locs".toList = none)
    (x y jacobian : Arr) (it : Bool) : sgprFitDerivs num x y jacobian it s = .error .keyError := by
  have h1 : paramValue s xLocsKey = .ok p.value := by rw [paramValue]; erw [hx]
  have h2 : paramValue s jacobianLocsKey = .error .keyError := by rw [paramValue]; erw [hj]
  rw [sgprFitDerivs, h1, h2]
  rfl

/-- C95, SGPR_RPChol after `fit`, from any state: predictions use the coefficients, the mean and the inducing points of
this very fit, whatever inducing points earlier fits have left in the state. -/
theorem C95_rpc_fit {num : RpcNumerics K M C Out} {s s' : ModelState K M C} (hs : Constructed s) {x y : Arr}
    {it : Bool} (h : rpcFit num x y it s = .ok s') :
    ∃ key nLocs c mu xLocs, s.attr "key".toList = .ok key ∧ s.attr "n_locs".toList = .ok nLocs ∧
      num.fit s.kernel s.meanFn s.params x y key nLocs it = .ok (c, mu, xLocs) ∧
      (∀ x' fc it', rpcPredict num s' x' fc it' = if fc && it' then .error .runtimeError else
        num.predict s.kernel s.params (.arr xLocs) x' (.arr c) mu.norm fc it') ∧
      (∀ x' j fc it', rpcPredictDerivs num s' x' j fc it' = .error .runtimeError) ∧
      ∀ x' fc it', rpcPredictYDerivs num s' x' fc it' = .error .runtimeError := by
  obtain ⟨key, hk, h⟩ := sparse_bind_ok h
  obtain ⟨nLocs, hn, h⟩ := sparse_bind_ok h
  obtain ⟨⟨c, mu, xLocs⟩, hc, h⟩ := sparse_bind_ok h
  obtain ⟨e1, e2, e3⟩ := params_update h rfl rfl rfl hs.sorted
  have f1 : s'.attr isFittedKey = .ok (.bool true) := attr_update (v := .bool true) h nodup_rpcFit rfl
  have f2 : s'.attr isFittedDerivsKey = .ok (.bool false) := attr_update (v := .bool false) h nodup_rpcFit rfl
  have f3 : s'.attr cKey = .ok (.arr c) := attr_arr h nodup_rpcFit rfl
  have f4 : s'.attr muKey = .ok mu.norm := attr_update h nodup_rpcFit rfl
  have f5 : s'.attr xLocsKey = .ok (.arr xLocs) := attr_arr h nodup_rpcFit rfl
  refine ⟨key, nLocs, c, mu, xLocs, hk, hn, hc, fun x' fc it' => ?_, fun x' j fc it' => ?_, fun x' fc it' => ?_⟩
  · rw [rpcPredict, guardTargets_eq f1 f2, f3, f4, f5, e1, e2]
    cases fc <;> cases it' <;> rfl
  · rw [rpcPredictDerivs, guardDerivs_eq f1 f2]
    rfl
  · rw [rpcPredictYDerivs, guardDerivs_eq f1 f2]
    rfl

/-- C95, SGPR_RPChol after `fit_derivs`. -/
theorem C95_rpc_fit_derivs {num : RpcNumerics K M C Out} {s s' : ModelState K M C} (hs : Constructed s)
    {x y jacobian : Arr} {it : Bool} (h : rpcFitDerivs num x y jacobian it s = .ok s') :
    ∃ key nLocs c mu xLocs jacobianLocs jc, s.attr "key".toList = .ok key ∧ s.attr "n_locs".toList = .ok nLocs ∧
      num.fitDerivs s.kernel s.params x y jacobian key nLocs it = .ok (c, mu, xLocs, jacobianLocs) ∧
      num.jaccoef c jacobianLocs = .ok jc ∧
      (∀ x' j fc it', rpcPredictDerivs num s' x' j fc it' = if fc && it' then .error .runtimeError else
        num.predictDerivs s.kernel s.params (.arr xLocs) (.arr jacobianLocs) x' j (.arr c)
          (if fc || it' then .none else .arr jc) fc it') ∧
      (∀ x' fc it', rpcPredictYDerivs num s' x' fc it' = if fc && it' then .error .runtimeError else
        num.predictYDerivs s.kernel s.params (.arr xLocs) (.arr jacobianLocs) x' (.arr c) mu.norm
          (if fc || it' then .none else .arr jc) fc it') ∧
      ∀ x' fc it', rpcPredict num s' x' fc it' = .error .runtimeError := by
  obtain ⟨key, hk, h⟩ := sparse_bind_ok h
  obtain ⟨nLocs, hn, h⟩ := sparse_bind_ok h
  obtain ⟨⟨c, mu, xLocs, jacobianLocs⟩, hc, h⟩ := sparse_bind_ok h
  obtain ⟨jc, hj, h⟩ := sparse_bind_ok h
  obtain ⟨e1, e2, e3⟩ := params_update h rfl rfl rfl hs.sorted
  have f1 : s'.attr isFittedKey = .ok (.bool false) := attr_update (v := .bool false) h nodup_rpcDerivs rfl
  have f2 : s'.attr isFittedDerivsKey = .ok (.bool true) := attr_update (v := .bool true) h nodup_rpcDerivs rfl
  have f3 : s'.attr cKey = .ok (.arr c) := attr_arr h nodup_rpcDerivs rfl
  have f4 : s'.attr muKey = .ok mu.norm := attr_update h nodup_rpcDerivs rfl
  have f5 : s'.attr xLocsKey = .ok (.arr xLocs) := attr_arr h nodup_rpcDerivs rfl
  have f6 : s'.attr jacobianLocsKey = .ok (.arr jacobianLocs) := attr_arr h nodup_rpcDerivs rfl
  have f7 : s'.attr jaccoefKey = .ok (.arr jc) := attr_arr h nodup_rpcDerivs rfl
  refine ⟨key, nLocs, c, mu, xLocs, jacobianLocs, jc, hk, hn, hc, hj, fun x' j fc it' => ?_, fun x' fc it' => ?_,
    fun x' fc it' => ?_⟩
  · rw [rpcPredictDerivs, guardDerivs_eq f1 f2, f3, f5, f6, f7, e1, e2]
    cases fc <;> cases it' <;> rfl
  · rw [rpcPredictYDerivs, guardDerivs_eq f1 f2, f3, f4, f5, f6, f7, e1, e2]
    cases fc <;> cases it' <;> rfl
  · rw [rpcPredict, guardTargets_eq f1 f2]
    rfl

/-- Successful calls exist: a fresh SGPR_RPChol is fitted on targets, then on derivatives, then reset. -/
def exRpcNum : RpcNumerics Unit Unit Unit ℕ where
  fit _ _ _ x y _ _ _ := .ok (y, .none, x)
  fitDerivs _ _ x y j _ _ _ := .ok (y, .none, x, j)
  jaccoef c _ := .ok c
  predict _ _ _ _ _ _ _ _ := .ok 1
  predictDerivs _ _ _ _ _ _ _ _ _ _ := .ok 2
  predictYDerivs _ _ _ _ _ _ _ _ _ _ := .ok 3

noncomputable def exRpcState : ModelState Unit Unit Unit :=
  ⟨(), (), .nil, [(isFittedKey, .bool false), (isFittedDerivsKey, .bool false), (nLocsKey, .bool true),
    (keyKey, .arr exArr)]⟩

example : Constructed exRpcState ∧
    ∃ s1 s2 : ModelState Unit Unit Unit, ∃ m : GPObj (ModelState Unit Unit Unit) Unit,
    rpcFit exRpcNum exArr exArr false exRpcState = .ok s1 ∧ rpcPredict exRpcNum s1 exArr true false = .ok 1 ∧
    rpcFitDerivs exRpcNum exArr exArr exArr false s1 = .ok s2 ∧
    rpcPredictDerivs exRpcNum s2 exArr exArr false false = .ok 2 ∧
    GPObj.randomize (fun _ : Unit => ()) (fun _ _ => exArr) sparseInitDefault { state := s2 } () true = .ok m :=
  ⟨⟨(), (), .nil, exRpcState.opts, rfl⟩, _, _, _, rfl, rfl, rfl, rfl, rfl⟩

def exSgprNum : SgprNumerics Unit Unit Unit ℕ where
  fit _ _ _ _ _ y _ := .ok (y, .none)
  fitDerivs _ _ _ _ _ y _ _ := .ok (y, .none)
  jaccoef c _ := .ok c
  predict _ _ _ _ _ _ _ _ := .ok 1
  predictDerivs _ _ _ _ _ _ _ _ _ _ := .ok 2
  predictYDerivs _ _ _ _ _ _ _ _ _ _ := .ok 3

/-- A state of SGPR with one inducing point and its jacobian. -/
def exSgprState : ModelState Unit Unit Unit :=
  ⟨(), (), .leaf "jacobian_locs".toList exVec (.leaf "x_locs".toList exVec .nil),
    [(isFittedKey, .bool false), (isFittedDerivsKey, .bool false)]⟩

example : Constructed exSgprState ∧ ∃ s1 s2 : ModelState Unit Unit Unit,
    sgprFit exSgprNum exArr exArr false exSgprState = .ok s1 ∧ sgprStatePredict exSgprNum s1 exArr true false = .ok 1 ∧
    sgprFitDerivs exSgprNum exArr exArr exArr true s1 = .ok s2 ∧
    sgprStatePredictDerivs exSgprNum s2 exArr exArr true false = .ok 2 :=
  ⟨⟨(), (), exSgprState.params, exSgprState.opts, rfl⟩, _, _, rfl, rfl, rfl, rfl⟩

/-- A state of SGPR without jacobians. -/
example : ∃ p : Param, (Dict.leaf "x_locs".toList exVec .nil : Dict Param).get? "x_locs".toList = some (.inl p) ∧
    (Dict.leaf "x_locs".toList exVec .nil : Dict Param).get? "jacobian_locs".toList = none := ⟨_, rfl, rfl⟩

/-! ### C96 -/

/-- C96, full statement: the key of SGPR_RPChol is optional in `init`, as its signature says: without it the state is
built from the time of the call. False of the code, see `C96_false`. -/
def C96_full : Prop :=
  ∀ (nLocs : OptVal Unit) (params : Dict Param), ParamsOK params → ∀ now : ℝ,
    ∃ s : ModelState Unit Unit Unit, rpcInit () nLocs none () params () now = .ok s

/-- C96: without a key the call raises TypeError, for every kernel, number of inducing points, parameters and time. -/
theorem C96_no_key (kernel : K) (nLocs : OptVal C) (meanFn : M) (params : Dict Param) (lossFn : C) (now : ℝ) :
    rpcInit kernel nLocs none meanFn params lossFn now = .error .typeError := rfl

theorem C96_false : ¬ C96_full := by
  intro h
  obtain ⟨s, hs⟩ := h .none exParams exParams_ok 0
  rw [C96_no_key] at hs
  cases hs

/-- C96, what holds: with a key given the state is built, holds the key and the number of inducing points, and is not
fitted. Missing: the default. -/
theorem C96_key_partial (kernel : K) (nLocs key : OptVal C) (meanFn : M) {params : Dict Param} (hp : ParamsOK params)
    (lossFn : C) (now : ℝ) :
    ∃ s : ModelState K M C, rpcInit kernel nLocs (some key) meanFn params lossFn now = .ok s ∧
      s.attr "key".toList = .ok key.norm ∧ s.attr "n_locs".toList = .ok nLocs.norm ∧
      s.attr "is_fitted".toList = .ok (.bool false) ∧ s.attr "is_fitted_derivs".toList = .ok (.bool false) ∧
      s.kernel = kernel ∧ s.meanFn = meanFn ∧ SameDict s.params params :=
  ⟨_, ModelState.new_ok kernel meanFn params _ hp, rfl, rfl, rfl, rfl, rfl, rfl, fun _ => lookup_sortKeys _ _⟩

example : ParamsOK exParams := exParams_ok

end GPX.Props
