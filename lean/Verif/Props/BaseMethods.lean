import Verif.Model.BaseMethods
import Verif.Props.API
import Verif.Props.Likelihood
import Verif.Props.RPCholesky
import Verif.Props.JointPSD

/-!
# C105, C106: fit status and iterative options of the estimator interface
-/

namespace GPX.Props
open GPX GPX.Spec

/-! ## C105 -/

section
variable {K M C O R Out : Type}

/-- The full claim of C105: after every history `is_fitted()` tells whether the model is fitted on targets and
`is_fitted_derivs()` whether it is fitted on derivatives. -/
def C105_full : Prop :=
  ∀ (K M C O R Out : Type) (num : Numerics K M C Out) (nxt : R → R) (sample : PriorObj → R → Arr)
    (m : GPObj (ModelState K M C) O) (k : Option Kind), Reach num nxt sample m k →
    (m.isFitted = true ↔ k = some .targets) ∧ (m.isFittedDerivs = true ↔ k = some .derivs)

/-- C105, what the code does: both methods return `True` after every history, fitted or not, and the check made by
the prediction methods never raises. -/
theorem C105_always_true {num : Numerics K M C Out} {nxt : R → R} {sample : PriorObj → R → Arr}
    {m : GPObj (ModelState K M C) O} {k : Option Kind} (h : Reach num nxt sample m k) :
    m.isFitted = true ∧ m.isFittedDerivs = true ∧ checkIsFitted m.state = .ok () := by
  have hc := (reach_flags h).c
  exact ⟨hc, hc, by simp [checkIsFitted]⟩

/-- The full claim is false: a model that was never fitted says that it is. -/
theorem C105_false : ¬ C105_full := by
  intro h
  have := (h _ _ _ _ _ _ _ _ _ _ _ exFresh_reach).1.1 (C105_always_true exFresh_reach).1
  cases this

/-- **C105** (partial): a fitted model says so, and the flags kept in the state, which the prediction functions
read, are the true fit status after every history: no prediction method ever returns a value for a model that is not
fitted. -/
theorem C105_predictions_guarded_partial {num : Numerics K M C Out} {nxt : R → R} {sample : PriorObj → R → Arr}
    {m : GPObj (ModelState K M C) O} {k : Option Kind} (h : Reach num nxt sample m k) :
    (k = some .targets → m.isFitted = true) ∧ (k = some .derivs → m.isFittedDerivs = true) ∧
    (k = none → ∀ (x jacobian : Arr) (fc it : Bool),
      m.predict num x fc it = .error .runtimeError ∧
      m.predictDerivs num x jacobian fc it = .error .runtimeError ∧
      m.predictYDerivs num x fc it = .error .runtimeError ∧
      m.predictOl num x jacobian fc = .error .runtimeError) := by
  refine ⟨fun _ => (C105_always_true h).1, fun _ => (C105_always_true h).2.1, fun hk x j fc it => ?_⟩
  subst hk
  exact ⟨(C42_predict h x fc it).2 (.inl (by simp)), (C42_predict_derivs h x j fc it).2 (.inl (by simp)),
    (C42_predict_y_derivs h x fc it).2 (.inl (by simp)), (C42_predict_ol h x j fc).2 (by simp)⟩

/-- Non-vacuity: a fresh model, a fitted one and one reset afterwards. -/
example : Reach (O := Unit) exNum (fun _ : Unit => ()) (fun _ _ => exDraw) { state := exFresh } none := exFresh_reach

end

/-! ## C106 -/

variable {d n o v : ℕ} {Key : Type}

/-- The full claim of C106: whatever the model, on every dataset of two samples or more, the fitting and likelihood
methods of GPR return a value with `iterative=True` when the other arguments keep their defaults. -/
def C106_full : Prop :=
  ∀ (d n o v : ℕ) (Key : Type) (key0 : Key) (t : GprTools n v Key) (e : KExpr d) (θ : GPParams) (mf : MeanFun)
    (x : Batch n d) (y : Mat n o) (J : Jac n d v) (yd : Mat n v) (numEvals numLanczos : ℕ) (keyLanczos : Key), 2 ≤ n →
    (∃ r, methodFit key0 t θ e.obj mf x y true none = .ok r) ∧
    (∃ r, methodFitDerivs key0 t θ e.obj x J yd true none = .ok r) ∧
    (∃ r, methodFitNlopt t θ e.obj mf x y true = .ok r) ∧
    (∃ r, methodLml t θ e.obj mf x y false true numEvals numLanczos keyLanczos = .ok r) ∧
    (∃ r, methodLmlDerivs t θ e.obj x J yd false true numEvals numLanczos keyLanczos = .ok r)

/-- C106, what the code does: without a number of pivots the iterative fits raise `TypeError` on every dataset; the
methods that take no number of pivots (`fit_nlopt` and the two likelihoods) raise it whatever arguments are given. -/
theorem C106_raises (key0 : Key) (t : GprTools n v Key) (κ : KernelObj d) (θ : GPParams) (mf : MeanFun)
    (x : Batch n d) (y : Mat n o) (J : Jac n d v) (yd : Mat n v) :
    methodFit key0 t θ κ mf x y true none = .error .typeError ∧
    methodFitDerivs key0 t θ κ x J yd true none = .error .typeError ∧
    methodFitNlopt t θ κ mf x y true = .error .typeError ∧
    (∀ (rn : Bool) (numEvals numLanczos : ℕ) (keyLanczos : Key),
      methodLml t θ κ mf x y rn true numEvals numLanczos keyLanczos = .error .typeError ∧
      methodLmlDerivs t θ κ x J yd rn true numEvals numLanczos keyLanczos = .error .typeError) :=
  ⟨rfl, rfl, rfl, fun _ _ _ _ => ⟨rfl, rfl⟩⟩

/-- Solvers for the examples. -/
noncomputable def exTools (n v : ℕ) (i : Fin n) (a : Fin (n * v)) : GprTools n v Unit where
  la := LinAlg.ideal
  cg := idealCG
  split k := (k, k)
  choice _ _ := i
  choiceDerivs _ _ := a
  logdet _ _ _ _ := 0
  logdetDerivs _ _ _ _ := 0

/-- The full claim is false. -/
theorem C106_false : ¬ C106_full := by
  intro h
  obtain ⟨⟨r, hr⟩, -⟩ := h 1 2 1 1 Unit () (exTools 2 1 0 0) (.linear none) ⟨fun _ => 1, 1⟩ zeroMean (fun _ _ => 0) 0
    (fun _ _ _ => 0) 0 1 1 () le_rfl
  cases hr

/-- **C106** (partial): with a number of pivots the iterative fits return a value on every dataset of two samples or
more; when the conjugate gradient routine solves positive definite systems exactly, that value is the one of the
dense fit, whatever the number of pivots and the key, and so the choice of `iterative` does not matter. -/
theorem C106_fit_partial (key0 : Key) (t : GprTools n v Key) (e : KExpr d) (θ : GPParams)
    (h : Admissible e θ.kernelParams) (mf : MeanFun) (x : Batch n d) (y : Mat n o) (hn : 2 ≤ n) (nPivots : ℕ) :
    (∃ c, methodFit key0 t θ e.obj mf x y true (some nPivots) = .ok (c, mf y)) ∧
    (t.la.Exact → CGExact t.cg →
      methodFit key0 t θ e.obj mf x y true (some nPivots) = methodFit key0 t θ e.obj mf x y false none) := by
  constructor
  · obtain ⟨c, hc⟩ := C66_fit_partial hn t.split t.choice t.la t.cg θ e.obj mf x y nPivots key0
    exact ⟨c, by simp [methodFit, gprFitValues, pivotArgs, hc, Except.mapError]⟩
  · intro ex hcg
    have := C32_fit_iterative ex t.cg hcg t.split t.choice e θ h mf x y nPivots key0 (by omega)
    simp [methodFit, gprFitValues, pivotArgs, this, Except.mapError]

/-- **C106** (partial), derivatives. -/
theorem C106_fit_derivs_partial (key0 : Key) (t : GprTools n v Key) (e : KExpr d) (θ : GPParams)
    (x : Batch n d) (J : Jac n d v) (y : Mat n v)
    (h : (Matrix.of (e.obj.d01kj θ.kernelParams x x J J)).PosSemidef) (nPivots : ℕ) :
    (∃ c, methodFitDerivs key0 t θ e.obj x J y true (some nPivots) = .ok (c, 0)) ∧
    (t.la.Exact → CGExact t.cg →
      methodFitDerivs key0 t θ e.obj x J y true (some nPivots) = methodFitDerivs key0 t θ e.obj x J y false none) := by
  constructor
  · exact ⟨_, rfl⟩
  · intro ex hcg
    have := C32_fit_derivs_iterative ex t.cg hcg t.split t.choiceDerivs e θ zeroMean x J y h nPivots key0
    simp [methodFitDerivs, gprFitDerivsValues, pivotArgs, this]

/-- C106, dense: with `iterative=False` every method returns a value, the likelihoods are the Gaussian log densities
per observation, and `return_negative=True` gives the opposite number. -/
theorem C106_dense (t : GprTools n v Key) (ex : t.la.Exact) (e : KExpr d) (θ : GPParams)
    (h : Admissible e θ.kernelParams) (mf : MeanFun) (x : Batch n d) (y : Mat n 1) (J : Jac n d v) (yd : Mat n v)
    (hd : (Matrix.of (e.obj.d01kj θ.kernelParams x x J J)).PosSemidef)
    (numEvals numLanczos : ℕ) (keyLanczos : Key) :
    (∃ l, methodLml t θ e.obj mf x y false false numEvals numLanczos keyLanczos = .ok l ∧
      methodLml t θ e.obj mf x y true false numEvals numLanczos keyLanczos = .ok (-l) ∧
      n * l = Real.log (gaussDensity (dataCov e.obj θ x) fun i => y i 0 - mf y)) ∧
    (∃ l, methodLmlDerivs t θ e.obj x J yd false false numEvals numLanczos keyLanczos = .ok l ∧
      methodLmlDerivs t θ e.obj x J yd true false numEvals numLanczos keyLanczos = .ok (-l) ∧
      ((n * v : ℕ) : ℝ) * l = Real.log (gaussDensity (dataCovDerivs e.obj θ x J) fun r => flatCol yd r 0)) := by
  refine ⟨⟨_, rfl, rfl, (C34_single_output_partial ex e θ h mf x y).1⟩, ⟨_, rfl, rfl, ?_⟩⟩
  have := (C34_derivs ex e θ zeroMean x J yd hd).1
  simpa [zeroMean] using this

/-- Non-vacuity: the hypotheses on solvers and model hold for exact solvers and a squared exponential kernel. -/
example (x : Batch 2 3) (J : Jac 2 3 1) : (exTools 2 1 0 0).la.Exact ∧ CGExact (exTools 2 1 0 0).cg ∧
    Admissible (.squaredExponential none : KExpr 3) (fun _ => 1) ∧
    (Matrix.of ((KExpr.squaredExponential none : KExpr 3).obj.d01kj (fun _ => 1) x x J J)).PosSemidef :=
  ⟨LinAlg.ideal_exact, idealCG_exact, by norm_num [Admissible, KPar.val],
    C65_gram_partial (.squaredExponential none) _ (.squaredExponential (by norm_num [KPar.val])) x J⟩

end GPX.Props
