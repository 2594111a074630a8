import Verif.Model.API
import Verif.Model.Defaults

/-!
# Model of the class `RBFNet`, `gpx/models/rbfnet.py` 130-457

The numerical functions (`Model/RBFNet.lean`) are a record of functions on arrays that may raise, as in `Model/API.lean`.
A network has no mean function: `ModelState` is given Python's `None` (rbfnet.py 221), here a value `noMean`.
-/

namespace GPX
noncomputable section
variable {K M C R Out : Type}

def outputLayerKey : Key := "output_layer".toList
def centerKernelKey : Key := "center_kernel".toList
def kMeanKey : Key := "k_mean".toList
def alphaKey : Key := "alpha".toList
def inducingPointsKey : Key := "inducing_points".toList
def weightsKey : Key := "weights".toList

/-- `alpha` of `default_params`, rbfnet.py 154-159. -/
def rbfDefaultAlpha : Except Err Param := Param.new (scalarArr 1) true .softplus normalPrior

/-- `weights` of `default_params`, rbfnet.py 162-167; `draw` is `random.normal(key, shape)`. -/
def rbfDefaultWeights (draw : R → List ℕ → List ℝ) (key : R) (numInput numOutput : ℕ) : Except Err Param :=
  Param.new ⟨[numInput, numOutput], float64, draw key [numInput, numOutput]⟩ true .identity
    ⟨.normal 0 1, [numInput, numOutput], float64⟩

/-- `jnp.zeros(n)`. -/
def zerosArr (n : ℕ) : Arr := ⟨[n], float64, List.replicate n 0⟩

/-- The kernel parameters, rbfnet.py 187-191; `kernelDefault` is `kernel.default_params()`. -/
def rbfKernelParams (kernelDefault : K → Except Err (Dict Param)) (kernel : K) :
    Option (Dict Param) → Except Err (Dict Param)
  | Option.none => kernelDefault kernel
  | some kp => .ok kp

/-- `init`, rbfnet.py 172-221. The type checks (lines 184, 190-194, 205) pass because the arguments are typed here; they are the
checks of C46. A scalar has no `shape[0]` (line 197): `IndexError`. -/
def rbfInit (draw : R → List ℕ → List ℝ) (kernelDefault : K → Except Err (Dict Param)) (noMean : M) (key : R) (kernel : K)
    (inducing : Param) (numOutput : ℕ) (kernelParams : Option (Dict Param)) (alpha : Option Param)
    (layer lossFn : C) (center : Bool) : Except Err (ModelState K M C) := do
  let kp ← rbfKernelParams kernelDefault kernel kernelParams
  match inducing.value.shape with
  | [] => .error .indexError
  | numInput :: _ => do
    let defaultAlpha ← rbfDefaultAlpha
    let weights ← rbfDefaultWeights draw key numInput numOutput
    ModelState.new kernel noMean
      (.leaf alphaKey (alpha.getD defaultAlpha) (.leaf inducingPointsKey inducing
        (.node kernelParamsKey kp (.leaf weightsKey weights .nil))))
      [(outputLayerKey, .callable layer), (lossFnKey, .callable lossFn), (centerKernelKey, .bool center),
        (kMeanKey, .arr (zerosArr numInput))]

/-- `_init_default`, rbfnet.py 232; the two functions are `identity` and `train_loss`. -/
def rbfInitDefault (identityFn trainLossFn : C) : List (Key × OptVal C) :=
  [(outputLayerKey, .callable identityFn), (lossFnKey, .callable trainLossFn), (centerKernelKey, .bool false)]

/-- The numerical functions called by the state-level ones. -/
structure RbfNumerics (K C Out : Type) where
  /-- `_predict_linear`, rbfnet.py 89-110; with the prediction comes the mean it has used -/
  predictLinear : K → Dict Param → (x : Arr) → (center kMean : OptVal C) → Except Err (Out × OptVal C)
  /-- `_predict`, rbfnet.py 113-127 -/
  predict : K → Dict Param → (x : Arr) → (layer center kMean : OptVal C) → Except Err (Out × OptVal C)

/-- `predict`, rbfnet.py 130-147. -/
def rbfStatePredict (num : RbfNumerics K C Out) (s : ModelState K M C) (x : Arr) (linearOnly : Bool) :
    Except Err (Out × OptVal C) := do
  let center ← s.attr centerKernelKey
  let kMean ← s.attr kMeanKey
  if linearOnly then num.predictLinear s.kernel s.params x center kMean
  else do
    let layer ← s.attr outputLayerKey
    num.predict s.kernel s.params x layer center kMean

/-- `RBFNet.predict`, rbfnet.py 437-439. -/
def rbfPredict (num : RbfNumerics K C Out) (s : ModelState K M C) (x : Arr) (linearOnly : Bool) : Except Err Out := do
  let r ← rbfStatePredict num s x linearOnly
  pure r.1

/-- `RBFNet.fit_nlopt`, rbfnet.py 361-389: like `fit` (`rbfnetFit`), without clearing `k_mean` first. `rest` is everything
after the call of `randomized_minimization`. The second component is the state of the network afterwards. -/
def rbfnetFitNlopt (rest : ModelState K M C → Except Err (ModelState K M C)) (s : ModelState K M C) :
    Except Err (ModelState K M C) × ModelState K M C :=
  match (sig ["key", "state", "x", "y", "loss_fn"]
      ["minimization_function", "num_restarts", "return_history", "opt_kwargs"]).bind 0
      ["key".toList, "state".toList, "x".toList, "y".toList, "minimization_function".toList,
        "num_restarts".toList, "return_history".toList] with
  | .error e => (.error e, s)
  | .ok _ => match rest s with
    | .error e => (.error e, s)
    | .ok s2 => (.ok s2, s2)

/-- `RBFNet.fit_optax`, rbfnet.py 391-435: like `fit`, with one more keyword, `opt_kwargs`. -/
def rbfnetFitOptax (rest : ModelState K M C → Except Err (ModelState K M C)) (s : ModelState K M C) :
    Except Err (ModelState K M C) × ModelState K M C :=
  match (s.update { opts := [(kMeanKey, .none)] }).1 with
  | .error e => (.error e, s)
  | .ok s1 =>
    match (sig ["key", "state", "x", "y", "loss_fn"]
        ["minimization_function", "num_restarts", "return_history", "opt_kwargs"]).bind 0
        ["key".toList, "state".toList, "x".toList, "y".toList, "minimization_function".toList,
          "num_restarts".toList, "return_history".toList, "opt_kwargs".toList] with
    | .error e => (.error e, s1)
    | .ok _ => match rest s1 with
      | .error e => (.error e, s1)
      | .ok s2 => (.ok s2, s2)

/-- `RBFNet.randomize`, rbfnet.py 450-457: the state of the new network it returns. -/
def rbfRandomize (nxt : R → R) (sample : PriorObj → R → Arr) (identityFn trainLossFn : C) (key : R) (reset : Bool)
    (s : ModelState K M C) : Except Err (ModelState K M C) :=
  if reset then s.randomize nxt sample key (rbfInitDefault identityFn trainLossFn)
  else s.randomize nxt sample key []

/-- `RBFNet.save`, rbfnet.py 441-443. -/
def rbfSave (s : ModelState K M C) : Except Err (List (Key × Dumped)) := s.save

/-- `RBFNet.load`, rbfnet.py 445-448. -/
def rbfLoad (s : ModelState K M C) (file : List (Key × Dumped)) : Except Err (ModelState K M C) := s.load file

end
end GPX
