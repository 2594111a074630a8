import Mathlib.Analysis.SpecialFunctions.Log.Basic

/-!
# Model of `gpx/bijectors.py`

Floating point is modelled by `ℝ`; every literal jitter is kept. The functions of the source act
elementwise on arrays, so the scalar function is modelled.
-/

namespace GPX
noncomputable section

/-- The literal `1e-300` of `bijectors.py:47`. -/
def spJitter : ℝ := 1 / 10 ^ 300

/-- `jnp.logaddexp(x, y) = log(exp x + exp y)` (library call used at `bijectors.py:47`). -/
def logaddexp (x y : ℝ) : ℝ := Real.log (Real.exp x + Real.exp y)

/-- `jnp.expm1(x) = exp x - 1` (library call used at `bijectors.py:71`). -/
def expm1 (x : ℝ) : ℝ := Real.exp x - 1

/-- `bijectors.py:27-47` `softplus`. -/
def softplus (x : ℝ) : ℝ := logaddexp x 0 + spJitter

/-- `bijectors.py:50-71` `inverse_softplus`. For `x ≤ 0` the code returns `nan`/`-inf`; Lean's
`Real.log` is totalised there, so theorems about it carry the guard `0 < x`. -/
def inverseSoftplus (x : ℝ) : ℝ := x + Real.log (-expm1 (-x))

/-- `bijectors.py:74-87` `softmin`. -/
def softmin (x minval : ℝ) : ℝ := softplus (x - minval) + minval

/-- `bijectors.py:90-102` `inverse_softmin`. -/
def inverseSoftmin (x minval : ℝ) : ℝ := inverseSoftplus (x - minval) + minval

/-- `bijectors.py:105-118` `softmax`. -/
def softmax (x maxval : ℝ) : ℝ := -softplus (maxval - x) + maxval

/-- `bijectors.py:121-133` `inverse_softmax`. -/
def inverseSoftmax (x maxval : ℝ) : ℝ := -inverseSoftplus (maxval - x) + maxval

/-- `bijectors.py:136-155` `softminmax`. -/
def softminmax (x minval maxval : ℝ) : ℝ :=
  -softplus (maxval - minval - softplus (x - minval)) * (maxval - minval)
    / softplus (maxval - minval) + maxval

/-- `bijectors.py:158-173` `inverse_softminmax`. -/
def inverseSoftminmax (x minval maxval : ℝ) : ℝ :=
  let width := maxval - minval
  minval + inverseSoftplus
    (width - inverseSoftplus (softplus width * ((maxval - x) / width)))

/-- The bijector classes of `bijectors.py:179-287`. A user-defined bijector is any object with
`forward`/`backward`; only the library's classes are modelled. -/
inductive Bijector where
  | softplus
  | softMin (minval : ℝ)
  | softMax (maxval : ℝ)
  | softMinMax (minval maxval : ℝ)
  | identity

/-- `forward` methods: `bijectors.py:194, 216, 238, 261, 283`. -/
def Bijector.forward : Bijector → ℝ → ℝ
  | .softplus, x => GPX.softplus x
  | .softMin m, x => softmin x m
  | .softMax M, x => softmax x M
  | .softMinMax m M, x => softminmax x m M
  | .identity, x => x

/-- `backward` methods: `bijectors.py:197, 219, 241, 264, 286`. -/
def Bijector.backward : Bijector → ℝ → ℝ
  | .softplus, x => inverseSoftplus x
  | .softMin m, x => inverseSoftmin x m
  | .softMax M, x => inverseSoftmax x M
  | .softMinMax m M, x => inverseSoftminmax x m M
  | .identity, x => x

end
end GPX
