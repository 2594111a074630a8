import Verif.Model.Bijectors

/-!
# Where the backward maps of `gpx/bijectors.py` have a value

`Model/Bijectors.lean` uses Lean's `Real.log`, which has a value everywhere. Here the logarithm has a value only at
positive arguments; `none` stands for the `nan` or `-inf` that `jnp.log` returns elsewhere.
-/

namespace GPX
noncomputable section

/-- `jnp.log` (library call used at `bijectors.py:71`): a real number exactly for positive arguments. -/
def logNum (x : ℝ) : Option ℝ := if 0 < x then some (Real.log x) else none

/-- `bijectors.py:50-71` `inverse_softplus`, with `none` for `nan` and `-inf`. -/
def inverseSoftplusNum (x : ℝ) : Option ℝ := (logNum (-expm1 (-x))).map fun l => x + l

/-- `backward` methods, `bijectors.py:197, 219, 241, 264, 286`, with `none` for `nan` and `-inf`: a result that is not a
number makes the sums and differences it enters, and `inverse_softplus` of them, not a number (the difference
`width - inverse_softplus(...)` of `inverse_softminmax` is `+inf` for the inner value `-inf`, which does not occur
inside the range). -/
def Bijector.backwardNum : Bijector → ℝ → Option ℝ
  | .softplus, x => inverseSoftplusNum x
  | .softMin m, x => (inverseSoftplusNum (x - m)).map fun u => u + m
  | .softMax M, x => (inverseSoftplusNum (M - x)).map fun u => -u + M
  | .softMinMax m M, x =>
    let width := M - m
    (inverseSoftplusNum (GPX.softplus width * ((M - x) / width))).bind fun u =>
      (inverseSoftplusNum (width - u)).map fun u' => m + u'
  | .identity, x => some x

end
end GPX
