import Verif.Model.Bijectors

/-!
# Specification of the bijectors

The declared range of each bijector, as documented in the class docstrings of `bijectors.py`.
-/

namespace GPX.Spec
open GPX

/-- The open set of values a bijector is documented to constrain its argument to. -/
def range : Bijector → Set ℝ
  | .softplus => {v | 0 < v}
  | .softMin m => {v | m < v}
  | .softMax M => {v | v < M}
  | .softMinMax m M => {v | m < v ∧ v < M}
  | .identity => Set.univ

/-- A bijector object is sensible when its interval is non-empty (`min < max`). -/
def sensible : Bijector → Prop
  | .softMinMax m M => m < M
  | _ => True

end GPX.Spec
