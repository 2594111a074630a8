import Verif.Spec.Kernels

/-!
# Kernels that vanish far away

Read off the kernel expression: which kernels are bounded, and along which features two samples become uncorrelated when
they are moved apart.
-/

namespace GPX.Spec
open GPX

variable {d : ℕ}

/-- Built from constants and stationary kernels only. -/
def BoundedExpr : KExpr d → Prop
  | .linear _ => False
  | .polynomial _ _ => False
  | .sum e1 e2 => BoundedExpr e1 ∧ BoundedExpr e2
  | .prod e1 e2 => BoundedExpr e1 ∧ BoundedExpr e2
  | _ => True

/-- The feature is used by a kernel with these `active_dims` (`None`: every feature is). -/
def Uses (a : Option (Dims d)) (f : Fin d) : Prop := ∃ b, (Dims.resolve a).idx b = f

/-- Moving two samples apart along the feature makes the kernel vanish: true of the features of `SquaredExponential`,
`Matern12`, `Matern32`, `Matern52`, of a sum when true of both terms, of a product when true of one factor. -/
def DecaysAlong : KExpr d → Fin d → Prop
  | .squaredExponential a, f => Uses a f
  | .matern12 a, f => Uses a f
  | .matern32 a, f => Uses a f
  | .matern52 a, f => Uses a f
  | .sum e1 e2, f => DecaysAlong e1 f ∧ DecaysAlong e2 f
  | .prod e1 e2, f => DecaysAlong e1 f ∨ DecaysAlong e2 f
  | _, _ => False

end GPX.Spec
