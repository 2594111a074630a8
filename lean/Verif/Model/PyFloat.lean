import Verif.Model.Params
import Mathlib.Data.EReal.Basic

/-!
# Floating-point values that are compared by the optimisers

The numerical model uses real numbers. Where the code compares losses of several runs the special values
matter: a failed Cholesky factorisation gives `nan` in JAX, an overflow gives `inf`. A value is
`none` for `nan` and `some v` with `v` an extended real otherwise.
-/

namespace GPX
noncomputable section

/-- A floating-point value: `none` is `nan`. -/
abbrev FVal := Option EReal

/-- `nan`. -/
def FVal.nan : FVal := Option.none

/-- `inf`. -/
def FVal.inf : FVal := some ⊤

/-- A finite value. -/
def FVal.fin (x : ℝ) : FVal := some (x : EReal)

/-- The comparison `a < b` of IEEE 754: false when an operand is `nan`. -/
def FVal.lt : FVal → FVal → Prop
  | some a, some b => a < b
  | _, _ => False

/-- The comparison `a == b` of IEEE 754: false when an operand is `nan`. -/
def FVal.eq : FVal → FVal → Prop
  | some a, some b => a = b
  | _, _ => False

open Classical in
instance (a b : FVal) : Decidable (a.lt b) := Classical.propDecidable _

open Classical in
instance (a b : FVal) : Decidable (a.eq b) := Classical.propDecidable _

end
end GPX
