import Verif.Model.Autodiff

/-!
# Specification vocabulary for automatic differentiation

`Ex.Smooth env e` says that evaluating the program `e` at `env` never meets a point where one of its
primitives is not differentiable: no division by zero, no square root of a non-positive number, no kink of
`abs` or `maximum`, and no power of zero unless the exponent is a natural number.
-/

namespace GPX

/-- See the file header. -/
def Ex.Smooth {V : Type} (env : V → ℝ) : Ex V → Prop
  | .var _ => True
  | .const _ => True
  | .add a b => a.Smooth env ∧ b.Smooth env
  | .mul a b => a.Smooth env ∧ b.Smooth env
  | .neg a => a.Smooth env
  | .inv a => a.Smooth env ∧ a.eval env ≠ 0
  | .exp a => a.Smooth env
  | .sin a => a.Smooth env
  | .cos a => a.Smooth env
  | .abs a => a.Smooth env ∧ a.eval env ≠ 0
  | .absSign a => a.Smooth env ∧ a.eval env ≠ 0
  | .sqrt a => a.Smooth env ∧ 0 < a.eval env
  | .maxc a c => a.Smooth env ∧ a.eval env ≠ c
  | .maxMask a c => a.Smooth env ∧ a.eval env ≠ c
  | .powc a p => a.Smooth env ∧ (a.eval env ≠ 0 ∨ ∃ n : ℕ, p = n)
  | .sum a => ∀ i, (a i).Smooth env

end GPX
