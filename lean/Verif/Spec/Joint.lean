import Verif.Spec.Kernels

/-!
# Smooth kernel expressions

Which kernel expressions the claims about derivative Gram matrices are about.
-/

namespace GPX.Spec
open GPX

variable {d : ℕ}

/-- A natural degree for which the power and its first two derivatives are finite at every base, and a non-negative
offset. -/
def SmoothPower (p : KPar) : Prop := (∃ q : ℕ, 2 ≤ q ∧ p.val "degree" = q) ∧ 0 ≤ p.val "offset"

/-- Kernel expressions made of twice differentiable kernels (everything but `Matern12`), admissible
hyperparameters. -/
def Smooth : KExpr d → KPar → Prop
  | .constant _, p => 0 ≤ p.val "variance"
  | .linear _, _ => True
  | .polynomial _ _, p => SmoothPower p
  | .squaredExponential _, p => 0 < p.val "lengthscale"
  | .matern12 _, _ => False
  | .matern32 _, p => 0 < p.val "lengthscale"
  | .matern52 _, p => 0 < p.val "lengthscale"
  | .expSinSquared _, p => 0 < p.val "lengthscale" ∧ 0 < p.val "periodicity"
  | .sum e1 e2, p => Smooth e1 (p.sub "kernel1") ∧ Smooth e2 (p.sub "kernel2")
  | .prod e1 e2, p => Smooth e1 (p.sub "kernel1") ∧ Smooth e2 (p.sub "kernel2")

/-- The same without `SquaredExponential` and `Matern32`, whose first and second derivatives do not use the same
distance as the kernel itself (jitter, floor). -/
def JointSmooth : KExpr d → KPar → Prop
  | .constant _, p => 0 ≤ p.val "variance"
  | .linear _, _ => True
  | .polynomial _ _, p => SmoothPower p
  | .squaredExponential _, _ => False
  | .matern12 _, _ => False
  | .matern32 _, _ => False
  | .matern52 _, p => 0 < p.val "lengthscale"
  | .expSinSquared _, p => 0 < p.val "lengthscale" ∧ 0 < p.val "periodicity"
  | .sum e1 e2, p => JointSmooth e1 (p.sub "kernel1") ∧ JointSmooth e2 (p.sub "kernel2")
  | .prod e1 e2, p => JointSmooth e1 (p.sub "kernel1") ∧ JointSmooth e2 (p.sub "kernel2")

/-- `JointSmooth` expressions and `SquaredExponential`, their sums, and their products with a constant. -/
inductive DerivSmooth : KExpr d → KPar → Prop
  | joint {e p} : JointSmooth e p → DerivSmooth e p
  | squaredExponential {a p} : 0 < p.val "lengthscale" → DerivSmooth (.squaredExponential a) p
  | sum {e1 e2 p} : DerivSmooth e1 (p.sub "kernel1") → DerivSmooth e2 (p.sub "kernel2") →
      DerivSmooth (.sum e1 e2) p
  | scaleLeft {a e p} : 0 ≤ (p.sub "kernel1").val "variance" → DerivSmooth e (p.sub "kernel2") →
      DerivSmooth (.prod (.constant a) e) p
  | scaleRight {a e p} : DerivSmooth e (p.sub "kernel1") → 0 ≤ (p.sub "kernel2").val "variance" →
      DerivSmooth (.prod e (.constant a)) p

end GPX.Spec
