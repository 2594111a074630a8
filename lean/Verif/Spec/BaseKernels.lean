import Verif.Spec.Kernels

/-!
# Specification vocabulary: kernels and the base functions they are made from
-/

namespace GPX.Spec
open GPX

variable {d : ℕ}

/-- Two kernel objects return the same arrays for the hyperparameters `p`, whatever the data, the jacobians and the
contracted coefficients. -/
structure SameCallables (κ κ' : KernelObj d) (p : KPar) : Prop where
  k : ∀ {n m : ℕ} (x1 : Batch n d) (x2 : Batch m d), κ.k p x1 x2 = κ'.k p x1 x2
  d0k : ∀ {n m : ℕ} (x1 : Batch n d) (x2 : Batch m d), κ.d0k p x1 x2 = κ'.d0k p x1 x2
  d1k : ∀ {n m : ℕ} (x1 : Batch n d) (x2 : Batch m d), κ.d1k p x1 x2 = κ'.d1k p x1 x2
  d01k : ∀ {n m : ℕ} (x1 : Batch n d) (x2 : Batch m d), κ.d01k p x1 x2 = κ'.d01k p x1 x2
  d0kj : ∀ {n m v : ℕ} (x1 : Batch n d) (x2 : Batch m d) (J : Jac n d v), κ.d0kj p x1 x2 J = κ'.d0kj p x1 x2 J
  d1kj : ∀ {n m v : ℕ} (x1 : Batch n d) (x2 : Batch m d) (J : Jac m d v), κ.d1kj p x1 x2 J = κ'.d1kj p x1 x2 J
  d01kj : ∀ {n m v w : ℕ} (x1 : Batch n d) (x2 : Batch m d) (J1 : Jac n d v) (J2 : Jac m d w),
    κ.d01kj p x1 x2 J1 J2 = κ'.d01kj p x1 x2 J1 J2
  d0kjc : ∀ {n m : ℕ} (x1 : Batch n d) (x2 : Batch m d) (jc : Batch n d),
    κ.d0kjc p x1 x2 jc = κ'.d0kjc p x1 x2 jc
  d01kjc : ∀ {n m v : ℕ} (x1 : Batch n d) (x2 : Batch m d) (jc : Batch n d) (J : Jac m d v),
    κ.d01kjc p x1 x2 jc J = κ'.d01kjc p x1 x2 jc J

/-- The kernel expression contains none of the kernels computed from jittered distances. -/
def NoDistance : KExpr d → Prop
  | .squaredExponential _ => False
  | .matern12 _ => False
  | .matern32 _ => False
  | .matern52 _ => False
  | .sum e1 e2 => NoDistance e1 ∧ NoDistance e2
  | .prod e1 e2 => NoDistance e1 ∧ NoDistance e2
  | _ => True

/-- How far the value of a kernel expression may be from the value of its base function at the samples `x` and `y`,
because of the jitter `1e-12` and the floor `1e-36` of squared distances: a fixed number for each leaf, added for
sums, and propagated through products by the product rule. -/
noncomputable def jitterError (x y : Sample d) : KExpr d → KPar → ℝ
  | .squaredExponential _, _ => 1 / 10 ^ 12
  | .matern12 _, _ => 1 / 10 ^ 6
  | .matern32 _, _ => Real.sqrt 3 / 10 ^ 6
  | .matern52 _, _ => Real.sqrt 5 / 10 ^ 6 + 1 / 10 ^ 36
  | .sum e1 e2, p => jitterError x y e1 (p.sub "kernel1") + jitterError x y e2 (p.sub "kernel2")
  | .prod e1 e2, p =>
    jitterError x y e1 (p.sub "kernel1") * |e2.obj.base.f (p.sub "kernel2") x y| +
    |e1.obj.base.f (p.sub "kernel1") x y| * jitterError x y e2 (p.sub "kernel2") +
    jitterError x y e1 (p.sub "kernel1") * jitterError x y e2 (p.sub "kernel2")
  | .constant _, _ => 0
  | .linear _, _ => 0
  | .polynomial _ _, _ => 0
  | .expSinSquared _, _ => 0

end GPX.Spec
