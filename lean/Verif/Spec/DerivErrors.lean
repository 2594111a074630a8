import Verif.Spec.BaseKernels

/-!
# Specification vocabulary: error of derivative kernels caused by the jitter of distances
-/

namespace GPX.Spec
open GPX

variable {d : ℕ}

/-- The error of a product `a b` when the factors have the errors `ea` and `eb`. -/
noncomputable def mulError (a ea b eb : ℝ) : ℝ := ea * |b| + |a| * eb + ea * eb

/-- Bounds for the error of the derivatives of a kernel at one pair of samples: with respect to the features of the
first sample, of the second sample, and of both. -/
structure DerivErrors (d : ℕ) where
  d0 : Fin d → ℝ
  d1 : Fin d → ℝ
  d01 : Fin d → Fin d → ℝ

/-- How far the derivatives of a kernel expression may be from the derivatives of its base function at the samples `x`
and `y`, because of the jitter `1e-12` and the floor `1e-36` of squared distances. Only SquaredExponential (second
derivatives) and Matern52 have an error of their own; errors are added for sums and propagated through products by the
product rule. -/
noncomputable def derivErrors (x y : Sample d) : KExpr d → KPar → DerivErrors d
  | .squaredExponential a, p =>
    ⟨fun _ => 0, fun _ => 0, fun f g => 1 / 10 ^ 12 * |(KernelObj.squaredExponential a).base.h01 p x y f g|⟩
  | .matern52 _, p =>
    ⟨fun f => 5 / (3 * p.val "lengthscale" ^ 2) * (5 / 2 / 10 ^ 12) * |x f - y f|,
     fun f => 5 / (3 * p.val "lengthscale" ^ 2) * (5 / 2 / 10 ^ 12) * |x f - y f|,
     fun _ _ => 5 / (3 * p.val "lengthscale" ^ 2) * (5 / 10 ^ 12)⟩
  | .sum e1 e2, p =>
    let E1 := derivErrors x y e1 (p.sub "kernel1")
    let E2 := derivErrors x y e2 (p.sub "kernel2")
    ⟨fun f => E1.d0 f + E2.d0 f, fun f => E1.d1 f + E2.d1 f, fun f g => E1.d01 f g + E2.d01 f g⟩
  | .prod e1 e2, p =>
    let p1 := p.sub "kernel1"
    let p2 := p.sub "kernel2"
    let E1 := derivErrors x y e1 p1
    let E2 := derivErrors x y e2 p2
    let b1 := e1.obj.base
    let b2 := e2.obj.base
    ⟨fun f => mulError (b1.g0 p1 x y f) (E1.d0 f) (b2.f p2 x y) (jitterError x y e2 p2) +
       mulError (b1.f p1 x y) (jitterError x y e1 p1) (b2.g0 p2 x y f) (E2.d0 f),
     fun f => mulError (b1.g1 p1 x y f) (E1.d1 f) (b2.f p2 x y) (jitterError x y e2 p2) +
       mulError (b1.f p1 x y) (jitterError x y e1 p1) (b2.g1 p2 x y f) (E2.d1 f),
     fun f g => mulError (b1.h01 p1 x y f g) (E1.d01 f g) (b2.f p2 x y) (jitterError x y e2 p2) +
       mulError (b1.g0 p1 x y f) (E1.d0 f) (b2.g1 p2 x y g) (E2.d1 g) +
       mulError (b1.g1 p1 x y g) (E1.d1 g) (b2.g0 p2 x y f) (E2.d0 f) +
       mulError (b1.f p1 x y) (jitterError x y e1 p1) (b2.h01 p2 x y f g) (E2.d01 f g)⟩
  | _, _ => ⟨fun _ => 0, fun _ => 0, fun _ _ => 0⟩

end GPX.Spec
