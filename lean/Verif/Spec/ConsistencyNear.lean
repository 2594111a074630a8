import Verif.Spec.Consistency
import Verif.Spec.JointSlack

/-!
# Derivative kernels up to the rounding constants of `SquaredExponential` and `Matern32`

The kernel matrices of `SquaredExponential` and `Matern32` add `1e-12` to the squared distances, their derivative kernels do
not, and those of `Matern32` keep the distance above `1e-18`. Sums and products with these kernels inherit the difference;
the functions below bound it.
-/

namespace GPX.Spec
open GPX

variable {d n m v w : ℕ}

/-- Bound on the error of `d0kj` as derivative in the direction `J[i, :, u]` of sample `i` of `x1` of the covariance with
sample `j` of `x2`: `2e-12` of the terms in which a `SquaredExponential` is differentiated and `2e-6` of the terms in which
a `Matern32` is. -/
noncomputable def err0 : KExpr d → KPar → Batch n d → Jac n d v → Batch m d → Fin n → Fin v → Fin m → ℝ
  | .squaredExponential a, p, x1, J, x2, i, u, j =>
    2 / 10 ^ 12 * |(KExpr.squaredExponential a : KExpr d).obj.d0kj p x1 x2 J (flat i u) j|
  | .matern32 a, p, x1, J, x2, i, u, j =>
    2 / 10 ^ 6 * |(KExpr.matern32 a : KExpr d).obj.d0kj p x1 x2 J (flat i u) j|
  | .sum e1 e2, p, x1, J, x2, i, u, j =>
    err0 e1 (p.sub "kernel1") x1 J x2 i u j + err0 e2 (p.sub "kernel2") x1 J x2 i u j
  | .prod e1 e2, p, x1, J, x2, i, u, j =>
    err0 e1 (p.sub "kernel1") x1 J x2 i u j * |e2.obj.k (p.sub "kernel2") x1 x2 i j| +
      |e1.obj.k (p.sub "kernel1") x1 x2 i j| * err0 e2 (p.sub "kernel2") x1 J x2 i u j
  | _, _, _, _, _, _, _, _ => 0

/-- The same for `d1kj`: direction `J[j, :, u]` of sample `j` of `x2`. -/
noncomputable def err1 : KExpr d → KPar → Batch n d → Batch m d → Jac m d v → Fin n → Fin m → Fin v → ℝ
  | .squaredExponential a, p, x1, x2, J, i, j, u =>
    2 / 10 ^ 12 * |(KExpr.squaredExponential a : KExpr d).obj.d1kj p x1 x2 J i (flat j u)|
  | .matern32 a, p, x1, x2, J, i, j, u =>
    2 / 10 ^ 6 * |(KExpr.matern32 a : KExpr d).obj.d1kj p x1 x2 J i (flat j u)|
  | .sum e1 e2, p, x1, x2, J, i, j, u =>
    err1 e1 (p.sub "kernel1") x1 x2 J i j u + err1 e2 (p.sub "kernel2") x1 x2 J i j u
  | .prod e1 e2, p, x1, x2, J, i, j, u =>
    err1 e1 (p.sub "kernel1") x1 x2 J i j u * |e2.obj.k (p.sub "kernel2") x1 x2 i j| +
      |e1.obj.k (p.sub "kernel1") x1 x2 i j| * err1 e2 (p.sub "kernel2") x1 x2 J i j u
  | _, _, _, _, _, _, _, _ => 0

/-- Bound on the error of `d01kj` as derivative of `d0kj`: `2e-12` of the second derivatives of a `SquaredExponential`,
nothing for those of a `Matern32`, and in products also the errors of the first derivatives. -/
noncomputable def err01 : KExpr d → KPar → Batch n d → Jac n d v → Batch m d → Jac m d w → Fin n → Fin v → Fin m →
    Fin w → ℝ
  | .squaredExponential a, p, x1, J1, x2, J2, i, q, j, u =>
    2 / 10 ^ 12 * |(KExpr.squaredExponential a : KExpr d).obj.d01kj p x1 x2 J1 J2 (flat i q) (flat j u)|
  | .sum e1 e2, p, x1, J1, x2, J2, i, q, j, u =>
    err01 e1 (p.sub "kernel1") x1 J1 x2 J2 i q j u + err01 e2 (p.sub "kernel2") x1 J1 x2 J2 i q j u
  | .prod e1 e2, p, x1, J1, x2, J2, i, q, j, u =>
    err01 e1 (p.sub "kernel1") x1 J1 x2 J2 i q j u * |e2.obj.k (p.sub "kernel2") x1 x2 i j| +
      |e1.obj.d0kj (p.sub "kernel1") x1 x2 J1 (flat i q) j| * err1 e2 (p.sub "kernel2") x1 x2 J2 i j u +
      err1 e1 (p.sub "kernel1") x1 x2 J2 i j u * |e2.obj.d0kj (p.sub "kernel2") x1 x2 J1 (flat i q) j| +
      |e1.obj.k (p.sub "kernel1") x1 x2 i j| * err01 e2 (p.sub "kernel2") x1 J1 x2 J2 i q j u
  | _, _, _, _, _, _, _, _, _, _ => 0

/-- No `Matern32` in the expression finds the two samples exactly `1e-18 / √3` lengthscales apart, where the floor of its
distance sets in. -/
def OffFloor : KExpr d → KPar → (x y : Fin d → ℝ) → Prop
  | .matern32 a, p, x, y => 3 * activeDist a p x y ≠ 1 / 10 ^ 36
  | .sum e1 e2, p, x, y => OffFloor e1 (p.sub "kernel1") x y ∧ OffFloor e2 (p.sub "kernel2") x y
  | .prod e1 e2, p, x, y => OffFloor e1 (p.sub "kernel1") x y ∧ OffFloor e2 (p.sub "kernel2") x y
  | _, _, _, _ => True

/-- `f` has a derivative at `t` and it is within `r` of `D`. -/
def DerivNear (f : ℝ → ℝ) (D r t : ℝ) : Prop := ∃ D', HasDerivAt f D' t ∧ |D' - D| ≤ r

/-- The contracted kernels of `e` are derivatives along every path, up to the errors bounded above. -/
structure PathNear (e : KExpr d) (p : KPar) : Prop where
  d0 : ∀ {n m v : ℕ} (x1 : ℝ → Batch n d) (x2 : Batch m d) (t : ℝ) (J : Jac n d v) (u : Fin v), Moves x1 t J u →
    ∀ i j, DerivNear (fun s => e.obj.k p (x1 s) x2 i j) (e.obj.d0kj p (x1 t) x2 J (flat i u) j)
      (err0 e p (x1 t) J x2 i u j) t
  d1 : ∀ {n m v : ℕ} (x1 : Batch n d) (x2 : ℝ → Batch m d) (t : ℝ) (J : Jac m d v) (u : Fin v), Moves x2 t J u →
    ∀ i j, DerivNear (fun s => e.obj.k p x1 (x2 s) i j) (e.obj.d1kj p x1 (x2 t) J i (flat j u))
      (err1 e p x1 (x2 t) J i j u) t
  d01 : ∀ {n m v w : ℕ} (x1 : Batch n d) (J1 : Jac n d v) (x2 : ℝ → Batch m d) (t : ℝ) (J2 : Jac m d w)
    (u : Fin w), Moves x2 t J2 u → ∀ i q j, OffFloor e p (x1 i) (x2 t j) →
    DerivNear (fun s => e.obj.d0kj p x1 (x2 s) J1 (flat i q) j)
      (e.obj.d01kj p x1 (x2 t) J1 J2 (flat i q) (flat j u)) (err01 e p x1 J1 (x2 t) J2 i q j u) t

end GPX.Spec
