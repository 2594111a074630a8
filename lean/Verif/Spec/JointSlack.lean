import Verif.Spec.Joint
import Verif.Spec.Continuity
import Verif.Spec.GPRTD

/-!
# Specification vocabulary: how far the covariances of targets and derivatives are from positive semidefinite

`SquaredExponential` multiplies its values and its second derivatives, but not its first derivatives, by `exp(-1e-12)`.
`Matern32` adds `1e-12` to the squared distance in its values, and keeps its distance above `1e-18` in its derivatives.
-/

namespace GPX.Spec
open GPX

variable {d n v v' : ℕ}

/-- What is observed: a sample with `none` for its target, with `some u` for its derivative along `u`. -/
abbrev Observable (d : ℕ) := (Fin d → ℝ) × Option (Fin d → ℝ)

/-- The covariance the kernel object gives to two observables. -/
def obsCov (κ : KernelObj d) (p : KPar) : Observable d → Observable d → ℝ
  | (x, none), (y, none) => κ.k p (fun _ => x : Batch 1 d) (fun _ => y : Batch 1 d) 0 0
  | (x, some u), (y, none) =>
    κ.d0kj p (fun _ => x : Batch 1 d) (fun _ => y : Batch 1 d) (fun _ f _ => u f : Jac 1 d 1) (flat 0 0) 0
  | (x, none), (y, some w) =>
    κ.d1kj p (fun _ => x : Batch 1 d) (fun _ => y : Batch 1 d) (fun _ f _ => w f : Jac 1 d 1) 0 (flat 0 0)
  | (x, some u), (y, some w) =>
    κ.d01kj p (fun _ => x : Batch 1 d) (fun _ => y : Batch 1 d) (fun _ f _ => u f : Jac 1 d 1)
      (fun _ f _ => w f : Jac 1 d 1) (flat 0 0) (flat 0 0)

/-- The product rule: the covariances of a product of two independent processes with covariances `A` and `B`. -/
def productRule (A B : Observable d → Observable d → ℝ) (P Q : Observable d) : ℝ :=
  match P.2, Q.2 with
  | none, none => A P Q * B P Q
  | some _, none => A P Q * B (P.1, none) Q + A (P.1, none) Q * B P Q
  | none, some _ => A P Q * B P (Q.1, none) + A P (Q.1, none) * B P Q
  | some _, some _ => A P Q * B (P.1, none) (Q.1, none) + A P (Q.1, none) * B (P.1, none) Q +
      A (P.1, none) Q * B P (Q.1, none) + A (P.1, none) (Q.1, none) * B P Q

/-- Squared distance of two samples in the active features, in units of the lengthscale. -/
noncomputable def activeDist (a : Option (Dims d)) (p : KPar) (x y : Fin d → ℝ) : ℝ :=
  ∑ b, (x ((Dims.resolve a).idx b) / p.val "lengthscale" - y ((Dims.resolve a).idx b) / p.val "lengthscale") ^ 2

/-- No `Matern32` in the expression finds the two samples different but nearer than `1e-18 / √3` lengthscales. -/
def Separated : KExpr d → KPar → (x y : Fin d → ℝ) → Prop
  | .matern32 a, p, x, y => activeDist a p x y = 0 ∨ 1 / 10 ^ 36 < 3 * activeDist a p x y
  | .sum e1 e2, p, x, y => Separated e1 (p.sub "kernel1") x y ∧ Separated e2 (p.sub "kernel2") x y
  | .prod e1 e2, p, x, y => Separated e1 (p.sub "kernel1") x y ∧ Separated e2 (p.sub "kernel2") x y
  | _, _, _, _ => True

open Classical in
/-- What has to be added to the covariance of two observables:
* `SquaredExponential`: `3e-12` of the covariance of two derivatives;
* `Matern32`: what the jitter took from the covariance of two targets, and what the floor took from the covariance of two
  derivatives of the same sample;
* the other kernels: nothing;
* sums: both; products: the product rule for the slack of one factor with the covariance and slack of the other. -/
noncomputable def slack : KExpr d → KPar → Observable d → Observable d → ℝ
  | .squaredExponential a, p, (x, some u), (y, some w) =>
    3 / 10 ^ 12 * obsCov (KExpr.squaredExponential a).obj p (x, some u) (y, some w)
  | .matern32 a, p, (x, none), (y, none) =>
    (1 + Real.sqrt (3 * activeDist a p x y)) * Real.exp (-Real.sqrt (3 * activeDist a p x y)) -
      obsCov (KExpr.matern32 a).obj p (x, none) (y, none)
  | .matern32 a, p, (x, some u), (y, some w) =>
    if activeDist a p x y = 0 then (1 - Real.exp (-(1 / 10 ^ 18))) * (3 / p.val "lengthscale" ^ 2) *
      ∑ b, u ((Dims.resolve a).idx b) * w ((Dims.resolve a).idx b) else 0
  | .sum e1 e2, p, P, Q => slack e1 (p.sub "kernel1") P Q + slack e2 (p.sub "kernel2") P Q
  | .prod e1 e2, p, P, Q =>
    productRule (slack e1 (p.sub "kernel1"))
      (fun P Q => obsCov e2.obj (p.sub "kernel2") P Q + slack e2 (p.sub "kernel2") P Q) P Q +
    productRule (fun P Q => obsCov e1.obj (p.sub "kernel1") P Q + slack e1 (p.sub "kernel1") P Q)
      (slack e2 (p.sub "kernel2")) P Q
  | _, _, _, _ => 0

/-- What an observation of a dataset observes. -/
def observable1 (x : Batch n d) (J : Jac n d v) : Obs1 n v → Observable d
  | .inl i => (x i, none)
  | .inr (i, u) => (x i, some fun f => J i f u)

/-- The same with two sets of derivatives. -/
def observable2 (x : Batch n d) (J : Jac n d v) (J' : Jac n d v') : Obs2 n v v' → Observable d
  | .inl a => observable1 x J a
  | .inr (i, u) => (x i, some fun f => J' i f u)

end GPX.Spec
