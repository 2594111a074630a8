import Verif.Spec.Kernels
import Verif.Model.GPR
import Mathlib.Topology.Instances.Real.Lemmas
import Mathlib.Topology.Instances.Matrix

/-!
# Specification vocabulary: quantities that vary continuously
-/

namespace GPX.Spec
open GPX

variable {T : Type} [TopologicalSpace T]

/-- Hyperparameters and noise that vary continuously with `t`. -/
structure ContinuousParams (θ : T → GPParams) : Prop where
  sigma : Continuous fun t => (θ t).sigma
  kernel : ∀ path, Continuous fun t => (θ t).kernelParams path

/-- A mean function that varies continuously with the targets. -/
def ContinuousMean (mf : MeanFun) : Prop := ∀ n o : ℕ, Continuous fun y : Mat n o => mf y

/-- The kernel and the derivative kernels contracted with jacobians vary continuously with the hyperparameters, the
datasets and the jacobians. -/
structure ContinuousKernel {d : ℕ} (κ : KernelObj d) (p : T → KPar) : Prop where
  k : ∀ {n m : ℕ} {x1 : T → Batch n d} {x2 : T → Batch m d}, Continuous x1 → Continuous x2 →
    ∀ i j, Continuous fun t => κ.k (p t) (x1 t) (x2 t) i j
  d0kj : ∀ {n m v : ℕ} {x1 : T → Batch n d} {x2 : T → Batch m d} {J : T → Jac n d v}, Continuous x1 → Continuous x2 →
    Continuous J → ∀ r j, Continuous fun t => κ.d0kj (p t) (x1 t) (x2 t) (J t) r j
  d1kj : ∀ {n m v : ℕ} {x1 : T → Batch n d} {x2 : T → Batch m d} {J : T → Jac m d v}, Continuous x1 → Continuous x2 →
    Continuous J → ∀ i r, Continuous fun t => κ.d1kj (p t) (x1 t) (x2 t) (J t) i r
  d01kj : ∀ {n m v w : ℕ} {x1 : T → Batch n d} {x2 : T → Batch m d} {J1 : T → Jac n d v} {J2 : T → Jac m d w},
    Continuous x1 → Continuous x2 → Continuous J1 → Continuous J2 →
    ∀ r s, Continuous fun t => κ.d01kj (p t) (x1 t) (x2 t) (J1 t) (J2 t) r s

/-- The kernel expression contains no `Matern32`. -/
def NoMatern32 {d : ℕ} : KExpr d → Prop
  | .matern32 _ => False
  | .sum e1 e2 => NoMatern32 e1 ∧ NoMatern32 e2
  | .prod e1 e2 => NoMatern32 e1 ∧ NoMatern32 e2
  | _ => True

end GPX.Spec
