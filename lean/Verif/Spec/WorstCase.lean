import Verif.Model.GPR
import Verif.Spec.Kernels

/-! # Specification vocabulary: functions made of kernels -/

namespace GPX.Spec
open GPX

variable {d c n u v : ℕ}

/-- The function `f = Σ_l w_l k(z_l, ·)` at the sample `x j`. -/
def combo (κ : KernelObj d) (p : KPar) (z : Batch c d) (w : Fin c → ℝ) (x : Batch n d) (j : Fin n) : ℝ :=
  ∑ l, w l * κ.k p z x l j

/-- The derivative of `f = Σ_l w_l k(z_l, ·)` at the sample `x j` along the direction `J[j, :, q]`. -/
def comboDeriv (κ : KernelObj d) (p : KPar) (z : Batch c d) (w : Fin c → ℝ) (x : Batch n d) (J : Jac n d v) (j : Fin n)
    (q : Fin v) : ℝ :=
  ∑ l, w l * κ.d1kj p z x J l (flat j q)

/-- The squared norm of `f = Σ_l w_l k(z_l, ·)` in the space of the kernel. -/
def comboNorm (κ : KernelObj d) (p : KPar) (z : Batch c d) (w : Fin c → ℝ) : ℝ :=
  ∑ l, ∑ l', w l * κ.k p z z l l' * w l'

/-- The derivative at `x j` along `J[j, :, q]` of a combination of first derivatives of the kernel at the samples `z`, along
the directions `Jz`, with the weights `w`. -/
def fieldDeriv (κ : KernelObj d) (p : KPar) (z : Batch c d) (Jz : Jac c d u) (w : Fin (c * u) → ℝ) (x : Batch n d)
    (J : Jac n d v) (j : Fin n) (q : Fin v) : ℝ :=
  ∑ l, w l * κ.d01kj p z x Jz J l (flat j q)

/-- The squared norm of a combination of first derivatives of the kernel. -/
def fieldNorm (κ : KernelObj d) (p : KPar) (z : Batch c d) (Jz : Jac c d u) (w : Fin (c * u) → ℝ) : ℝ :=
  ∑ l, ∑ l', w l * κ.d01kj p z z Jz Jz l l' * w l'

end GPX.Spec
