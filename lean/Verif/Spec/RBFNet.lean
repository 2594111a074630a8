import Verif.Model.RBFNet

/-!
# Specification vocabulary for the radial basis function network
-/

namespace GPX.Spec
open GPX

variable {d m n o : ℕ}

/-- The network: at each sample, the weighted sum over the inducing points of the kernel between inducing point and
sample, computed one pair at a time. -/
noncomputable def network (κ : KernelObj d) (p : KPar) (z : Batch m d) (w : Mat m o) (x : Batch n d) (j : Fin n)
    (a : Fin o) : ℝ :=
  ∑ i, κ.k p (fun _ : Fin 1 => z i) (fun _ : Fin 1 => x j) 0 0 * w i a

/-- Ridge regression on the features `F` (one row per sample): mean squared error over all entries plus
`alpha / n` times the squared norm of the weights. -/
noncomputable def ridge (F : Mat n m) (y : Mat n o) (alpha : ℝ) (w : Mat m o) : ℝ :=
  (∑ j, ∑ a, ((∑ i, F j i * w i a) - y j a) ^ 2) / (n * o) + alpha * (∑ i, ∑ a, w i a ^ 2) / n

end GPX.Spec
