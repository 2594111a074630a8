import Verif.Model.GPR
import Verif.Model.Kernels
import Mathlib.Data.Multiset.Basic

/-!
# Some computations with every rounding made explicit

The rest of the model uses real numbers. Here `rd` is the rounding of the machine, applied after every operation. Sums and
dot products are computed by XLA in an order, and with a choice of fused multiply-adds, that depends on the hardware and on
the shapes: they are relations that allow all of them.
-/

namespace GPX

variable {n m k o : ℕ}

/-- `FDot rd f g s v`: `v` is a possible result of summing the products `f i * g i` over `s` in some order, with the
products rounded or fused. The sum over nothing is zero. -/
inductive FDot {ι : Type} (rd : ℝ → ℝ) (f g : ι → ℝ) : Multiset ι → ℝ → Prop
  | nil : FDot rd f g 0 0
  | single (i : ι) : FDot rd f g {i} (rd (f i * g i))
  | fma {s a} (i : ι) : s ≠ 0 → FDot rd f g s a → FDot rd f g (i ::ₘ s) (rd (a + f i * g i))
  | add {s t a b} : s ≠ 0 → t ≠ 0 → FDot rd f g s a → FDot rd f g t b → FDot rd f g (s + t) (rd (a + b))

/-- `squared_distances`, utils.py 68-72: `sum(square(x1))`, `sum(square(x2))` and `dot(x1, x2.T)` in any order, then
`x1s - 2 * dot + x2s + jitter` from left to right. -/
def FSquaredDistances (rd : ℝ → ℝ) (x1 : Batch n k) (x2 : Batch m k) (D : Arr2 n m) : Prop :=
  ∃ (x1s : Fin n → ℝ) (x2s : Fin m → ℝ) (dot : Arr2 n m),
    (∀ i, FDot rd (x1 i) (x1 i) Finset.univ.val (x1s i)) ∧
    (∀ j, FDot rd (x2 j) (x2 j) Finset.univ.val (x2s j)) ∧
    (∀ i j, FDot rd (x1 i) (x2 j) Finset.univ.val (dot i j)) ∧
    ∀ i j, D i j = rd (rd (rd (x1s i - rd (2 * dot i j)) + x2s j) + rd sqDistJitter)

/-- `_squared_exponential_kernel`, kernels/kernels.py 752-758, without `active_dims`; `fexp` is the exponential of the
machine, negation is exact. -/
def FSquaredExponential (rd fexp : ℝ → ℝ) (lengthscale : ℝ) (x1 : Batch n k) (x2 : Batch m k) (K : Arr2 n m) : Prop :=
  ∃ D, FSquaredDistances rd (fun i a => rd (x1 i a / lengthscale)) (fun j a => rd (x2 j a / lengthscale)) D ∧
    ∀ i j, K i j = fexp (-D i j)

/-- The last line of `_predict_dense` without `full_covariance`, models/_gpr.py 453: `mu + dot(K_mn.T, c)` for a computed
`K_mn`. -/
def FPredict (rd : ℝ → ℝ) (Kmn : Arr2 m n) (c : Mat m o) (mu : ℝ) (out : Mat n o) : Prop :=
  ∀ j a, ∃ s, FDot rd (fun i => Kmn i j) (fun i => c i a) Finset.univ.val s ∧ out j a = rd (mu + s)

end GPX
