import Verif.Model.KernelClasses
import Mathlib.Analysis.Calculus.Deriv.Basic

/-!
# Specification vocabulary for kernels

What it means for the callables of a kernel object to be derivatives of its kernel function and to be
contractions of one another. Everything is stated through entries of the returned arrays.
-/

namespace GPX.Spec
open GPX

variable {d n m : ℕ}

/-- Row (or column) number `i * d + f`: feature (or variable) `f` of sample `i`. -/
def flat (i : Fin n) (f : Fin d) : Fin (n * d) :=
  ⟨i.val * d + f.val, by
    have h1 := i.isLt
    have h2 := f.isLt
    calc i.val * d + f.val < i.val * d + d := by omega
      _ = (i.val + 1) * d := by ring
      _ ≤ n * d := Nat.mul_le_mul_right d h1⟩

/-- The dataset `x` with feature `f` of sample `i` set to `t`. -/
def setFeature (x : Batch n d) (i : Fin n) (f : Fin d) (t : ℝ) : Batch n d :=
  Function.update x i (Function.update (x i) f t)

/-- `jaccoef = einsum("sv,sfv->sf", coeffs, jacobian)` (documented in `grad_kernelize`,
kernels/kernelizers.py 462). -/
def jaccoef {v : ℕ} (c : Fin n → Fin v → ℝ) (J : Jac n d v) : Batch n d :=
  fun s f => ∑ u, c s u * J s f u

/-- `d0k` holds, at row `i * d + f` and column `j`, the derivative of `k(x1, x2)[i, j]` with respect to
feature `f` of sample `i` of `x1`. -/
def TrueD0At (κ : KernelObj d) (p : KPar) (x1 : Batch n d) (x2 : Batch m d) (i : Fin n)
    (f : Fin d) (j : Fin m) : Prop :=
  HasDerivAt (fun s => κ.k p (setFeature x1 i f s) x2 i j) (κ.d0k p x1 x2 (flat i f) j) (x1 i f)

/-- `d1k` holds, at row `i` and column `j * d + e`, the derivative of `k(x1, x2)[i, j]` with respect to
feature `e` of sample `j` of `x2`. -/
def TrueD1At (κ : KernelObj d) (p : KPar) (x1 : Batch n d) (x2 : Batch m d) (i : Fin n)
    (j : Fin m) (e : Fin d) : Prop :=
  HasDerivAt (fun t => κ.k p x1 (setFeature x2 j e t) i j) (κ.d1k p x1 x2 i (flat j e)) (x2 j e)

/-- `d01k` holds, at row `i * d + f` and column `j * d + e`, the derivative with respect to feature `e` of
sample `j` of `x2` of the derivative with respect to feature `f` of sample `i` of `x1`. -/
def TrueD01At (κ : KernelObj d) (p : KPar) (x1 : Batch n d) (x2 : Batch m d) (i : Fin n)
    (f : Fin d) (j : Fin m) (e : Fin d) : Prop :=
  HasDerivAt
    (fun t => deriv (fun s => κ.k p (setFeature x1 i f s) (setFeature x2 j e t) i j) (x1 i f))
    (κ.d01k p x1 x2 (flat i f) (flat j e)) (x2 j e)

/-- `d0k` is the true derivative everywhere. -/
def TrueD0 (κ : KernelObj d) (p : KPar) : Prop :=
  ∀ (n m : ℕ) (x1 : Batch n d) (x2 : Batch m d) (i : Fin n) (f : Fin d) (j : Fin m),
    TrueD0At κ p x1 x2 i f j

/-- `d1k` is the true derivative everywhere. -/
def TrueD1 (κ : KernelObj d) (p : KPar) : Prop :=
  ∀ (n m : ℕ) (x1 : Batch n d) (x2 : Batch m d) (i : Fin n) (j : Fin m) (e : Fin d),
    TrueD1At κ p x1 x2 i j e

/-- `d01k` is the true mixed second derivative everywhere. -/
def TrueD01 (κ : KernelObj d) (p : KPar) : Prop :=
  ∀ (n m : ℕ) (x1 : Batch n d) (x2 : Batch m d) (i : Fin n) (f : Fin d) (j : Fin m) (e : Fin d),
    TrueD01At κ p x1 x2 i f j e

/-- `d0kj` is `d0k` contracted with the jacobian of each sample. -/
def Contracts0 (κ : KernelObj d) (p : KPar) : Prop :=
  ∀ (n m v : ℕ) (x1 : Batch n d) (x2 : Batch m d) (J : Jac n d v) (i : Fin n) (u : Fin v)
    (j : Fin m),
    κ.d0kj p x1 x2 J (flat i u) j = ∑ f, J i f u * κ.d0k p x1 x2 (flat i f) j

/-- `d1kj` is `d1k` contracted with the jacobian of each sample. -/
def Contracts1 (κ : KernelObj d) (p : KPar) : Prop :=
  ∀ (n m v : ℕ) (x1 : Batch n d) (x2 : Batch m d) (J : Jac m d v) (i : Fin n) (j : Fin m)
    (u : Fin v),
    κ.d1kj p x1 x2 J i (flat j u) = ∑ e, κ.d1k p x1 x2 i (flat j e) * J j e u

/-- `d01kj` is `d01k` contracted with the two jacobians. -/
def Contracts01 (κ : KernelObj d) (p : KPar) : Prop :=
  ∀ (n m v1 v2 : ℕ) (x1 : Batch n d) (x2 : Batch m d) (J1 : Jac n d v1) (J2 : Jac m d v2)
    (i : Fin n) (u : Fin v1) (j : Fin m) (w : Fin v2),
    κ.d01kj p x1 x2 J1 J2 (flat i u) (flat j w) =
      ∑ f, ∑ e, J1 i f u * κ.d01k p x1 x2 (flat i f) (flat j e) * J2 j e w

/-- `d0kjc` is `d0k` contracted with the (already contracted) coefficients, sample by sample. -/
def ContractsCoef0 (κ : KernelObj d) (p : KPar) : Prop :=
  ∀ (n m : ℕ) (x1 : Batch n d) (x2 : Batch m d) (jc : Batch n d) (i : Fin n) (j : Fin m),
    κ.d0kjc p x1 x2 jc i j = ∑ f, jc i f * κ.d0k p x1 x2 (flat i f) j

/-- `d01kjc` is `d01k` contracted with the coefficients on the left and the jacobian on the right. -/
def ContractsCoef01 (κ : KernelObj d) (p : KPar) : Prop :=
  ∀ (n m v : ℕ) (x1 : Batch n d) (x2 : Batch m d) (jc : Batch n d) (J : Jac m d v)
    (i : Fin n) (j : Fin m) (w : Fin v),
    κ.d01kjc p x1 x2 jc J i (flat j w) =
      ∑ f, ∑ e, jc i f * κ.d01k p x1 x2 (flat i f) (flat j e) * J j e w

/-- The two statements of C20 for one kernel: summing the coefficient-contracted kernels over the samples
of `x1` is multiplying the jacobian-contracted kernels by the coefficient vector from the left. -/
def CoefficientSums (κ : KernelObj d) (p : KPar) : Prop :=
  (∀ (n m v : ℕ) (x1 : Batch n d) (x2 : Batch m d) (J : Jac n d v) (c : Fin n → Fin v → ℝ)
      (j : Fin m),
    ∑ i, κ.d0kjc p x1 x2 (jaccoef c J) i j = ∑ i, ∑ u, c i u * κ.d0kj p x1 x2 J (flat i u) j) ∧
  (∀ (n m v w : ℕ) (x1 : Batch n d) (x2 : Batch m d) (J1 : Jac n d v) (J2 : Jac m d w)
      (c : Fin n → Fin v → ℝ) (j : Fin m) (q : Fin w),
    ∑ i, κ.d01kjc p x1 x2 (jaccoef c J1) J2 i (flat j q) =
      ∑ i, ∑ u, c i u * κ.d01kj p x1 x2 J1 J2 (flat i u) (flat j q))

/-- `active_dims` without repetitions (`None` has none). -/
def NoRepeat : Option (Dims d) → Prop
  | none => True
  | some ad => Function.Injective ad.idx

/-- No leaf of the kernel expression has a repeated index in its `active_dims`. -/
def NoRepeats : KExpr d → Prop
  | .constant a => NoRepeat a
  | .linear a => NoRepeat a
  | .polynomial a _ => NoRepeat a
  | .squaredExponential a => NoRepeat a
  | .matern12 a => NoRepeat a
  | .matern32 a => NoRepeat a
  | .matern52 a => NoRepeat a
  | .expSinSquared a => NoRepeat a
  | .sum e1 e2 => NoRepeats e1 ∧ NoRepeats e2
  | .prod e1 e2 => NoRepeats e1 ∧ NoRepeats e2

/-- The kernel expression contains no `Matern52`. -/
def NoMatern52 : KExpr d → Prop
  | .matern52 _ => False
  | .sum e1 e2 => NoMatern52 e1 ∧ NoMatern52 e2
  | .prod e1 e2 => NoMatern52 e1 ∧ NoMatern52 e2
  | _ => True

/-- Exchanging the two datasets transposes the kernel matrix and exchanges the derivative kernels. -/
structure Symmetric (κ : KernelObj d) (p : KPar) : Prop where
  k : ∀ {n m : ℕ} (x1 : Batch n d) (x2 : Batch m d) i j, κ.k p x1 x2 i j = κ.k p x2 x1 j i
  d1k : ∀ {n m : ℕ} (x1 : Batch n d) (x2 : Batch m d) i c,
    κ.d1k p x1 x2 i c = κ.d0k p x2 x1 c i
  d01k : ∀ {n m : ℕ} (x1 : Batch n d) (x2 : Batch m d) r c,
    κ.d01k p x1 x2 r c = κ.d01k p x2 x1 c r
  d1kj : ∀ {n m v : ℕ} (x1 : Batch n d) (x2 : Batch m d) (J : Jac m d v) i c,
    κ.d1kj p x1 x2 J i c = κ.d0kj p x2 x1 J c i
  d01kj : ∀ {n m v w : ℕ} (x1 : Batch n d) (x2 : Batch m d) (J1 : Jac n d v) (J2 : Jac m d w) r c,
    κ.d01kj p x1 x2 J1 J2 r c = κ.d01kj p x2 x1 J2 J1 c r

/-- Selecting samples before evaluating a kernel (by arbitrary index lists `f` and `g`: subsets, repetitions,
permutations, single samples) is the same as evaluating it and selecting the rows and columns of these samples
afterwards. Jacobians and contracted coefficients are selected along. -/
structure SampleWise (κ : KernelObj d) (p : KPar) : Prop where
  k : ∀ {n m a b : ℕ} (x1 : Batch n d) (x2 : Batch m d) (f : Fin a → Fin n) (g : Fin b → Fin m) i j,
    κ.k p (fun s => x1 (f s)) (fun s => x2 (g s)) i j = κ.k p x1 x2 (f i) (g j)
  d0k : ∀ {n m a b : ℕ} (x1 : Batch n d) (x2 : Batch m d) (f : Fin a → Fin n) (g : Fin b → Fin m)
    i q j, κ.d0k p (fun s => x1 (f s)) (fun s => x2 (g s)) (flat i q) j =
      κ.d0k p x1 x2 (flat (f i) q) (g j)
  d1k : ∀ {n m a b : ℕ} (x1 : Batch n d) (x2 : Batch m d) (f : Fin a → Fin n) (g : Fin b → Fin m)
    i j q, κ.d1k p (fun s => x1 (f s)) (fun s => x2 (g s)) i (flat j q) =
      κ.d1k p x1 x2 (f i) (flat (g j) q)
  d01k : ∀ {n m a b : ℕ} (x1 : Batch n d) (x2 : Batch m d) (f : Fin a → Fin n) (g : Fin b → Fin m)
    i q j r, κ.d01k p (fun s => x1 (f s)) (fun s => x2 (g s)) (flat i q) (flat j r) =
      κ.d01k p x1 x2 (flat (f i) q) (flat (g j) r)
  d0kj : ∀ {n m a b v : ℕ} (x1 : Batch n d) (x2 : Batch m d) (J : Jac n d v) (f : Fin a → Fin n)
    (g : Fin b → Fin m) i q j,
    κ.d0kj p (fun s => x1 (f s)) (fun s => x2 (g s)) (fun s => J (f s)) (flat i q) j =
      κ.d0kj p x1 x2 J (flat (f i) q) (g j)
  d1kj : ∀ {n m a b v : ℕ} (x1 : Batch n d) (x2 : Batch m d) (J : Jac m d v) (f : Fin a → Fin n)
    (g : Fin b → Fin m) i j q,
    κ.d1kj p (fun s => x1 (f s)) (fun s => x2 (g s)) (fun s => J (g s)) i (flat j q) =
      κ.d1kj p x1 x2 J (f i) (flat (g j) q)
  d01kj : ∀ {n m a b v w : ℕ} (x1 : Batch n d) (x2 : Batch m d) (J1 : Jac n d v) (J2 : Jac m d w)
    (f : Fin a → Fin n) (g : Fin b → Fin m) i q j r,
    κ.d01kj p (fun s => x1 (f s)) (fun s => x2 (g s)) (fun s => J1 (f s)) (fun s => J2 (g s))
      (flat i q) (flat j r) = κ.d01kj p x1 x2 J1 J2 (flat (f i) q) (flat (g j) r)
  d0kjc : ∀ {n m a b : ℕ} (x1 : Batch n d) (x2 : Batch m d) (jc : Batch n d) (f : Fin a → Fin n)
    (g : Fin b → Fin m) i j,
    κ.d0kjc p (fun s => x1 (f s)) (fun s => x2 (g s)) (fun s => jc (f s)) i j =
      κ.d0kjc p x1 x2 jc (f i) (g j)
  d01kjc : ∀ {n m a b v : ℕ} (x1 : Batch n d) (x2 : Batch m d) (jc : Batch n d) (J : Jac m d v)
    (f : Fin a → Fin n) (g : Fin b → Fin m) i j q,
    κ.d01kjc p (fun s => x1 (f s)) (fun s => x2 (g s)) (fun s => jc (f s)) (fun s => J (g s))
      i (flat j q) = κ.d01kjc p x1 x2 jc J (f i) (flat (g j) q)

/-- `active_dims` chosen inside the features selected by `ad`. -/
def composeDims (ad : Dims d) : Option (Dims ad.k) → Option (Dims d)
  | none => some ad
  | some inner => some ⟨inner.k, fun a => ad.idx (inner.idx a)⟩

/-- The kernel expression `e` on the features selected by `ad`, written as a kernel expression on all
features by giving every leaf an `active_dims`. In particular a leaf without `active_dims` becomes the same
leaf with `active_dims = ad`. -/
def onFeatures (ad : Dims d) : KExpr ad.k → KExpr d
  | .constant a => .constant (composeDims ad a)
  | .linear a => .linear (composeDims ad a)
  | .polynomial a b => .polynomial (composeDims ad a) b
  | .squaredExponential a => .squaredExponential (composeDims ad a)
  | .matern12 a => .matern12 (composeDims ad a)
  | .matern32 a => .matern32 (composeDims ad a)
  | .matern52 a => .matern52 (composeDims ad a)
  | .expSinSquared a => .expSinSquared (composeDims ad a)
  | .sum e1 e2 => .sum (onFeatures ad e1) (onFeatures ad e2)
  | .prod e1 e2 => .prod (onFeatures ad e1) (onFeatures ad e2)

/-- `κ` (on all features) only looks at the features selected by `ad`, where it is `κ'`. -/
structure Isolates (κ : KernelObj d) (ad : Dims d) (κ' : KernelObj ad.k) (p : KPar) : Prop where
  /-- the kernel is the restricted kernel of the restricted samples -/
  k : ∀ {n m : ℕ} (x1 : Batch n d) (x2 : Batch m d) i j,
    κ.k p x1 x2 i j = κ'.k p (ad.takeCols x1) (ad.takeCols x2) i j
  /-- derivatives with respect to a selected feature -/
  d0k : ∀ {n m : ℕ} (x1 : Batch n d) (x2 : Batch m d) i a j,
    κ.d0k p x1 x2 (flat i (ad.idx a)) j = κ'.d0k p (ad.takeCols x1) (ad.takeCols x2) (flat i a) j
  d1k : ∀ {n m : ℕ} (x1 : Batch n d) (x2 : Batch m d) i j b,
    κ.d1k p x1 x2 i (flat j (ad.idx b)) = κ'.d1k p (ad.takeCols x1) (ad.takeCols x2) i (flat j b)
  d01k : ∀ {n m : ℕ} (x1 : Batch n d) (x2 : Batch m d) i a j b,
    κ.d01k p x1 x2 (flat i (ad.idx a)) (flat j (ad.idx b)) =
      κ'.d01k p (ad.takeCols x1) (ad.takeCols x2) (flat i a) (flat j b)
  /-- derivatives with respect to an unselected feature are zero -/
  d0k_zero : ∀ {n m : ℕ} (x1 : Batch n d) (x2 : Batch m d) i f j, (∀ a, ad.idx a ≠ f) →
    κ.d0k p x1 x2 (flat i f) j = 0
  d1k_zero : ∀ {n m : ℕ} (x1 : Batch n d) (x2 : Batch m d) i j e, (∀ a, ad.idx a ≠ e) →
    κ.d1k p x1 x2 i (flat j e) = 0
  d01k_zero : ∀ {n m : ℕ} (x1 : Batch n d) (x2 : Batch m d) i f j e,
    (∀ a, ad.idx a ≠ f) ∨ (∀ a, ad.idx a ≠ e) → κ.d01k p x1 x2 (flat i f) (flat j e) = 0

/-- The kernel `κ`, which looks at the features `ad`, is bounded by its diagonal and translation
invariant: there is a value `v` in `(0, 1]` such that `k` is `v` wherever the two samples agree on these
features, lies in `(0, v]` everywhere, and does not change when all samples are shifted by `c`. -/
def Stationary (κ : KernelObj d) (ad : Dims d) (p : KPar) : Prop :=
  ∃ v : ℝ, 0 < v ∧ v ≤ 1 ∧
    ∀ {n m : ℕ} (x1 : Batch n d) (x2 : Batch m d) (i : Fin n) (j : Fin m),
      ((∀ a, x1 i (ad.idx a) = x2 j (ad.idx a)) → κ.k p x1 x2 i j = v) ∧
      0 < κ.k p x1 x2 i j ∧ κ.k p x1 x2 i j ≤ v ∧
      ∀ c : Fin d → ℝ, κ.k p (fun i f => x1 i f + c f) (fun j f => x2 j f + c f) i j =
        κ.k p x1 x2 i j

/-- Euclidean distance of the features `ad` of two samples, divided by the lengthscale: the `z` of the
class documentation. -/
noncomputable def scaledDist (ad : Dims d) (l : ℝ) (x y : Fin d → ℝ) : ℝ :=
  Real.sqrt (∑ a, ((x (ad.idx a) - y (ad.idx a)) / l) ^ 2)

/-- Admissible hyperparameters of a kernel expression: nonnegative variances and offsets, natural degrees,
positive lengthscales and periods; each operand of a sum or product reads its own sub-dictionary. -/
def Admissible : KExpr d → KPar → Prop
  | .constant _, p => 0 ≤ p.val "variance"
  | .linear _, _ => True
  | .polynomial _ _, p => (∃ q : ℕ, p.val "degree" = q) ∧ 0 ≤ p.val "offset"
  | .squaredExponential _, p => 0 < p.val "lengthscale"
  | .matern12 _, p => 0 < p.val "lengthscale"
  | .matern32 _, p => 0 < p.val "lengthscale"
  | .matern52 _, p => 0 < p.val "lengthscale"
  | .expSinSquared _, p => 0 < p.val "lengthscale" ∧ 0 < p.val "periodicity"
  | .sum e1 e2, p => Admissible e1 (p.sub "kernel1") ∧ Admissible e2 (p.sub "kernel2")
  | .prod e1 e2, p => Admissible e1 (p.sub "kernel1") ∧ Admissible e2 (p.sub "kernel2")

end GPX.Spec
