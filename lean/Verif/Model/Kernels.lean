import Verif.Model.Autodiff

/-!
# `kernels/kernels.py`: kernel functions

Names follow the source (`_polynomial_kernel_d01k` is `polynomialD01k`). All hyperparameters are scalars
(for a lengthscale per feature see `Model/KernelsARD.lean`). `active_dims` is resolved (`None` = all features) by the
public wrapper of each function; the wrapper's body is `Dims.resolve` followed by the function below. Where
a public wrapper indexes the inputs before the call (`x1[:, active_dims]`), so do the definitions
here. `einsum` is written as the sum it denotes.
-/

namespace GPX

variable {d n m v v1 v2 : ℕ}

/-! ## utils.py -/

/-- `euclidean_distance`, utils.py 27-52 (the "double where": the square root is only taken of a
non-zero number, and the l1 norm is returned for coincident points). -/
noncomputable def euclideanDistance {k : ℕ} (x1 x2 : Fin k → ℝ) : ℝ :=
  let d1 := ∑ a, |x1 a - x2 a|
  let d2 := ∑ a, (x1 a - x2 a) ^ 2
  let zeros : Prop := d2 = 0
  let d2' := @ite _ zeros (Classical.dec _) 1 d2
  @ite _ zeros (Classical.dec _) d1 (Real.sqrt d2')

/-- The literal `jitter = 1e-12`, utils.py 68. -/
noncomputable def sqDistJitter : ℝ := 1 / 10 ^ 12

/-- `squared_distances`, utils.py 55-72: `x1s[:, None] - 2 * dot(x1, x2.T) + x2s + jitter`. -/
noncomputable def squaredDistances {k : ℕ} (x1 : Batch n k) (x2 : Batch m k) : Arr2 n m := fun i j =>
  (∑ a, x1 i a ^ 2) - 2 * (∑ a, x1 i a * x2 j a) + (∑ a, x2 j a ^ 2) + sqDistJitter

/-- `x[:, active_dims]`. -/
def Dims.takeCols (ad : Dims d) (x : Batch n d) : Batch n ad.k := fun i => ad.take (x i)

/-- `jacobian[:, active_dims]`. -/
def Dims.takeJac (ad : Dims d) (J : Jac n d v) : Jac n ad.k v := fun i => ad.take (J i)

/-- `a.reshape(n, f, m, e)` of an array of shape `(n * f, m * e)`: C order. -/
def unshapeBoth {n f m e : ℕ} (a : Arr2 (n * f) (m * e)) : Fin n → Fin f → Fin m → Fin e → ℝ :=
  fun i p j q => a (finProdFinEquiv (i, p)) (finProdFinEquiv (j, q))

/-- `a.reshape(n, f, m)` of an array of shape `(n * f, m)`: C order. -/
def unshapeRows {n f m : ℕ} (a : Arr2 (n * f) m) : Fin n → Fin f → Fin m → ℝ :=
  fun i p j => a (finProdFinEquiv (i, p)) j

/-- `a.reshape(n, m, f)` of an array of shape `(n, m * f)`: C order. -/
def unshapeCols {n m f : ℕ} (a : Arr2 n (m * f)) : Fin n → Fin m → Fin f → ℝ :=
  fun i j p => a i (finProdFinEquiv (j, p))

/-- `jnp.tile(a, (s, 1))`. -/
def tileRows (s : ℕ) (a : Arr2 n m) : Arr2 (s * n) m := fun r c => a r.modNat c

/-- `jnp.tile(a, (1, s))`. -/
def tileCols (s : ℕ) (a : Arr2 n m) : Arr2 n (s * m) := fun r c => a r c.modNat

/-- `jnp.eye(k)`. -/
def eye (k : ℕ) : Arr2 k k := fun a b => if a = b then 1 else 0

/-- `a.at[active_dims, active_dims].set(c)`. -/
def Dims.diagSet (ad : Dims d) (base : Arr2 d d) (c : ℝ) : Arr2 d d :=
  (List.finRange ad.k).foldl (fun acc a =>
    Function.update acc (ad.idx a) (Function.update (acc (ad.idx a)) (ad.idx a) c)) base

/-- `a.at[:, active_dims, :, active_dims].add(diag)` for one pair of samples: `diag` is broadcast along
the index array. -/
def Dims.diagAdd (ad : Dims d) (base : Arr2 d d) (c : ℝ) : Arr2 d d :=
  (List.finRange ad.k).foldl (fun acc a =>
    Function.update acc (ad.idx a)
      (Function.update (acc (ad.idx a)) (ad.idx a) (acc (ad.idx a) (ad.idx a) + c))) base

/-- `ii, jj = jnp.meshgrid(active_dims, active_dims); a.at[:, :, ii, jj].set(vals)` for one pair of
samples: `meshgrid` uses "xy" indexing, so `ii[a, b] = active_dims[b]` and
`jj[a, b] = active_dims[a]`. -/
def Dims.meshSet (ad : Dims d) (base : Arr2 d d) (vals : Arr2 ad.k ad.k) : Arr2 d d :=
  ((List.finRange ad.k).product (List.finRange ad.k)).foldl (fun acc ab =>
    let ii := ad.idx ab.2
    let jj := ad.idx ab.1
    Function.update acc ii (Function.update (acc ii) jj (vals ab.1 ab.2))) base

/-! ## Constant -/

/-- `_constant_kernel_base`, `constant_kernel_base`, kernels/kernels.py 66-77. -/
noncomputable def constantBase (_ad : Dims d) (variance : ℝ) : Ex (KVar d) := .const variance

/-- `_constant_kernel`, kernels/kernels.py 83-86. -/
def constantK (variance : ℝ) (_x1 : Batch n d) (_x2 : Batch m d) : Arr2 n m :=
  fun _ _ => 1 * variance

/-- `_constant_kernel_d0k`, kernels/kernels.py 99-102. -/
def constantD0k (_x1 : Batch n d) (_x2 : Batch m d) : Arr2 (n * d) m := fun _ _ => 0

/-- `_constant_kernel_d1k`, kernels/kernels.py 113-116. -/
def constantD1k (_x1 : Batch n d) (_x2 : Batch m d) : Arr2 n (m * d) := fun _ _ => 0

/-- `_constant_kernel_d01k`, kernels/kernels.py 127-130. -/
def constantD01k (_x1 : Batch n d) (_x2 : Batch m d) : Arr2 (n * d) (m * d) := fun _ _ => 0

/-- `_constant_kernel_d0kj`, kernels/kernels.py 141-146. -/
def constantD0kj (_x1 : Batch n d) (_x2 : Batch m d) (_J : Jac n d v) : Arr2 (n * v) m :=
  fun _ _ => 0

/-- `_constant_kernel_d1kj`, kernels/kernels.py 161-166. -/
def constantD1kj (_x1 : Batch n d) (_x2 : Batch m d) (_J : Jac m d v) : Arr2 n (m * v) :=
  fun _ _ => 0

/-- `_constant_kernel_d01kj`, kernels/kernels.py 181-189. -/
def constantD01kj (_x1 : Batch n d) (_x2 : Batch m d) (_J1 : Jac n d v1) (_J2 : Jac m d v2) :
    Arr2 (n * v1) (m * v2) := fun _ _ => 0

/-! ## Linear -/

/-- The program `jnp.dot(x1[active_dims], x2[active_dims])`. -/
noncomputable def exDot (ad : Dims d) : Ex (KVar d) :=
  .sum fun a => .mul (.var (.inl (ad.idx a))) (.var (.inr (ad.idx a)))

/-- `_linear_kernel_base`, `linear_kernel_base`, kernels/kernels.py 210-220. -/
noncomputable def linearBase (ad : Dims d) : Ex (KVar d) := exDot ad

/-- `x1 @ x2.T`. -/
def matmulT {k : ℕ} (x1 : Batch n k) (x2 : Batch m k) : Arr2 n m := fun i j => ∑ a, x1 i a * x2 j a

/-- `_linear_kernel`, `linear_kernel`, kernels/kernels.py 226-236. -/
def linearK (ad : Dims d) (x1 : Batch n d) (x2 : Batch m d) : Arr2 n m :=
  matmulT (ad.takeCols x1) (ad.takeCols x2)

/-- `_linear_kernel_d0k`, kernels/kernels.py 239-244: `zeros.at[active_dims].set(x2.T[active_dims])`,
tiled. -/
def linearD0k (ad : Dims d) (_x1 : Batch n d) (x2 : Batch m d) : Arr2 (n * d) m :=
  let x2T : Arr2 d m := fun f j => x2 j f
  let d0k : Arr2 d m := ad.scatterSet (fun _ _ => 0) (ad.take x2T)
  tileRows n d0k

/-- `_linear_kernel_d1k`, kernels/kernels.py 256-261. -/
def linearD1k (ad : Dims d) (x1 : Batch n d) (_x2 : Batch m d) : Arr2 n (m * d) :=
  let d1k : Arr2 n d := fun i => ad.scatterSet (fun _ => 0) (ad.takeCols x1 i)
  tileCols m d1k

/-- `_linear_kernel_d01k`, kernels/kernels.py 273-279. -/
def linearD01k (ad : Dims d) (_x1 : Batch n d) (_x2 : Batch m d) : Arr2 (n * d) (m * d) :=
  tile n m (ad.diagSet (fun _ _ => 0) 1)

/-- `_linear_kernel_d0kj`, kernels/kernels.py 291-299: `einsum("ifv,jf->ivj")`, reshaped. -/
def linearD0kj (ad : Dims d) (_x1 : Batch n d) (x2 : Batch m d) (J : Jac n d v) : Arr2 (n * v) m :=
  reshapeRows fun i u j => ∑ f, ad.takeJac J i f u * ad.takeCols x2 j f

/-- `_linear_kernel_d1kj`, kernels/kernels.py 315-323: `einsum("if,jfv->ijv")`, reshaped. -/
def linearD1kj (ad : Dims d) (x1 : Batch n d) (_x2 : Batch m d) (J : Jac m d v) : Arr2 n (m * v) :=
  reshapeCols fun i j u => ∑ f, ad.takeCols x1 i f * ad.takeJac J j f u

/-- `_linear_kernel_d01kj`, kernels/kernels.py 339-354: `einsum("ifv,jfu->ivju")`, reshaped. -/
def linearD01kj (ad : Dims d) (_x1 : Batch n d) (_x2 : Batch m d) (J1 : Jac n d v1)
    (J2 : Jac m d v2) : Arr2 (n * v1) (m * v2) :=
  reshapeBoth fun i u j w => ∑ f, ad.takeJac J1 i f u * ad.takeJac J2 j f w

/-! ## Polynomial -/

/-- `_polynomial_kernel_base`, `polynomial_kernel_base`, kernels/kernels.py 376-390. -/
noncomputable def polynomialBase (ad : Dims d) (degree offset : ℝ) : Ex (KVar d) :=
  .powc (.add (.const offset) (exDot ad)) degree

/-- `_polynomial_kernel`, `polynomial_kernel`, kernels/kernels.py 393-407. -/
noncomputable def polynomialK (ad : Dims d) (degree offset : ℝ) (x1 : Batch n d) (x2 : Batch m d) :
    Arr2 n m := fun i j => (offset + matmulT (ad.takeCols x1) (ad.takeCols x2) i j) ^ degree

/-- `const = degree * (offset + x1[:, active_dims] @ x2[:, active_dims].T) ** (degree - 1)`,
kernels/kernels.py 419-421, 447-449, 478-480, 518-520, 552-554, 589-591, 642-644. -/
noncomputable def polyConst1 (ad : Dims d) (degree offset : ℝ) (x1 : Batch n d) (x2 : Batch m d) :
    Arr2 n m := fun i j =>
  degree * (offset + matmulT (ad.takeCols x1) (ad.takeCols x2) i j) ^ (degree - 1)

/-- `const2 = degree * (degree - 1) * (offset + …) ** (degree - 2)`, kernels/kernels.py 481-485, 592-596,
645-649. -/
noncomputable def polyConst2 (ad : Dims d) (degree offset : ℝ) (x1 : Batch n d) (x2 : Batch m d) :
    Arr2 n m := fun i j =>
  degree * (degree - 1) * (offset + matmulT (ad.takeCols x1) (ad.takeCols x2) i j) ^ (degree - 2)

/-- `_polynomial_kernel_d0k`, kernels/kernels.py 410-424. -/
noncomputable def polynomialD0k (ad : Dims d) (degree offset : ℝ) (x1 : Batch n d) (x2 : Batch m d) :
    Arr2 (n * d) m :=
  let const := polyConst1 ad degree offset x1 x2
  let d0k : Fin n → Fin d → Fin m → ℝ := fun i =>
    ad.scatterSet (fun _ _ => 0) (fun f j => const i j * ad.takeCols x2 j f)
  reshapeRows d0k

/-- `_polynomial_kernel_d1k`, kernels/kernels.py 438-454. -/
noncomputable def polynomialD1k (ad : Dims d) (degree offset : ℝ) (x1 : Batch n d) (x2 : Batch m d) :
    Arr2 n (m * d) :=
  let const := polyConst1 ad degree offset x1 x2
  let d1k : Fin n → Fin m → Fin d → ℝ := fun i j =>
    ad.scatterSet (fun _ => 0) (fun f => const i j * ad.takeCols x1 i f)
  reshapeCols d1k

/-- `jnp.tile(jnp.eye(nact), (ns1, ns2)).reshape(ns1, nact, ns2, nact)`, kernels/kernels.py 489, 600,
653. -/
def tiledEye (n m k : ℕ) : Fin n → Fin k → Fin m → Fin k → ℝ := unshapeBoth (tile n m (eye k))

/-- `_polynomial_kernel_d01k`, kernels/kernels.py 468-495: `tmp1 = einsum("nm,nfme->nmfe")`,
`tmp2 = einsum("nf,nm,me->nmfe")`, written with `meshgrid` indices, axes 1 and 2 swapped, reshaped. -/
noncomputable def polynomialD01k (ad : Dims d) (degree offset : ℝ) (x1 : Batch n d)
    (x2 : Batch m d) : Arr2 (n * d) (m * d) :=
  let const1 := polyConst1 ad degree offset x1 x2
  let const2 := polyConst2 ad degree offset x1 x2
  let tmp1 : Fin n → Fin m → Fin ad.k → Fin ad.k → ℝ := fun i j f e =>
    const1 i j * tiledEye n m ad.k i f j e
  let tmp2 : Fin n → Fin m → Fin ad.k → Fin ad.k → ℝ := fun i j f e =>
    ad.takeCols x1 i f * const2 i j * ad.takeCols x2 j e
  let d01k : Fin n → Fin m → Fin d → Fin d → ℝ := fun i j =>
    ad.meshSet (fun _ _ => 0) (fun f e => tmp1 i j f e + tmp2 i j f e)
  reshapeBoth fun i f j e => d01k i j f e

/-- `_polynomial_kernel_d0kj`, kernels/kernels.py 509-525: `einsum("nm,fm,nfv->nvm")`. -/
noncomputable def polynomialD0kj (ad : Dims d) (degree offset : ℝ) (x1 : Batch n d) (x2 : Batch m d)
    (J : Jac n d v) : Arr2 (n * v) m :=
  let const := polyConst1 ad degree offset x1 x2
  reshapeRows fun i u j => ∑ f, const i j * ad.takeCols x2 j f * ad.takeJac J i f u

/-- `_polynomial_kernel_d1kj`, kernels/kernels.py 543-559: `einsum("nm,nf,mfv->nmv")`. -/
noncomputable def polynomialD1kj (ad : Dims d) (degree offset : ℝ) (x1 : Batch n d) (x2 : Batch m d)
    (J : Jac m d v) : Arr2 n (m * v) :=
  let const := polyConst1 ad degree offset x1 x2
  reshapeCols fun i j u => ∑ f, const i j * ad.takeCols x1 i f * ad.takeJac J j f u

/-- `tmp1 + tmp2` in kernels/kernels.py 597-602 and 650-655: `tmp1 = einsum("nm,nfme->nfme")`,
`tmp2 = einsum("nf,nm,me->nemf")` (note the exchanged output letters `e` and `f`). -/
noncomputable def polyHess (ad : Dims d) (degree offset : ℝ) (x1 : Batch n d) (x2 : Batch m d) :
    Fin n → Fin ad.k → Fin m → Fin ad.k → ℝ :=
  let const1 := polyConst1 ad degree offset x1 x2
  let const2 := polyConst2 ad degree offset x1 x2
  let tmp1 : Fin n → Fin ad.k → Fin m → Fin ad.k → ℝ := fun i f j e =>
    const1 i j * tiledEye n m ad.k i f j e
  let tmp2 : Fin n → Fin ad.k → Fin m → Fin ad.k → ℝ := fun i e j f =>
    ad.takeCols x1 i f * const2 i j * ad.takeCols x2 j e
  fun i f j e => tmp1 i f j e + tmp2 i f j e

/-- `_polynomial_kernel_d01kj`, kernels/kernels.py 577-609: `einsum("nfv,nfme,meu->nvmu")`. -/
noncomputable def polynomialD01kj (ad : Dims d) (degree offset : ℝ) (x1 : Batch n d)
    (x2 : Batch m d) (J1 : Jac n d v1) (J2 : Jac m d v2) : Arr2 (n * v1) (m * v2) :=
  reshapeBoth fun i u j w =>
    ∑ f, ∑ e, ad.takeJac J1 i f u * polyHess ad degree offset x1 x2 i f j e * ad.takeJac J2 j e w

/-- `_polynomial_kernel_d01kjc`, kernels/kernels.py 630-662: `einsum("nf,nfme,meu->nmu")`. -/
noncomputable def polynomialD01kjc (ad : Dims d) (degree offset : ℝ) (x1 : Batch n d)
    (x2 : Batch m d) (jc : Batch n d) (J : Jac m d v) : Arr2 n (m * v) :=
  reshapeCols fun i j w =>
    ∑ f, ∑ e, ad.takeCols jc i f * polyHess ad degree offset x1 x2 i f j e * ad.takeJac J j e w

/-- `_no_intercept_polynomial_kernel_base` and its wrapper, kernels/kernels.py 688-704. -/
noncomputable def noInterceptPolynomialBase (ad : Dims d) (degree offset : ℝ) : Ex (KVar d) :=
  .add (.powc (.add (.const offset) (exDot ad)) degree) (.neg (.const (offset ^ degree)))

/-- `_no_intercept_polynomial_kernel` and its wrapper, kernels/kernels.py 707-723. -/
noncomputable def noInterceptPolynomialK (ad : Dims d) (degree offset : ℝ) (x1 : Batch n d)
    (x2 : Batch m d) : Arr2 n m := fun i j =>
  (offset + matmulT (ad.takeCols x1) (ad.takeCols x2) i j) ^ degree - offset ^ degree

/-! ## Squared exponential -/

/-- `x[active_dims] / lengthscale` for entry `a`, as a program. -/
noncomputable def exScaled (ad : Dims d) (lengthscale : ℝ) (side : Fin d → KVar d) (a : Fin ad.k) :
    Ex (KVar d) := .mul (.var (side (ad.idx a))) (.inv (.const lengthscale))

/-- `z1 - z2` for entry `a`, as a program. -/
noncomputable def exDiff (ad : Dims d) (lengthscale : ℝ) (a : Fin ad.k) : Ex (KVar d) :=
  .add (exScaled ad lengthscale .inl a) (.neg (exScaled ad lengthscale .inr a))

/-- `jnp.sum((z1 - z2) ** 2)`, as a program. -/
noncomputable def exSqDist (ad : Dims d) (lengthscale : ℝ) : Ex (KVar d) :=
  .sum fun a => .mul (exDiff ad lengthscale a) (exDiff ad lengthscale a)

/-- `_squared_exponential_kernel_base` and its wrapper, kernels/kernels.py 731-748. -/
noncomputable def squaredExponentialBase (ad : Dims d) (lengthscale : ℝ) : Ex (KVar d) :=
  .exp (.neg (exSqDist ad lengthscale))

/-- `x[:, active_dims] / lengthscale`. -/
noncomputable def scaled (ad : Dims d) (lengthscale : ℝ) (x : Batch n d) : Batch n ad.k :=
  fun i a => ad.takeCols x i a / lengthscale

/-- `_squared_exponential_kernel` and its wrapper, kernels/kernels.py 751-769. -/
noncomputable def squaredExponentialK (ad : Dims d) (lengthscale : ℝ) (x1 : Batch n d)
    (x2 : Batch m d) : Arr2 n m := fun i j =>
  Real.exp (-squaredDistances (scaled ad lengthscale x1) (scaled ad lengthscale x2) i j)

/-- `diff = zeros.at[:, :, active_dims].set((2.0 / lengthscale) * (z1[:, None] - z2))`,
kernels/kernels.py 780-783 (full features). -/
noncomputable def seDiffFull (ad : Dims d) (lengthscale : ℝ) (x1 : Batch n d) (x2 : Batch m d) :
    Fin n → Fin m → Fin d → ℝ := fun i j =>
  ad.scatterSet (fun _ => 0) (fun a =>
    (2 / lengthscale) * (scaled ad lengthscale x1 i a - scaled ad lengthscale x2 j a))

/-- `diff = (2.0 / lengthscale) * (z1[:, None] - z2)`, kernels/kernels.py 820, 866 (active features). -/
noncomputable def seDiff (ad : Dims d) (lengthscale : ℝ) (x1 : Batch n d) (x2 : Batch m d) :
    Fin n → Fin m → Fin ad.k → ℝ := fun i j a =>
  (2 / lengthscale) * (scaled ad lengthscale x1 i a - scaled ad lengthscale x2 j a)

/-- `_squared_exponential_kernel_d01k`, kernels/kernels.py 772-788. -/
noncomputable def squaredExponentialD01k (ad : Dims d) (lengthscale : ℝ) (x1 : Batch n d)
    (x2 : Batch m d) : Arr2 (n * d) (m * d) :=
  let ed2 := squaredExponentialK ad lengthscale x1 x2
  let diff := seDiffFull ad lengthscale x1 x2
  let diag : Arr2 n m := fun i j => ed2 i j * (2 / lengthscale ^ 2)
  reshapeBoth fun i f j e =>
    ad.diagAdd (fun f e => -ed2 i j * diff i j f * diff i j e) (diag i j) f e

/-- `_squared_exponential_kernel_d01kj`, kernels/kernels.py 804-831. -/
noncomputable def squaredExponentialD01kj (ad : Dims d) (lengthscale : ℝ) (x1 : Batch n d)
    (x2 : Batch m d) (J1 : Jac n d v1) (J2 : Jac m d v2) : Arr2 (n * v1) (m * v2) :=
  let ed2 := squaredExponentialK ad lengthscale x1 x2
  let diff := seDiff ad lengthscale x1 x2
  let diffJ1 : Fin n → Fin m → Fin v1 → ℝ := fun i j u => ∑ f, diff i j f * ad.takeJac J1 i f u
  let diffJ2 : Fin n → Fin m → Fin v2 → ℝ := fun i j w => ∑ f, diff i j f * ad.takeJac J2 j f w
  let diag : Fin n → Fin m → Fin ad.k → ℝ := fun i j _ => ed2 i j * (2 / lengthscale ^ 2)
  reshapeBoth fun i u j w =>
    -ed2 i j * diffJ1 i j u * diffJ2 i j w +
      ∑ f, ad.takeJac J1 i f u * diag i j f * ad.takeJac J2 j f w

/-- `_squared_exponential_kernel_d01kjc`, kernels/kernels.py 851-877. -/
noncomputable def squaredExponentialD01kjc (ad : Dims d) (lengthscale : ℝ) (x1 : Batch n d)
    (x2 : Batch m d) (jc : Batch n d) (J : Jac m d v) : Arr2 n (m * v) :=
  let ed2 := squaredExponentialK ad lengthscale x1 x2
  let diff := seDiff ad lengthscale x1 x2
  let diffJ1 : Fin n → Fin m → ℝ := fun i j => ∑ f, diff i j f * ad.takeCols jc i f
  let diffJ2 : Fin n → Fin m → Fin v → ℝ := fun i j w => ∑ f, diff i j f * ad.takeJac J j f w
  let diag : Fin n → Fin m → Fin ad.k → ℝ := fun i j _ => ed2 i j * (2 / lengthscale ^ 2)
  reshapeCols fun i j w =>
    -ed2 i j * diffJ1 i j * diffJ2 i j w +
      ∑ f, ad.takeCols jc i f * diag i j f * ad.takeJac J j f w

/-! ## Matern -/

/-- The literal `1e-36` of the Matern kernels. -/
noncomputable def maternFloor : ℝ := 1 / 10 ^ 36

/-- `_matern12_kernel_base` and its wrapper, kernels/kernels.py 902-919. -/
noncomputable def matern12Base (ad : Dims d) (lengthscale : ℝ) : Ex (KVar d) :=
  .exp (.neg (.sqrt (.maxc (exSqDist ad lengthscale) maternFloor)))

/-- `_matern12_kernel` and its wrapper, kernels/kernels.py 922-937. -/
noncomputable def matern12K (ad : Dims d) (lengthscale : ℝ) (x1 : Batch n d) (x2 : Batch m d) :
    Arr2 n m := fun i j =>
  let d2 := squaredDistances (scaled ad lengthscale x1) (scaled ad lengthscale x2) i j
  let dist := Real.sqrt (max d2 maternFloor)
  Real.exp (-dist)

/-- `d` of `_matern32_kernel_base`: `sqrt(maximum(3.0 * sum((z1 - z2) ** 2), 1e-36))`,
kernels/kernels.py 951-952. -/
noncomputable def exMaternDist (c : ℝ) (ad : Dims d) (lengthscale : ℝ) : Ex (KVar d) :=
  .sqrt (.maxc (.mul (.const c) (exSqDist ad lengthscale)) maternFloor)

/-- `_matern32_kernel_base` and its wrapper, kernels/kernels.py 945-963. -/
noncomputable def matern32BaseEx (ad : Dims d) (lengthscale : ℝ) : Ex (KVar d) :=
  .mul (.add (.const 1) (exMaternDist 3 ad lengthscale)) (.exp (.neg (exMaternDist 3 ad lengthscale)))

/-- `diff = jnp.sqrt(c) * (z1 - z2)` for entry `a`, kernels/kernels.py 989, 1005, 1073, 1089. -/
noncomputable def exMaternDiff (c : ℝ) (ad : Dims d) (lengthscale : ℝ) (a : Fin ad.k) :
    Ex (KVar d) := .mul (.const (Real.sqrt c)) (exDiff ad lengthscale a)

/-- `d = jnp.sqrt(jnp.maximum(jnp.sum(diff ** 2), 1e-36))`, kernels/kernels.py 990, 1006, 1074, 1090. -/
noncomputable def exMaternDistDiff (c : ℝ) (ad : Dims d) (lengthscale : ℝ) : Ex (KVar d) :=
  .sqrt (.maxc (.sum fun a => .mul (exMaternDiff c ad lengthscale a) (exMaternDiff c ad lengthscale a))
    maternFloor)

/-- `_matern32_kernel_base_t0`, kernels/kernels.py 984-991. -/
noncomputable def matern32T0 (ad : Dims d) (lengthscale : ℝ) (a : Fin ad.k) : Ex (KVar d) :=
  .mul (.mul (.const (-Real.sqrt 3 / lengthscale)) (.exp (.neg (exMaternDistDiff 3 ad lengthscale))))
    (exMaternDiff 3 ad lengthscale a)

/-- `_matern32_kernel_base_t1`, kernels/kernels.py 994-997. -/
noncomputable def matern32T1 (ad : Dims d) (lengthscale : ℝ) (a : Fin ad.k) : Ex (KVar d) :=
  .neg (matern32T0 ad lengthscale a)

/-- `_matern32_kernel_base_t2` (the rule for the lengthscale), kernels/kernels.py 1000-1007. -/
noncomputable def matern32T2 {k : ℕ} (lengthscale : ℝ) (x1 x2 : Fin k → ℝ) : ℝ :=
  let diff : Fin k → ℝ := fun a => Real.sqrt 3 * (x1 a / lengthscale - x2 a / lengthscale)
  let dist := Real.sqrt (max (∑ a, diff a ^ 2) maternFloor)
  1 / lengthscale * Real.exp (-dist) * dist ^ 2

/-- `_matern32_kernel` and its wrapper, kernels/kernels.py 966-981. -/
noncomputable def matern32K (ad : Dims d) (lengthscale : ℝ) (x1 : Batch n d) (x2 : Batch m d) :
    Arr2 n m := fun i j =>
  let d2 := squaredDistances (scaled ad lengthscale x1) (scaled ad lengthscale x2) i j
  let dist := Real.sqrt 3 * Real.sqrt (max d2 maternFloor)
  (1 + dist) * Real.exp (-dist)

/-- `_matern52_kernel_base` and its wrapper, kernels/kernels.py 1029-1047. The polynomial part uses the
unclamped `d2`. -/
noncomputable def matern52BaseEx (ad : Dims d) (lengthscale : ℝ) : Ex (KVar d) :=
  .mul
    (.add (.add (.const 1) (exMaternDist 5 ad lengthscale))
      (.mul (.mul (.const 5) (exSqDist ad lengthscale)) (.inv (.const 3))))
    (.exp (.neg (exMaternDist 5 ad lengthscale)))

/-- `_matern52_kernel_base_t0`, kernels/kernels.py 1068-1075. -/
noncomputable def matern52T0 (ad : Dims d) (lengthscale : ℝ) (a : Fin ad.k) : Ex (KVar d) :=
  .mul (.mul (.mul (.const (-(Real.sqrt 5 / (3 * lengthscale))))
      (.add (.const 1) (exMaternDistDiff 5 ad lengthscale)))
    (.exp (.neg (exMaternDistDiff 5 ad lengthscale)))) (exMaternDiff 5 ad lengthscale a)

/-- `_matern52_kernel_base_t1`, kernels/kernels.py 1078-1081. -/
noncomputable def matern52T1 (ad : Dims d) (lengthscale : ℝ) (a : Fin ad.k) : Ex (KVar d) :=
  .neg (matern52T0 ad lengthscale a)

/-- `_matern52_kernel_base_t2` (the rule for the lengthscale), kernels/kernels.py 1084-1091. -/
noncomputable def matern52T2 {k : ℕ} (lengthscale : ℝ) (x1 x2 : Fin k → ℝ) : ℝ :=
  let diff : Fin k → ℝ := fun a => Real.sqrt 5 * (x1 a / lengthscale - x2 a / lengthscale)
  let dist := Real.sqrt (max (∑ a, diff a ^ 2) maternFloor)
  1 / (3 * lengthscale) * Real.exp (-dist) * dist ^ 2 * (1 + dist)

/-- `d = jnp.sqrt(5.0) * jnp.sqrt(jnp.maximum(d2, 1e-36))` with `d2 = squared_distances(z1, z2)`,
kernels/kernels.py 1053-1054, 1116-1117, 1174-1175, 1231-1232, 1267-1268, 1317-1318. -/
noncomputable def matern52Dist (ad : Dims d) (lengthscale : ℝ) (x1 : Batch n d) (x2 : Batch m d) :
    Arr2 n m := fun i j =>
  let d2 := squaredDistances (scaled ad lengthscale x1) (scaled ad lengthscale x2) i j
  Real.sqrt 5 * Real.sqrt (max d2 maternFloor)

/-- `_matern52_kernel` and its wrapper, kernels/kernels.py 1050-1065. -/
noncomputable def matern52K (ad : Dims d) (lengthscale : ℝ) (x1 : Batch n d) (x2 : Batch m d) :
    Arr2 n m := fun i j =>
  let dist := matern52Dist ad lengthscale x1 x2 i j
  (1 + dist + dist ^ 2 / 3) * Real.exp (-dist)

/-- `jnp.sqrt(5.0) * (z1[:, None] - z2)`, kernels/kernels.py 1118, 1176, 1234, 1266, 1316. -/
noncomputable def matern52Diff (ad : Dims d) (lengthscale : ℝ) (x1 : Batch n d) (x2 : Batch m d) :
    Fin n → Fin m → Fin ad.k → ℝ := fun i j a =>
  Real.sqrt 5 * (scaled ad lengthscale x1 i a - scaled ad lengthscale x2 j a)

/-- `_matern52_kernel_d0k`, kernels/kernels.py 1108-1122. -/
noncomputable def matern52D0k (ad : Dims d) (lengthscale : ℝ) (x1 : Batch n d) (x2 : Batch m d) :
    Arr2 (n * d) m :=
  let dist := matern52Dist ad lengthscale x1 x2
  let diff := matern52Diff ad lengthscale x1 x2
  let d0k : Fin n → Fin d → Fin m → ℝ := fun i =>
    ad.scatterSet (fun _ _ => 0) (fun a j =>
      -(Real.sqrt 5 / (3 * lengthscale)) * (1 + dist i j) * Real.exp (-dist i j) * diff i j a)
  reshapeRows d0k

/-- `_matern52_kernel_d0kj`, kernels/kernels.py 1135-1149: `einsum("ifv,ifj->ivj")`. -/
noncomputable def matern52D0kj (ad : Dims d) (lengthscale : ℝ) (x1 : Batch n d) (x2 : Batch m d)
    (J : Jac n d v) : Arr2 (n * v) m :=
  let d0k := unshapeRows (matern52D0k ad lengthscale x1 x2)
  reshapeRows fun i u j => ∑ f, ad.takeJac J i f u * ad.take (d0k i) f j

/-- `_matern52_kernel_d1k`, kernels/kernels.py 1166-1180. -/
noncomputable def matern52D1k (ad : Dims d) (lengthscale : ℝ) (x1 : Batch n d) (x2 : Batch m d) :
    Arr2 n (m * d) :=
  let dist := matern52Dist ad lengthscale x1 x2
  let diff := matern52Diff ad lengthscale x1 x2
  let d1k : Fin n → Fin m → Fin d → ℝ := fun i j =>
    ad.scatterSet (fun _ => 0) (fun a =>
      (Real.sqrt 5 / (3 * lengthscale)) * (1 + dist i j) * Real.exp (-dist i j) * diff i j a)
  reshapeCols d1k

/-- `_matern52_kernel_d1kj`, kernels/kernels.py 1193-1207: `einsum("ijf,jfv->ijv")`. -/
noncomputable def matern52D1kj (ad : Dims d) (lengthscale : ℝ) (x1 : Batch n d) (x2 : Batch m d)
    (J : Jac m d v) : Arr2 n (m * v) :=
  let d1k := unshapeCols (matern52D1k ad lengthscale x1 x2)
  reshapeCols fun i j u => ∑ f, ad.take (d1k i j) f * ad.takeJac J j f u

/-- `constant = (5.0 / (3.0 * lengthscale**2)) * jnp.exp(-d)`, kernels/kernels.py 1235, 1269, 1319. -/
noncomputable def matern52Const (ad : Dims d) (lengthscale : ℝ) (x1 : Batch n d) (x2 : Batch m d) :
    Arr2 n m := fun i j =>
  (5 / (3 * lengthscale ^ 2)) * Real.exp (-matern52Dist ad lengthscale x1 x2 i j)

/-- `_matern52_kernel_d01k`, kernels/kernels.py 1224-1240. -/
noncomputable def matern52D01k (ad : Dims d) (lengthscale : ℝ) (x1 : Batch n d) (x2 : Batch m d) :
    Arr2 (n * d) (m * d) :=
  let dist := matern52Dist ad lengthscale x1 x2
  let diff : Fin n → Fin m → Fin d → ℝ := fun i j =>
    ad.scatterSet (fun _ => 0) (matern52Diff ad lengthscale x1 x2 i j)
  let constant := matern52Const ad lengthscale x1 x2
  let diag : Arr2 n m := fun i j => constant i j * (1 + dist i j)
  reshapeBoth fun i f j e =>
    ad.diagAdd (fun f e => -constant i j * diff i j f * diff i j e) (diag i j) f e

/-- `_matern52_kernel_d01kj`, kernels/kernels.py 1253-1283. -/
noncomputable def matern52D01kj (ad : Dims d) (lengthscale : ℝ) (x1 : Batch n d) (x2 : Batch m d)
    (J1 : Jac n d v1) (J2 : Jac m d v2) : Arr2 (n * v1) (m * v2) :=
  let dist := matern52Dist ad lengthscale x1 x2
  let diff := matern52Diff ad lengthscale x1 x2
  let constant := matern52Const ad lengthscale x1 x2
  let diffJ1 : Fin n → Fin m → Fin v1 → ℝ := fun i j u => ∑ f, diff i j f * ad.takeJac J1 i f u
  let diffJ2 : Fin n → Fin m → Fin v2 → ℝ := fun i j w => ∑ f, diff i j f * ad.takeJac J2 j f w
  let diag : Fin n → Fin m → Fin ad.k → ℝ := fun i j _ => constant i j * (1 + dist i j)
  reshapeBoth fun i u j w =>
    -constant i j * diffJ1 i j u * diffJ2 i j w +
      ∑ f, ad.takeJac J1 i f u * diag i j f * ad.takeJac J2 j f w

/-- `_matern52_kernel_d01kjc`, kernels/kernels.py 1303-1332. -/
noncomputable def matern52D01kjc (ad : Dims d) (lengthscale : ℝ) (x1 : Batch n d) (x2 : Batch m d)
    (jc : Batch n d) (J : Jac m d v) : Arr2 n (m * v) :=
  let dist := matern52Dist ad lengthscale x1 x2
  let diff := matern52Diff ad lengthscale x1 x2
  let constant := matern52Const ad lengthscale x1 x2
  let diffJ1 : Fin n → Fin m → ℝ := fun i j => ∑ f, diff i j f * ad.takeCols jc i f
  let diffJ2 : Fin n → Fin m → Fin v → ℝ := fun i j w => ∑ f, diff i j f * ad.takeJac J j f w
  let diag : Fin n → Fin m → Fin ad.k → ℝ := fun i j _ => constant i j * (1 + dist i j)
  reshapeCols fun i j w =>
    -constant i j * diffJ1 i j * diffJ2 i j w +
      ∑ f, ad.takeCols jc i f * diag i j f * ad.takeJac J j f w

/-! ## Periodic -/

/-- `_expsinsquared_kernel_base` and its wrapper, kernels/kernels.py 1355-1373:
`exp(-4 * sum(sin(pi * abs(x1 - x2) / period) ** 2 / lengthscale))`. -/
noncomputable def expSinSquaredBase (ad : Dims d) (lengthscale period : ℝ) : Ex (KVar d) :=
  let arg : Fin ad.k → Ex (KVar d) := fun a =>
    .mul (.mul (.const Real.pi)
      (.abs (.add (.var (.inl (ad.idx a))) (.neg (.var (.inr (ad.idx a))))))) (.inv (.const period))
  .exp (.mul (.const (-4))
    (.sum fun a => .mul (.mul (.sin (arg a)) (.sin (arg a))) (.inv (.const lengthscale))))

end GPX
