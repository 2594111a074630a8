import Verif.Model.Arrays

/-!
# `kernels/kernelizers.py`: from a function of two samples to a function of two batches

A kernel function of two samples is `kf : (Fin d → ℝ) → (Fin d → ℝ) → ℝ`, with `params` and
`active_dims` already applied. The functions `jacrev(kf, argnums=0)` (`g0`), `jacrev(kf, argnums=1)`
(`g1`) and `jacfwd(jacrev(kf, argnums=0), argnums=1)` (`h01`) are arguments of the kernelizers here;
what they are is modelled in `Model/Autodiff.lean`. `jit` and `jax.checkpoint` do not change values
and are not modelled.
-/

namespace GPX

/-- A sample: an array of shape `(n_features,)`. -/
abbrev Sample (d : ℕ) := Fin d → ℝ

variable {d n m v v1 v2 : ℕ}

/-- `kernelize(kernel_func, lax=True)`, kernels/kernelizers.py 69-85: a scan over the rows of `x1`,
each step a vmap over `x2`. -/
def kernelizeLax (kf : Sample d → Sample d → ℝ) (x1 : Batch n d) (x2 : Batch m d) : Arr2 n m :=
  stack n 0
    (laxScan (fun (carry : ℕ) (x1s : Sample d) => (carry, fun j => kf x1s (x2 j))) 0
      (List.ofFn x1)).2

/-- `kernelize(kernel_func, lax=False)`, kernels/kernelizers.py 87-96: two nested vmaps. -/
def kernelizeVmap (kf : Sample d → Sample d → ℝ) (x1 : Batch n d) (x2 : Batch m d) : Arr2 n m :=
  fun i j => kf (x1 i) (x2 j)

/-- `kernelize(kernel_func, lax)`, kernels/kernelizers.py 45-98. -/
def kernelize (kf : Sample d → Sample d → ℝ) (lax : Bool) (x1 : Batch n d) (x2 : Batch m d) :
    Arr2 n m :=
  if lax then kernelizeLax kf x1 x2 else kernelizeVmap kf x1 x2

/-- `_grad0_kernelize`, kernels/kernelizers.py 106-127. Each scan step returns the transposed
`(n_features, m)` array; the stacked `(n, n_features, m)` array is reshaped to `(n * nf, m)`. -/
def grad0Kernelize (g0 : Sample d → Sample d → Fin d → ℝ) (x1 : Batch n d) (x2 : Batch m d) :
    Arr2 (n * d) m :=
  let gram : Fin n → Fin d → Fin m → ℝ := stack n 0
    (laxScan (fun (carry : ℕ) (x1s : Sample d) =>
      (carry, fun f j => (fun (j : Fin m) (f : Fin d) => g0 x1s (x2 j) f) j f)) 0 (List.ofFn x1)).2
  reshapeRows gram

/-- `_grad0jac_kernelize`, kernels/kernelizers.py 130-160: for each sample, the block of `jv` rows
starting at `i * jv` is overwritten by `einsum("ki,ij->jk", nabla_k, jacobian[i])`. -/
def grad0jacKernelize (g0 : Sample d → Sample d → Fin d → ℝ) (x1 : Batch n d) (x2 : Batch m d)
    (jacobian : Jac n d v) : Arr2 (n * v) m :=
  foriLoop n (fun i (gram : Arr2 (n * v) m) =>
    let nabla : Fin m → Fin d → ℝ := fun k => g0 (rowAt 0 x1 i) (x2 k)
    let contracted : Arr2 v m := fun j k => ∑ f, nabla k f * rowAt 0 jacobian i f j
    dynUpdate2 gram contracted (i * v) 0) (fun _ _ => 0)

/-- `_grad0jaccoef_kernelize(…, trace_samples=True)`, kernels/kernelizers.py 168-191: the result has
shape `(m,)` and accumulates over the samples of `x1`. -/
def grad0jaccoefTraced (g0 : Sample d → Sample d → Fin d → ℝ) (x1 : Batch n d) (x2 : Batch m d)
    (jaccoef : Batch n d) : Fin m → ℝ :=
  foriLoop n (fun i (gram : Fin m → ℝ) =>
    let nabla : Fin m → Fin d → ℝ := fun k => g0 (rowAt 0 x1 i) (x2 k)
    fun k => gram k + ∑ f, nabla k f * rowAt 0 jaccoef i f) (fun _ => 0)

/-- `gram.at[i].set(row)` with a loop counter as index: XLA drops a write that is out of range
(the default scatter mode); within the loop `i < n`. -/
def setRow (gram : Arr2 n m) (i : ℕ) (row : Fin m → ℝ) : Arr2 n m :=
  fun r => if r.val = i then row else gram r

/-- `_grad0jaccoef_kernelize(…, trace_samples=False)`, kernels/kernelizers.py 193-215: the result has
shape `(n, m)`, row `i` being the contraction of the gradient with `jaccoef[i]`. -/
def grad0jaccoefUntraced (g0 : Sample d → Sample d → Fin d → ℝ) (x1 : Batch n d) (x2 : Batch m d)
    (jaccoef : Batch n d) : Arr2 n m :=
  foriLoop n (fun i (gram : Arr2 n m) =>
    let nabla : Fin m → Fin d → ℝ := fun k => g0 (rowAt 0 x1 i) (x2 k)
    setRow gram i (fun k => ∑ f, nabla k f * rowAt 0 jaccoef i f)) (fun _ _ => 0)

/-- `_grad1_kernelize`, kernels/kernelizers.py 218-239. -/
def grad1Kernelize (g1 : Sample d → Sample d → Fin d → ℝ) (x1 : Batch n d) (x2 : Batch m d) :
    Arr2 n (m * d) :=
  let gram : Fin n → Fin m → Fin d → ℝ := stack n 0
    (laxScan (fun (carry : ℕ) (x1s : Sample d) => (carry, fun j f => g1 x1s (x2 j) f)) 0
      (List.ofFn x1)).2
  reshapeCols gram

/-- `_grad1jac_kernelize`, kernels/kernelizers.py 242-272: the loop runs over the samples of `x2` and
overwrites the block of `jv` columns starting at `j * jv`. -/
def grad1jacKernelize (g1 : Sample d → Sample d → Fin d → ℝ) (x1 : Batch n d) (x2 : Batch m d)
    (jacobian : Jac m d v) : Arr2 n (m * v) :=
  foriLoop m (fun j (gram : Arr2 n (m * v)) =>
    let nabla : Fin n → Fin d → ℝ := fun k => g1 (x1 k) (rowAt 0 x2 j)
    let contracted : Arr2 n v := fun k u => ∑ f, nabla k f * rowAt 0 jacobian j f u
    dynUpdate2 gram contracted 0 (j * v)) (fun _ _ => 0)

/-- `_grad01_kernelize`, kernels/kernelizers.py 275-296. The vmap over `x2` has `out_axes=1`, so a
scan step returns an array of shape `(nf, m, mf)`. -/
def grad01Kernelize (h01 : Sample d → Sample d → Fin d → Fin d → ℝ) (x1 : Batch n d)
    (x2 : Batch m d) : Arr2 (n * d) (m * d) :=
  let gram : Fin n → Fin d → Fin m → Fin d → ℝ := stack n 0
    (laxScan (fun (carry : ℕ) (x1s : Sample d) => (carry, fun f j e => h01 x1s (x2 j) f e)) 0
      (List.ofFn x1)).2
  reshapeBoth gram

/-- `_grad01jac_kernelize`, kernels/kernelizers.py 299-330: two nested loops, each step overwriting
the block at `(i * j1v, j * j2v)`. -/
def grad01jacKernelize (h01 : Sample d → Sample d → Fin d → Fin d → ℝ) (x1 : Batch n d)
    (x2 : Batch m d) (jacobian1 : Jac n d v1) (jacobian2 : Jac m d v2) :
    Arr2 (n * v1) (m * v2) :=
  foriLoop n (fun i (gram : Arr2 (n * v1) (m * v2)) =>
    foriLoop m (fun j gram =>
      let nabla := h01 (rowAt 0 x1 i) (rowAt 0 x2 j)
      let contracted : Arr2 v1 v2 := fun p q =>
        ∑ a, ∑ b, rowAt 0 jacobian1 i a p * nabla a b * rowAt 0 jacobian2 j b q
      dynUpdate2 gram contracted (i * v1) (j * v2)) gram) (fun _ _ => 0)

/-- `_grad01jaccoef_kernelize(…, trace_samples=True)`, kernels/kernelizers.py 338-366: the result has
shape `(m * nv,)`; each step adds to the slice starting at `j * nv`. -/
def grad01jaccoefTraced (h01 : Sample d → Sample d → Fin d → Fin d → ℝ) (x1 : Batch n d)
    (x2 : Batch m d) (jaccoef : Batch n d) (jacobian : Jac m d v) : Fin (m * v) → ℝ :=
  foriLoop n (fun i (gram : Fin (m * v) → ℝ) =>
    foriLoop m (fun j gram =>
      let nabla := h01 (rowAt 0 x1 i) (rowAt 0 x2 j)
      let contracted : Fin v → ℝ := fun u =>
        ∑ f, ∑ e, rowAt 0 jaccoef i f * nabla f e * rowAt 0 jacobian j e u
      let base : Fin v → ℝ := dynSlice1 gram (j * v) v
      dynUpdate1 gram (fun u => base u + contracted u) (j * v)) gram) (fun _ => 0)

/-- `_grad01jaccoef_kernelize(…, trace_samples=False)`, kernels/kernelizers.py 368-392: the result has
shape `(n, m * nv)`; each step writes the `(1, nv)` block at `(i, j * nv)`. -/
def grad01jaccoefUntraced (h01 : Sample d → Sample d → Fin d → Fin d → ℝ) (x1 : Batch n d)
    (x2 : Batch m d) (jaccoef : Batch n d) (jacobian : Jac m d v) : Arr2 n (m * v) :=
  foriLoop n (fun i (gram : Arr2 n (m * v)) =>
    foriLoop m (fun j gram =>
      let nabla := h01 (rowAt 0 x1 i) (rowAt 0 x2 j)
      let contracted : Fin v → ℝ := fun u =>
        ∑ f, ∑ e, rowAt 0 jaccoef i f * nabla f e * rowAt 0 jacobian j e u
      dynUpdate2 gram (fun (_ : Fin 1) u => contracted u) i (j * v)) gram) (fun _ _ => 0)

/-- The `argnums` argument of `grad_kernelize`: an integer, a tuple of two integers, or any other
value. -/
inductive Argnums
  | int (i : ℤ)
  | pair (i j : ℤ)
  | other

/-- Which low-level decorator `grad_kernelize` selects. -/
inductive GradDecorator
  | grad0
  | grad0jac
  | grad0jaccoef (traceSamples : Bool)
  | grad1
  | grad1jac
  | grad01
  | grad01jac
  | grad01jaccoef (traceSamples : Bool)
  deriving DecidableEq

/-- The exception raised by `grad_kernelize` (kernels/kernelizers.py 484-487). -/
inductive KernelErr
  | valueError
  deriving DecidableEq

/-- `grad0_kernelize`, kernels/kernelizers.py 400-412. -/
def grad0Dispatch (withJacob withJaccoef traceSamples : Bool) : GradDecorator :=
  if withJacob then
    if withJaccoef then .grad0jaccoef traceSamples else .grad0jac
  else .grad0

/-- `grad1_kernelize`, kernels/kernelizers.py 417-421. -/
def grad1Dispatch (withJacob : Bool) : GradDecorator :=
  if withJacob then .grad1jac else .grad1

/-- `grad01_kernelize`, kernels/kernelizers.py 424-436. -/
def grad01Dispatch (withJacob withJaccoef traceSamples : Bool) : GradDecorator :=
  if withJacob then
    if withJaccoef then .grad01jaccoef traceSamples else .grad01jac
  else .grad01

/-- `grad_kernelize`, kernels/kernelizers.py 439-487. For `argnums == 1` the flags `with_jaccoef` and
`trace_samples` are ignored. -/
def gradKernelize (argnums : Argnums) (withJacob withJaccoef traceSamples : Bool) :
    Except KernelErr GradDecorator :=
  match argnums with
  | .int 0 => .ok (grad0Dispatch withJacob withJaccoef traceSamples)
  | .int 1 => .ok (grad1Dispatch withJacob)
  | .pair 0 1 => .ok (grad01Dispatch withJacob withJaccoef traceSamples)
  | _ => .error .valueError

end GPX
