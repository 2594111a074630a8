import Verif.Model.Operations

/-!
# `kernels/approximations.py`: randomly pivoted Cholesky

The pseudo-random generator is abstract: `split` is `random.split` and `choice` is
`jax.random.choice(key, jnp.arange(n), p=prob, shape=())`; a key type and two functions. On an empty dataset
`choice` raises; here there is no function into `Fin 0`, so the case does not arise.
-/

namespace GPX

variable {d n v N : ℕ}

/-- The literal `1e-6` of kernels/approximations.py 114 and 228. -/
noncomputable def rpcJitter : ℝ := 1 / 10 ^ 6

/-- The carried value of the loop: `(fmat, diag, pivots, key)`. -/
structure RpcState (N r : ℕ) (Key : Type) where
  fmat : Arr2 N r
  diag : Fin N → ℝ
  pivots : Fin r → ℕ
  key : Key

/-- `fmat.at[:, i].set(col)` with the loop counter as index; out of range writes are dropped. -/
def setCol {r : ℕ} (fmat : Arr2 N r) (i : ℕ) (col : Fin N → ℝ) : Arr2 N r :=
  fun a b => if b.val = i then col a else fmat a b

/-- One step of `fori_wrapper`, kernels/approximations.py 93-119 and 199-233; `row s` is the row of the
kernel matrix computed for pivot `s`. (The first key returned by `split` is both carried on and used to
sample.) -/
noncomputable def rpcStep {r : ℕ} {Key : Type} (split : Key → Key × Key)
    (choice : Key → (Fin N → ℝ) → Fin N) (row : Fin N → Fin N → ℝ) (i : ℕ)
    (st : RpcState N r Key) : RpcState N r Key :=
  let prob : Fin N → ℝ := fun a => st.diag a / ∑ b, st.diag b
  let key := (split st.key).1
  let s := choice key prob
  let pivots : Fin r → ℕ := fun j => if j.val = i then s.val else st.pivots j
  let g : Fin N → ℝ := fun a => row s a - ∑ j, st.fmat a j * st.fmat s j
  let fmat := setCol st.fmat i (fun a => g a / (Real.sqrt (g s) + rpcJitter))
  let diag : Fin N → ℝ := fun a =>
    st.diag a - (if h : i < r then fmat a ⟨i, h⟩ else 0) ^ 2
  { fmat := fmat, diag := diag, pivots := pivots, key := key }

/-- The loop `jax.lax.fori_loop(0, n_pivots, fori_wrapper, …)`. -/
noncomputable def rpcLoop {Key : Type} (r : ℕ) (split : Key → Key × Key)
    (choice : Key → (Fin N → ℝ) → Fin N) (row : Fin N → Fin N → ℝ) (diag : Fin N → ℝ) (key : Key)
    (steps : ℕ) : RpcState N r Key :=
  foriLoop steps (rpcStep split choice row)
    { fmat := fun _ _ => 0, diag := diag, pivots := fun _ => 0, key := key }

/-- `kernel(jnp.expand_dims(x[s], axis=0), x, kernel_params)`, kernels/approximations.py 107. -/
def rpcRow (κ : KernelObj d) (p : KPar) (x : Batch n d) (s : Fin n) : Fin n → ℝ :=
  κ.k p (recoverFirstAxis (rowAt 0 x s.val)) x 0

/-- `diagonal_wrapper` and its scan, kernels/approximations.py 85-90. -/
def rpcDiag (κ : KernelObj d) (p : KPar) (x : Batch n d) : Fin n → ℝ :=
  stack n 0 (laxScan (fun (init : ℕ) (xs : Sample d) =>
    (init, κ.k p (recoverFirstAxis xs) (recoverFirstAxis xs) 0 0)) 0 (List.ofFn x)).2

/-- The exception raised by `rpcholesky` on a single sample. -/
inductive RpcErr
  | indexError
  deriving DecidableEq

/-- `rpcholesky`, kernels/approximations.py 30-129: `(fmat, pivots)`. With one sample `g.squeeze()` (line 110)
is zero-dimensional and `g[s]` (line 114) raises `IndexError`. -/
noncomputable def rpcholesky {Key : Type} (split : Key → Key × Key)
    (choice : Key → (Fin n → ℝ) → Fin n) (key : Key) (x : Batch n d) (nPivots : ℕ)
    (κ : KernelObj d) (p : KPar) : Except RpcErr (Mat n nPivots × (Fin nPivots → ℕ)) :=
  if n = 1 then .error .indexError
  else
    let res := rpcLoop nPivots split choice (rpcRow κ p x) (rpcDiag κ p x) key nPivots
    .ok (Matrix.of res.fmat, res.pivots)

/-- `(s / jv).astype(int)`, kernels/approximations.py 214: division in floating point, truncated. -/
noncomputable def rpcIndex1 (s jv : ℕ) : ℕ := ⌊(s : ℝ) / jv⌋₊

/-- `kernel.d01kj(xs, x, kernel_params, js, jacobian)[index2]`, kernels/approximations.py 214-218, with
`index2 = jnp.mod(s, jv)`. -/
noncomputable def rpcRowDerivs (κ : KernelObj d) (p : KPar) (x : Batch n d) (J : Jac n d v)
    (s : Fin (n * v)) : Fin (n * v) → ℝ :=
  let index1 := rpcIndex1 s.val v
  let index2 := s.val % v
  let xs : Batch 1 d := recoverFirstAxis (rowAt 0 x index1)
  let js : Jac 1 d v := recoverFirstAxis (rowAt 0 J index1)
  rowAt 0 (κ.d01kj p xs x js J) index2

/-- `diagonal_wrapper`, its scan and `jnp.diagonal(diag, axis1=1, axis2=2).reshape(-1)`,
kernels/approximations.py 189-197. -/
def rpcDiagDerivs (κ : KernelObj d) (p : KPar) (x : Batch n d) (J : Jac n d v) :
    Fin (n * v) → ℝ :=
  let diag : Fin n → Arr2 (1 * v) (1 * v) :=
    stack n 0 (laxScan (fun (init : ℕ) (xj : Sample d × (Fin d → Fin v → ℝ)) =>
      (init, κ.d01kj p (recoverFirstAxis xj.1) (recoverFirstAxis xj.1) (recoverFirstAxis xj.2)
        (recoverFirstAxis xj.2))) 0 (List.ofFn fun i => (x i, J i))).2
  fun a => diag a.divNat (Fin.cast (one_mul v).symm a.modNat) (Fin.cast (one_mul v).symm a.modNat)

/-- `rpcholesky_derivs`, kernels/approximations.py 132-242. -/
noncomputable def rpcholeskyDerivs {Key : Type} (split : Key → Key × Key)
    (choice : Key → (Fin (n * v) → ℝ) → Fin (n * v)) (key : Key) (x : Batch n d) (J : Jac n d v)
    (nPivots : ℕ) (κ : KernelObj d) (p : KPar) : Mat (n * v) nPivots × (Fin nPivots → ℕ) :=
  let res := rpcLoop nPivots split choice (rpcRowDerivs κ p x J) (rpcDiagDerivs κ p x J) key nPivots
  (Matrix.of res.fmat, res.pivots)

end GPX
