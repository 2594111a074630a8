import Verif.Model.KernelClasses
import Verif.Model.LinAlg

/-!
# `operations.py`: matrix-vector products without the matrix
-/

namespace GPX

variable {n r N o : ℕ}

/-- `recover_first_axis`, operations.py 26-29: a singleton axis is added in front. -/
def recoverFirstAxis {X : Type} (x : X) : Fin 1 → X := fun _ => x

/-- `jax.lax.dynamic_slice(g, (i, j), (a, b))` on two-dimensional arrays, start clamped. A slice larger than
the array is a shape error in JAX; `0` stands for it. -/
def dynSlice2 {N M : ℕ} (g : Arr2 N M) (i j a b : ℕ) : Arr2 a b := fun s t =>
  if h : min i (N - a) + s.val < N ∧ min j (M - b) + t.val < M then
    g ⟨min i (N - a) + s.val, h.1⟩ ⟨min j (M - b) + t.val, h.2⟩ else 0

/-- `update_row_diagonal`, operations.py 32-51. -/
def updateRowDiagonal (row : Arr2 r N) (index : ℕ) (value : ℝ) : Arr2 r N :=
  let newDiag : Arr2 r r := fun a b =>
    dynSlice2 row 0 (r * index) r r a b + value * (if a = b then 1 else 0)
  dynUpdate2 row newDiag 0 (r * index)

/-- `rowfun_to_matvec`, operations.py 54-123. `xs` is the list of slices of `init_val` along the first axis
(`recover_first_axis` is applied to each component by the caller's `rowFun`); `diag = none` is
`update_diag=False`. `jnp.concatenate(res, axis=0)` of the stacked `(n, r, o)` array is a reshape. -/
def rowfunToMatvec {X : Type} (rowFun : X → Arr2 r N) (xs : Fin n → X) (diag : Option ℝ)
    (z : Mat N o) : Mat (n * r) o :=
  let res : Fin n → Fin r → Fin o → ℝ :=
    match diag with
    | some value => stack n 0
        (laxScan (fun (carry : ℕ) (x : X) =>
          let row := updateRowDiagonal (rowFun x) carry value
          (carry + 1, fun a c => ∑ b, row a b * z b c)) 0 (List.ofFn xs)).2
    | none => stack n 0
        (laxScan (fun (carry : ℕ) (x : X) =>
          (carry, fun a c => ∑ b, rowFun x a b * z b c)) 0 (List.ofFn xs)).2
  Matrix.of (reshapeRows res)

end GPX
