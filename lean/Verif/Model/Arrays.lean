import Mathlib.Data.Real.Basic
import Mathlib.Data.Fintype.BigOperators
import Mathlib.LinearAlgebra.Matrix.Defs

/-!
# The array and loop primitives of JAX used by GPX

An array of shape `(a, b)` is a function `Fin a → Fin b → ℝ`. These definitions model the parts of
`jax.numpy`/`jax.lax` that GPX calls; they are not GPX code themselves. Citations give the GPX lines
that use them.
-/

namespace GPX

/-- A batch of `n` samples with `d` features: an array of shape `(n, d)`. -/
abbrev Batch (n d : ℕ) := Fin n → Fin d → ℝ

/-- An array of shape `(n, m)`. -/
abbrev Arr2 (n m : ℕ) := Fin n → Fin m → ℝ

/-- A jacobian: array of shape `(n_samples, n_features, n_variables)`. -/
abbrev Jac (n d v : ℕ) := Fin n → Fin d → Fin v → ℝ

/-- `jax.lax.scan(f, init, xs)`: the carry is threaded through, the outputs are stacked.
Used by `kernels/kernelizers.py` 84, 124, 236, 293. -/
def laxScan {C A B : Type*} (f : C → A → C × B) : C → List A → C × List B
  | c, [] => (c, [])
  | c, a :: as =>
    let r := f c a
    let rest := laxScan f r.1 as
    (rest.1, r.2 :: rest.2)

/-- Stacking: a list of outputs read back as an array indexed by `Fin n`; `z` is never read when the
list has `n` elements (`Lemmas/Arrays.lean`, `stack_laxScan`). -/
def stack {B : Type*} (n : ℕ) (z : B) (l : List B) : Fin n → B := fun i => l.getD i z

/-- `jax.lax.fori_loop(0, n, body, init)`. Used by `kernels/kernelizers.py` 158, 189, 213, 270,
326, 328, 362, 364, 388, 390, and by the matrix-free operations. -/
def foriLoop {S : Type*} (n : ℕ) (body : ℕ → S → S) (init : S) : S :=
  (List.range n).foldl (fun s i => body i s) init

/-- Reading row `i` of an array at a traced index (`x[i]` with `i` a loop counter): XLA clamps the
index into range; on an empty array there is no row to read and `z` stands for it (never reached:
the loop body is not run). -/
def rowAt {B : Type*} {n : ℕ} (z : B) (x : Fin n → B) (i : ℕ) : B :=
  if h : 0 < n then x ⟨min i (n - 1), by omega⟩ else z

/-- `jax.lax.dynamic_update_slice(g, u, (i, j))` on two-dimensional arrays: the start indices are
clamped so that the update fits (XLA semantics). -/
def dynUpdate2 {N M a b : ℕ} (g : Arr2 N M) (u : Arr2 a b) (i j : ℕ) : Arr2 N M := fun r c =>
  let si := min i (N - a)
  let sj := min j (M - b)
  if h : (si ≤ r.val ∧ r.val - si < a) ∧ (sj ≤ c.val ∧ c.val - sj < b) then
    u ⟨r.val - si, h.1.2⟩ ⟨c.val - sj, h.2.2⟩
  else g r c

/-- `jax.lax.dynamic_update_slice(g, u, (i,))` on one-dimensional arrays, start clamped. -/
def dynUpdate1 {N a : ℕ} (g : Fin N → ℝ) (u : Fin a → ℝ) (i : ℕ) : Fin N → ℝ := fun r =>
  let si := min i (N - a)
  if h : si ≤ r.val ∧ r.val - si < a then u ⟨r.val - si, h.2⟩ else g r

/-- `jax.lax.dynamic_slice(g, (i,), (a,))` on one-dimensional arrays, start clamped. A slice larger
than the array is a shape error in JAX; `0` stands for it. -/
def dynSlice1 {N : ℕ} (g : Fin N → ℝ) (i a : ℕ) : Fin a → ℝ := fun r =>
  if h : min i (N - a) + r.val < N then g ⟨min i (N - a) + r.val, h⟩ else 0

/-- `a.reshape((n * f, m))` of an array of shape `(n, f, m)`: C order. -/
def reshapeRows {n f m : ℕ} (a : Fin n → Fin f → Fin m → ℝ) : Arr2 (n * f) m := fun r c =>
  a r.divNat r.modNat c

/-- `a.reshape((n, m * f))` of an array of shape `(n, m, f)`: C order. -/
def reshapeCols {n m f : ℕ} (a : Fin n → Fin m → Fin f → ℝ) : Arr2 n (m * f) := fun r c =>
  a r c.divNat c.modNat

/-- `a.reshape((n * f, m * e))` of an array of shape `(n, f, m, e)`: C order. -/
def reshapeBoth {n f m e : ℕ} (a : Fin n → Fin f → Fin m → Fin e → ℝ) : Arr2 (n * f) (m * e) :=
  fun r c => a r.divNat r.modNat c.divNat c.modNat

/-- `a.repeat(M, axis=0)`: every row is repeated `M` times in a row. -/
def repeatRows {n m : ℕ} (M : ℕ) (a : Arr2 n m) : Arr2 (n * M) m := fun r c => a r.divNat c

/-- `a.repeat(M, axis=-1)` of a two-dimensional array: every column is repeated `M` times. -/
def repeatCols {n m : ℕ} (M : ℕ) (a : Arr2 n m) : Arr2 n (m * M) := fun r c => a r c.divNat

/-- `jnp.tile(a, (s, t))` of a two-dimensional array. -/
def tile {n m : ℕ} (s t : ℕ) (a : Arr2 n m) : Arr2 (s * n) (t * m) := fun r c =>
  a r.modNat c.modNat

/-- The `active_dims` argument: an integer array of feature indices. -/
structure Dims (d : ℕ) where
  k : ℕ
  idx : Fin k → Fin d

/-- `active_dims = jnp.arange(x1.shape[1])`, the value used when `active_dims is None`
(`kernels/kernels.py` 78, 98, 221 and so on). -/
def Dims.all (d : ℕ) : Dims d := ⟨d, id⟩

/-- `if active_dims is None: active_dims = jnp.arange(...)`. -/
def Dims.resolve {d : ℕ} : Option (Dims d) → Dims d
  | none => Dims.all d
  | some ad => ad

/-- `x[active_dims]` of a vector. Negative or out of range indices are not modelled. -/
def Dims.take {B : Type*} {d : ℕ} (ad : Dims d) (x : Fin d → B) : Fin ad.k → B :=
  fun a => x (ad.idx a)

/-- `base.at[active_dims].set(vals)`: writes are performed in index order, a repeated index keeps the
last one (JAX leaves the order open, NumPy keeps the last). -/
def Dims.scatterSet {B : Type*} {d : ℕ} (ad : Dims d) (base : Fin d → B) (vals : Fin ad.k → B) :
    Fin d → B :=
  (List.finRange ad.k).foldl (fun acc a => Function.update acc (ad.idx a) (vals a)) base

end GPX
