import Verif.Model.LinAlg
import Verif.Model.Kernelizers
import Mathlib.Analysis.SpecialFunctions.Log.Basic

/-!
# `lanczos.py`

The pseudo-random generator is abstract: `split` is `random.split`, `normal` is `random.normal` with the shape of
`v1` and `rademacher` is `random.rademacher` with shape `(dim_mat, num_evals)`. `jit` is not modelled.
-/

namespace GPX

variable {n m : ℕ}

/-- One-dimensional arrays. -/
abbrev Vec (n : ℕ) := Fin n → ℝ

/-- `jnp.dot(a, b)` of one-dimensional arrays. -/
def vdot (a b : Vec n) : ℝ := ∑ i, a i * b i

/-- `jnp.linalg.norm(a)`. -/
noncomputable def vnorm (a : Vec n) : ℝ := Real.sqrt (∑ i, a i ^ 2)

/-- Column `j` of a two-dimensional array, `vecs[:, j]`. -/
def column (vecs : Arr2 n m) (j : Fin m) : Vec n := fun i => vecs i j

/-- `orthogonalize`, lanczos.py 29-37: a scan over the rows of `vecs.T`. -/
def orthogonalize (v : Vec n) (vecs : Arr2 n m) : Vec n :=
  (laxScan (fun (origv : Vec n) (refv : Vec n) => ((fun i => origv i - vdot origv refv * refv i), ()))
    v (List.ofFn (column vecs))).1

/-- `orthonormalize`, lanczos.py 40-43. -/
noncomputable def orthonormalize (v : Vec n) (vecs : Arr2 n m) : Vec n :=
  fun i => orthogonalize v vecs i / vnorm (orthogonalize v vecs)

/-- The literal `_LANCZOS_BETA_THRESHOLD`, lanczos.py 75. -/
noncomputable def betaThreshold : ℝ := 1 / 10 ^ 12

/-- The carried value `(beta, w, tridiag, vecs, key)`. -/
structure LanczosState (n m : ℕ) (Key : Type) where
  beta : ℝ
  w : Vec n
  tridiag : Arr2 m m
  vecs : Arr2 n m
  key : Key

/-- `a.at[i, j].set(value)`; writes outside the array are dropped. -/
def setEntry (a : Arr2 n m) (i j : ℕ) (value : ℝ) : Arr2 n m :=
  fun s t => if s.val = i ∧ t.val = j then value else a s t

/-- `vecs.at[:, j].set(v)`; writes outside the array are dropped. -/
def setColumn (vecs : Arr2 n m) (j : ℕ) (v : Vec n) : Arr2 n m :=
  fun s t => if t.val = j then v s else vecs s t

/-- `vecs[:, j]` for the loop counter `j`, which is always inside the array (`0` otherwise). -/
def columnAt (vecs : Arr2 n m) (j : ℕ) : Vec n :=
  if h : j < m then column vecs ⟨j, h⟩ else 0

/-- The initialization phase of `lanczos_tridiagonal`, lanczos.py 77-91 and 130. -/
noncomputable def lanczosInit {Key : Type} (matvec : Vec n → Vec n) (m : ℕ) (v1 : Vec n) (key : Key) :
    LanczosState n m Key :=
  let vecs : Arr2 n m := setColumn (fun _ _ => 0) 0 v1
  let w := matvec v1
  let alpha := vdot w v1
  let w : Vec n := fun i => w i - alpha * v1 i
  let beta := vnorm w
  let tridiag : Arr2 m m := setEntry (fun _ _ => 0) 0 0 alpha
  { beta := beta, w := w, tridiag := tridiag, vecs := vecs, key := key }

/-- The new vector of a step, lanczos.py 93-108: `jnp.where` evaluates both sides, a division by zero in the side
that is not selected has no effect. -/
noncomputable def lanczosNext {Key : Type} (split : Key → Key × Key) (normal : Key → Vec n)
    (st : LanczosState n m Key) : Vec n :=
  if betaThreshold < st.beta then fun i => st.w i / st.beta
  else orthonormalize (normal (split st.key).1) st.vecs

/-- `body_fun`, lanczos.py 98-128. -/
noncomputable def lanczosStep {Key : Type} (split : Key → Key × Key) (normal : Key → Vec n)
    (matvec : Vec n → Vec n) (j : ℕ) (st : LanczosState n m Key) : LanczosState n m Key :=
  let key := (split st.key).2
  let v := lanczosNext split normal st
  let vecs := setColumn st.vecs (j + 1) v
  let w := matvec v
  let alpha := vdot w v
  let w : Vec n := fun i => w i - alpha * v i - st.beta * columnAt vecs j i
  let w := orthogonalize w vecs
  let tridiag := setEntry st.tridiag (j + 1) (j + 1) alpha
  let tridiag := setEntry tridiag j (j + 1) st.beta
  let tridiag := setEntry tridiag (j + 1) j st.beta
  { beta := vnorm w, w := w, tridiag := tridiag, vecs := vecs, key := key }

/-- The state before iteration `j` of the loop, lanczos.py 130-131. -/
noncomputable def lanczosState {Key : Type} (split : Key → Key × Key) (normal : Key → Vec n)
    (matvec : Vec n → Vec n) (m : ℕ) (v1 : Vec n) (key : Key) (j : ℕ) : LanczosState n m Key :=
  foriLoop j (lanczosStep split normal matvec) (lanczosInit matvec m v1 key)

/-- `lanczos_tridiagonal`, lanczos.py 46-133: returns `(tridiag, vecs)` (the documentation announces them in the
opposite order). -/
noncomputable def lanczosTridiagonal {Key : Type} (split : Key → Key × Key) (normal : Key → Vec n)
    (matvec : Vec n → Vec n) (m : ℕ) (v1 : Vec n) (key : Key) : Arr2 m m × Arr2 n m :=
  let st := lanczosState split normal matvec m v1 key (m - 1)
  (st.tridiag, st.vecs)

/-- `jnp.linalg.eigh`: eigenvalues and eigenvectors, external. -/
abbrev Eigh := ∀ {m : ℕ}, Mat m m → (Fin m → ℝ) × Mat m m

/-- The contract of `jnp.linalg.eigh` for symmetric matrices (the order of the eigenvalues is not used). -/
def Eigh.Exact (eigh : Eigh) : Prop :=
  ∀ {m : ℕ} (T : Mat m m), T.IsHermitian →
    (eigh T).2.transpose * (eigh T).2 = 1 ∧
    T = (eigh T).2 * Matrix.diagonal (eigh T).1 * (eigh T).2.transpose

/-- One term of `update_fun`, lanczos.py 172-180 (`num_lanczos` is at least 1, `evecs[0, :]` is the first row). -/
noncomputable def logdetTerm (eigh : Eigh) {m : ℕ} (tridiag : Arr2 (m + 1) (m + 1)) : ℝ :=
  let evals := (eigh (Matrix.of tridiag)).1
  let evecs := (eigh (Matrix.of tridiag)).2
  ∑ k, (evecs 0 k) ^ 2 * Real.log (max (evals k) (1 / 10 ^ 36))

/-- `lanczos_logdet`, lanczos.py 136-183, with `num_lanczos = m + 1`. The same key is used for all random vectors. -/
noncomputable def lanczosLogdet {Key : Type} (split : Key → Key × Key) (normal : Key → Vec n)
    {numEvals : ℕ} (rademacher : Key → Arr2 n numEvals) (eigh : Eigh) (matvec : Vec n → Vec n)
    (m : ℕ) (key : Key) : ℝ :=
  let us := rademacher (split key).1
  let key := (split key).2
  let us : Arr2 n numEvals := fun i c => us i c / vnorm (column us c)
  let logdet := (laxScan (fun (logdet : ℝ) (u : Vec n) =>
    (logdet + logdetTerm eigh (lanczosTridiagonal split normal matvec (m + 1) u key).1, ())) 0
    (List.ofFn (column us))).1
  ((n : ℝ) / numEvals) * logdet

end GPX
