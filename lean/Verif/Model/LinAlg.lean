import Verif.Model.Arrays
import Mathlib.LinearAlgebra.Matrix.NonsingularInverse
import Mathlib.LinearAlgebra.Matrix.PosDef

/-!
# The linear algebra routines GPX calls

`jnp.linalg.solve`, `jnp.linalg.inv`, `jsp.linalg.cholesky`, `jsp.linalg.solve_triangular`,
`jnp.linalg.svd` and `jnp.linalg.eigh` are external code. They are the fields of `LinAlg`, i.e. arbitrary
functions; what is assumed about them is the contract `LinAlg.Exact` (exact arithmetic), an explicit
hypothesis of the theorems. `Lemmas/LinAlg.lean` shows that such routines exist.
-/

namespace GPX

/-- A two-dimensional array seen as a matrix. -/
abbrev Mat (n m : ℕ) := Matrix (Fin n) (Fin m) ℝ

/-- `L` is lower triangular. -/
def LowerTri {n : ℕ} (L : Mat n n) : Prop := ∀ i j, i < j → L i j = 0

/-- The external routines. -/
structure LinAlg where
  /-- `jnp.linalg.solve(A, b)` -/
  solve : ∀ {n o : ℕ}, Mat n n → Mat n o → Mat n o
  /-- `jnp.linalg.inv(A)` -/
  inv : ∀ {n : ℕ}, Mat n n → Mat n n
  /-- `jsp.linalg.cholesky(A, lower=True)` -/
  cholesky : ∀ {n : ℕ}, Mat n n → Mat n n
  /-- `jsp.linalg.solve_triangular(L, b, lower=True)` -/
  solveLower : ∀ {n o : ℕ}, Mat n n → Mat n o → Mat n o
  /-- `jnp.linalg.svd(A, full_matrices=False)` of a matrix with at least as many rows as columns -/
  svd : ∀ {m n : ℕ}, Mat m n → Mat m n × (Fin n → ℝ) × Mat n n

/-- What is assumed about the routines: exact results on the inputs they are made for, nothing
otherwise. -/
structure LinAlg.Exact (la : LinAlg) : Prop where
  solve : ∀ {n o : ℕ} (A : Mat n n) (b : Mat n o), IsUnit A.det → A * la.solve A b = b
  inv : ∀ {n : ℕ} (A : Mat n n), IsUnit A.det → A * la.inv A = 1
  cholesky : ∀ {n : ℕ} (A : Mat n n), A.PosDef →
    LowerTri (la.cholesky A) ∧ (∀ i, 0 < la.cholesky A i i) ∧
      la.cholesky A * (la.cholesky A).transpose = A
  solveLower : ∀ {n o : ℕ} (L : Mat n n) (b : Mat n o), LowerTri L → (∀ i, L i i ≠ 0) →
    L * la.solveLower L b = b
  svd : ∀ {m n : ℕ} (A : Mat m n), n ≤ m →
    (la.svd A).1 * Matrix.diagonal (la.svd A).2.1 * (la.svd A).2.2 = A ∧
    (la.svd A).1.transpose * (la.svd A).1 = 1 ∧
    (la.svd A).2.2 * (la.svd A).2.2.transpose = 1 ∧ ∀ i, 0 ≤ (la.svd A).2.1 i

end GPX
