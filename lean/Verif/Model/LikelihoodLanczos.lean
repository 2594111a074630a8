import Verif.Model.GPR
import Verif.Model.SGPR
import Verif.Model.Lanczos

/-!
# The iterative log marginal likelihoods with the stochastic log-determinant

`lmlIter`, `lmlDerivsIter` and `sgprLmlIter` are parametrized by the log-determinant; here it is `lanczos_logdet`.
-/

namespace GPX

variable {d n v m : ℕ} {KeyL Key : Type}

/-- `lanczos_logdet(matvec, num_evals, dim_mat=m, num_lanczos, key)` as called in `_lml_iter` and `_lml_derivs_iter`,
models/_gpr.py 809-815 and 924-930, models/_sgpr.py 726-732: the matrix-free products of the models act on columns, a
one-dimensional array is a single column. `num_lanczos = steps + 1`. -/
noncomputable def lanczosCols {numEvals : ℕ} (splitL : KeyL → KeyL × KeyL) (normal : KeyL → Vec n)
    (rademacher : KeyL → Arr2 n numEvals) (eigh : Eigh) (steps : ℕ) (keyL : KeyL)
    (matvec : Mat n 1 → Mat n 1) : ℝ :=
  lanczosLogdet splitL normal rademacher eigh (fun z i => matvec (Matrix.of fun i _ => z i) i 0) steps keyL

end GPX
