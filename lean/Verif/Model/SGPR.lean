import Verif.Model.GPR
import Verif.Model.Params

/-!
# `models/_sgpr.py` and `models/_sgpr_rpchol.py`

`x_locs` (`jacobian_locs`) are the inducing points, `m` of them; `x` is the dataset. `cg(matvec, b)` without
preconditioner is `cg` with the identity.
-/

namespace GPX

variable {d k m n o v w : ℕ}

/-! ## Kernel matrices -/

/-- `_A_lhs`, models/_sgpr.py 39-61: `(C_mm, K_mn)`. -/
noncomputable def sgprALhs (θ : GPParams) (κ : KernelObj d) (x1 : Batch m d) (x2 : Batch n d) :
    Mat m m × Mat m n :=
  let Kmn : Mat m n := Matrix.of (κ.k θ.kernelParams x1 x2)
  let Cmm : Mat m m := Matrix.of (κ.k θ.kernelParams x1 x1)
  let Cmm := θ.sigma ^ 2 • Cmm + Kmn * Kmn.transpose + noiseJitter • (1 : Mat m m)
  (Cmm, Kmn)

/-- `_A_derivs_lhs`, models/_sgpr.py 64-93. -/
noncomputable def sgprADerivsLhs (θ : GPParams) (κ : KernelObj d) (x1 : Batch m d) (J1 : Jac m d v)
    (x2 : Batch n d) (J2 : Jac n d w) : Mat (m * v) (m * v) × Mat (m * v) (n * w) :=
  let Kmn : Mat (m * v) (n * w) := Matrix.of (κ.d01kj θ.kernelParams x1 x2 J1 J2)
  let Cmm : Mat (m * v) (m * v) := Matrix.of (κ.d01kj θ.kernelParams x1 x1 J1 J1)
  let Cmm := θ.sigma ^ 2 • Cmm + Kmn * Kmn.transpose + noiseJitter • (1 : Mat (m * v) (m * v))
  (Cmm, Kmn)

/-- `matvec_lhs` of `_Ax_lhs_fun`, models/_sgpr.py 96-142. `jax.vmap(f, out_axes=2)` stacks the `(1, 1)` results on
a last axis, and the `(1, 1, m)` array is reshaped to `(1, m)`. -/
noncomputable def sgprAxLhs (θ : GPParams) (κ : KernelObj d) (x1 : Batch m d) (x2 : Batch n d)
    (z : Mat m o) : Mat m o :=
  let rowFun : Sample d → Arr2 1 m := fun x1s =>
    let x1s : Batch 1 d := recoverFirstAxis x1s
    let kernelRow1 : Arr2 1 m := fun a b => κ.k θ.kernelParams x1s x1 a b * θ.sigma ^ 2
    let f : Sample d → Arr2 1 1 := fun x2s =>
      let x2s : Batch 1 d := recoverFirstAxis x2s
      let a : Mat 1 n := Matrix.of (κ.k θ.kernelParams x1s x2)
      let b : Mat n 1 := Matrix.of (κ.k θ.kernelParams x2 x2s)
      fun r c => (a * b) r c
    let stacked : Fin 1 → Fin 1 → Fin m → ℝ := fun r c i => f (x1 i) r c
    let kernelRow2 : Arr2 1 (1 * m) := reshapeCols stacked
    fun a b => kernelRow1 a b + kernelRow2 a (Fin.cast (one_mul m).symm b)
  dropOne (rowfunToMatvec rowFun x1 (some noiseJitter) z)

/-- `matvec_rhs` of `_Ax_lhs_fun`, models/_sgpr.py 128-142. -/
noncomputable def sgprAxRhs (θ : GPParams) (κ : KernelObj d) (x1 : Batch m d) (x2 : Batch n d)
    (z : Mat n o) : Mat m o :=
  let rowFun : Sample d → Arr2 1 n := fun x1s => κ.k θ.kernelParams (recoverFirstAxis x1s) x2
  dropOne (rowfunToMatvec rowFun x1 none z)

/-- A result of shape `(n * (1 * v), o)` read as `(n * v, o)`. -/
def dropMid (a : Mat (n * (1 * v)) o) : Mat (n * v) o :=
  a.submatrix (Fin.cast (congrArg (n * ·) (one_mul v).symm)) id

/-- `matvec_lhs` of `_Ax_derivs_lhs_fun`, models/_sgpr.py 145-201. `jax.vmap(f, out_axes=2)` gives an array of shape
`(nd, nd, m)`, which is reshaped to `(nd, nd * m)`: the sample is the fastest index of the columns. -/
noncomputable def sgprAxDerivsLhs (θ : GPParams) (κ : KernelObj d) (x1 : Batch m d) (J1 : Jac m d v)
    (x2 : Batch n d) (J2 : Jac n d w) (z : Mat (m * v) o) : Mat (m * v) o :=
  let rowFun : Sample d × (Fin d → Fin v → ℝ) → Arr2 (1 * v) (m * v) := fun xj =>
    let x1s : Batch 1 d := recoverFirstAxis xj.1
    let j1s : Jac 1 d v := recoverFirstAxis xj.2
    let kernelRow1 : Arr2 (1 * v) (m * v) := fun a b =>
      κ.d01kj θ.kernelParams x1s x1 j1s J1 a b * θ.sigma ^ 2
    let f : Sample d → (Fin d → Fin v → ℝ) → Arr2 (1 * v) (1 * v) := fun x2s j2s =>
      let a : Mat (1 * v) (n * w) := Matrix.of (κ.d01kj θ.kernelParams x1s x2 j1s J2)
      let b : Mat (n * w) (1 * v) :=
        Matrix.of (κ.d01kj θ.kernelParams x2 (recoverFirstAxis x2s) J2 (recoverFirstAxis j2s))
      fun r c => (a * b) r c
    let stacked : Fin (1 * v) → Fin (1 * v) → Fin m → ℝ := fun r c i => f (x1 i) (J1 i) r c
    let kernelRow2 : Arr2 (1 * v) ((1 * v) * m) := reshapeCols stacked
    fun a b => kernelRow1 a b + kernelRow2 a (Fin.cast (by rw [one_mul, Nat.mul_comm]) b)
  dropMid (rowfunToMatvec rowFun (fun i => (x1 i, J1 i)) (some noiseJitter) z)

/-- `matvec_rhs` of `_Ax_derivs_lhs_fun`, models/_sgpr.py 187-201. -/
noncomputable def sgprAxDerivsRhs (θ : GPParams) (κ : KernelObj d) (x1 : Batch m d) (J1 : Jac m d v)
    (x2 : Batch n d) (J2 : Jac n d w) (z : Mat (n * w) o) : Mat (m * v) o :=
  let rowFun : Sample d × (Fin d → Fin v → ℝ) → Arr2 (1 * v) (n * w) := fun xj =>
    κ.d01kj θ.kernelParams (recoverFirstAxis xj.1) x2 (recoverFirstAxis xj.2) J2
  dropMid (rowfunToMatvec rowFun (fun i => (x1 i, J1 i)) none z)

/-- `_Hx_fun`, models/_sgpr.py 204-239. -/
noncomputable def sgprHx (la : LinAlg) (θ : GPParams) (κ : KernelObj d) (x1 : Batch m d)
    (x2 : Batch n d) (z : Mat n o) : Mat n o :=
  let Kmm : Mat m m := Matrix.of (κ.k θ.kernelParams x1 x1) + noiseJitter • (1 : Mat m m)
  let KmmInv := la.inv Kmm
  let rowFun : Sample d → Arr2 1 n := fun x2s =>
    let kernelRow : Mat 1 m := Matrix.of (κ.k θ.kernelParams (recoverFirstAxis x2s) x1)
    let kernelRow := kernelRow * KmmInv
    let f : Sample d → Arr2 1 1 := fun x3s =>
      let b : Mat m 1 := Matrix.of (κ.k θ.kernelParams x1 (recoverFirstAxis x3s))
      fun r c => (kernelRow * b) r c
    let stacked : Fin 1 → Fin 1 → Fin n → ℝ := fun r c i => f (x2 i) r c
    let kernelRow : Arr2 1 (1 * n) := reshapeCols stacked
    fun a b => kernelRow a (Fin.cast (one_mul n).symm b)
  let jitterNoise := θ.sigma ^ 2 + noiseJitter
  dropOne (rowfunToMatvec rowFun x2 (some jitterNoise) z)

/-- `_Hx_derivs_fun`, models/_sgpr.py 242-288 (same reshape as in `_Ax_derivs_lhs_fun`; the number of derivative
components is taken from `jacobian1`, so both jacobians have `v`). -/
noncomputable def sgprHxDerivs (la : LinAlg) (θ : GPParams) (κ : KernelObj d) (x1 : Batch m d)
    (J1 : Jac m d v) (x2 : Batch n d) (J2 : Jac n d v) (z : Mat (n * v) o) : Mat (n * v) o :=
  let Kmm : Mat (m * v) (m * v) :=
    Matrix.of (κ.d01kj θ.kernelParams x1 x1 J1 J1) + noiseJitter • (1 : Mat (m * v) (m * v))
  let KmmInv := la.inv Kmm
  let rowFun : Sample d × (Fin d → Fin v → ℝ) → Arr2 (1 * v) (n * v) := fun xj =>
    let kernelRow : Mat (1 * v) (m * v) :=
      Matrix.of (κ.d01kj θ.kernelParams (recoverFirstAxis xj.1) x1 (recoverFirstAxis xj.2) J1)
    let kernelRow := kernelRow * KmmInv
    let f : Sample d → (Fin d → Fin v → ℝ) → Arr2 (1 * v) (1 * v) := fun x3s j3s =>
      let b : Mat (m * v) (1 * v) :=
        Matrix.of (κ.d01kj θ.kernelParams x1 (recoverFirstAxis x3s) J1 (recoverFirstAxis j3s))
      fun r c => (kernelRow * b) r c
    let stacked : Fin (1 * v) → Fin (1 * v) → Fin n → ℝ := fun r c i => f (x2 i) (J2 i) r c
    let kernelRow : Arr2 (1 * v) ((1 * v) * n) := reshapeCols stacked
    fun a b => kernelRow a (Fin.cast (by rw [one_mul, Nat.mul_comm]) b)
  let jitterNoise := θ.sigma ^ 2 + noiseJitter
  dropMid (rowfunToMatvec rowFun (fun i => (x2 i, J2 i)) (some jitterNoise) z)

/-! ## Fit -/

/-- `_fit_dense`, models/_sgpr.py 319-339. -/
noncomputable def sgprFitDense (la : LinAlg) (θ : GPParams) (κ : KernelObj d) (mf : MeanFun)
    (xLocs : Batch m d) (x : Batch n d) (y : Mat n o) : Mat m o × ℝ :=
  let mu := mf y
  let y := centerBy y mu
  let CK := sgprALhs θ κ xLocs x
  (la.solve CK.1 (CK.2 * y), mu)

/-- `_fit_iter`, models/_sgpr.py 342-362. -/
noncomputable def sgprFitIter (cg : CG) (θ : GPParams) (κ : KernelObj d) (mf : MeanFun)
    (xLocs : Batch m d) (x : Batch n d) (y : Mat n o) : Mat m o × ℝ :=
  let mu := mf y
  let y := centerBy y mu
  (cg (sgprAxLhs θ κ xLocs x) (sgprAxRhs θ κ xLocs x y) id, mu)

/-- `_fit_derivs_dense`, models/_sgpr.py 365-395. -/
noncomputable def sgprFitDerivsDense (la : LinAlg) (θ : GPParams) (κ : KernelObj d) (mf : MeanFun)
    (xLocs : Batch m d) (JLocs : Jac m d v) (x : Batch n d) (J : Jac n d w) (y : Mat n w) :
    Mat (m * v) 1 × ℝ :=
  let y := flatCol y
  let mu := mf y
  let y := centerBy y mu
  let CK := sgprADerivsLhs θ κ xLocs JLocs x J
  (la.solve CK.1 (CK.2 * y), mu)

/-- `_fit_derivs_iter`, models/_sgpr.py 398-428. -/
noncomputable def sgprFitDerivsIter (cg : CG) (θ : GPParams) (κ : KernelObj d) (mf : MeanFun)
    (xLocs : Batch m d) (JLocs : Jac m d v) (x : Batch n d) (J : Jac n d w) (y : Mat n w) :
    Mat (m * v) 1 × ℝ :=
  let y := flatCol y
  let mu := mf y
  let y := centerBy y mu
  (cg (sgprAxDerivsLhs θ κ xLocs JLocs x J) (sgprAxDerivsRhs θ κ xLocs JLocs x J y) id, mu)

/-! ## Predict -/

/-- The mean of `_predict_dense`, models/_sgpr.py 451-452. -/
noncomputable def sgprPredict (θ : GPParams) (κ : KernelObj d) (xLocs : Batch m d) (x : Batch n d)
    (c : Mat m o) (mu : ℝ) : Mat n o :=
  let Knm : Mat n m := Matrix.of (κ.k θ.kernelParams x xLocs)
  addScalar mu (Knm * c)

/-- The covariance of `_predict_dense(…, full_covariance=True)`, models/_sgpr.py 454-465. It is given the points of
the prediction and the inducing points, not the training points. -/
noncomputable def sgprPredictCov (la : LinAlg) (θ : GPParams) (κ : KernelObj d) (xLocs : Batch m d)
    (x : Batch n d) : Mat n n :=
  let CK := sgprALhs θ κ xLocs x
  let Kmm : Mat m m := Matrix.of (κ.k θ.kernelParams xLocs xLocs) + noiseJitter • (1 : Mat m m)
  let Lm := la.cholesky Kmm
  let Gmn := la.solveLower Lm CK.2
  let Lm := la.cholesky CK.1
  let Hmn := la.solveLower Lm CK.2
  let Cnn : Mat n n := Matrix.of (κ.k θ.kernelParams x x)
  Cnn - Gmn.transpose * Gmn + θ.sigma ^ 2 • (Hmn.transpose * Hmn)

/-- `_predict_iter`, models/_sgpr.py 529-547. -/
noncomputable def sgprPredictIter (θ : GPParams) (κ : KernelObj d) (xLocs : Batch m d) (x : Batch n d)
    (c : Mat m o) (mu : ℝ) : Mat n o :=
  addScalar mu (sgprAxRhs θ κ x xLocs c)

/-- The mean of `_predict_derivs_dense` without `jaccoef`, models/_sgpr.py 501-503. -/
noncomputable def sgprPredictDerivs (θ : GPParams) (κ : KernelObj d) (xLocs : Batch m d) (JLocs : Jac m d w)
    (x : Batch n d) (J : Jac n d v) (c : Mat (m * w) 1) (mu : ℝ) : Mat n v :=
  let Knm : Mat (n * v) (m * w) := Matrix.of (κ.d01kj θ.kernelParams x xLocs J JLocs)
  unflatCol (addScalar mu (Knm * c))

/-- `_predict_derivs_dense` with `jaccoef`, models/_sgpr.py 494-499. -/
def sgprPredictDerivsCoef (θ : GPParams) (κ : KernelObj d) (xLocs : Batch m d) (x : Batch n d)
    (J : Jac n d v) (mu : ℝ) (jaccoef : Batch m d) : Mat n v :=
  unflatCol (Matrix.of fun r _ => mu + ∑ i, κ.d01kjc θ.kernelParams xLocs x jaccoef J i r)

/-- `_predict_derivs_iter`, models/_sgpr.py 550-577. -/
noncomputable def sgprPredictDerivsIter (θ : GPParams) (κ : KernelObj d) (xLocs : Batch m d)
    (JLocs : Jac m d w) (x : Batch n d) (J : Jac n d v) (c : Mat (m * w) 1) (mu : ℝ) : Mat n v :=
  unflatCol (addScalar mu (sgprAxDerivsRhs θ κ x J xLocs JLocs c))

/-- `A + value * jnp.eye(k)` for an `(N, N)` array: the shapes must agree or broadcast. With `k = 1` the value is
added to every entry; with `N = 1` the result would have shape `(k, k)`, which is not modelled (it does not occur:
`N` is a multiple of `k`, and `k = 0` means `N = 0`). Otherwise JAX raises `TypeError`. -/
noncomputable def addEye {N : ℕ} (A : Mat N N) (value : ℝ) (k : ℕ) : Except Err (Mat N N) :=
  if k = N then .ok (A + value • (1 : Mat N N))
  else if k = 1 then .ok (A + value • Matrix.of fun _ _ => 1)
  else .error .typeError

/-- The covariance of `_predict_derivs_dense(…, full_covariance=True)`, models/_sgpr.py 505-524: the jitter of `K_mm`
is `1e-10 * jnp.eye(m)` with `m` the number of inducing points. -/
noncomputable def sgprPredictDerivsCov (la : LinAlg) (θ : GPParams) (κ : KernelObj d) (xLocs : Batch m d)
    (JLocs : Jac m d w) (x : Batch n d) (J : Jac n d v) : Except Err (Mat (n * v) (n * v)) := do
  let CK := sgprADerivsLhs θ κ xLocs JLocs x J
  let Kmm ← addEye (Matrix.of (κ.d01kj θ.kernelParams xLocs xLocs JLocs JLocs)) noiseJitter m
  let Lm := la.cholesky Kmm
  let Gmn := la.solveLower Lm CK.2
  let Lm := la.cholesky CK.1
  let Hmn := la.solveLower Lm CK.2
  let Cnn : Mat (n * v) (n * v) := Matrix.of (κ.d01kj θ.kernelParams x x J J)
  pure (Cnn - Gmn.transpose * Gmn + θ.sigma ^ 2 • (Hmn.transpose * Hmn))

/-- The mean of `_predict_y_derivs_dense` without `jaccoef`, models/_sgpr.py 607-609. -/
noncomputable def sgprPredictYDerivs (θ : GPParams) (κ : KernelObj d) (xLocs : Batch m d) (JLocs : Jac m d w)
    (x : Batch n d) (c : Mat (m * w) 1) (mu : ℝ) : Mat n 1 :=
  let Kmn : Mat (m * w) n := Matrix.of (κ.d0kj θ.kernelParams xLocs x JLocs)
  addScalar mu (Kmn.transpose * c)

/-- `_predict_y_derivs_dense` with `jaccoef`, models/_sgpr.py 602-605 (`c.shape[1]` is 1). -/
def sgprPredictYDerivsCoef (θ : GPParams) (κ : KernelObj d) (xLocs : Batch m d) (x : Batch n d)
    (mu : ℝ) (jaccoef : Batch m d) : Mat n 1 :=
  Matrix.of fun j _ => mu + ∑ i, κ.d0kjc θ.kernelParams xLocs x jaccoef i j

/-- The covariance of `_predict_y_derivs_dense(…, full_covariance=True)`, models/_sgpr.py 611-622: the noise is
`sigma² * jnp.eye(m)` with `m` the number of inducing points. -/
noncomputable def sgprPredictYDerivsCov (la : LinAlg) (θ : GPParams) (κ : KernelObj d) (xLocs : Batch m d)
    (JLocs : Jac m d w) (x : Batch n d) : Except Err (Mat n n) := do
  let Kmn : Mat (m * w) n := Matrix.of (κ.d0kj θ.kernelParams xLocs x JLocs)
  let Cmm ← addEye (Matrix.of (κ.d01kj θ.kernelParams xLocs xLocs JLocs JLocs)) (θ.sigma ^ 2) m
  let Lm := la.cholesky Cmm
  let Gmn := la.solveLower Lm Kmn
  let Cnn : Mat n n := Matrix.of (κ.k θ.kernelParams x x)
  pure (Cnn - Gmn.transpose * Gmn)

/-- `_predict_y_derivs_iter`, models/_sgpr.py 627-653 (`_Kx_derivs1_fun` is the one of `_gpr.py`). -/
noncomputable def sgprPredictYDerivsIter (θ : GPParams) (κ : KernelObj d) (xLocs : Batch m d)
    (JLocs : Jac m d w) (x : Batch n d) (c : Mat (m * w) 1) (mu : ℝ) : Mat n 1 :=
  addScalar mu (kxDerivs1Fun θ κ x xLocs JLocs c)

/-- `_predict_y_derivs_dense` of SGPR with its two possible results, models/_sgpr.py 580-624: mean, or mean and
covariance. -/
noncomputable def sgprPredictYDerivsDense (la : LinAlg) (θ : GPParams) (κ : KernelObj d) (xLocs : Batch m d)
    (JLocs : Jac m d w) (x : Batch n d) (c : Mat (m * w) 1) (mu : ℝ) (fullCovariance : Bool := false)
    (jaccoef : Option (Batch m d) := none) : Except Err (Mat n 1 × Option (Mat n n)) :=
  match jaccoef with
  | some jc => .ok (sgprPredictYDerivsCoef θ κ xLocs x mu jc, none)
  | none =>
    let mean := sgprPredictYDerivs θ κ xLocs JLocs x c mu
    if fullCovariance then
      match sgprPredictYDerivsCov la θ κ xLocs JLocs x with
      | .error e => .error e
      | .ok C => .ok (mean, some C)
    else .ok (mean, none)

/-- `_predict_y_derivs_dense` of SGPR_RPChol, models/_sgpr_rpchol.py 387-408: it accepts `full_covariance` and calls
the function of `_sgpr.py` without it. -/
noncomputable def rpcPredictYDerivsDense (la : LinAlg) (θ : GPParams) (κ : KernelObj d) (xLocs : Batch m d)
    (JLocs : Jac m d w) (x : Batch n d) (c : Mat (m * w) 1) (mu : ℝ) (_fullCovariance : Bool := false)
    (jaccoef : Option (Batch m d) := none) : Except Err (Mat n 1 × Option (Mat n n)) :=
  sgprPredictYDerivsDense la θ κ xLocs JLocs x c mu (jaccoef := jaccoef)

/-! ## Losses -/

/-- `_lml_dense`, models/_sgpr.py 659-697. -/
noncomputable def sgprLmlDense (la : LinAlg) (θ : GPParams) (κ : KernelObj d) (mf : MeanFun)
    (xLocs : Batch m d) (x : Batch n d) (y : Mat n o) : ℝ :=
  let mu := mf y
  let y := centerBy y mu
  let Kmm : Mat m m := Matrix.of (κ.k θ.kernelParams xLocs xLocs)
  let Kmn : Mat m n := Matrix.of (κ.k θ.kernelParams xLocs x)
  let Lm := la.cholesky (Kmm + noiseJitter • (1 : Mat m m))
  let Gmn := la.solveLower Lm Kmn
  let Cnn := Gmn.transpose * Gmn + θ.sigma ^ 2 • (1 : Mat n n) + noiseJitter • (1 : Mat n n)
  lmlTail la Cnn y

/-- `_lml_iter`, models/_sgpr.py 700-737. -/
noncomputable def sgprLmlIter (la : LinAlg) (cg : CG) (logdetFun : (Mat n 1 → Mat n 1) → ℝ) (θ : GPParams)
    (κ : KernelObj d) (mf : MeanFun) (xLocs : Batch m d) (x : Batch n d) (y : Mat n o) : ℝ :=
  let mu := mf y
  let y := centerBy y mu
  lmlIterTail (logdetFun (sgprHx la θ κ xLocs x)) y (cg (sgprHx la θ κ xLocs x) y id)

/-- `_lml_derivs_dense`, models/_sgpr.py 740-784. `y` is used as given, with `r = y.shape[0]` rows; the identity
matrices have sizes `m` and `r`, `K_mm` has size `m * v` and `K_nm K_mn` has size `n * v`. The last triangular solve
needs `r = n * v` rows. -/
noncomputable def sgprLmlDerivsDense (la : LinAlg) (θ : GPParams) (κ : KernelObj d) (mf : MeanFun)
    (xLocs : Batch m d) (JLocs : Jac m d v) (x : Batch n d) (J : Jac n d v) {r : ℕ} (y : Mat r o) :
    Except Err ℝ := do
  let mu := mf y
  let y := centerBy y mu
  let Kmm : Mat (m * v) (m * v) := Matrix.of (κ.d01kj θ.kernelParams xLocs xLocs JLocs JLocs)
  let Kmn : Mat (m * v) (n * v) := Matrix.of (κ.d01kj θ.kernelParams xLocs x JLocs J)
  let Kmm' ← addEye Kmm noiseJitter m
  let Lm := la.cholesky Kmm'
  let Gmn := la.solveLower Lm Kmn
  let Cnn ← addEye (Gmn.transpose * Gmn) (θ.sigma ^ 2) r
  let Cnn ← addEye Cnn noiseJitter r
  if h : r = n * v then pure (lmlTail la Cnn (h ▸ y : Mat (n * v) o)) else .error .typeError

/-- `_lml_derivs_iter`, models/_sgpr.py 787-830. -/
noncomputable def sgprLmlDerivsIter (la : LinAlg) (cg : CG)
    (logdetFun : (Mat (n * v) 1 → Mat (n * v) 1) → ℝ) (θ : GPParams) (κ : KernelObj d) (mf : MeanFun)
    (xLocs : Batch m d) (JLocs : Jac m d v) (x : Batch n d) (J : Jac n d v) (y : Mat n v) : ℝ :=
  let y := flatCol y
  let mu := mf y
  let y := centerBy y mu
  let matvec : Mat (n * v) 1 → Mat (n * v) 1 := sgprHxDerivs la θ κ xLocs JLocs x J
  lmlIterTail (logdetFun matvec) y (cg matvec y id)

/-! ## SGPR_RPChol: inducing points chosen by randomly pivoted Cholesky -/

/-- `x[pivots]`, models/_sgpr_rpchol.py 57 (out of range indices are clamped). -/
def takeRows {B : Type} [Zero B] (x : Fin n → B) (pivots : Fin k → ℕ) : Fin k → B := fun i => rowAt 0 x (pivots i)

/-- `_fit_dense`, models/_sgpr_rpchol.py 36-67: `(c, mu, x_locs)`. -/
noncomputable def rpcFitDense (la : LinAlg) {Key : Type} (split : Key → Key × Key)
    (choice : Key → (Fin n → ℝ) → Fin n) (θ : GPParams) (κ : KernelObj d) (mf : MeanFun)
    (x : Batch n d) (y : Mat n o) (key : Key) (nLocs : ℕ) :
    Except RpcErr (Mat nLocs o × ℝ × Batch nLocs d) :=
  match rpcholesky split choice key x nLocs κ θ.kernelParams with
  | .error e => .error e
  | .ok (_, pivots) =>
    let xLocs : Batch nLocs d := takeRows x pivots
    let r := sgprFitDense la θ κ mf xLocs x y
    .ok (r.1, r.2, xLocs)

/-- `_fit_iter`, models/_sgpr_rpchol.py 70-97. -/
noncomputable def rpcFitIter (cg : CG) {Key : Type} (split : Key → Key × Key)
    (choice : Key → (Fin n → ℝ) → Fin n) (θ : GPParams) (κ : KernelObj d) (mf : MeanFun)
    (x : Batch n d) (y : Mat n o) (key : Key) (nLocs : ℕ) :
    Except RpcErr (Mat nLocs o × ℝ × Batch nLocs d) :=
  match rpcholesky split choice key x nLocs κ θ.kernelParams with
  | .error e => .error e
  | .ok (_, pivots) =>
    let xLocs : Batch nLocs d := takeRows x pivots
    let r := sgprFitIter cg θ κ mf xLocs x y
    .ok (r.1, r.2, xLocs)

/-- `_lml_dense`, models/_sgpr_rpchol.py 182-215. -/
noncomputable def rpcLmlDense (la : LinAlg) {Key : Type} (split : Key → Key × Key)
    (choice : Key → (Fin n → ℝ) → Fin n) (θ : GPParams) (κ : KernelObj d) (mf : MeanFun)
    (x : Batch n d) (y : Mat n o) (key : Key) (nLocs : ℕ) : Except RpcErr ℝ :=
  match rpcholesky split choice key x nLocs κ θ.kernelParams with
  | .error e => .error e
  | .ok (_, pivots) => .ok (sgprLmlDense la θ κ mf (takeRows x pivots : Batch nLocs d) x y)

end GPX
