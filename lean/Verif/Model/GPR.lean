import Verif.Model.Params
import Verif.Model.Approximations
import Mathlib.Analysis.SpecialFunctions.Log.Basic

/-!
# `models/_gpr.py` and `mean_functions.py`

Targets `y` have shape `(n, o)`; derivative targets have shape `(n, n_variables)` and are flattened by
`y.reshape(-1, 1)`. A mean function returns a scalar. `jit` does not change values and is not modelled.
-/

namespace GPX

variable {d m n o v w : ℕ}

/-! ## mean_functions.py -/

/-- A mean function: a scalar for targets of any shape. -/
abbrev MeanFun := ∀ {n o : ℕ}, Mat n o → ℝ

/-- `zero_mean`, mean_functions.py 25-26. -/
def zeroMean : MeanFun := fun _ => 0

/-- `data_mean`, mean_functions.py 29-30: the mean over all entries. (The mean of an empty array is NaN
in the code and `0` here.) -/
noncomputable def dataMean : MeanFun := fun {n o} y => (∑ i, ∑ c, y i c) / (n * o)

/-- `params["kernel_params"]` and `params["sigma"].value`. -/
structure GPParams where
  kernelParams : KPar
  sigma : ℝ

/-- The literal `1e-10` of `_gpr.py`. -/
noncomputable def noiseJitter : ℝ := 1 / 10 ^ 10

/-- `sigma**2 + 1e-10`. -/
noncomputable def GPParams.noise (θ : GPParams) : ℝ := θ.sigma ^ 2 + noiseJitter

/-! ## Kernel matrices -/

/-- `_A_lhs(…, noise=False)`, models/_gpr.py 40-63. -/
def aLhs (θ : GPParams) (κ : KernelObj d) (x1 : Batch m d) (x2 : Batch n d) : Mat m n :=
  Matrix.of (κ.k θ.kernelParams x1 x2)

/-- `_A_lhs(…, noise=True)`, models/_gpr.py 40-63 (both datasets have the same length, otherwise the sum is
a shape error). -/
noncomputable def aLhsNoise (θ : GPParams) (κ : KernelObj d) (x1 x2 : Batch m d) : Mat m m :=
  aLhs θ κ x1 x2 + θ.noise • (1 : Mat m m)

/-- `_A_derivs_lhs(…, noise=False)`, models/_gpr.py 67-91. -/
def aDerivsLhs (θ : GPParams) (κ : KernelObj d) (x1 : Batch m d) (J1 : Jac m d v) (x2 : Batch n d)
    (J2 : Jac n d w) : Mat (m * v) (n * w) :=
  Matrix.of (κ.d01kj θ.kernelParams x1 x2 J1 J2)

/-- `_A_derivs_lhs(…, noise=True)`, models/_gpr.py 67-91. -/
noncomputable def aDerivsLhsNoise (θ : GPParams) (κ : KernelObj d) (x1 : Batch m d) (J1 : Jac m d v)
    (x2 : Batch m d) (J2 : Jac m d v) : Mat (m * v) (m * v) :=
  aDerivsLhs θ κ x1 J1 x2 J2 + θ.noise • (1 : Mat (m * v) (m * v))

/-- A result of shape `(n * 1, o)` read as `(n, o)` (the number of rows is the same). -/
def dropOne (a : Mat (n * 1) o) : Mat n o := a.submatrix (Fin.cast (mul_one n).symm) id

/-- `_Ax_lhs_fun`, models/_gpr.py 94-119; `noise` chooses `update_diag`. -/
noncomputable def axLhsFun (θ : GPParams) (κ : KernelObj d) (noise : Bool) (x1 : Batch m d)
    (x2 : Batch n d) (z : Mat n o) : Mat m o :=
  let rowFun : Sample d → Arr2 1 n := fun x1s => κ.k θ.kernelParams (recoverFirstAxis x1s) x2
  let jitterNoise := θ.sigma ^ 2 + noiseJitter
  dropOne (rowfunToMatvec rowFun x1 (if noise then some jitterNoise else none) z)

/-- `_Ax_derivs_lhs_fun`, models/_gpr.py 122-152. -/
noncomputable def axDerivsLhsFun (θ : GPParams) (κ : KernelObj d) (noise : Bool) (x1 : Batch m d)
    (J1 : Jac m d v) (x2 : Batch n d) (J2 : Jac n d w) (z : Mat (n * w) o) : Mat (m * v) o :=
  let rowFun : Sample d × (Fin d → Fin v → ℝ) → Arr2 (1 * v) (n * w) := fun xj =>
    κ.d01kj θ.kernelParams (recoverFirstAxis xj.1) x2 (recoverFirstAxis xj.2) J2
  let jitterNoise := θ.sigma ^ 2 + noiseJitter
  (rowfunToMatvec rowFun (fun i => (x1 i, J1 i)) (if noise then some jitterNoise else none) z).submatrix
    (Fin.cast (congrArg (m * ·) (one_mul v).symm)) id

/-- `_Kx_derivs1_fun`, models/_gpr.py 155-177. `init_val=(x1)` is the array itself; `row_fun(*xs)` unpacks the
axis added by `recover_first_axis` and `expand_dims` adds it back. -/
def kxDerivs1Fun (θ : GPParams) (κ : KernelObj d) (x1 : Batch m d) (x2 : Batch n d) (J2 : Jac n d w)
    (z : Mat (n * w) o) : Mat m o :=
  let rowFun : Sample d → Arr2 1 (n * w) := fun x1s =>
    κ.d1kj θ.kernelParams (recoverFirstAxis x1s) x2 J2
  dropOne (rowfunToMatvec rowFun x1 none z)

/-! ## Preconditioner -/

/-- `P_kk` and `matvec` of `_precond_rpcholesky` and `_precond_rpcholesky_derivs`, models/_gpr.py 203-216 and
243-256, for a factor `fmat`. `sigma ** (-2)` is `(sigma²)⁻¹`. -/
noncomputable def precondMatvec (la : LinAlg) (sigma : ℝ) {r : ℕ} (fmat : Mat n r) (z : Mat n o) :
    Mat n o :=
  let Pkk := la.inv (sigma ^ 2 • (1 : Mat r r) + fmat.transpose * fmat)
  let res := fmat.transpose * z
  let res := Pkk * res
  let res := (-(sigma ^ 2)⁻¹) • (fmat * res)
  res + (sigma ^ 2)⁻¹ • z

/-- `_precond_rpcholesky`, models/_gpr.py 180-216. -/
noncomputable def precondRpcholesky (la : LinAlg) {Key : Type} (split : Key → Key × Key)
    (choice : Key → (Fin n → ℝ) → Fin n) (θ : GPParams) (κ : KernelObj d) (x1 : Batch n d)
    (nPivots : ℕ) (key : Key) : Except RpcErr (Mat n o → Mat n o) :=
  match rpcholesky split choice key x1 nPivots κ θ.kernelParams with
  | .error e => .error e
  | .ok (fmat, _) => .ok (precondMatvec la θ.sigma fmat)

/-- `_precond_rpcholesky_derivs`, models/_gpr.py 219-256. -/
noncomputable def precondRpcholeskyDerivs (la : LinAlg) {Key : Type} (split : Key → Key × Key)
    (choice : Key → (Fin (n * v) → ℝ) → Fin (n * v)) (θ : GPParams) (κ : KernelObj d)
    (x1 : Batch n d) (J1 : Jac n d v) (nPivots : ℕ) (key : Key) (z : Mat (n * v) o) :
    Mat (n * v) o :=
  precondMatvec la θ.sigma (rpcholeskyDerivs split choice key x1 J1 nPivots κ θ.kernelParams).1 z

/-! ## Fit -/

/-- `y - mu`. -/
def centerBy (y : Mat n o) (mu : ℝ) : Mat n o := Matrix.of fun i c => y i c - mu

/-- `mu + a`. -/
def addScalar (mu : ℝ) (a : Mat n o) : Mat n o := Matrix.of fun i c => mu + a i c

/-- `y.reshape(-1, 1)`. -/
def flatCol (y : Mat n v) : Mat (n * v) 1 := Matrix.of fun r _ => y r.divNat r.modNat

/-- `a.reshape(ns, nd)` of an array with `ns * nd` entries. -/
def unflatCol (a : Mat (n * v) 1) : Mat n v := Matrix.of fun i u => a (finProdFinEquiv (i, u)) 0

/-- `_fit_dense`, models/_gpr.py 263-282: `(c, mu)`. -/
noncomputable def fitDense (la : LinAlg) (θ : GPParams) (κ : KernelObj d) (mf : MeanFun)
    (x : Batch n d) (y : Mat n o) : Mat n o × ℝ :=
  let mu := mf y
  let y := centerBy y mu
  let C := aLhsNoise θ κ x x
  (la.solve C y, mu)

/-- `jax.scipy.sparse.linalg.cg(matvec, b, M=precond, atol=1e-7)`: external, an arbitrary function. -/
abbrev CG := ∀ {n o : ℕ}, (Mat n o → Mat n o) → Mat n o → (Mat n o → Mat n o) → Mat n o

/-- `_fit_iter`, models/_gpr.py 286-310. -/
noncomputable def fitIter (la : LinAlg) (cg : CG) {Key : Type} (split : Key → Key × Key)
    (choice : Key → (Fin n → ℝ) → Fin n) (θ : GPParams) (κ : KernelObj d) (mf : MeanFun)
    (x : Batch n d) (y : Mat n o) (nPivots : ℕ) (key : Key) : Except RpcErr (Mat n o × ℝ) :=
  let mu := mf y
  let y := centerBy y mu
  let matvec : Mat n o → Mat n o := axLhsFun θ κ true x x
  match precondRpcholesky la split choice θ κ x nPivots key with
  | .error e => .error e
  | .ok precond => .ok (cg matvec y precond, mu)

/-- `_fit_derivs_dense`, models/_gpr.py 314-344. -/
noncomputable def fitDerivsDense (la : LinAlg) (θ : GPParams) (κ : KernelObj d) (mf : MeanFun)
    (x : Batch n d) (J : Jac n d v) (y : Mat n v) : Mat (n * v) 1 × ℝ :=
  let y := flatCol y
  let mu := mf y
  let y := centerBy y mu
  let C := aDerivsLhsNoise θ κ x J x J
  (la.solve C y, mu)

/-- `_fit_derivs_iter`, models/_gpr.py 348-390. -/
noncomputable def fitDerivsIter (la : LinAlg) (cg : CG) {Key : Type} (split : Key → Key × Key)
    (choice : Key → (Fin (n * v) → ℝ) → Fin (n * v)) (θ : GPParams) (κ : KernelObj d)
    (mf : MeanFun) (x : Batch n d) (J : Jac n d v) (y : Mat n v) (nPivots : ℕ) (key : Key) :
    Mat (n * v) 1 × ℝ :=
  let y := flatCol y
  let mu := mf y
  let y := centerBy y mu
  let matvec : Mat (n * v) 1 → Mat (n * v) 1 := axDerivsLhsFun θ κ true x J x J
  let precond := precondRpcholeskyDerivs la split choice θ κ x J nPivots key
  (cg matvec y precond, mu)

/-- `jnp.concatenate((a, b))` of two matrices with the same number of columns. -/
def vcat {a b : ℕ} (A : Mat a o) (B : Mat b o) : Mat (a + b) o :=
  Matrix.of fun i c => Fin.addCases (A · c) (B · c) i

/-- `_fit_ol`, models/_gpr.py 394-428. -/
noncomputable def fitOl (la : LinAlg) (θ : GPParams) (κ : KernelObj d) (mf : MeanFun)
    (x : Batch n d) (y : Mat n 1) (yDerivs : Mat n v) (J : Jac n d v) : Mat n 1 × ℝ :=
  let mu := mf y
  let y := centerBy y mu
  let yTilde := vcat y (flatCol yDerivs)
  let Ctilde := vcat (aLhsNoise θ κ x x) (Matrix.of (κ.d0kj θ.kernelParams x x J))
  let U := (la.svd Ctilde).1
  let s := (la.svd Ctilde).2.1
  let Vt := (la.svd Ctilde).2.2
  let Aeff := Matrix.diagonal s * Vt
  let beff := U.transpose * yTilde
  (la.solve Aeff beff, mu)

/-! ## Predict -/

/-- The mean of `_predict_dense`, models/_gpr.py 453-454, 463. -/
noncomputable def predictDense (θ : GPParams) (κ : KernelObj d) (xTrain : Batch m d) (x : Batch n d)
    (c : Mat m o) (mu : ℝ) : Mat n o :=
  let Kmn := aLhs θ κ xTrain x
  addScalar mu (Kmn.transpose * c)

/-- The covariance of `_predict_dense(…, full_covariance=True)`, models/_gpr.py 453, 456-461. -/
noncomputable def predictDenseCov (la : LinAlg) (θ : GPParams) (κ : KernelObj d) (xTrain : Batch m d)
    (x : Batch n d) : Mat n n :=
  let Kmn := aLhs θ κ xTrain x
  let Cmm := aLhsNoise θ κ xTrain xTrain
  let Lm := la.cholesky Cmm
  let Gmn := la.solveLower Lm Kmn
  let Cnn := aLhs θ κ x x
  Cnn - Gmn.transpose * Gmn

/-- `_predict_iter`, models/_gpr.py 467-485. -/
noncomputable def predictIter (θ : GPParams) (κ : KernelObj d) (xTrain : Batch m d) (x : Batch n d)
    (c : Mat m o) (mu : ℝ) : Mat n o :=
  addScalar mu (axLhsFun θ κ false x xTrain c)

/-- `_predict_derivs_dense` with `jaccoef`, models/_gpr.py 514-529: the `(m, n * v)` array is summed over the
training samples and reshaped to `(n, v)`. -/
def predictDerivsCoef (θ : GPParams) (κ : KernelObj d) (xTrain : Batch m d) (x : Batch n d)
    (J : Jac n d v) (mu : ℝ) (jaccoef : Batch m d) : Mat n v :=
  unflatCol (Matrix.of fun r _ => mu + ∑ i, κ.d01kjc θ.kernelParams xTrain x jaccoef J i r)

/-- The mean of `_predict_derivs_dense` without `jaccoef`, before the final reshape, models/_gpr.py 531-540.
With `full_covariance=True` this flat array is what is returned. -/
noncomputable def predictDerivsFlat (θ : GPParams) (κ : KernelObj d) (xTrain : Batch m d)
    (JTrain : Jac m d w) (x : Batch n d) (J : Jac n d v) (c : Mat (m * w) 1) (mu : ℝ) :
    Mat (n * v) 1 :=
  let Kmn := aDerivsLhs θ κ xTrain JTrain x J
  addScalar mu (Kmn.transpose * c)

/-- `_predict_derivs_dense` without `jaccoef` and without covariance, models/_gpr.py 489-567. -/
noncomputable def predictDerivsDense (θ : GPParams) (κ : KernelObj d) (xTrain : Batch m d)
    (JTrain : Jac m d w) (x : Batch n d) (J : Jac n d v) (c : Mat (m * w) 1) (mu : ℝ) : Mat n v :=
  unflatCol (predictDerivsFlat θ κ xTrain JTrain x J c mu)

/-- The covariance of `_predict_derivs_dense(…, full_covariance=True)`, models/_gpr.py 542-563. -/
noncomputable def predictDerivsDenseCov (la : LinAlg) (θ : GPParams) (κ : KernelObj d)
    (xTrain : Batch m d) (JTrain : Jac m d w) (x : Batch n d) (J : Jac n d v) :
    Mat (n * v) (n * v) :=
  let Kmn := aDerivsLhs θ κ xTrain JTrain x J
  let Cmm := aDerivsLhsNoise θ κ xTrain JTrain xTrain JTrain
  let Lm := la.cholesky Cmm
  let Gmn := la.solveLower Lm Kmn
  let Cnn := aDerivsLhs θ κ x J x J
  Cnn - Gmn.transpose * Gmn

/-- `_predict_derivs_iter`, models/_gpr.py 571-604. -/
noncomputable def predictDerivsIter (θ : GPParams) (κ : KernelObj d) (xTrain : Batch m d)
    (JTrain : Jac m d w) (x : Batch n d) (J : Jac n d v) (c : Mat (m * w) 1) (mu : ℝ) : Mat n v :=
  unflatCol (addScalar mu (axDerivsLhsFun θ κ false x J xTrain JTrain c))

/-- `_predict_y_derivs_dense` with `jaccoef`, models/_gpr.py 631-639 (`o = c.shape[1]` is 1). -/
def predictYDerivsCoef (θ : GPParams) (κ : KernelObj d) (xTrain : Batch m d) (x : Batch n d)
    (mu : ℝ) (jaccoef : Batch m d) : Mat n 1 :=
  Matrix.of fun j _ => mu + ∑ i, κ.d0kjc θ.kernelParams xTrain x jaccoef i j

/-- The mean of `_predict_y_derivs_dense` without `jaccoef`, models/_gpr.py 641-643, 658. -/
noncomputable def predictYDerivsDense (θ : GPParams) (κ : KernelObj d) (xTrain : Batch m d)
    (JTrain : Jac m d w) (x : Batch n d) (c : Mat (m * w) 1) (mu : ℝ) : Mat n 1 :=
  let Kmn : Mat (m * w) n := Matrix.of (κ.d0kj θ.kernelParams xTrain x JTrain)
  addScalar mu (Kmn.transpose * c)

/-- The covariance of `_predict_y_derivs_dense(…, full_covariance=True)`, models/_gpr.py 645-656: the noise is
`sigma²` without the jitter used by the fit. -/
noncomputable def predictYDerivsDenseCov (la : LinAlg) (θ : GPParams) (κ : KernelObj d)
    (xTrain : Batch m d) (JTrain : Jac m d w) (x : Batch n d) : Mat n n :=
  let Kmn : Mat (m * w) n := Matrix.of (κ.d0kj θ.kernelParams xTrain x JTrain)
  let Cmm : Mat (m * w) (m * w) := Matrix.of (κ.d01kj θ.kernelParams xTrain xTrain JTrain JTrain)
  let Cmm := Cmm + θ.sigma ^ 2 • (1 : Mat (m * w) (m * w))
  let Lm := la.cholesky Cmm
  let Gmn := la.solveLower Lm Kmn
  let Cnn : Mat n n := Matrix.of (κ.k θ.kernelParams x x)
  Cnn - Gmn.transpose * Gmn

/-- `_predict_y_derivs_iter`, models/_gpr.py 662-689. -/
noncomputable def predictYDerivsIter (θ : GPParams) (κ : KernelObj d) (xTrain : Batch m d)
    (JTrain : Jac m d w) (x : Batch n d) (c : Mat (m * w) 1) (mu : ℝ) : Mat n 1 :=
  addScalar mu (kxDerivs1Fun θ κ x xTrain JTrain c)

/-- `_predict_ol(…, full_covariance=False)`, models/_gpr.py 693-731: mean and (flat) derivatives. -/
noncomputable def predictOl (θ : GPParams) (κ : KernelObj d) (xTrain : Batch m d) (x : Batch n d)
    (J : Jac n d v) (c : Mat m 1) (mu : ℝ) : Mat n 1 × Mat (n * v) 1 :=
  let Kmn := aLhs θ κ xTrain x
  let dKmn : Mat m (n * v) := Matrix.of (κ.d1kj θ.kernelParams xTrain x J)
  (Matrix.of fun j _ => mu + (c.transpose * Kmn) 0 j, Matrix.of fun r _ => (c.transpose * dKmn) 0 r)

/-- `C_nn - P` for `C_nn` of shape `(n, n)` and `P` of shape `(N, N)` with `n * v = N`, as numpy broadcasting does
it: equal shapes, or `C_nn` of shape `(1, 1)` is repeated; other shapes raise TypeError. -/
def broadcastSub (Cnn : Mat n n) (P : Mat (n * v) (n * v)) : Except Err (Mat (n * v) (n * v)) :=
  if h : n * v = n then .ok (Matrix.of fun r s => Cnn (Fin.cast h r) (Fin.cast h s) - P r s)
  else if h1 : n = 1 then .ok (Matrix.of fun r s => Cnn (Fin.cast h1.symm 0) (Fin.cast h1.symm 0) - P r s)
  else .error .typeError

/-- `_predict_ol(…, full_covariance=True)`, models/_gpr.py 713-729: mean and covariance, no derivatives. `K_mn` has
been overwritten by the derivative kernel (line 718), so `G_mn.T @ G_mn` has shape `(n * v, n * v)` while `C_nn` is
`(n, n)`. -/
noncomputable def predictOlCov (la : LinAlg) (θ : GPParams) (κ : KernelObj d) (xTrain : Batch m d)
    (x : Batch n d) (J : Jac n d v) (c : Mat m 1) (mu : ℝ) : Except Err (Mat n 1 × Mat (n * v) (n * v)) :=
  let Kmn := aLhs θ κ xTrain x
  let mu : Mat n 1 := Matrix.of fun j _ => mu + (c.transpose * Kmn) 0 j
  let Kmn : Mat m (n * v) := Matrix.of (κ.d1kj θ.kernelParams xTrain x J)
  let Cmm := aLhsNoise θ κ xTrain xTrain
  let Lm := la.cholesky Cmm
  let Gmn := la.solveLower Lm Kmn
  let Cnn := aLhs θ κ x x
  match broadcastSub Cnn (Gmn.transpose * Gmn) with
  | .error e => .error e
  | .ok Cnn => .ok (mu, Cnn)

/-! ## Losses -/

/-- The common tail of `_lml_dense` and `_lml_derivs_dense`, models/_gpr.py 759-769 and 860-870: `y` is
already centred, `m` the number of rows. -/
noncomputable def lmlTail (la : LinAlg) (C : Mat n n) (y : Mat n o) : ℝ :=
  let Lm := la.cholesky C
  let cy := la.solveLower Lm y
  let mll := -(1 / 2) * ∑ i, ∑ c, cy i c ^ 2
  let mll := mll - ∑ i, Real.log (Lm i i)
  let mll := mll - n * (1 / 2) * Real.log (2 * Real.pi)
  mll / n

/-- `_lml_dense`, models/_gpr.py 738-769. -/
noncomputable def lmlDense (la : LinAlg) (θ : GPParams) (κ : KernelObj d) (mf : MeanFun)
    (x : Batch n d) (y : Mat n o) : ℝ :=
  lmlTail la (aLhsNoise θ κ x x) (centerBy y (mf y))

/-- `_lml_derivs_dense`, models/_gpr.py 825-870. -/
noncomputable def lmlDerivsDense (la : LinAlg) (θ : GPParams) (κ : KernelObj d) (mf : MeanFun)
    (x : Batch n d) (J : Jac n d v) (y : Mat n v) : ℝ :=
  lmlTail la (aDerivsLhsNoise θ κ x J x J) (centerBy (flatCol y) (mf (flatCol y)))

/-- The common tail of `_lml_iter` and `_lml_derivs_iter`, models/_gpr.py 808-821 and 923-936:
`jnp.sum(jnp.dot(y.T, c))` sums over all pairs of output columns. `logdet` is the value returned by
`lanczos_logdet`. -/
noncomputable def lmlIterTail (logdet : ℝ) (y c : Mat n o) : ℝ :=
  let mll := -(1 / 2) * ∑ a, ∑ b, (y.transpose * c) a b
  let mll := mll - 1 / 2 * logdet
  let mll := mll - n * (1 / 2) * Real.log (2 * Real.pi)
  mll / n

/-- `_lml_iter`, models/_gpr.py 773-821; `logdetFun` is `lanczos_logdet` with its settings and key. -/
noncomputable def lmlIter (la : LinAlg) (cg : CG) {Key : Type} (split : Key → Key × Key)
    (choice : Key → (Fin n → ℝ) → Fin n) (logdetFun : (Mat n 1 → Mat n 1) → ℝ) (θ : GPParams)
    (κ : KernelObj d) (mf : MeanFun) (x : Batch n d) (y : Mat n o) (nPivots : ℕ) (key : Key) :
    Except RpcErr ℝ :=
  match fitIter la cg split choice θ κ mf x y nPivots key with
  | .error e => .error e
  | .ok (c, mu) => .ok (lmlIterTail (logdetFun (axLhsFun θ κ true x x)) (centerBy y mu) c)

/-- `_lml_derivs_iter`, models/_gpr.py 874-936 (`_fit_derivs_iter` is given the flattened `y` and flattens it
again). -/
noncomputable def lmlDerivsIter (la : LinAlg) (cg : CG) {Key : Type} (split : Key → Key × Key)
    (choice : Key → (Fin (n * v) → ℝ) → Fin (n * v))
    (logdetFun : (Mat (n * v) 1 → Mat (n * v) 1) → ℝ) (θ : GPParams) (κ : KernelObj d)
    (mf : MeanFun) (x : Batch n d) (J : Jac n d v) (y : Mat n v) (nPivots : ℕ) (key : Key) : ℝ :=
  let r := fitDerivsIter la cg split choice θ κ mf x J y nPivots key
  lmlIterTail (logdetFun (axDerivsLhsFun θ κ true x J x J)) (centerBy (flatCol y) r.2) r.1

/-- `_mse`, models/_gpr.py 940-985. `y_derivs` has shape `(n, a, jv)`; the squared errors are summed over the
last axis and averaged over the remaining `n * a` rows, i.e. their total is divided by `n * a`. `mean()` of an
empty array is NaN in the code and `0` here. -/
noncomputable def mse (la : LinAlg) (θ : GPParams) (κ : KernelObj d) (mf : MeanFun) (x : Batch n d)
    (y : Mat n 1) {a jv : ℕ} (J : Jac n d (a * jv)) (yDerivs : Mat n (a * jv)) (coeff : ℝ) : ℝ :=
  let c := (fitOl la θ κ mf x y yDerivs J).1
  let y := centerBy y (mf y)
  let mu : Mat n 1 := Matrix.of fun j _ => (c.transpose * aLhs θ κ x x) 0 j
  let yPred : Mat n (a * jv) := Matrix.of fun j u =>
    (c.transpose * (Matrix.of (κ.d1kj θ.kernelParams x x J) : Mat n (n * (a * jv)))) 0
      (finProdFinEquiv (j, u))
  (∑ i, (mu i 0 - y i 0) ^ 2) / n +
    coeff * ((∑ i, ∑ u, (yPred i u - yDerivs i u) ^ 2) / (n * a))

end GPX
