import Verif.Model.SGPR

/-!
# The rest of `models/_sgpr_rpchol.py`: derivative fits, iterative and derivative likelihoods, predictions
-/

namespace GPX
noncomputable section

variable {d k m n o v w : ℕ} {Key : Type}

/-- The lines every function of `_sgpr_rpchol.py` with derivatives starts with (e.g. 115-123): select pivots with
`rpcholesky` on the inputs (the jacobians play no role in the selection), then `x[pivots]` and `jacobian[pivots]`. -/
def rpcSelect (split : Key → Key × Key) (choice : Key → (Fin n → ℝ) → Fin n) (θ : GPParams) (κ : KernelObj d)
    (x : Batch n d) (J : Jac n d v) (key : Key) (nLocs : ℕ) : Except RpcErr (Batch nLocs d × Jac nLocs d v) :=
  match rpcholesky split choice key x nLocs κ θ.kernelParams with
  | .error e => .error e
  | .ok (_, pivots) => .ok (takeRows x pivots, takeRows J pivots)

/-- `_fit_derivs_dense`, models/_sgpr_rpchol.py 99-134: `(c, mu, x_locs, jacobian_locs)`. -/
def rpcFitDerivsDense (la : LinAlg) (split : Key → Key × Key) (choice : Key → (Fin n → ℝ) → Fin n) (θ : GPParams)
    (κ : KernelObj d) (mf : MeanFun) (x : Batch n d) (y : Mat n v) (J : Jac n d v) (key : Key) (nLocs : ℕ) :
    Except RpcErr (Mat (nLocs * v) 1 × ℝ × Batch nLocs d × Jac nLocs d v) :=
  match rpcSelect split choice θ κ x J key nLocs with
  | .error e => .error e
  | .ok (xLocs, jacobianLocs) =>
    let r := sgprFitDerivsDense la θ κ mf xLocs jacobianLocs x J y
    .ok (r.1, r.2, xLocs, jacobianLocs)

/-- `_fit_derivs_iter`, models/_sgpr_rpchol.py 137-172. -/
def rpcFitDerivsIter (cg : CG) (split : Key → Key × Key) (choice : Key → (Fin n → ℝ) → Fin n) (θ : GPParams)
    (κ : KernelObj d) (mf : MeanFun) (x : Batch n d) (y : Mat n v) (J : Jac n d v) (key : Key) (nLocs : ℕ) :
    Except RpcErr (Mat (nLocs * v) 1 × ℝ × Batch nLocs d × Jac nLocs d v) :=
  match rpcSelect split choice θ κ x J key nLocs with
  | .error e => .error e
  | .ok (xLocs, jacobianLocs) =>
    let r := sgprFitDerivsIter cg θ κ mf xLocs jacobianLocs x J y
    .ok (r.1, r.2, xLocs, jacobianLocs)

/-- `_lml_iter`, models/_sgpr_rpchol.py 211-245; `logdetFun` is the Lanczos estimate with the given `num_evals`,
`num_lanczos` and `key_lanczos`. -/
def rpcLmlIter (la : LinAlg) (cg : CG) (logdetFun : (Mat n 1 → Mat n 1) → ℝ) (split : Key → Key × Key)
    (choice : Key → (Fin n → ℝ) → Fin n) (θ : GPParams) (κ : KernelObj d) (mf : MeanFun) (x : Batch n d)
    (y : Mat n o) (key : Key) (nLocs : ℕ) : Except RpcErr ℝ :=
  match rpcholesky split choice key x nLocs κ θ.kernelParams with
  | .error e => .error e
  | .ok (_, pivots) => .ok (sgprLmlIter la cg logdetFun θ κ mf (takeRows x pivots : Batch nLocs d) x y)

/-- `_lml_derivs_dense`, models/_sgpr_rpchol.py 248-284: two places where it may raise, the selection and the
likelihood of SGPR. -/
def rpcLmlDerivsDense (la : LinAlg) (split : Key → Key × Key) (choice : Key → (Fin n → ℝ) → Fin n) (θ : GPParams)
    (κ : KernelObj d) (mf : MeanFun) (x : Batch n d) {r : ℕ} (y : Mat r o) (J : Jac n d v) (key : Key) (nLocs : ℕ) :
    Except RpcErr (Except Err ℝ) :=
  match rpcSelect split choice θ κ x J key nLocs with
  | .error e => .error e
  | .ok (xLocs, jacobianLocs) => .ok (sgprLmlDerivsDense la θ κ mf xLocs jacobianLocs x J y)

/-- `_lml_derivs_iter`, models/_sgpr_rpchol.py 433-475. -/
def rpcLmlDerivsIter (la : LinAlg) (cg : CG) (logdetFun : (Mat (n * v) 1 → Mat (n * v) 1) → ℝ)
    (split : Key → Key × Key) (choice : Key → (Fin n → ℝ) → Fin n) (θ : GPParams) (κ : KernelObj d) (mf : MeanFun)
    (x : Batch n d) (y : Mat n v) (J : Jac n d v) (key : Key) (nLocs : ℕ) : Except RpcErr ℝ :=
  match rpcSelect split choice θ κ x J key nLocs with
  | .error e => .error e
  | .ok (xLocs, jacobianLocs) => .ok (sgprLmlDerivsIter la cg logdetFun θ κ mf xLocs jacobianLocs x J y)

/-- `_predict_dense`, models/_sgpr_rpchol.py 287-310: mean, and covariance with `full_covariance`. -/
def rpcPredictDense (la : LinAlg) (θ : GPParams) (κ : KernelObj d) (xLocs : Batch m d) (x : Batch n d)
    (c : Mat m o) (mu : ℝ) (fullCovariance : Bool := false) : Mat n o × Option (Mat n n) :=
  (sgprPredict θ κ xLocs x c mu, if fullCovariance then some (sgprPredictCov la θ κ xLocs x) else none)

/-- `_predict_iter`, models/_sgpr_rpchol.py 313-334. -/
def rpcPredictIter (θ : GPParams) (κ : KernelObj d) (xLocs : Batch m d) (x : Batch n d) (c : Mat m o) (mu : ℝ) :
    Mat n o :=
  sgprPredictIter θ κ xLocs x c mu

/-- `_predict_derivs_dense` without `full_covariance` and `jaccoef`, models/_sgpr_rpchol.py 337-361. -/
def rpcPredictDerivsDense (θ : GPParams) (κ : KernelObj d) (xLocs : Batch m d) (JLocs : Jac m d w) (x : Batch n d)
    (J : Jac n d v) (c : Mat (m * w) 1) (mu : ℝ) : Mat n v :=
  sgprPredictDerivs θ κ xLocs JLocs x J c mu

/-- `_predict_derivs_iter`, models/_sgpr_rpchol.py 364-384. -/
def rpcPredictDerivsIter (θ : GPParams) (κ : KernelObj d) (xLocs : Batch m d) (JLocs : Jac m d w) (x : Batch n d)
    (J : Jac n d v) (c : Mat (m * w) 1) (mu : ℝ) : Mat n v :=
  sgprPredictDerivsIter θ κ xLocs JLocs x J c mu

/-- `_predict_y_derivs_iter`, models/_sgpr_rpchol.py 411-430: `full_covariance` is accepted and not used. -/
def rpcPredictYDerivsIter (θ : GPParams) (κ : KernelObj d) (xLocs : Batch m d) (JLocs : Jac m d w) (x : Batch n d)
    (c : Mat (m * w) 1) (mu : ℝ) (_fullCovariance : Bool := false) : Mat n 1 :=
  sgprPredictYDerivsIter θ κ xLocs JLocs x c mu

end
end GPX
