import Verif.Spec.Transfer
import Verif.Model.GPRTDPredict
import Verif.Model.GPRTDLik
import Verif.Model.RPCDerivs

/-!
# Two models that give the same answers: iterative methods, SGPR_RPChol, GPR_TD

The companion of `Spec/Transfer.lean` for the functions that never build a matrix (conjugate gradients with a
preconditioner, matrix-free products, likelihoods by the Lanczos method), for SGPR_RPChol (whose inducing points are
chosen among the samples) and for GPR_TD.
-/

namespace GPX.Spec
open GPX

variable {d d' : ℕ}

/-- The inducing points of the second model are those of the first one, mapped by `T`; everything else is equal. -/
def SameSparse {A E : Type} {k : ℕ} (T : (Fin d → ℝ) → (Fin d' → ℝ)) (r : Except E (A × ℝ × Batch k d))
    (r' : Except E (A × ℝ × Batch k d')) : Prop :=
  r' = r.map fun q => (q.1, q.2.1, mapBatch T q.2.2)

/-- The same with the jacobians of the inducing points. -/
def SameSparseDerivs {A E : Type} {k v : ℕ} (T L : (Fin d → ℝ) → (Fin d' → ℝ))
    (r : Except E (A × ℝ × Batch k d × Jac k d v)) (r' : Except E (A × ℝ × Batch k d' × Jac k d' v)) : Prop :=
  r' = r.map fun q => (q.1, q.2.1, mapBatch T q.2.2.1, mapJac L q.2.2.2)

/-- The iterative methods of GPR and SGPR agree: for all solvers, log-determinant estimates and random keys. -/
structure SameIterative (κ : KernelObj d) (θ : GPParams) (κ' : KernelObj d') (θ' : GPParams)
    (T L : (Fin d → ℝ) → (Fin d' → ℝ)) : Prop where
  fit : ∀ (la : LinAlg) (cg : CG) {Key : Type} (split : Key → Key × Key) {n o : ℕ}
    (choice : Key → (Fin n → ℝ) → Fin n) (mf : MeanFun) (x : Batch n d) (y : Mat n o) (k : ℕ) (key : Key),
    fitIter la cg split choice θ' κ' mf (mapBatch T x) y k key = fitIter la cg split choice θ κ mf x y k key
  predict : ∀ {m n o : ℕ} (xt : Batch m d) (x : Batch n d) (c : Mat m o) (mu : ℝ),
    predictIter θ' κ' (mapBatch T xt) (mapBatch T x) c mu = predictIter θ κ xt x c mu
  lml : ∀ (la : LinAlg) (cg : CG) {Key : Type} (split : Key → Key × Key) {n o : ℕ}
    (choice : Key → (Fin n → ℝ) → Fin n) (logdet : (Mat n 1 → Mat n 1) → ℝ) (mf : MeanFun) (x : Batch n d)
    (y : Mat n o) (k : ℕ) (key : Key),
    lmlIter la cg split choice logdet θ' κ' mf (mapBatch T x) y k key =
      lmlIter la cg split choice logdet θ κ mf x y k key
  fitDerivs : ∀ (la : LinAlg) (cg : CG) {Key : Type} (split : Key → Key × Key) {n v : ℕ}
    (choice : Key → (Fin (n * v) → ℝ) → Fin (n * v)) (mf : MeanFun) (x : Batch n d) (J : Jac n d v) (y : Mat n v)
    (k : ℕ) (key : Key),
    fitDerivsIter la cg split choice θ' κ' mf (mapBatch T x) (mapJac L J) y k key =
      fitDerivsIter la cg split choice θ κ mf x J y k key
  predictDerivs : ∀ {m n v w : ℕ} (xt : Batch m d) (Jt : Jac m d w) (x : Batch n d) (J : Jac n d v) (c : Mat (m * w) 1)
    (mu : ℝ), predictDerivsIter θ' κ' (mapBatch T xt) (mapJac L Jt) (mapBatch T x) (mapJac L J) c mu =
      predictDerivsIter θ κ xt Jt x J c mu
  predictYDerivs : ∀ {m n w : ℕ} (xt : Batch m d) (Jt : Jac m d w) (x : Batch n d) (c : Mat (m * w) 1) (mu : ℝ),
    predictYDerivsIter θ' κ' (mapBatch T xt) (mapJac L Jt) (mapBatch T x) c mu = predictYDerivsIter θ κ xt Jt x c mu
  lmlDerivs : ∀ (la : LinAlg) (cg : CG) {Key : Type} (split : Key → Key × Key) {n v : ℕ}
    (choice : Key → (Fin (n * v) → ℝ) → Fin (n * v)) (logdet : (Mat (n * v) 1 → Mat (n * v) 1) → ℝ) (mf : MeanFun)
    (x : Batch n d) (J : Jac n d v) (y : Mat n v) (k : ℕ) (key : Key),
    lmlDerivsIter la cg split choice logdet θ' κ' mf (mapBatch T x) (mapJac L J) y k key =
      lmlDerivsIter la cg split choice logdet θ κ mf x J y k key
  mse : ∀ (la : LinAlg) (mf : MeanFun) {n a jv : ℕ} (x : Batch n d) (y : Mat n 1) (J : Jac n d (a * jv))
    (yd : Mat n (a * jv)) (coeff : ℝ),
    GPX.mse la θ' κ' mf (mapBatch T x) y (a := a) (jv := jv) (mapJac L J) yd coeff = GPX.mse la θ κ mf x y J yd coeff
  sgprFit : ∀ (cg : CG) (mf : MeanFun) {m n o : ℕ} (xl : Batch m d) (x : Batch n d) (y : Mat n o),
    sgprFitIter cg θ' κ' mf (mapBatch T xl) (mapBatch T x) y = sgprFitIter cg θ κ mf xl x y
  sgprPredict : ∀ {m n o : ℕ} (xl : Batch m d) (x : Batch n d) (c : Mat m o) (mu : ℝ),
    sgprPredictIter θ' κ' (mapBatch T xl) (mapBatch T x) c mu = sgprPredictIter θ κ xl x c mu
  sgprLml : ∀ (la : LinAlg) (cg : CG) (mf : MeanFun) {m n o : ℕ} (logdet : (Mat n 1 → Mat n 1) → ℝ) (xl : Batch m d)
    (x : Batch n d) (y : Mat n o),
    sgprLmlIter la cg logdet θ' κ' mf (mapBatch T xl) (mapBatch T x) y = sgprLmlIter la cg logdet θ κ mf xl x y
  sgprFitDerivs : ∀ (cg : CG) (mf : MeanFun) {m n v w : ℕ} (xl : Batch m d) (Jl : Jac m d v) (x : Batch n d)
    (J : Jac n d w) (y : Mat n w),
    sgprFitDerivsIter cg θ' κ' mf (mapBatch T xl) (mapJac L Jl) (mapBatch T x) (mapJac L J) y =
      sgprFitDerivsIter cg θ κ mf xl Jl x J y
  sgprPredictDerivs : ∀ {m n v w : ℕ} (xl : Batch m d) (Jl : Jac m d w) (x : Batch n d) (J : Jac n d v)
    (c : Mat (m * w) 1) (mu : ℝ),
    sgprPredictDerivsIter θ' κ' (mapBatch T xl) (mapJac L Jl) (mapBatch T x) (mapJac L J) c mu =
      sgprPredictDerivsIter θ κ xl Jl x J c mu
  sgprPredictYDerivs : ∀ {m n w : ℕ} (xl : Batch m d) (Jl : Jac m d w) (x : Batch n d) (c : Mat (m * w) 1) (mu : ℝ),
    sgprPredictYDerivsIter θ' κ' (mapBatch T xl) (mapJac L Jl) (mapBatch T x) c mu =
      sgprPredictYDerivsIter θ κ xl Jl x c mu
  sgprLmlDerivs : ∀ (la : LinAlg) (cg : CG) (mf : MeanFun) {m n v : ℕ} (logdet : (Mat (n * v) 1 → Mat (n * v) 1) → ℝ)
    (xl : Batch m d) (Jl : Jac m d v) (x : Batch n d) (J : Jac n d v) (y : Mat n v),
    sgprLmlDerivsIter la cg logdet θ' κ' mf (mapBatch T xl) (mapJac L Jl) (mapBatch T x) (mapJac L J) y =
      sgprLmlDerivsIter la cg logdet θ κ mf xl Jl x J y

/-- SGPR_RPChol: the same samples are chosen as inducing points, and fits and likelihoods agree (predictions are those of
SGPR). -/
structure SameRPChol (κ : KernelObj d) (θ : GPParams) (κ' : KernelObj d') (θ' : GPParams)
    (T L : (Fin d → ℝ) → (Fin d' → ℝ)) : Prop where
  pivots : ∀ {Key : Type} (split : Key → Key × Key) {n : ℕ} (choice : Key → (Fin n → ℝ) → Fin n) (key : Key)
    (x : Batch n d) (k : ℕ),
    rpcholesky split choice key (mapBatch T x) k κ' θ'.kernelParams = rpcholesky split choice key x k κ θ.kernelParams
  fit : ∀ (la : LinAlg) {Key : Type} (split : Key → Key × Key) {n o : ℕ} (choice : Key → (Fin n → ℝ) → Fin n)
    (mf : MeanFun) (x : Batch n d) (y : Mat n o) (key : Key) (k : ℕ),
    SameSparse T (rpcFitDense la split choice θ κ mf x y key k)
      (rpcFitDense la split choice θ' κ' mf (mapBatch T x) y key k)
  fitIter : ∀ (cg : CG) {Key : Type} (split : Key → Key × Key) {n o : ℕ} (choice : Key → (Fin n → ℝ) → Fin n)
    (mf : MeanFun) (x : Batch n d) (y : Mat n o) (key : Key) (k : ℕ),
    SameSparse T (rpcFitIter cg split choice θ κ mf x y key k)
      (rpcFitIter cg split choice θ' κ' mf (mapBatch T x) y key k)
  fitDerivs : ∀ (la : LinAlg) {Key : Type} (split : Key → Key × Key) {n v : ℕ} (choice : Key → (Fin n → ℝ) → Fin n)
    (mf : MeanFun) (x : Batch n d) (y : Mat n v) (J : Jac n d v) (key : Key) (k : ℕ),
    SameSparseDerivs T L (rpcFitDerivsDense la split choice θ κ mf x y J key k)
      (rpcFitDerivsDense la split choice θ' κ' mf (mapBatch T x) y (mapJac L J) key k)
  fitDerivsIter : ∀ (cg : CG) {Key : Type} (split : Key → Key × Key) {n v : ℕ} (choice : Key → (Fin n → ℝ) → Fin n)
    (mf : MeanFun) (x : Batch n d) (y : Mat n v) (J : Jac n d v) (key : Key) (k : ℕ),
    SameSparseDerivs T L (rpcFitDerivsIter cg split choice θ κ mf x y J key k)
      (rpcFitDerivsIter cg split choice θ' κ' mf (mapBatch T x) y (mapJac L J) key k)
  lml : ∀ (la : LinAlg) {Key : Type} (split : Key → Key × Key) {n o : ℕ} (choice : Key → (Fin n → ℝ) → Fin n)
    (mf : MeanFun) (x : Batch n d) (y : Mat n o) (key : Key) (k : ℕ),
    rpcLmlDense la split choice θ' κ' mf (mapBatch T x) y key k = rpcLmlDense la split choice θ κ mf x y key k
  lmlIter : ∀ (la : LinAlg) (cg : CG) {Key : Type} (split : Key → Key × Key) {n o : ℕ}
    (logdet : (Mat n 1 → Mat n 1) → ℝ) (choice : Key → (Fin n → ℝ) → Fin n) (mf : MeanFun) (x : Batch n d)
    (y : Mat n o) (key : Key) (k : ℕ),
    rpcLmlIter la cg logdet split choice θ' κ' mf (mapBatch T x) y key k =
      rpcLmlIter la cg logdet split choice θ κ mf x y key k

/-- The remaining functions of the sparse models: covariances of derivatives, stored coefficients, and the likelihoods of
derivatives (some of which raise for some shapes: then both models raise the same exception). -/
structure SameSparseRest (κ : KernelObj d) (θ : GPParams) (κ' : KernelObj d') (θ' : GPParams)
    (T L : (Fin d → ℝ) → (Fin d' → ℝ)) : Prop where
  derivsCov : ∀ (la : LinAlg) {m n v w : ℕ} (xl : Batch m d) (Jl : Jac m d w) (x : Batch n d) (J : Jac n d v),
    sgprPredictDerivsCov la θ' κ' (mapBatch T xl) (mapJac L Jl) (mapBatch T x) (mapJac L J) =
      sgprPredictDerivsCov la θ κ xl Jl x J
  yDerivsCov : ∀ (la : LinAlg) {m n w : ℕ} (xl : Batch m d) (Jl : Jac m d w) (x : Batch n d),
    sgprPredictYDerivsCov la θ' κ' (mapBatch T xl) (mapJac L Jl) (mapBatch T x) = sgprPredictYDerivsCov la θ κ xl Jl x
  derivsCoef : ∀ {m n v : ℕ} (xl : Batch m d) (x : Batch n d) (J : Jac n d v) (mu : ℝ) (jc : Batch m d),
    sgprPredictDerivsCoef θ' κ' (mapBatch T xl) (mapBatch T x) (mapJac L J) mu (mapBatch L jc) =
      sgprPredictDerivsCoef θ κ xl x J mu jc
  yDerivsCoef : ∀ {m n : ℕ} (xl : Batch m d) (x : Batch n d) (mu : ℝ) (jc : Batch m d),
    sgprPredictYDerivsCoef θ' κ' (mapBatch T xl) (mapBatch T x) mu (mapBatch L jc) =
      sgprPredictYDerivsCoef θ κ xl x mu jc
  lmlDerivs : ∀ (la : LinAlg) (mf : MeanFun) {m n o v r : ℕ} (xl : Batch m d) (Jl : Jac m d v) (x : Batch n d)
    (J : Jac n d v) (y : Mat r o),
    sgprLmlDerivsDense la θ' κ' mf (mapBatch T xl) (mapJac L Jl) (mapBatch T x) (mapJac L J) y =
      sgprLmlDerivsDense la θ κ mf xl Jl x J y
  rpcLmlDerivs : ∀ (la : LinAlg) {Key : Type} (split : Key → Key × Key) {n o v r : ℕ}
    (choice : Key → (Fin n → ℝ) → Fin n) (mf : MeanFun) (x : Batch n d) (y : Mat r o) (J : Jac n d v) (key : Key) (k : ℕ),
    rpcLmlDerivsDense la split choice θ' κ' mf (mapBatch T x) y (mapJac L J) key k =
      rpcLmlDerivsDense la split choice θ κ mf x y J key k
  rpcLmlDerivsIter : ∀ (la : LinAlg) (cg : CG) {Key : Type} (split : Key → Key × Key) {n v : ℕ}
    (logdet : (Mat (n * v) 1 → Mat (n * v) 1) → ℝ) (choice : Key → (Fin n → ℝ) → Fin n) (mf : MeanFun) (x : Batch n d)
    (y : Mat n v) (J : Jac n d v) (key : Key) (k : ℕ),
    GPX.rpcLmlDerivsIter la cg logdet split choice θ' κ' mf (mapBatch T x) y (mapJac L J) key k =
      GPX.rpcLmlDerivsIter la cg logdet split choice θ κ mf x y J key k
  predictOlCov : ∀ (la : LinAlg) {m n v : ℕ} (xt : Batch m d) (x : Batch n d) (J : Jac n d v) (c : Mat m 1) (mu : ℝ),
    GPX.predictOlCov la θ' κ' (mapBatch T xt) (mapBatch T x) (mapJac L J) c mu = GPX.predictOlCov la θ κ xt x J c mu

/-- GPR_TD, all results: `J` and `J'` are the two sets of jacobians. -/
structure SameJoint (κ : KernelObj d) (θ : TDParams) (κ' : KernelObj d') (θ' : TDParams)
    (T L : (Fin d → ℝ) → (Fin d' → ℝ)) : Prop where
  fit1 : ∀ (la : LinAlg) (mf : MeanFun) {n v : ℕ} (x : Batch n d) (y : Mat n 1) (J : Jac n d v) (yd : Mat n v),
    tdFitDense1 la θ' κ' mf (mapBatch T x) y (mapJac L J) yd = tdFitDense1 la θ κ mf x y J yd
  fit2 : ∀ (la : LinAlg) (mf : MeanFun) {n v v' : ℕ} (x : Batch n d) (y : Mat n 1) (J : Jac n d v) (J' : Jac n d v')
    (yd : Mat n v) (yd' : Mat n v'),
    tdFitDense2 la θ' κ' mf (mapBatch T x) y (mapJac L J) (mapJac L J') yd yd' = tdFitDense2 la θ κ mf x y J J' yd yd'
  fitIter1 : ∀ (la : LinAlg) (cg : CG) {Key : Type} (split : Key → Key × Key) {n v : ℕ}
    (choice : Key → (Fin (n + n * v) → ℝ) → Fin (n + n * v)) (mf : MeanFun) (x : Batch n d) (y : Mat n 1) (J : Jac n d v)
    (yd : Mat n v) (k : ℕ) (key : Key),
    tdFitIter1 la cg split choice θ' κ' mf (mapBatch T x) y (mapJac L J) yd k key =
      tdFitIter1 la cg split choice θ κ mf x y J yd k key
  fitIter2 : ∀ (la : LinAlg) (cg : CG) {Key : Type} (split : Key → Key × Key) {n v v' : ℕ}
    (choice : Key → (Fin (n + n * v + n * v') → ℝ) → Fin (n + n * v + n * v')) (mf : MeanFun) (x : Batch n d)
    (y : Mat n 1) (J : Jac n d v) (J' : Jac n d v') (yd : Mat n v) (yd' : Mat n v') (k : ℕ) (key : Key),
    tdFitIter2 la cg split choice θ' κ' mf (mapBatch T x) y (mapJac L J) (mapJac L J') yd yd' k key =
      tdFitIter2 la cg split choice θ κ mf x y J J' yd yd' k key
  predict1 : ∀ {m n v w : ℕ} (xt : Batch m d) (Jt : Jac m d v) (c : Mat (m + m * v) 1) (mu : ℝ) (iterative : Bool)
    (x : Batch n d) (J : Jac n d w) (J' : Option (Σ w', Jac n d w')),
    tdPredict θ' κ' (mapBatch T xt) (.one (mapJac L Jt) c) mu iterative (mapBatch T x) (mapJac L J)
        (J'.map fun q => ⟨q.1, mapJac L q.2⟩) =
      tdPredict θ κ xt (.one Jt c) mu iterative x J J'
  predict2 : ∀ {m n v v' w : ℕ} (xt : Batch m d) (Jt : Jac m d v) (Jt' : Jac m d v') (c : Mat (m + m * v + m * v') 1)
    (mu : ℝ) (iterative : Bool) (x : Batch n d) (J : Jac n d w) (J' : Option (Σ w', Jac n d w')),
    tdPredict θ' κ' (mapBatch T xt) (.two (mapJac L Jt) (mapJac L Jt') c) mu iterative (mapBatch T x) (mapJac L J)
        (J'.map fun q => ⟨q.1, mapJac L q.2⟩) =
      tdPredict θ κ xt (.two Jt Jt' c) mu iterative x J J'
  lml : ∀ {Key : Type} {n v : ℕ} (t : TDTools n v Key) (mf : MeanFun) (x : Batch n d) (y : Mat n 1) (J : Jac n d v)
    (yd : Mat n v) (J2 : JacSet n d) (yd2 : DerivSet n) (iterative : Bool) (numEvals numLanczos : ℕ) (keyLanczos : Key)
    (nPivots : Option ℕ) (keyPrecond : Option Key),
    tdLml t θ' κ' mf (mapBatch T x) y (mapJac L J) yd (J2.map fun q => ⟨q.1, mapJac L q.2⟩) yd2 iterative numEvals
        numLanczos keyLanczos nPivots keyPrecond =
      tdLml t θ κ mf x y J yd J2 yd2 iterative numEvals numLanczos keyLanczos nPivots keyPrecond

/-- The three noises of GPR_TD are the same. -/
def SameNoises (θ θ' : TDParams) : Prop :=
  θ'.sigmaTargets = θ.sigmaTargets ∧ θ'.sigmaDerivs = θ.sigmaDerivs ∧ θ'.sigmaDerivs2 = θ.sigmaDerivs2

end GPX.Spec
