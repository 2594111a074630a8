import Verif.Model.GPR
import Verif.Model.SGPR
import Verif.Spec.Kernels

/-!
# Two models that give the same answers

`T` maps the inputs of one model to the inputs of another, `L` is what the same change does to jacobians (the derivatives
of the inputs). `SameModels` says that every result of the first model equals the result of the second one on the mapped
data.
-/

namespace GPX.Spec
open GPX

variable {d d' : ℕ}

/-- The samples, each mapped by `T`. -/
def mapBatch {n : ℕ} (T : (Fin d → ℝ) → (Fin d' → ℝ)) (x : Batch n d) : Batch n d' := fun i => T (x i)

/-- The jacobians, every column mapped by `L`. -/
def mapJac {n v : ℕ} (L : (Fin d → ℝ) → (Fin d' → ℝ)) (J : Jac n d v) : Jac n d' v :=
  fun i f u => L (fun g => J i g u) f

/-- Fits, predictions, covariances and likelihoods of GPR (trained on targets, on derivatives, and by operator learning)
and of SGPR agree. -/
structure SameModels (κ : KernelObj d) (θ : GPParams) (κ' : KernelObj d') (θ' : GPParams)
    (T L : (Fin d → ℝ) → (Fin d' → ℝ)) : Prop where
  fit : ∀ (la : LinAlg) (mf : MeanFun) {n o : ℕ} (x : Batch n d) (y : Mat n o),
    fitDense la θ' κ' mf (mapBatch T x) y = fitDense la θ κ mf x y
  predict : ∀ {m n o : ℕ} (xt : Batch m d) (x : Batch n d) (c : Mat m o) (mu : ℝ),
    predictDense θ' κ' (mapBatch T xt) (mapBatch T x) c mu = predictDense θ κ xt x c mu
  predictCov : ∀ (la : LinAlg) {m n : ℕ} (xt : Batch m d) (x : Batch n d),
    predictDenseCov la θ' κ' (mapBatch T xt) (mapBatch T x) = predictDenseCov la θ κ xt x
  lml : ∀ (la : LinAlg) (mf : MeanFun) {n o : ℕ} (x : Batch n d) (y : Mat n o),
    lmlDense la θ' κ' mf (mapBatch T x) y = lmlDense la θ κ mf x y
  fitDerivs : ∀ (la : LinAlg) (mf : MeanFun) {n v : ℕ} (x : Batch n d) (J : Jac n d v) (y : Mat n v),
    fitDerivsDense la θ' κ' mf (mapBatch T x) (mapJac L J) y = fitDerivsDense la θ κ mf x J y
  predictDerivs : ∀ {m n v w : ℕ} (xt : Batch m d) (Jt : Jac m d w) (x : Batch n d) (J : Jac n d v) (c : Mat (m * w) 1)
    (mu : ℝ), predictDerivsDense θ' κ' (mapBatch T xt) (mapJac L Jt) (mapBatch T x) (mapJac L J) c mu =
      predictDerivsDense θ κ xt Jt x J c mu
  predictDerivsCov : ∀ (la : LinAlg) {m n v w : ℕ} (xt : Batch m d) (Jt : Jac m d w) (x : Batch n d) (J : Jac n d v),
    predictDerivsDenseCov la θ' κ' (mapBatch T xt) (mapJac L Jt) (mapBatch T x) (mapJac L J) =
      predictDerivsDenseCov la θ κ xt Jt x J
  predictDerivsCoef : ∀ {m n v : ℕ} (xt : Batch m d) (x : Batch n d) (J : Jac n d v) (mu : ℝ) (jc : Batch m d),
    GPX.predictDerivsCoef θ' κ' (mapBatch T xt) (mapBatch T x) (mapJac L J) mu (mapBatch L jc) =
      GPX.predictDerivsCoef θ κ xt x J mu jc
  predictYDerivs : ∀ {m n w : ℕ} (xt : Batch m d) (Jt : Jac m d w) (x : Batch n d) (c : Mat (m * w) 1) (mu : ℝ),
    predictYDerivsDense θ' κ' (mapBatch T xt) (mapJac L Jt) (mapBatch T x) c mu = predictYDerivsDense θ κ xt Jt x c mu
  predictYDerivsCov : ∀ (la : LinAlg) {m n w : ℕ} (xt : Batch m d) (Jt : Jac m d w) (x : Batch n d),
    predictYDerivsDenseCov la θ' κ' (mapBatch T xt) (mapJac L Jt) (mapBatch T x) =
      predictYDerivsDenseCov la θ κ xt Jt x
  predictYDerivsCoef : ∀ {m n : ℕ} (xt : Batch m d) (x : Batch n d) (mu : ℝ) (jc : Batch m d),
    GPX.predictYDerivsCoef θ' κ' (mapBatch T xt) (mapBatch T x) mu (mapBatch L jc) =
      GPX.predictYDerivsCoef θ κ xt x mu jc
  lmlDerivs : ∀ (la : LinAlg) (mf : MeanFun) {n v : ℕ} (x : Batch n d) (J : Jac n d v) (y : Mat n v),
    lmlDerivsDense la θ' κ' mf (mapBatch T x) (mapJac L J) y = lmlDerivsDense la θ κ mf x J y
  fitOl : ∀ (la : LinAlg) (mf : MeanFun) {n v : ℕ} (x : Batch n d) (y : Mat n 1) (yd : Mat n v) (J : Jac n d v),
    GPX.fitOl la θ' κ' mf (mapBatch T x) y yd (mapJac L J) = GPX.fitOl la θ κ mf x y yd J
  predictOl : ∀ {m n v : ℕ} (xt : Batch m d) (x : Batch n d) (J : Jac n d v) (c : Mat m 1) (mu : ℝ),
    GPX.predictOl θ' κ' (mapBatch T xt) (mapBatch T x) (mapJac L J) c mu = GPX.predictOl θ κ xt x J c mu
  sgprFit : ∀ (la : LinAlg) (mf : MeanFun) {m n o : ℕ} (xl : Batch m d) (x : Batch n d) (y : Mat n o),
    sgprFitDense la θ' κ' mf (mapBatch T xl) (mapBatch T x) y = sgprFitDense la θ κ mf xl x y
  sgprPredict : ∀ {m n o : ℕ} (xl : Batch m d) (x : Batch n d) (c : Mat m o) (mu : ℝ),
    GPX.sgprPredict θ' κ' (mapBatch T xl) (mapBatch T x) c mu = GPX.sgprPredict θ κ xl x c mu
  sgprPredictCov : ∀ (la : LinAlg) {m n : ℕ} (xl : Batch m d) (x : Batch n d),
    GPX.sgprPredictCov la θ' κ' (mapBatch T xl) (mapBatch T x) = GPX.sgprPredictCov la θ κ xl x
  sgprLml : ∀ (la : LinAlg) (mf : MeanFun) {m n o : ℕ} (xl : Batch m d) (x : Batch n d) (y : Mat n o),
    sgprLmlDense la θ' κ' mf (mapBatch T xl) (mapBatch T x) y = sgprLmlDense la θ κ mf xl x y
  sgprFitDerivs : ∀ (la : LinAlg) (mf : MeanFun) {m n v w : ℕ} (xl : Batch m d) (Jl : Jac m d v) (x : Batch n d)
    (J : Jac n d w) (y : Mat n w),
    sgprFitDerivsDense la θ' κ' mf (mapBatch T xl) (mapJac L Jl) (mapBatch T x) (mapJac L J) y =
      sgprFitDerivsDense la θ κ mf xl Jl x J y
  sgprPredictDerivs : ∀ {m n v w : ℕ} (xl : Batch m d) (Jl : Jac m d w) (x : Batch n d) (J : Jac n d v)
    (c : Mat (m * w) 1) (mu : ℝ),
    GPX.sgprPredictDerivs θ' κ' (mapBatch T xl) (mapJac L Jl) (mapBatch T x) (mapJac L J) c mu =
      GPX.sgprPredictDerivs θ κ xl Jl x J c mu
  sgprPredictYDerivs : ∀ {m n w : ℕ} (xl : Batch m d) (Jl : Jac m d w) (x : Batch n d) (c : Mat (m * w) 1) (mu : ℝ),
    GPX.sgprPredictYDerivs θ' κ' (mapBatch T xl) (mapJac L Jl) (mapBatch T x) c mu =
      GPX.sgprPredictYDerivs θ κ xl Jl x c mu

/-- `x ↦ Q x + b`. -/
def affine (Q : Matrix (Fin d) (Fin d) ℝ) (b : Fin d → ℝ) : (Fin d → ℝ) → (Fin d → ℝ) := fun x f => (∑ g, Q f g * x g) + b f

/-- The expression has only constants, `SquaredExponential` and Matern kernels, and none of the latter selects features. -/
def Isotropic : KExpr d → Prop
  | .constant _ => True
  | .squaredExponential a => a = none
  | .matern12 a => a = none
  | .matern32 a => a = none
  | .matern52 a => a = none
  | .sum e1 e2 => Isotropic e1 ∧ Isotropic e2
  | .prod e1 e2 => Isotropic e1 ∧ Isotropic e2
  | _ => False

/-- The same with `Linear` and `Polynomial` kernels allowed. -/
def RotationInvariant : KExpr d → Prop
  | .constant _ => True
  | .linear a => a = none
  | .polynomial a _ => a = none
  | .squaredExponential a => a = none
  | .matern12 a => a = none
  | .matern32 a => a = none
  | .matern52 a => a = none
  | .expSinSquared _ => False
  | .sum e1 e2 => RotationInvariant e1 ∧ RotationInvariant e2
  | .prod e1 e2 => RotationInvariant e1 ∧ RotationInvariant e2

/-- The expression has no `Linear` and no `Polynomial` kernel. -/
def TranslationInvariant : KExpr d → Prop
  | .linear _ => False
  | .polynomial _ _ => False
  | .sum e1 e2 => TranslationInvariant e1 ∧ TranslationInvariant e2
  | .prod e1 e2 => TranslationInvariant e1 ∧ TranslationInvariant e2
  | _ => True

/-- The hyperparameters `q` are `p` in units `s` times smaller: lengthscales of `SquaredExponential` and Matern kernels and
periods of `ExpSinSquared` are multiplied by `s`, everything else is unchanged. There is no such `q` for `Linear` and
`Polynomial` kernels. -/
def InUnits (s : ℝ) : KExpr d → KPar → KPar → Prop
  | .constant _, p, q => q.val "variance" = p.val "variance"
  | .squaredExponential _, p, q => q.val "lengthscale" = s * p.val "lengthscale"
  | .matern12 _, p, q => q.val "lengthscale" = s * p.val "lengthscale"
  | .matern32 _, p, q => q.val "lengthscale" = s * p.val "lengthscale"
  | .matern52 _, p, q => q.val "lengthscale" = s * p.val "lengthscale"
  | .expSinSquared _, p, q => q.val "lengthscale" = p.val "lengthscale" ∧ q.val "periodicity" = s * p.val "periodicity"
  | .sum e1 e2, p, q => InUnits s e1 (p.sub "kernel1") (q.sub "kernel1") ∧ InUnits s e2 (p.sub "kernel2") (q.sub "kernel2")
  | .prod e1 e2, p, q => InUnits s e1 (p.sub "kernel1") (q.sub "kernel1") ∧ InUnits s e2 (p.sub "kernel2") (q.sub "kernel2")
  | _, _, _ => False

end GPX.Spec
