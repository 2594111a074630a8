import Verif.Model.SGPR

/-!
# Drawing samples: models/utils.py, models/gpr.py, models/sgpr.py, models/base.py

The random generator is a parameter: `split` is `jax.random.split`, `normal key r n` is
`jax.random.normal(key, (r, n))`.
-/

namespace GPX

variable {d m n o v w N : ℕ} {Key : Type}

/-- `jax.random.multivariate_normal(key, mean, cov, shape=(n_samples,))` with its default Cholesky factorisation:
`mean + L z`. When `mean` has another length than `cov` the contraction is a shape error (a `mean` of length one
would broadcast in JAX, which is not modelled; the theorems about the error ask for two samples or more). -/
noncomputable def multivariateNormal (la : LinAlg) (normal : Key → (r n : ℕ) → Arr2 r n) (key : Key)
    (mean : Fin n → ℝ) (cov : Mat N N) (nSamples : ℕ) : Except Err (Arr2 nSamples n) :=
  if h : n = N then
    let z := normal key nSamples n
    let L := la.cholesky cov
    .ok fun s i => mean i + ∑ j, L (Fin.cast h i) (Fin.cast h j) * z s j
  else .error .valueError

/-- The body of the loop of `sample`, models/utils.py 63-71: the loop variables are `key` and `sample` (unbound before
the first iteration). The list `samples` is never read and is left out. -/
noncomputable def sampleStep (la : LinAlg) (split : Key → Key × Key) (normal : Key → (r n : ℕ) → Arr2 r n)
    (mean : Mat n o) (cov : Mat N N) (nSamples : ℕ) (st : Key × Option (Arr2 nSamples n)) (dim : Fin o) :
    Except Err (Key × Option (Arr2 nSamples n)) :=
  let key := (split st.1).2
  match multivariateNormal la normal key (fun i => mean i dim) cov nSamples with
  | .error e => .error e
  | .ok sample => .ok (key, some sample)

/-- `sample` with a mean of shape `(n, o)`, models/utils.py 55-74. -/
noncomputable def sample (la : LinAlg) (split : Key → Key × Key) (normal : Key → (r n : ℕ) → Arr2 r n) (key : Key)
    (mean : Mat n o) (cov : Mat N N) (nSamples : ℕ) : Except Err (Arr2 nSamples n) :=
  match (List.finRange o).foldlM (sampleStep la split normal mean cov nSamples) (key, none) with
  | .error e => .error e
  | .ok (_, none) => .error .nameError
  | .ok (_, some sample) => .ok sample

/-- `sample` with a mean of shape `(n,)`, models/utils.py 72-74: `n_samples` is not passed on, one draw is returned. -/
noncomputable def sampleVec (la : LinAlg) (normal : Key → (r n : ℕ) → Arr2 r n) (key : Key)
    (mean : Fin n → ℝ) (cov : Mat N N) (_nSamples : ℕ) : Except Err (Fin n → ℝ) :=
  match multivariateNormal la normal key mean cov 1 with
  | .error e => .error e
  | .ok a => .ok (a 0)

/-- `sample_prior`, models/gpr.py 761-780. -/
noncomputable def gprSamplePrior (la : LinAlg) (split : Key → Key × Key) (normal : Key → (r n : ℕ) → Arr2 r n)
    (θ : GPParams) (κ : KernelObj d) (key : Key) (x : Batch n d) (nSamples : ℕ) : Except Err (Arr2 nSamples n) :=
  let mean : Mat n d := 0
  let cov := aLhsNoise θ κ x x
  sample la split normal key mean cov nSamples

/-- `sample_prior_derivs`, models/gpr.py 783-806: the mean has the shape of `x`. -/
noncomputable def gprSamplePriorDerivs (la : LinAlg) (split : Key → Key × Key)
    (normal : Key → (r n : ℕ) → Arr2 r n) (θ : GPParams) (κ : KernelObj d) (key : Key) (x : Batch n d)
    (J : Jac n d v) (nSamples : ℕ) : Except Err (Arr2 nSamples n) :=
  let mean : Mat n d := 0
  let cov := aDerivsLhsNoise θ κ x J x J
  sample la split normal key mean cov nSamples

/-- `sample_posterior`, models/gpr.py 809-832, of a model fitted on targets (the check of `is_fitted` is `fitted`). -/
noncomputable def gprSamplePosterior (la : LinAlg) (split : Key → Key × Key) (normal : Key → (r n : ℕ) → Arr2 r n)
    (θ : GPParams) (κ : KernelObj d) (fitted : Bool) (xTrain : Batch m d) (c : Mat m o) (mu : ℝ) (key : Key)
    (x : Batch n d) (nSamples : ℕ) : Except Err (Arr2 nSamples n) :=
  if !fitted then .error .runtimeError
  else
    let mean := predictDense θ κ xTrain x c mu
    let cov := predictDenseCov la θ κ xTrain x + noiseJitter • (1 : Mat n n)
    sample la split normal key mean cov nSamples

/-- `sample_posterior_derivs`, models/gpr.py 835-860, of a model fitted on derivatives: the mean of
`predict_derivs(…, full_covariance=True)` is flat and its prior mean is `0.0`. -/
noncomputable def gprSamplePosteriorDerivs (la : LinAlg) (split : Key → Key × Key)
    (normal : Key → (r n : ℕ) → Arr2 r n) (θ : GPParams) (κ : KernelObj d) (fitted : Bool) (xTrain : Batch m d)
    (JTrain : Jac m d w) (c : Mat (m * w) 1) (key : Key) (x : Batch n d) (J : Jac n d v) (nSamples : ℕ) :
    Except Err (Arr2 nSamples (n * v)) :=
  if !fitted then .error .runtimeError
  else
    let mean := predictDerivsFlat θ κ xTrain JTrain x J c 0
    let cov := predictDerivsDenseCov la θ κ xTrain JTrain x J + noiseJitter • (1 : Mat (n * v) (n * v))
    sample la split normal key mean cov nSamples

/-- `sample_prior`, models/sgpr.py 564-589 (the same text in models/sgpr_rpchol.py 577-602): `sigma`, not
`sigma**2`, is added to the diagonal. -/
noncomputable def sgprSamplePrior (la : LinAlg) (split : Key → Key × Key) (normal : Key → (r n : ℕ) → Arr2 r n)
    (θ : GPParams) (κ : KernelObj d) (key : Key) (x : Batch n d) (nSamples : ℕ) : Except Err (Arr2 nSamples n) :=
  let mean : Mat n d := 0
  let cov : Mat n n := Matrix.of (κ.k θ.kernelParams x x)
  let cov := cov + θ.sigma • (1 : Mat n n) + noiseJitter • (1 : Mat n n)
  sample la split normal key mean cov nSamples

/-- `sample_prior_derivs`, models/sgpr.py 592-619 (and models/sgpr_rpchol.py 605-632). -/
noncomputable def sgprSamplePriorDerivs (la : LinAlg) (split : Key → Key × Key)
    (normal : Key → (r n : ℕ) → Arr2 r n) (θ : GPParams) (κ : KernelObj d) (key : Key) (x : Batch n d)
    (J : Jac n d v) (nSamples : ℕ) : Except Err (Arr2 nSamples n) :=
  let mean : Mat n d := 0
  let cov : Mat (n * v) (n * v) := Matrix.of (κ.d01kj θ.kernelParams x x J J)
  let cov := cov + θ.sigma • (1 : Mat (n * v) (n * v)) + noiseJitter • (1 : Mat (n * v) (n * v))
  sample la split normal key mean cov nSamples

/-- `sample_posterior`, models/sgpr.py 622-647 (the same text in models/sgpr_rpchol.py 635-658). -/
noncomputable def sgprSamplePosterior (la : LinAlg) (split : Key → Key × Key)
    (normal : Key → (r n : ℕ) → Arr2 r n) (θ : GPParams) (κ : KernelObj d) (fitted : Bool) (xLocs : Batch m d)
    (c : Mat m o) (mu : ℝ) (key : Key) (x : Batch n d) (nSamples : ℕ) : Except Err (Arr2 nSamples n) :=
  if !fitted then .error .runtimeError
  else
    let mean := sgprPredict θ κ xLocs x c mu
    let cov := sgprPredictCov la θ κ xLocs x + noiseJitter • (1 : Mat n n)
    sample la split normal key mean cov nSamples

/-- `sample_posterior_derivs`, models/sgpr.py 650-677 (and models/sgpr_rpchol.py 661-686): here the mean of `predict_derivs` has shape `(n, v)`. -/
noncomputable def sgprSamplePosteriorDerivs (la : LinAlg) (split : Key → Key × Key)
    (normal : Key → (r n : ℕ) → Arr2 r n) (θ : GPParams) (κ : KernelObj d) (fitted : Bool) (xLocs : Batch m d)
    (JLocs : Jac m d w) (c : Mat (m * w) 1) (key : Key) (x : Batch n d) (J : Jac n d v) (nSamples : ℕ) :
    Except Err (Arr2 nSamples n) :=
  if !fitted then .error .runtimeError
  else
    let mean := sgprPredictDerivs θ κ xLocs JLocs x J c 0
    match sgprPredictDerivsCov la θ κ xLocs JLocs x J with
    | .error e => .error e
    | .ok cov => sample la split normal key mean (cov + noiseJitter • (1 : Mat (n * v) (n * v))) nSamples

/-- The dispatch of `BaseGP.sample` and `BaseGP.sample_derivs`, models/base.py 99-128 and 130-161. -/
def sampleKind {α : Type} (kind : String) (prior posterior : Except Err α) : Except Err α :=
  if kind = "prior" then prior else if kind = "posterior" then posterior else .error .valueError

end GPX
