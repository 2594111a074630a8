import Verif.Lemmas.SGPR
import Verif.Spec.SGPR
import Verif.Props.Likelihood

/-!
# C48-C50, C70-C73: sparse Gaussian process regression
-/

namespace GPX.Props
open GPX GPX.Spec

variable {d m n o v w : ℕ} {la : LinAlg}

/-! ## C48 -/

/-- The full claim of C48. For every kernel expression with admissible hyperparameters, inducing points, data and
exact linear algebra: the dense coefficients solve the subset-of-regressors system, and the matrix-free operators
used with `iterative=True` multiply by the matrix of that system, for targets and for derivatives. -/
def C48_full : Prop :=
  ∀ (d : ℕ) (e : KExpr d), ∀ (θ : GPParams), Admissible e θ.kernelParams →
    ∀ (la : LinAlg), la.Exact → ∀ (mf : MeanFun) (m n o v w : ℕ) (xl : Batch m d) (Jl : Jac m d v)
      (x : Batch n d) (J : Jac n d w) (y : Mat n o),
      (∀ a b, ∑ j, sparseEntry e.obj θ xl x a j * (sgprFitDense la θ e.obj mf xl x y).1 j b =
        ∑ i, e.obj.k θ.kernelParams xl x a i * (y i b - mf y)) ∧
      (∀ (z : Mat m o) a b, sgprAxLhs θ e.obj xl x z a b =
        ∑ j, sparseEntry e.obj θ xl x a j * z j b) ∧
      (∀ (z : Mat (m * v) o) a b, sgprAxDerivsLhs θ e.obj xl Jl x J z a b =
        ∑ j, sparseDerivsEntry e.obj θ xl Jl x J a j * z j b)

theorem sgprALhs_entry (θ : GPParams) (κ : KernelObj d) (xl : Batch m d) (x : Batch n d) :
    (sgprALhs θ κ xl x).1 = Matrix.of (sparseEntry κ θ xl x) := by
  ext a b
  simp [sgprALhs, sparseEntry, Matrix.mul_apply, Matrix.one_apply, noiseJitter]

theorem sgprADerivsLhs_entry (θ : GPParams) (κ : KernelObj d) (xl : Batch m d) (Jl : Jac m d v)
    (x : Batch n d) (J : Jac n d w) :
    (sgprADerivsLhs θ κ xl Jl x J).1 = Matrix.of (sparseDerivsEntry κ θ xl Jl x J) := by
  ext a b
  simp [sgprADerivsLhs, sparseDerivsEntry, Matrix.mul_apply, Matrix.one_apply, noiseJitter]

theorem jitter_pos' : 0 < noiseJitter := by unfold noiseJitter; positivity

theorem sparse_posDef {K : Mat m m} (hK : K.PosSemidef) (s : ℝ) (B : Mat m n) :
    (s ^ 2 • K + B * B.transpose + noiseJitter • (1 : Mat m m)).PosDef :=
  posDef_add_smul_one ((hK.smul (sq_nonneg s)).add (gram_posSemidef' B)) jitter_pos'

theorem sgprALhs_posDef (e : KExpr d) (θ : GPParams) (h : Admissible e θ.kernelParams) (xl : Batch m d)
    (x : Batch n d) : (sgprALhs θ e.obj xl x).1.PosDef :=
  sparse_posDef (C22_gram_posSemidef e θ.kernelParams h xl) _ _

/-- **C48**, dense fit: for every kernel expression with admissible hyperparameters, all inducing points (duplicates
allowed), data, noise (`sigma = 0` included), outputs and mean functions, the coefficients stored by `SGPR.fit` solve
`(sigma² K_mm + K_mn K_nm + 1e-10 I) c = K_mn (y - mu)`, and no others do. -/
theorem C48_fit_solves (ex : la.Exact) (e : KExpr d) (θ : GPParams) (h : Admissible e θ.kernelParams)
    (mf : MeanFun) (xl : Batch m d) (x : Batch n d) (y : Mat n o) :
    let c := (sgprFitDense la θ e.obj mf xl x y).1
    let mu := (sgprFitDense la θ e.obj mf xl x y).2
    mu = mf y ∧
    (∀ a b, ∑ j, sparseEntry e.obj θ xl x a j * c j b =
      ∑ i, e.obj.k θ.kernelParams xl x a i * (y i b - mu)) ∧
    (∀ c' : Mat m o, (∀ a b, ∑ j, sparseEntry e.obj θ xl x a j * c' j b =
      ∑ i, e.obj.k θ.kernelParams xl x a i * (y i b - mu)) → c' = c) := by
  intro c mu
  have hp := sgprALhs_posDef e θ h xl x
  have hs : (sgprALhs θ e.obj xl x).1 * c = (sgprALhs θ e.obj xl x).2 * centerBy y mu :=
    ex.solve _ _ (posDef_isUnit hp)
  refine ⟨rfl, fun a b => ?_, fun c' hc' => ?_⟩
  · have := congrFun (congrFun hs a) b
    rwa [sgprALhs_entry, Matrix.mul_apply, Matrix.mul_apply] at this
  · refine solve_unique (posDef_isUnit hp) (b := (sgprALhs θ e.obj xl x).2 * centerBy y mu) ?_ hs
    ext a b
    rw [sgprALhs_entry, Matrix.mul_apply, Matrix.mul_apply]
    exact hc' a b

/-- **C48**, dense fit on derivatives, for kernels whose contracted Hessian Gram matrix at the inducing points is
positive semidefinite (C65). -/
theorem C48_fit_derivs_solves (ex : la.Exact) (κ : KernelObj d) (θ : GPParams) (mf : MeanFun)
    (xl : Batch m d) (Jl : Jac m d v) (x : Batch n d) (J : Jac n d w) (y : Mat n w)
    (h : (Matrix.of (κ.d01kj θ.kernelParams xl xl Jl Jl)).PosSemidef) :
    let c := (sgprFitDerivsDense la θ κ mf xl Jl x J y).1
    let mu := (sgprFitDerivsDense la θ κ mf xl Jl x J y).2
    (∀ a, ∑ j, sparseDerivsEntry κ θ xl Jl x J a j * c j 0 =
      ∑ i, ∑ u, κ.d01kj θ.kernelParams xl x Jl J a (flat i u) * (y i u - mu)) ∧
    (∀ c' : Mat (m * v) 1, (∀ a, ∑ j, sparseDerivsEntry κ θ xl Jl x J a j * c' j 0 =
      ∑ i, ∑ u, κ.d01kj θ.kernelParams xl x Jl J a (flat i u) * (y i u - mu)) → c' = c) := by
  intro c mu
  have hp : (sgprADerivsLhs θ κ xl Jl x J).1.PosDef := sparse_posDef h _ _
  have hs : (sgprADerivsLhs θ κ xl Jl x J).1 * c =
      (sgprADerivsLhs θ κ xl Jl x J).2 * centerBy (flatCol y) mu :=
    ex.solve _ _ (posDef_isUnit hp)
  have hr : ∀ a b, ((sgprADerivsLhs θ κ xl Jl x J).2 * centerBy (flatCol y) mu) a b =
      ∑ i, ∑ u, κ.d01kj θ.kernelParams xl x Jl J a (flat i u) * (y i u - mu) := by
    intro a b
    rw [Matrix.mul_apply, sum_flat]
    simp [sgprADerivsLhs, centerBy, flatCol]
  refine ⟨fun a => ?_, fun c' hc' => ?_⟩
  · rw [← hr a 0, ← hs, sgprADerivsLhs_entry, Matrix.mul_apply]
    rfl
  · refine solve_unique (posDef_isUnit hp)
      (b := (sgprADerivsLhs θ κ xl Jl x J).2 * centerBy (flatCol y) mu) ?_ hs
    ext a b
    rw [hr, ← hc' a, sgprADerivsLhs_entry, Matrix.mul_apply, Fin.eq_zero b]
    rfl

/-- **C48**, matrix-free operators for targets: both sides of the system. -/
theorem C48_matvec (e : KExpr d) (θ : GPParams) (xl : Batch m d) (x : Batch n d) :
    (∀ (z : Mat m o) a b, sgprAxLhs θ e.obj xl x z a b =
      ∑ j, sparseEntry e.obj θ xl x a j * z j b) ∧
    (∀ (z : Mat n o) a b, sgprAxRhs θ e.obj xl x z a b =
      ∑ i, e.obj.k θ.kernelParams xl x a i * z i b) := by
  have h1 := C63_sampleWise e θ.kernelParams
  refine ⟨fun z a b => ?_, fun z a b => ?_⟩
  · rw [sgprAxLhs_eq θ h1 (C21_symmetric e _), sgprALhs_entry, Matrix.mul_apply]
    rfl
  · rw [sgprAxRhs_eq θ h1, Matrix.mul_apply]
    rfl

/-- **C48**, consequence: with a solver that is exact on positive definite systems, the iterative fit and
predictions return what the dense ones return. -/
theorem C48_iterative_eq_dense (ex : la.Exact) (cg : CG) (hcg : CGExact cg) (e : KExpr d)
    (θ : GPParams) (h : Admissible e θ.kernelParams) (mf : MeanFun) (xl : Batch m d) (x : Batch n d)
    (y : Mat n o) :
    sgprFitIter cg θ e.obj mf xl x y = sgprFitDense la θ e.obj mf xl x y ∧
    ∀ {k : ℕ} (xs : Batch k d) (c : Mat m o) (mu : ℝ),
      sgprPredictIter θ e.obj xl xs c mu = sgprPredict θ e.obj xl xs c mu ∧
      ∀ i b, sgprPredict θ e.obj xl xs c mu i b =
        mu + ∑ j, e.obj.k θ.kernelParams xs xl i j * c j b := by
  have h1 := C63_sampleWise e θ.kernelParams
  have hp := sgprALhs_posDef e θ h xl x
  refine ⟨?_, fun xs c mu => ⟨?_, fun i b => ?_⟩⟩
  · have hmv : (sgprAxLhs θ e.obj xl x : Mat m o → Mat m o) =
        fun z : Mat m o => (sgprALhs θ e.obj xl x).1 * z :=
      funext fun z => sgprAxLhs_eq θ h1 (C21_symmetric e _) xl x z
    unfold sgprFitIter
    simp only
    rw [hmv, sgprAxRhs_eq θ h1]
    refine Prod.ext ?_ rfl
    exact solve_unique (posDef_isUnit hp) (hcg _ _ _ hp) (ex.solve _ _ (posDef_isUnit hp))
  · unfold sgprPredictIter sgprPredict
    rw [sgprAxRhs_eq θ h1]
  · simp [sgprPredict, addScalar, Matrix.mul_apply]

/-- What the matrix-free derivative operator multiplies by: the part `K_mn K_nm` has its columns permuted; column `s`
holds the values for inducing point `s % m` and component `s / m`. -/
theorem C48_matvec_derivs_formula (e : KExpr d) (θ : GPParams) (xl : Batch m d)
    (Jl : Jac m d v) (x : Batch n d) (J : Jac n d w) (z : Mat (m * v) o) (a : Fin (m * v)) (b : Fin o) :
    ∃ π : Fin (m * v) → Fin (m * v), (∀ s, (π s).val = (s.val % m) * v + s.val / m) ∧
      sgprAxDerivsLhs θ e.obj xl Jl x J z a b =
        ∑ s, (θ.sigma ^ 2 * e.obj.d01kj θ.kernelParams xl xl Jl Jl a s +
          ∑ i, e.obj.d01kj θ.kernelParams xl x Jl J a i * e.obj.d01kj θ.kernelParams xl x Jl J (π s) i +
          if a = s then 1 / 10 ^ 10 else 0) * z s b := by
  refine ⟨scramble, scramble_val, ?_⟩
  rw [sgprAxDerivsLhs_apply θ (C63_sampleWise e _) (C21_symmetric e _), Matrix.mul_apply]
  refine Finset.sum_congr rfl fun s _ => ?_
  simp [Matrix.mul_apply, Matrix.one_apply, noiseJitter]

/-- **C48** for derivatives, when there is one derivative component or one inducing point. -/
theorem C48_matvec_derivs_partial (e : KExpr d) (θ : GPParams) (xl : Batch m d)
    (Jl : Jac m d v) (x : Batch n d) (J : Jac n d w) (hv : v = 1 ∨ m = 1) (z : Mat (m * v) o) :
    (∀ a b, sgprAxDerivsLhs θ e.obj xl Jl x J z a b =
      ∑ j, sparseDerivsEntry e.obj θ xl Jl x J a j * z j b) ∧
    sgprAxDerivsLhs θ e.obj xl Jl x J z = (sgprADerivsLhs θ e.obj xl Jl x J).1 * z := by
  have key : sgprAxDerivsLhs θ e.obj xl Jl x J z = (sgprADerivsLhs θ e.obj xl Jl x J).1 * z := by
    rw [sgprAxDerivsLhs_apply θ (C63_sampleWise e _) (C21_symmetric e _)]
    have : (scramble : Fin (m * v) → Fin (m * v)) = id := funext (scramble_one hv)
    rw [this]
    rfl
  refine ⟨fun a b => ?_, key⟩
  rw [key, sgprADerivsLhs_entry, Matrix.mul_apply]
  rfl

/-- **C48**, fit on derivatives: iterative and dense agree under the same restriction. -/
theorem C48_fit_derivs_iterative_partial (ex : la.Exact) (cg : CG) (hcg : CGExact cg) (e : KExpr d) (θ : GPParams) (mf : MeanFun) (xl : Batch m d) (Jl : Jac m d v) (x : Batch n d)
    (J : Jac n d w) (y : Mat n w) (hv : v = 1 ∨ m = 1)
    (h : (Matrix.of (e.obj.d01kj θ.kernelParams xl xl Jl Jl)).PosSemidef) :
    sgprFitDerivsIter cg θ e.obj mf xl Jl x J y = sgprFitDerivsDense la θ e.obj mf xl Jl x J y := by
  have hp : (sgprADerivsLhs θ e.obj xl Jl x J).1.PosDef := sparse_posDef h _ _
  have hmv : (sgprAxDerivsLhs θ e.obj xl Jl x J : Mat (m * v) 1 → Mat (m * v) 1) =
      fun z : Mat (m * v) 1 => (sgprADerivsLhs θ e.obj xl Jl x J).1 * z :=
    funext fun z => (C48_matvec_derivs_partial e θ xl Jl x J hv z).2
  unfold sgprFitDerivsIter
  simp only
  rw [hmv, sgprAxDerivsRhs_eq θ (C63_sampleWise e _)]
  refine Prod.ext ?_ rfl
  exact solve_unique (posDef_isUnit hp) (hcg _ _ _ hp) (ex.solve _ _ (posDef_isUnit hp))

/-- Derivative predictions: iterative and dense agree for every number of components. -/
theorem C48_predict_derivs (e : KExpr d) (θ : GPParams) (xl : Batch m d) (Jl : Jac m d w)
    (x : Batch n d) (J : Jac n d v) (c : Mat (m * w) 1) (mu : ℝ) :
    sgprPredictDerivsIter θ e.obj xl Jl x J c mu = sgprPredictDerivs θ e.obj xl Jl x J c mu ∧
    (∀ i u, sgprPredictDerivs θ e.obj xl Jl x J c mu i u =
      mu + ∑ s, e.obj.d01kj θ.kernelParams x xl J Jl (flat i u) s * c s 0) ∧
    sgprPredictYDerivsIter θ e.obj xl Jl x c mu = sgprPredictYDerivs θ e.obj xl Jl x c mu ∧
    (∀ i, sgprPredictYDerivs θ e.obj xl Jl x c mu i 0 =
      mu + ∑ s, e.obj.d0kj θ.kernelParams xl x Jl s i * c s 0) := by
  refine ⟨?_, fun i u => ?_, ?_, fun i => ?_⟩
  · unfold sgprPredictDerivsIter sgprPredictDerivs
    rw [sgprAxDerivsRhs_eq θ (C63_sampleWise e _)]
  · simp [sgprPredictDerivs, unflatCol, addScalar, Matrix.mul_apply, prod_flat]
  · exact predictYDerivsIter_eq e θ xl Jl x c mu
  · simp [sgprPredictYDerivs, addScalar, Matrix.mul_apply]

/-- **C32** for SGPR: without `Matern52`, predictions of derivatives and of values from the contracted coefficients
`jaccoef` are the predictions without them. (With `Matern52` the claim is false, `C32_false`.) -/
theorem C32_sparse_coef_partial (e : KExpr d) (hm : NoMatern52 e) (θ : GPParams) (xl : Batch m d)
    (Jl : Jac m d w) (x : Batch n d) (J : Jac n d v) (c : Mat (m * w) 1) (mu : ℝ) :
    sgprPredictDerivsCoef θ e.obj xl x J mu (jaccoef (fun s u => c (flat s u) 0) Jl) =
      sgprPredictDerivs θ e.obj xl Jl x J c mu ∧
    sgprPredictYDerivsCoef θ e.obj xl x mu (jaccoef (fun s u => c (flat s u) 0) Jl) =
      sgprPredictYDerivs θ e.obj xl Jl x c mu := by
  have hc := C20_library_partial e hm θ.kernelParams
  refine ⟨(predictDerivsCoef_eq θ hc xl Jl x J c mu).trans ?_, predictYDerivsCoef_eq θ hc xl Jl x c mu⟩
  unfold predictDerivsDense predictDerivsFlat sgprPredictDerivs
  have : (Matrix.of (e.obj.d01kj θ.kernelParams x xl J Jl) : Mat (n * v) (m * w)) =
      (aDerivsLhs θ e.obj xl Jl x J).transpose := by
    ext i j; exact (C21_symmetric e θ.kernelParams).d01kj x xl J Jl i j
  rw [this]

/-- Non-vacuity: a product of a `SquaredExponential` and a `Matern32` kernel. -/
example : NoMatern52 (.prod (.squaredExponential (some ⟨2, ![1, 1]⟩)) (.matern32 none) : KExpr 3) := ⟨trivial, trivial⟩

/-- The witness: linear kernel, one feature, two inducing points with jacobians `[1, 1]` and `[0, 0]`. -/
private def wJl : Jac 2 1 2 := fun i _ _ => if i = 0 then 1 else 0

theorem linear_d01kj {n m v w : ℕ} (p : KPar) (x1 : Batch n 1) (x2 : Batch m 1) (J1 : Jac n 1 v)
    (J2 : Jac m 1 w) (i : Fin n) (u : Fin v) (j : Fin m) (t : Fin w) :
    (KExpr.linear none : KExpr 1).obj.d01kj p x1 x2 J1 J2 (flat i u) (flat j t) =
      J1 i 0 u * J2 j 0 t := by
  have hc := closed_linear (none : Option (Dims 1)) trivial p
  change (KernelObj.linear none).d01kj p x1 x2 J1 J2 (flat i u) (flat j t) = _
  rw [hc.d01kj]
  simp only [Core.linear, Dims.resolve, Dims.all]
  simp
  exact Fin.sum_univ_one _

/-- The full claim is false: with two derivative components and two inducing points the matrix-free operator
multiplies by a matrix with permuted columns. -/
theorem C48_false : ¬ C48_full := by
  intro h
  have h1 := (h 1 (.linear none) ⟨fun _ => 1, 0⟩ trivial LinAlg.ideal LinAlg.ideal_exact zeroMean
    2 1 1 2 2 (fun _ _ => 0) wJl (fun _ _ => 0) (fun _ _ _ => 1) 0).2.2
    (Matrix.of fun s _ => if s = (1 : Fin 4) then 1 else 0) (0 : Fin 4) 0
  obtain ⟨π, hπ, h2⟩ := C48_matvec_derivs_formula (.linear none : KExpr 1) ⟨fun _ => 1, 0⟩
    (fun _ _ => 0) wJl (fun _ _ => 0 : Batch 1 1) (fun _ _ _ => 1 : Jac 1 1 2)
    (Matrix.of fun s (_ : Fin 1) => if s = (1 : Fin 4) then 1 else 0) (0 : Fin 4) 0
  rw [h2] at h1
  have hp1 : π (1 : Fin 4) = flat (1 : Fin 2) (0 : Fin 2) := Fin.ext (hπ (1 : Fin 4))
  have e0 : (0 : Fin 4) = flat (0 : Fin 2) (0 : Fin 2) := rfl
  have e1 : (1 : Fin 4) = flat (0 : Fin 2) (1 : Fin 2) := rfl
  simp only [sparseDerivsEntry, Matrix.of_apply, mul_ite, mul_one, mul_zero, Finset.sum_ite_eq',
    Finset.mem_univ, if_true, hp1] at h1
  rw [e0, e1] at h1
  simp only [sum_flat, linear_d01kj, wJl] at h1
  simp at h1

/-- **C48**, operator of the iterative likelihood: it multiplies by `K_nm (K_mm + 1e-10)⁻¹ K_mn + sigma² + 1e-10`. -/
theorem C48_likelihood_operator (ex : la.Exact) (e : KExpr d) (θ : GPParams)
    (h : Admissible e θ.kernelParams) (xl : Batch m d) (x : Batch n d) (z : Mat n o) :
    sgprHx la θ e.obj xl x z = sparseCov e.obj θ xl x * z := by
  rw [sgprHx_eq θ (C63_sampleWise e _) (C21_symmetric e _), ex.inv_eq (posDef_isUnit
    (posDef_add_smul_one (C22_gram_posSemidef e θ.kernelParams h xl) jitter_pos'))]
  rfl

/-- The same for derivatives, with one component or one sample. -/
theorem C48_likelihood_operator_derivs_partial (ex : la.Exact) (e : KExpr d) (θ : GPParams)
    (xl : Batch m d) (Jl : Jac m d v) (x : Batch n d) (J : Jac n d v) (hv : v = 1 ∨ n = 1)
    (h : (Matrix.of (e.obj.d01kj θ.kernelParams xl xl Jl Jl)).PosSemidef) (z : Mat (n * v) o) :
    sgprHxDerivs la θ e.obj xl Jl x J z =
      ((Matrix.of (e.obj.d01kj θ.kernelParams xl x Jl J) : Mat (m * v) (n * v)).transpose *
        (Matrix.of (e.obj.d01kj θ.kernelParams xl xl Jl Jl) +
          (1 / 10 ^ 10 : ℝ) • (1 : Mat (m * v) (m * v)))⁻¹ *
        Matrix.of (e.obj.d01kj θ.kernelParams xl x Jl J) +
          (θ.sigma ^ 2 + 1 / 10 ^ 10) • (1 : Mat (n * v) (n * v))) * z := by
  rw [sgprHxDerivs_apply θ (C63_sampleWise e _) (C21_symmetric e _), ex.inv_eq (posDef_isUnit
    (posDef_add_smul_one h jitter_pos'))]
  have : (scramble : Fin (n * v) → Fin (n * v)) = id := funext (scramble_one hv)
  rw [this]
  rfl

/-! ## C49 -/

/-- The full claim of C49: the covariance of `SGPR.predict(full_covariance=True)` for a model trained on inputs `t`
is that of the projected process. -/
def C49_full : Prop :=
  ∀ (d : ℕ) (e : KExpr d), ∀ (θ : GPParams), Admissible e θ.kernelParams →
    ∀ (la : LinAlg), la.Exact → ∀ (m n N : ℕ) (xl : Batch m d) (t : Batch N d) (x : Batch n d),
      sgprPredictCov la θ e.obj xl x = projectedCov e.obj θ xl t x

/-- **C49** when the prediction points are the training inputs. -/
theorem C49_at_training_inputs_partial (ex : la.Exact) (e : KExpr d) (θ : GPParams)
    (h : Admissible e θ.kernelParams) (xl : Batch m d) (x : Batch n d) :
    sgprPredictCov la θ e.obj xl x = projectedCov e.obj θ xl x x := by
  unfold sgprPredictCov projectedCov
  simp only
  rw [ex.gram (sgprALhs_posDef e θ h xl x), ex.gram (posDef_add_smul_one
    (C22_gram_posSemidef e θ.kernelParams h xl) jitter_pos'), sgprALhs_entry]
  rfl

/-- **C49**, what holds everywhere: the returned covariance is symmetric positive semidefinite, and at most the prior
covariance plus `sigma²` times the identity-free correction; in particular variances are non-negative. -/
theorem C49_covariance_posSemidef (ex : la.Exact) (e : KExpr d) (θ : GPParams)
    (h : Admissible e θ.kernelParams) (xl : Batch m d) (x : Batch n d) :
    (sgprPredictCov la θ e.obj xl x).PosSemidef ∧ ∀ i, 0 ≤ sgprPredictCov la θ e.obj xl x i i := by
  have key : (sgprPredictCov la θ e.obj xl x).PosSemidef := by
    have hp := sgprALhs_posDef e θ h xl x
    have hk := posDef_add_smul_one (C22_gram_posSemidef e θ.kernelParams h xl) jitter_pos'
    unfold sgprPredictCov
    simp only
    rw [ex.gram hp, ex.gram hk]
    exact (schur_psd hk _ _ (blocks_noise jitter_pos'.le (joint_psd e θ.kernelParams h xl x))).add
      ((psd_sandwich hp.inv.posSemidef _).smul (sq_nonneg θ.sigma))
  exact ⟨key, fun i => key.diag_nonneg⟩

theorem linear_k {n m : ℕ} (p : KPar) (x1 : Batch n 1) (x2 : Batch m 1) (i : Fin n) (j : Fin m) :
    (KExpr.linear none : KExpr 1).obj.k p x1 x2 i j = x1 i 0 * x2 j 0 := by
  have hc := closed_linear (none : Option (Dims 1)) trivial p
  change (KernelObj.linear none).k p x1 x2 i j = _
  rw [hc.k]
  simp only [Core.linear, Dims.resolve, Dims.all]
  exact Fin.sum_univ_one _

/-- The full claim is false: the returned covariance does not depend on the training inputs at all. Linear kernel,
one inducing point and one prediction point at `1`, one training input at `0` or at `1`. -/
theorem C49_false : ¬ C49_full := by
  intro h
  have h1 := fun t : ℝ => h 1 (.linear none) ⟨fun _ => 1, 1⟩ trivial LinAlg.ideal LinAlg.ideal_exact
    1 1 1 (fun _ _ => 1) (fun _ _ => t) (fun _ _ => 1)
  have h2 := congrFun (congrFun ((h1 0).symm.trans (h1 1)) 0) 0
  simp only [projectedCov, Matrix.add_apply, Matrix.smul_apply, smul_eq_mul, add_right_inj,
    Matrix.inv_subsingleton, Matrix.mul_apply, Matrix.transpose_apply, Matrix.diagonal_apply,
    Finset.univ_unique, Finset.sum_singleton, Matrix.of_apply, sparseEntry, linear_k] at h2
  norm_num at h2

/-! ## C50 -/

/-- The full claim of C50: with `full_covariance=True` (no contracted coefficients are then passed) both sparse models
return a covariance with the mean. -/
def C50_full : Prop :=
  ∀ (d : ℕ) (e : KExpr d), ∀ (θ : GPParams), Admissible e θ.kernelParams →
    ∀ (la : LinAlg), la.Exact → ∀ (m n w : ℕ) (xl : Batch m d) (Jl : Jac m d w) (x : Batch n d)
      (c : Mat (m * w) 1) (mu : ℝ),
      (∃ mean C, sgprPredictYDerivsDense la θ e.obj xl Jl x c mu (fullCovariance := true) =
        .ok (mean, some C)) ∧
      (∃ mean C, rpcPredictYDerivsDense la θ e.obj xl Jl x c mu (_fullCovariance := true) =
        .ok (mean, some C))

/-- What `SGPR_RPChol.predict_y_derivs` does: the flag is ignored, the mean alone is returned, and it is the mean
of the dense formula. For every kernel object and input. -/
theorem C50_rpchol_ignores_flag (la : LinAlg) (κ : KernelObj d) (θ : GPParams) (xl : Batch m d) (Jl : Jac m d w)
    (x : Batch n d) (c : Mat (m * w) 1) (mu : ℝ) (flag : Bool) :
    ∃ mean : Mat n 1, rpcPredictYDerivsDense la θ κ xl Jl x c mu flag = .ok (mean, none) ∧
      ∀ i, mean i 0 = mu + ∑ s : Fin (m * w), κ.d0kj θ.kernelParams xl x Jl s i * c s 0 := by
  refine ⟨_, rfl, fun i => ?_⟩
  simp [sgprPredictYDerivs, addScalar, Matrix.mul_apply]

/-- The full claim is false for every input whatsoever. -/
theorem C50_false : ¬ C50_full := by
  intro h
  obtain ⟨mean, C, h1⟩ := (h 1 (.linear none) ⟨fun _ => 1, 1⟩ trivial LinAlg.ideal LinAlg.ideal_exact
    1 1 1 (fun _ _ => 1) (fun _ _ _ => 1) (fun _ _ => 1) 0 0).2
  obtain ⟨mean', h2, -⟩ := C50_rpchol_ignores_flag LinAlg.ideal (KExpr.linear none : KExpr 1).obj ⟨fun _ => 1, 1⟩
    (fun _ _ => 1 : Batch 1 1) (fun _ _ _ => 1 : Jac 1 1 1) (fun _ _ => 1 : Batch 1 1) 0 0 true
  have := Except.ok.inj (h1.symm.trans h2)
  exact Option.some_ne_none C (Prod.mk.inj this).2

/-- **C50** for SGPR with one derivative component: the flag is honoured, the mean is the one returned without the
flag, and the covariance is `k(x, x) - k(x, dX) (k(dX, dX) + sigma² I)⁻¹ k(dX, x)` whenever that system is positive
definite. -/
theorem C50_sgpr_partial (ex : la.Exact) (κ : KernelObj d) (θ : GPParams) (xl : Batch m d) (Jl : Jac m d 1)
    (x : Batch n d) (c : Mat (m * 1) 1) (mu : ℝ)
    (h : (Matrix.of (κ.d01kj θ.kernelParams xl xl Jl Jl) + θ.sigma ^ 2 • (1 : Mat (m * 1) (m * 1))).PosDef) :
    sgprPredictYDerivsDense la θ κ xl Jl x c mu (fullCovariance := true) =
      .ok (sgprPredictYDerivs θ κ xl Jl x c mu, some (Matrix.of (κ.k θ.kernelParams x x) -
        (Matrix.of (κ.d0kj θ.kernelParams xl x Jl) : Mat (m * 1) n).transpose *
          (Matrix.of (κ.d01kj θ.kernelParams xl xl Jl Jl) + θ.sigma ^ 2 • (1 : Mat (m * 1) (m * 1)))⁻¹ *
          Matrix.of (κ.d0kj θ.kernelParams xl x Jl))) := by
  have hc : sgprPredictYDerivsCov la θ κ xl Jl x = .ok (Matrix.of (κ.k θ.kernelParams x x) -
        (Matrix.of (κ.d0kj θ.kernelParams xl x Jl) : Mat (m * 1) n).transpose *
          (Matrix.of (κ.d01kj θ.kernelParams xl xl Jl Jl) + θ.sigma ^ 2 • (1 : Mat (m * 1) (m * 1)))⁻¹ *
          Matrix.of (κ.d0kj θ.kernelParams xl x Jl)) := by
    unfold sgprPredictYDerivsCov addEye
    simp only [mul_one, if_true]
    change Except.ok _ = _
    rw [ex.gram h]
  unfold sgprPredictYDerivsDense
  simp only [hc, if_true]

/-! ## C70 -/

theorem quad_min {A : Mat m m} (hA : A.PosSemidef) {c b : Fin m → ℝ} (hc : A.mulVec c = b) (c' : Fin m → ℝ) :
    dotProduct c (A.mulVec c) - 2 * dotProduct b c ≤
      dotProduct c' (A.mulVec c') - 2 * dotProduct b c' := by
  have h := hA.dotProduct_mulVec_nonneg (c' - c)
  have hs : dotProduct c (A.mulVec c') = dotProduct b c' := by
    rw [Matrix.dotProduct_mulVec, ← Matrix.mulVec_transpose, posDef_transpose hA, hc]
  simp only [star_trivial, Matrix.mulVec_sub, sub_dotProduct, dotProduct_sub] at h
  rw [hs, hc, dotProduct_comm c' b, dotProduct_comm c b] at h
  rw [hc, dotProduct_comm c b]
  linarith

theorem sparse_loss (K : Mat m m) (B : Mat m n) (s ε : ℝ) (r : Fin n → ℝ) (c : Fin m → ℝ) :
    ∑ i, (r i - ∑ j, B j i * c j) ^ 2 + s * ∑ a, ∑ b, c a * K a b * c b + ε * ∑ a, c a ^ 2 =
      dotProduct c ((s • K + B * B.transpose + ε • (1 : Mat m m)).mulVec c) -
        2 * dotProduct (B.mulVec r) c + dotProduct r r := by
  have e1 : ∑ i, (r i - ∑ j, B j i * c j) ^ 2 =
      dotProduct (r - B.transpose.mulVec c) (r - B.transpose.mulVec c) := by
    refine Finset.sum_congr rfl fun i _ => ?_
    rw [sq]; rfl
  have e2 : ∑ a, ∑ b, c a * K a b * c b = dotProduct c (K.mulVec c) := by
    refine Finset.sum_congr rfl fun a _ => ?_
    change _ = c a * ∑ b, K a b * c b
    rw [Finset.mul_sum]
    exact Finset.sum_congr rfl fun b _ => mul_assoc _ _ _
  have e3 : ∑ a, c a ^ 2 = dotProduct c c := Finset.sum_congr rfl fun a _ => sq _
  have e4 : dotProduct (B.transpose.mulVec c) (B.transpose.mulVec c) =
      dotProduct c ((B * B.transpose).mulVec c) := by
    rw [← Matrix.mulVec_mulVec, Matrix.dotProduct_mulVec c B, ← Matrix.mulVec_transpose]
  have e5 : dotProduct r (B.transpose.mulVec c) = dotProduct (B.mulVec r) c := by
    rw [Matrix.dotProduct_mulVec, ← Matrix.mulVec_transpose, Matrix.transpose_transpose]
  rw [e1, e2, e3, sub_dotProduct, dotProduct_sub, dotProduct_sub, e4, e5,
    dotProduct_comm (B.transpose.mulVec c) r, e5, Matrix.add_mulVec, Matrix.add_mulVec,
    Matrix.smul_mulVec, Matrix.smul_mulVec, Matrix.one_mulVec, dotProduct_add, dotProduct_add,
    dotProduct_smul, dotProduct_smul, smul_eq_mul, smul_eq_mul]
  ring

/-- **C70.** For every kernel expression with admissible hyperparameters, data, inducing points and output column,
the coefficients stored by `SGPR.fit` minimise, over all coefficients, the sum of the squared errors of the
predictions at the training points plus `sigma² cᵀ K_mm c + 1e-10 |c|²`. -/
theorem C70_sparse_fit_optimal (ex : la.Exact) (e : KExpr d) (θ : GPParams)
    (h : Admissible e θ.kernelParams) (mf : MeanFun) (xl : Batch m d) (x : Batch n d) (y : Mat n o)
    (c' : Mat m o) (b : Fin o) :
    let c := (sgprFitDense la θ e.obj mf xl x y).1
    let mu := (sgprFitDense la θ e.obj mf xl x y).2
    let loss := fun c : Mat m o =>
      ∑ i, (y i b - sgprPredict θ e.obj xl x c mu i b) ^ 2 +
        θ.sigma ^ 2 * ∑ a, ∑ j, c a b * e.obj.k θ.kernelParams xl xl a j * c j b +
        1 / 10 ^ 10 * ∑ a, c a b ^ 2
    loss c ≤ loss c' := by
  intro c mu loss
  have hp := sgprALhs_posDef e θ h xl x
  have hs : (sgprALhs θ e.obj xl x).1 * c = (sgprALhs θ e.obj xl x).2 * centerBy y mu :=
    ex.solve _ _ (posDef_isUnit hp)
  have hl : ∀ c : Mat m o, loss c = dotProduct (fun a => c a b) ((sgprALhs θ e.obj xl x).1.mulVec fun a => c a b) -
      2 * dotProduct ((sgprALhs θ e.obj xl x).2.mulVec fun i => y i b - mu) (fun a => c a b) +
      dotProduct (fun i => y i b - mu) (fun i => y i b - mu) := by
    intro c
    rw [show (sgprALhs θ e.obj xl x).1 = θ.sigma ^ 2 • (Matrix.of (e.obj.k θ.kernelParams xl xl) : Mat m m) +
      (sgprALhs θ e.obj xl x).2 * (sgprALhs θ e.obj xl x).2.transpose + noiseJitter • (1 : Mat m m) from rfl,
      ← sparse_loss]
    refine congrArg₂ (· + ·) (congrArg₂ (· + ·) (Finset.sum_congr rfl fun i _ => ?_) rfl) rfl
    congr 1
    have : sgprPredict θ e.obj xl x c mu i b = mu + ∑ j, e.obj.k θ.kernelParams xl x j i * c j b := by
      simp only [sgprPredict, addScalar, Matrix.of_apply, Matrix.mul_apply]
      congr 1
      exact Finset.sum_congr rfl fun j _ => by rw [(C21_symmetric e θ.kernelParams).k x xl]
    rw [this]
    simp only [sgprALhs, Matrix.of_apply]
    ring
  rw [hl, hl]
  have hc : (sgprALhs θ e.obj xl x).1.mulVec (fun a => c a b) =
      (sgprALhs θ e.obj xl x).2.mulVec fun i => y i b - mu :=
    funext fun a => congrFun (congrFun hs a) b
  linarith [quad_min hp.posSemidef hc fun a => c' a b]

/-! ## C71 -/

/-- **C71.** For one output column, `n` times the sparse log marginal likelihood is the Gaussian log density of
`y - mu` with covariance `K_nm (K_mm + 1e-10)⁻¹ K_mn + (sigma² + 1e-10) I`; with an exact solver and log-determinant
the iterative version returns the same number. For every kernel expression with admissible hyperparameters, inducing
points and data. -/
theorem C71_sparse_likelihood (ex : la.Exact) (e : KExpr d) (θ : GPParams)
    (h : Admissible e θ.kernelParams) (mf : MeanFun) (xl : Batch m d) (x : Batch n d) (y : Mat n 1) :
    n * sgprLmlDense la θ e.obj mf xl x y =
      Real.log (gaussDensity (sparseCov e.obj θ xl x) fun i => y i 0 - mf y) ∧
    ∀ (cg : CG), CGExact cg → ∀ (logdetFun : (Mat n 1 → Mat n 1) → ℝ),
      (∀ A : Mat n n, A.PosDef → logdetFun (fun z : Mat n 1 => A * z) = Real.log A.det) →
      sgprLmlIter la cg logdetFun θ e.obj mf xl x y = sgprLmlDense la θ e.obj mf xl x y := by
  have hk := posDef_add_smul_one (C22_gram_posSemidef e θ.kernelParams h xl) jitter_pos'
  have hp : (sparseCov e.obj θ xl x).PosDef :=
    posDef_add_smul_one (psd_sandwich (show ((Matrix.of (e.obj.k θ.kernelParams xl xl) : Mat m m) +
      (1 / 10 ^ 10 : ℝ) • (1 : Mat m m))⁻¹.PosSemidef from hk.inv.posSemidef) _) (by positivity)
  have e1 : sgprLmlDense la θ e.obj mf xl x y = lmlTail la (sparseCov e.obj θ xl x) (centerBy y (mf y)) := by
    unfold sgprLmlDense
    simp only
    rw [ex.gram hk, add_assoc, ← add_smul]
    rfl
  refine ⟨?_, ?_⟩
  · rw [e1, lmlTail_eq hp ex, log_gaussDensity hp]
    simp only [Finset.univ_unique, Finset.sum_singleton]
    rfl
  · intro cg hcg logdetFun hl
    have hmv : (sgprHx la θ e.obj xl x : Mat n 1 → Mat n 1) = fun z : Mat n 1 => sparseCov e.obj θ xl x * z :=
      funext fun z => C48_likelihood_operator ex e θ h xl x z
    unfold sgprLmlIter
    simp only
    have hsol : cg (fun z : Mat n 1 => sparseCov e.obj θ xl x * z) (centerBy y (mf y)) id =
        (sparseCov e.obj θ xl x)⁻¹ * centerBy y (mf y) :=
      (solve_unique (posDef_isUnit hp) (hcg _ _ _ hp) (ex.solve _ _ (posDef_isUnit hp))).trans
        (ex.solve_eq (posDef_isUnit hp) _)
    rw [e1, hmv, hl _ hp, hsol]
    unfold lmlIterTail lmlTail
    simp only
    rw [quad_sum hp ex, ex.logdet hp]
    simp only [Finset.univ_unique, Finset.sum_singleton, Matrix.mul_apply, Matrix.transpose_apply,
      Finset.mul_sum]
    simp only [mul_assoc]

/-! ## C72 -/

/-- The full claim of C72: the derivative covariances and the derivative likelihood of SGPR are defined for every
number of derivative components and inducing points. -/
def C72_full : Prop :=
  ∀ (d : ℕ) (e : KExpr d), ∀ (θ : GPParams), Admissible e θ.kernelParams →
    ∀ (la : LinAlg), la.Exact → ∀ (mf : MeanFun) (m n v : ℕ) (xl : Batch m d) (Jl : Jac m d v) (x : Batch n d)
      (J : Jac n d v) (y : Mat n v),
      (∃ C, sgprPredictDerivsCov la θ e.obj xl Jl x J = .ok C) ∧
      (∃ C, sgprPredictYDerivsCov la θ e.obj xl Jl x = .ok C) ∧
      (∃ l, sgprLmlDerivsDense la θ e.obj mf xl Jl x J y = .ok l)

/-- What happens with several components and several inducing points: all three raise, for every kernel and every
data (and for flattened targets as well). -/
theorem C72_raises (la : LinAlg) (κ : KernelObj d) (θ : GPParams) (mf : MeanFun) (xl : Batch m d) (Jl : Jac m d v)
    (x : Batch n d) (J : Jac n d v) {r : ℕ} (y : Mat r o) (hv : 2 ≤ v) (hm : 2 ≤ m) :
    sgprPredictDerivsCov la θ κ xl Jl x J = .error .typeError ∧
    sgprPredictYDerivsCov la θ κ xl Jl x = .error .typeError ∧
    sgprLmlDerivsDense la θ κ mf xl Jl x J y = .error .typeError := by
  have h1 : m ≠ m * v := by nlinarith
  have h2 : m ≠ 1 := by omega
  have key : ∀ (A : Mat (m * v) (m * v)) (c : ℝ), addEye A c m = .error .typeError := by
    intro A c; simp [addEye, h1, h2]
  refine ⟨?_, ?_, ?_⟩
  · simp only [sgprPredictDerivsCov, key]; rfl
  · simp only [sgprPredictYDerivsCov, key]; rfl
  · simp only [sgprLmlDerivsDense, key]; rfl

/-- The likelihood raises for targets of shape `(n, v)` with `v ≥ 2` and at least one sample, whatever the number of
inducing points. -/
theorem C72_likelihood_raises (la : LinAlg) (κ : KernelObj d) (θ : GPParams) (mf : MeanFun) (xl : Batch m d)
    (Jl : Jac m d v) (x : Batch n d) (J : Jac n d v) (y : Mat n v) (hv : 2 ≤ v) (hn : 1 ≤ n) :
    sgprLmlDerivsDense la θ κ mf xl Jl x J y = .error .typeError := by
  have h1 : n ≠ n * v := by nlinarith
  have key : ∀ {N k : ℕ} (A : Mat N N) (c : ℝ),
      (∃ B, addEye A c k = .ok B) ∨ addEye A c k = .error .typeError := by
    intro N k A c
    unfold addEye
    split_ifs
    exacts [.inl ⟨_, rfl⟩, .inl ⟨_, rfl⟩, .inr rfl]
  unfold sgprLmlDerivsDense
  simp only
  rcases key (k := m) (Matrix.of (κ.d01kj θ.kernelParams xl xl Jl Jl)) noiseJitter with ⟨B, hB⟩ | hB
  · rw [hB]
    simp only [bind, Except.bind]
    rcases key (k := n) ((la.solveLower (la.cholesky B) (Matrix.of (κ.d01kj θ.kernelParams xl x Jl J))).transpose *
      la.solveLower (la.cholesky B) (Matrix.of (κ.d01kj θ.kernelParams xl x Jl J))) (θ.sigma ^ 2) with ⟨C, hC⟩ | hC
    · rw [hC]
      simp only
      rcases key (k := n) C noiseJitter with ⟨D, hD⟩ | hD
      · rw [hD]
        simp only
        rw [dif_neg h1]
      · rw [hD]
    · rw [hC]
  · rw [hB]; rfl

theorem C72_false : ¬ C72_full := by
  intro h
  obtain ⟨C, hC⟩ := (h 1 (.linear none) ⟨fun _ => 1, 1⟩ trivial LinAlg.ideal LinAlg.ideal_exact zeroMean
    2 1 2 (fun _ _ => 1) (fun _ _ _ => 1) (fun _ _ => 1) (fun _ _ _ => 1) 0).1
  rw [(C72_raises LinAlg.ideal _ _ zeroMean (fun _ _ => 1 : Batch 2 1) (fun _ _ _ => 1 : Jac 2 1 2)
    (fun _ _ => 1 : Batch 1 1) (fun _ _ _ => 1 : Jac 1 1 2) (0 : Mat 1 2) le_rfl le_rfl).1] at hC
  cases hC

/-- **C72** with one derivative component: the likelihood is defined and `n` times it is the Gaussian log density
with the sparse covariance; the derivative covariance is defined and positive semidefinite whenever the joint
derivative Gram matrix is. -/
theorem C72_one_component_partial (ex : la.Exact) (κ : KernelObj d) (θ : GPParams) (mf : MeanFun) (xl : Batch m d)
    (Jl : Jac m d 1) (x : Batch n d) (J : Jac n d 1) (y : Mat (n * 1) 1)
    (h : (Matrix.fromBlocks (Matrix.of (κ.d01kj θ.kernelParams xl xl Jl Jl))
      (Matrix.of (κ.d01kj θ.kernelParams xl x Jl J)) (Matrix.of (κ.d01kj θ.kernelParams xl x Jl J)).transpose
      (Matrix.of (κ.d01kj θ.kernelParams x x J J))).PosSemidef) :
    (∃ C, sgprPredictDerivsCov la θ κ xl Jl x J = .ok C ∧ C.PosSemidef) ∧
    (∃ l, sgprLmlDerivsDense la θ κ mf xl Jl x J y = .ok l ∧
      ((n * 1 : ℕ) : ℝ) * l = Real.log (gaussDensity
        ((Matrix.of (κ.d01kj θ.kernelParams xl x Jl J) : Mat (m * 1) (n * 1)).transpose *
          (Matrix.of (κ.d01kj θ.kernelParams xl xl Jl Jl) + (1 / 10 ^ 10 : ℝ) • (1 : Mat (m * 1) (m * 1)))⁻¹ *
          Matrix.of (κ.d01kj θ.kernelParams xl x Jl J) + (θ.sigma ^ 2 + 1 / 10 ^ 10) • (1 : Mat (n * 1) (n * 1)))
        fun i => y i 0 - mf y)) := by
  have hK : (Matrix.of (κ.d01kj θ.kernelParams xl xl Jl Jl)).PosSemidef := by
    have := h.submatrix (Sum.inl : Fin (m * 1) → _)
    exact this
  have hk := posDef_add_smul_one hK jitter_pos'
  have hp : (sgprADerivsLhs θ κ xl Jl x J).1.PosDef := sparse_posDef hK _ _
  refine ⟨⟨Matrix.of (κ.d01kj θ.kernelParams x x J J) -
      (Matrix.of (κ.d01kj θ.kernelParams xl x Jl J) : Mat (m * 1) (n * 1)).transpose *
        (Matrix.of (κ.d01kj θ.kernelParams xl xl Jl Jl) + noiseJitter • (1 : Mat (m * 1) (m * 1)))⁻¹ *
        Matrix.of (κ.d01kj θ.kernelParams xl x Jl J) + θ.sigma ^ 2 •
      ((Matrix.of (κ.d01kj θ.kernelParams xl x Jl J) : Mat (m * 1) (n * 1)).transpose *
        (sgprADerivsLhs θ κ xl Jl x J).1⁻¹ * Matrix.of (κ.d01kj θ.kernelParams xl x Jl J)), ?_, ?_⟩, ?_⟩
  · unfold sgprPredictDerivsCov addEye
    simp only [mul_one, if_true]
    change Except.ok _ = _
    rw [ex.gram hk, ex.gram hp]
    rfl
  · exact (schur_psd hk _ _ (blocks_noise jitter_pos'.le h)).add
      ((psd_sandwich hp.inv.posSemidef _).smul (sq_nonneg θ.sigma))
  · obtain ⟨C, hC⟩ : ∃ C : Mat (n * 1) (n * 1), C =
        (Matrix.of (κ.d01kj θ.kernelParams xl x Jl J) : Mat (m * 1) (n * 1)).transpose *
          (Matrix.of (κ.d01kj θ.kernelParams xl xl Jl Jl) + (1 / 10 ^ 10 : ℝ) • (1 : Mat (m * 1) (m * 1)))⁻¹ *
          Matrix.of (κ.d01kj θ.kernelParams xl x Jl J) +
            (θ.sigma ^ 2 + 1 / 10 ^ 10) • (1 : Mat (n * 1) (n * 1)) := ⟨_, rfl⟩
    have hCp : C.PosDef := by
      rw [hC]
      exact posDef_add_smul_one (psd_sandwich (show ((Matrix.of (κ.d01kj θ.kernelParams xl xl Jl Jl) :
        Mat (m * 1) (m * 1)) + (1 / 10 ^ 10 : ℝ) • (1 : Mat (m * 1) (m * 1)))⁻¹.PosSemidef from
          hk.inv.posSemidef) _) (by positivity)
    refine ⟨lmlTail la C (centerBy y (mf y)), ?_, ?_⟩
    · have hm : m = m * 1 := (mul_one m).symm
      unfold sgprLmlDerivsDense addEye
      simp only [← hm, if_true]
      change Except.ok (lmlTail la ((la.solveLower (la.cholesky (Matrix.of (κ.d01kj θ.kernelParams xl xl Jl Jl) +
        noiseJitter • (1 : Mat (m * 1) (m * 1)))) (Matrix.of (κ.d01kj θ.kernelParams xl x Jl J))).transpose *
        la.solveLower (la.cholesky (Matrix.of (κ.d01kj θ.kernelParams xl xl Jl Jl) +
        noiseJitter • (1 : Mat (m * 1) (m * 1)))) (Matrix.of (κ.d01kj θ.kernelParams xl x Jl J)) +
        θ.sigma ^ 2 • (1 : Mat (n * 1) (n * 1)) + noiseJitter • (1 : Mat (n * 1) (n * 1))) _) = _
      rw [ex.gram hk, add_assoc, ← add_smul, hC]
      rfl
    · rw [← hC, lmlTail_eq hCp ex, log_gaussDensity hCp]
      simp only [Finset.univ_unique, Finset.sum_singleton]
      rfl

/-- **C72**, iterative version, with one derivative component or one sample: with an exact solver and log-determinant
the number of data times the likelihood is the Gaussian log density with the sparse covariance of the derivatives. -/
theorem C72_iterative_partial (ex : la.Exact) (cg : CG) (hcg : CGExact cg) (e : KExpr d)
    (θ : GPParams) (mf : MeanFun) (xl : Batch m d) (Jl : Jac m d v) (x : Batch n d) (J : Jac n d v) (y : Mat n v)
    (hv : v = 1 ∨ n = 1) (h : (Matrix.of (e.obj.d01kj θ.kernelParams xl xl Jl Jl)).PosSemidef)
    (logdetFun : (Mat (n * v) 1 → Mat (n * v) 1) → ℝ)
    (hl : ∀ A : Mat (n * v) (n * v), A.PosDef →
      logdetFun (fun z : Mat (n * v) 1 => A * z) = Real.log A.det) :
    ((n * v : ℕ) : ℝ) * sgprLmlDerivsIter la cg logdetFun θ e.obj mf xl Jl x J y =
      Real.log (gaussDensity
        ((Matrix.of (e.obj.d01kj θ.kernelParams xl x Jl J) : Mat (m * v) (n * v)).transpose *
          (Matrix.of (e.obj.d01kj θ.kernelParams xl xl Jl Jl) + (1 / 10 ^ 10 : ℝ) • (1 : Mat (m * v) (m * v)))⁻¹ *
          Matrix.of (e.obj.d01kj θ.kernelParams xl x Jl J) + (θ.sigma ^ 2 + 1 / 10 ^ 10) • (1 : Mat (n * v) (n * v)))
        fun r => y r.divNat r.modNat - mf (flatCol y)) := by
  obtain ⟨C, hC⟩ : ∃ C : Mat (n * v) (n * v), C =
      (Matrix.of (e.obj.d01kj θ.kernelParams xl x Jl J) : Mat (m * v) (n * v)).transpose *
        (Matrix.of (e.obj.d01kj θ.kernelParams xl xl Jl Jl) + (1 / 10 ^ 10 : ℝ) • (1 : Mat (m * v) (m * v)))⁻¹ *
        Matrix.of (e.obj.d01kj θ.kernelParams xl x Jl J) +
          (θ.sigma ^ 2 + 1 / 10 ^ 10) • (1 : Mat (n * v) (n * v)) := ⟨_, rfl⟩
  have hk := posDef_add_smul_one h jitter_pos'
  have hp : C.PosDef := by
    rw [hC]
    exact posDef_add_smul_one (psd_sandwich (show ((Matrix.of (e.obj.d01kj θ.kernelParams xl xl Jl Jl) :
      Mat (m * v) (m * v)) + (1 / 10 ^ 10 : ℝ) • (1 : Mat (m * v) (m * v)))⁻¹.PosSemidef from
        hk.inv.posSemidef) _) (by positivity)
  have hmv : (sgprHxDerivs la θ e.obj xl Jl x J : Mat (n * v) 1 → Mat (n * v) 1) =
      fun z : Mat (n * v) 1 => C * z := by
    funext z
    rw [C48_likelihood_operator_derivs_partial ex e θ xl Jl x J hv h z, hC]
  have hsol : cg (fun z : Mat (n * v) 1 => C * z) (centerBy (flatCol y) (mf (flatCol y))) id =
      C⁻¹ * centerBy (flatCol y) (mf (flatCol y)) :=
    (solve_unique (posDef_isUnit hp) (hcg _ _ _ hp) (ex.solve _ _ (posDef_isUnit hp))).trans
      (ex.solve_eq (posDef_isUnit hp) _)
  have e1 : sgprLmlDerivsIter la cg logdetFun θ e.obj mf xl Jl x J y =
      lmlTail la C (centerBy (flatCol y) (mf (flatCol y))) := by
    unfold sgprLmlDerivsIter
    simp only
    rw [hmv, hl _ hp, hsol]
    unfold lmlIterTail lmlTail
    simp only
    rw [quad_sum hp ex, ex.logdet hp]
    simp only [Finset.univ_unique, Finset.sum_singleton, Matrix.mul_apply, Matrix.transpose_apply,
      Finset.mul_sum]
    simp only [mul_assoc]
  rw [e1, ← hC, lmlTail_eq hp ex, log_gaussDensity hp]
  simp only [Finset.univ_unique, Finset.sum_singleton]
  rfl

/-! ## C73 -/

/-- **C73.** For every kernel object, dataset with at least two samples, key and number of inducing points,
`SGPR_RPChol.fit` succeeds, its inducing points are training samples, they are the same in the dense and the iterative
version and in the likelihood, and coefficients, mean and likelihood are those of SGPR with these inducing points. -/
theorem C73_rpchol_is_sgpr (la : LinAlg) (cg : CG) {Key : Type} (split : Key → Key × Key)
    (choice : Key → (Fin n → ℝ) → Fin n) (θ : GPParams) (κ : KernelObj d) (mf : MeanFun)
    (x : Batch n d) (y : Mat n o) (key : Key) (nLocs : ℕ) (hn : 2 ≤ n) :
    ∃ f : Fin nLocs → Fin n,
      rpcFitDense la split choice θ κ mf x y key nLocs =
        .ok ((sgprFitDense la θ κ mf (fun i => x (f i)) x y).1, mf y, fun i => x (f i)) ∧
      rpcFitIter cg split choice θ κ mf x y key nLocs =
        .ok ((sgprFitIter cg θ κ mf (fun i => x (f i)) x y).1, mf y, fun i => x (f i)) ∧
      rpcLmlDense la split choice θ κ mf x y key nLocs =
        .ok (sgprLmlDense la θ κ mf (fun i => x (f i)) x y) := by
  have h1 : n ≠ 1 := by omega
  obtain ⟨r, hr⟩ : ∃ r, rpcholesky split choice key x nLocs κ θ.kernelParams = .ok r := by
    unfold rpcholesky
    rw [if_neg h1]
    exact ⟨_, rfl⟩
  have ht : ∀ p : Fin nLocs → ℕ, takeRows x p = fun i => x ⟨min (p i) (n - 1), by omega⟩ := by
    intro p
    funext i
    unfold takeRows rowAt
    rw [dif_pos (by omega)]
  refine ⟨fun i => ⟨min (r.2 i) (n - 1), by omega⟩, ?_, ?_, ?_⟩
  · unfold rpcFitDense
    rw [hr]
    simp only [ht]
    rfl
  · unfold rpcFitIter
    rw [hr]
    simp only [ht]
    rfl
  · unfold rpcLmlDense
    rw [hr]
    simp only [ht]

/-- Non-vacuity: admissible kernel, repeated inducing points, no noise. -/
example : Admissible (.sum (.matern52 none) (.linear none) : KExpr 2) (⟨fun _ => 1, 0⟩ : GPParams).kernelParams := by
  refine ⟨?_, trivial⟩
  norm_num [Admissible, KPar.val, KPar.sub]

/-- Non-vacuity of the derivative theorems: a joint derivative Gram matrix that is positive semidefinite (linear
kernel, two inducing points, one sample). -/
example : (Matrix.fromBlocks (Matrix.of ((KExpr.linear none : KExpr 1).obj.d01kj (fun _ => 1)
      (fun _ _ => 0 : Batch 2 1) (fun _ _ => 0 : Batch 2 1) (fun _ _ _ => 1 : Jac 2 1 1) (fun _ _ _ => 1 : Jac 2 1 1)))
    (Matrix.of ((KExpr.linear none : KExpr 1).obj.d01kj (fun _ => 1)
      (fun _ _ => 0 : Batch 2 1) (fun _ _ => 0 : Batch 1 1) (fun _ _ _ => 1 : Jac 2 1 1) (fun _ _ _ => 1 : Jac 1 1 1)))
    (Matrix.of ((KExpr.linear none : KExpr 1).obj.d01kj (fun _ => 1)
      (fun _ _ => 0 : Batch 2 1) (fun _ _ => 0 : Batch 1 1) (fun _ _ _ => 1 : Jac 2 1 1)
      (fun _ _ _ => 1 : Jac 1 1 1))).transpose
    (Matrix.of ((KExpr.linear none : KExpr 1).obj.d01kj (fun _ => 1)
      (fun _ _ => 0 : Batch 1 1) (fun _ _ => 0 : Batch 1 1) (fun _ _ _ => 1 : Jac 1 1 1)
      (fun _ _ _ => 1 : Jac 1 1 1)))).PosSemidef := by
  have h1 : ∀ (a b : ℕ) (r : Fin (a * 1)) (s : Fin (b * 1)),
      (KExpr.linear none : KExpr 1).obj.d01kj (fun _ => 1) (fun _ _ => 0 : Batch a 1) (fun _ _ => 0 : Batch b 1)
        (fun _ _ _ => 1 : Jac a 1 1) (fun _ _ _ => 1 : Jac b 1 1) r s = 1 := by
    intro a b r s
    obtain ⟨i, u, rfl⟩ := flat_surj r
    obtain ⟨j, t, rfl⟩ := flat_surj s
    rw [linear_d01kj, one_mul]
  have h2 := (Matrix.posSemidef_vecMulVec_self_star (fun _ : Fin (2 * 1) ⊕ Fin (1 * 1) => (1 : ℝ)))
  convert h2 using 1
  ext r s
  rcases r with r | r <;> rcases s with s | s <;> simp [h1, Matrix.vecMulVec_apply]

end GPX.Props
