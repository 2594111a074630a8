import Verif.Lemmas.GPR
import Verif.Props.Matvec
import Verif.Props.KernelAlgebra
import Verif.Props.KernelPSD
import Verif.Props.KernelDerivs

/-!
# C30-C33: preconditioner, fit, predictions, covariance
-/

namespace GPX.Props
open GPX GPX.Spec

variable {d m n o v w : ℕ} {la : LinAlg}

/-! ## C30 -/

/-- The Woodbury form computed by the preconditioner. -/
theorem precond_eq (ex : la.Exact) {sigma : ℝ} (hs : sigma ≠ 0) {r : ℕ} (F : Mat n r) (z : Mat n o) :
    (sigma ^ 2 • (1 : Mat n n) + F * F.transpose) * precondMatvec la sigma F z = z := by
  have h2 : (0 : ℝ) < sigma ^ 2 := by positivity
  have hA : (sigma ^ 2 • (1 : Mat r r) + F.transpose * F).PosDef := by
    rw [add_comm]; exact posDef_add_smul_one (gram_posSemidef F) h2
  have hinv := ex.inv _ (posDef_isUnit hA)
  unfold precondMatvec
  set P := la.inv (sigma ^ 2 • (1 : Mat r r) + F.transpose * F)
  have e1 : (sigma ^ 2 • (1 : Mat n n) + F * F.transpose) * (F * (P * (F.transpose * z))) =
      F * (((sigma ^ 2 • (1 : Mat r r) + F.transpose * F) * P) * (F.transpose * z)) := by
    simp only [Matrix.add_mul, Matrix.mul_add, Matrix.smul_mul, Matrix.one_mul, Matrix.mul_smul,
      Matrix.mul_assoc]
  rw [hinv, Matrix.one_mul] at e1
  rw [Matrix.mul_add, Matrix.mul_smul, e1, Matrix.mul_smul, Matrix.add_mul, Matrix.smul_mul,
    Matrix.one_mul, smul_add, smul_smul, inv_mul_cancel₀ h2.ne', one_smul, neg_smul,
    Matrix.mul_assoc]
  abel

/-- **C30.** For `sigma ≠ 0`, the preconditioner of GPR is the exact inverse of `sigma² I + F Fᵀ`, where `F` is
the factor returned by `rpcholesky`, whatever the kernel, the data, the random keys and the number of pivots;
this inverse is symmetric positive definite. -/
theorem C30_preconditioner (ex : la.Exact) {Key : Type} (split : Key → Key × Key)
    (choice : Key → (Fin n → ℝ) → Fin n) (θ : GPParams) (hs : θ.sigma ≠ 0) (κ : KernelObj d)
    (x : Batch n d) (nPivots : ℕ) (key : Key) (precond : Mat n o → Mat n o)
    (h : precondRpcholesky la split choice θ κ x nPivots key = .ok precond) :
    ∃ F pivots, rpcholesky split choice key x nPivots κ θ.kernelParams = .ok (F, pivots) ∧
      (∀ z, (θ.sigma ^ 2 • (1 : Mat n n) + F * F.transpose) * precond z = z) ∧
      (∀ z, precond z = (θ.sigma ^ 2 • (1 : Mat n n) + F * F.transpose)⁻¹ * z) ∧
      ((θ.sigma ^ 2 • (1 : Mat n n) + F * F.transpose)⁻¹).PosDef := by
  unfold precondRpcholesky at h
  rcases hr : rpcholesky split choice key x nPivots κ θ.kernelParams with e | ⟨F, pivots⟩
  · rw [hr] at h; cases h
  · rw [hr] at h
    injection h with h
    subst h
    have hM : (θ.sigma ^ 2 • (1 : Mat n n) + F * F.transpose).PosDef := by
      rw [add_comm]; exact posDef_add_smul_one (gram_posSemidef' F) (by positivity)
    refine ⟨F, pivots, rfl, precond_eq ex hs F, fun z => ?_, hM.inv⟩
    exact solve_unique (posDef_isUnit hM) (precond_eq ex hs F z) (by
      rw [← Matrix.mul_assoc, Matrix.mul_nonsing_inv _ (posDef_isUnit hM), Matrix.one_mul])

/-- **C30** for derivatives. -/
theorem C30_preconditioner_derivs (ex : la.Exact) {Key : Type} (split : Key → Key × Key)
    (choice : Key → (Fin (n * v) → ℝ) → Fin (n * v)) (θ : GPParams) (hs : θ.sigma ≠ 0)
    (κ : KernelObj d) (x : Batch n d) (J : Jac n d v) (nPivots : ℕ) (key : Key) :
    let F := (rpcholeskyDerivs split choice key x J nPivots κ θ.kernelParams).1
    (∀ z : Mat (n * v) o, (θ.sigma ^ 2 • (1 : Mat (n * v) (n * v)) + F * F.transpose) *
      precondRpcholeskyDerivs la split choice θ κ x J nPivots key z = z) ∧
    (∀ z : Mat (n * v) o, precondRpcholeskyDerivs la split choice θ κ x J nPivots key z =
      (θ.sigma ^ 2 • (1 : Mat (n * v) (n * v)) + F * F.transpose)⁻¹ * z) ∧
    ((θ.sigma ^ 2 • (1 : Mat (n * v) (n * v)) + F * F.transpose)⁻¹).PosDef := by
  intro F
  have hM : (θ.sigma ^ 2 • (1 : Mat (n * v) (n * v)) + F * F.transpose).PosDef := by
    rw [add_comm]; exact posDef_add_smul_one (gram_posSemidef' F) (by positivity)
  refine ⟨precond_eq ex hs F, fun z => ?_, hM.inv⟩
  exact solve_unique (posDef_isUnit hM) (precond_eq ex hs F z) (by
    rw [← Matrix.mul_assoc, Matrix.mul_nonsing_inv _ (posDef_isUnit hM), Matrix.one_mul])

/-- Non-vacuity: exact routines exist, and with two samples the preconditioner is built. -/
example : LinAlg.ideal.Exact ∧ ∃ precond : Mat 2 1 → Mat 2 1,
    precondRpcholesky LinAlg.ideal (fun k : ℕ => (k, k)) (fun _ _ => (0 : Fin 2)) ⟨fun _ => 1, 1⟩
      (KExpr.squaredExponential none : KExpr 1).obj ![![0], ![1]] 1 0 = .ok precond :=
  ⟨LinAlg.ideal_exact, by simp [precondRpcholesky, rpcholesky]⟩

/-! ## C31 -/

theorem noise_pos (θ : GPParams) : 0 < θ.noise := by
  unfold GPParams.noise noiseJitter; positivity

theorem noise_eq (θ : GPParams) : θ.noise = θ.sigma ^ 2 + 1 / 10 ^ 10 := rfl

theorem aLhsNoise_posDef (e : KExpr d) (θ : GPParams) (h : Admissible e θ.kernelParams)
    (x : Batch n d) : (aLhsNoise θ e.obj x x).PosDef :=
  posDef_add_smul_one (C22_gram_posSemidef e θ.kernelParams h x) (noise_pos θ)

theorem aLhsNoise_mul (θ : GPParams) (κ : KernelObj d) (x : Batch n d) (c : Mat n o) (i : Fin n)
    (a : Fin o) : (aLhsNoise θ κ x x * c) i a =
      ∑ j, (κ.k θ.kernelParams x x i j + if i = j then θ.sigma ^ 2 + 1 / 10 ^ 10 else 0) * c j a := by
  rw [Matrix.mul_apply]
  refine Finset.sum_congr rfl fun j _ => ?_
  simp [aLhsNoise, aLhs, GPParams.noise, noiseJitter, Matrix.one_apply]

/-- **C31.** For every kernel expression with admissible hyperparameters, dataset (duplicates allowed), noise
(`sigma = 0` included), number of outputs and mean function, the coefficients stored by the dense fit satisfy
`(K + (sigma² + 1e-10) I) c = y - mu`, no other coefficients do, and the predictions at the training points are
`y - (sigma² + 1e-10) c`. -/
theorem C31_fit_solves (ex : la.Exact) (e : KExpr d) (θ : GPParams) (h : Admissible e θ.kernelParams)
    (mf : MeanFun) (x : Batch n d) (y : Mat n o) :
    let c := (fitDense la θ e.obj mf x y).1
    let mu := (fitDense la θ e.obj mf x y).2
    mu = mf y ∧
    (∀ i a, ∑ j, (e.obj.k θ.kernelParams x x i j +
      if i = j then θ.sigma ^ 2 + 1 / 10 ^ 10 else 0) * c j a = y i a - mu) ∧
    (∀ c' : Mat n o, (∀ i a, ∑ j, (e.obj.k θ.kernelParams x x i j +
      if i = j then θ.sigma ^ 2 + 1 / 10 ^ 10 else 0) * c' j a = y i a - mu) → c' = c) ∧
    ∀ i a, predictDense θ e.obj x x c mu i a = y i a - (θ.sigma ^ 2 + 1 / 10 ^ 10) * c i a := by
  intro c mu
  have hp := aLhsNoise_posDef e θ h x
  have hs : aLhsNoise θ e.obj x x * c = centerBy y mu :=
    ex.solve _ _ (posDef_isUnit hp)
  have hs' : ∀ i a, ∑ j, (e.obj.k θ.kernelParams x x i j +
      if i = j then θ.sigma ^ 2 + 1 / 10 ^ 10 else 0) * c j a = y i a - mu := by
    intro i a
    rw [← aLhsNoise_mul, hs]
    rfl
  refine ⟨rfl, hs', fun c' hc' => ?_, fun i a => ?_⟩
  · refine solve_unique (posDef_isUnit hp) (b := centerBy y mu) ?_ hs
    ext i a
    rw [aLhsNoise_mul, hc']
    rfl
  · have hsym : (aLhs θ e.obj x x).transpose = aLhs θ e.obj x x :=
      posDef_transpose (C22_gram_posSemidef e θ.kernelParams h x)
    have h1 := hs' i a
    simp only [add_mul, ite_mul, zero_mul, Finset.sum_add_distrib, Finset.sum_ite_eq, Finset.mem_univ,
      if_true] at h1
    have h2 : predictDense θ e.obj x x c mu i a = mu + ∑ j, e.obj.k θ.kernelParams x x i j * c j a := by
      simp only [predictDense, addScalar, Matrix.of_apply]
      rw [hsym, Matrix.mul_apply]
      rfl
    rw [h2]
    linarith

/-- Non-vacuity: two coincident samples, no noise. -/
example : Admissible (.squaredExponential none : KExpr 1)
    (⟨fun _ => 1, 0⟩ : GPParams).kernelParams := by
  norm_num [Admissible, KPar.val]

/-- **C31** for derivatives: the same for `fit_derivs`, for every kernel whose jacobian-contracted Hessian kernel
is positive semidefinite at the data (C65 gives kernels for which it always is). -/
theorem C31_fit_derivs_solves (ex : la.Exact) (κ : KernelObj d) (θ : GPParams) (mf : MeanFun)
    (x : Batch n d) (J : Jac n d v) (y : Mat n v)
    (h : (Matrix.of (κ.d01kj θ.kernelParams x x J J)).PosSemidef) :
    let c := (fitDerivsDense la θ κ mf x J y).1
    let mu := (fitDerivsDense la θ κ mf x J y).2
    (∀ i u, ∑ s, (κ.d01kj θ.kernelParams x x J J (flat i u) s +
      if flat i u = s then θ.sigma ^ 2 + 1 / 10 ^ 10 else 0) * c s 0 = y i u - mu) ∧
    (∀ c' : Mat (n * v) 1, (∀ i u, ∑ s, (κ.d01kj θ.kernelParams x x J J (flat i u) s +
      if flat i u = s then θ.sigma ^ 2 + 1 / 10 ^ 10 else 0) * c' s 0 = y i u - mu) → c' = c) ∧
    ∀ i u, predictDerivsDense θ κ x J x J c mu i u =
      y i u - (θ.sigma ^ 2 + 1 / 10 ^ 10) * c (flat i u) 0 := by
  intro c mu
  have hp : (aDerivsLhsNoise θ κ x J x J).PosDef := posDef_add_smul_one h (noise_pos θ)
  have hs : aDerivsLhsNoise θ κ x J x J * c = centerBy (flatCol y) mu :=
    ex.solve _ _ (posDef_isUnit hp)
  have hm : ∀ (c : Mat (n * v) 1) r, (aDerivsLhsNoise θ κ x J x J * c) r 0 =
      ∑ s, (κ.d01kj θ.kernelParams x x J J r s +
        if r = s then θ.sigma ^ 2 + 1 / 10 ^ 10 else 0) * c s 0 := by
    intro c r
    rw [Matrix.mul_apply]
    refine Finset.sum_congr rfl fun j _ => ?_
    simp [aDerivsLhsNoise, aDerivsLhs, GPParams.noise, noiseJitter, Matrix.one_apply]
  have hs' : ∀ i u, ∑ s, (κ.d01kj θ.kernelParams x x J J (flat i u) s +
      if flat i u = s then θ.sigma ^ 2 + 1 / 10 ^ 10 else 0) * c s 0 = y i u - mu := by
    intro i u
    rw [← hm, hs]
    simp [centerBy, flatCol]
  refine ⟨hs', fun c' hc' => ?_, fun i u => ?_⟩
  · refine solve_unique (posDef_isUnit hp) (b := centerBy (flatCol y) mu) ?_ hs
    ext r a
    obtain ⟨i, u, rfl⟩ := flat_surj r
    rw [Fin.eq_zero a, hm, hc']
    simp [centerBy, flatCol]
  · have hsym : (aDerivsLhs θ κ x J x J).transpose = aDerivsLhs θ κ x J x J := posDef_transpose h
    have h1 := hs' i u
    simp only [add_mul, ite_mul, zero_mul, Finset.sum_add_distrib, Finset.sum_ite_eq, Finset.mem_univ,
      if_true] at h1
    have h2 : predictDerivsDense θ κ x J x J c mu i u =
        mu + ∑ s, κ.d01kj θ.kernelParams x x J J (flat i u) s * c s 0 := by
      simp only [predictDerivsDense, unflatCol, predictDerivsFlat, addScalar, Matrix.of_apply, prod_flat]
      rw [hsym, Matrix.mul_apply]
      rfl
    rw [h2]
    linarith

/-! ## C32 -/

/-- The full claim of C32: for every kernel expression, data, coefficients and mean, the iterative and the dense
predictions agree, and so do the predictions computed from the contracted coefficients
`jaccoef = einsum("sv,sfv->sf", c, jacobian)`. -/
def C32_full : Prop :=
  ∀ (d : ℕ) (e : KExpr d), ∀ (θ : GPParams) (m n o v w : ℕ) (xt : Batch m d)
    (Jt : Jac m d w) (x : Batch n d) (J : Jac n d v) (mu : ℝ),
    (∀ c : Mat m o, predictIter θ e.obj xt x c mu = predictDense θ e.obj xt x c mu) ∧
    (∀ c : Mat (m * w) 1,
      predictDerivsIter θ e.obj xt Jt x J c mu = predictDerivsDense θ e.obj xt Jt x J c mu ∧
      predictDerivsCoef θ e.obj xt x J mu (jaccoef (fun s u => c (flat s u) 0) Jt) =
        predictDerivsDense θ e.obj xt Jt x J c mu ∧
      predictYDerivsIter θ e.obj xt Jt x c mu = predictYDerivsDense θ e.obj xt Jt x c mu ∧
      predictYDerivsCoef θ e.obj xt x mu (jaccoef (fun s u => c (flat s u) 0) Jt) =
        predictYDerivsDense θ e.obj xt Jt x c mu)

theorem predictIter_eq (e : KExpr d) (θ : GPParams) (xt : Batch m d)
    (x : Batch n d) (c : Mat m o) (mu : ℝ) :
    predictIter θ e.obj xt x c mu = predictDense θ e.obj xt x c mu := by
  unfold predictIter predictDense
  rw [(axLhsFun_eq θ (C63_sampleWise e θ.kernelParams)).1]
  have : aLhs θ e.obj x xt = (aLhs θ e.obj xt x).transpose := by
    ext i j; exact (C21_symmetric e θ.kernelParams).k x xt i j
  rw [this]

theorem predictDerivsIter_eq (e : KExpr d) (θ : GPParams) (xt : Batch m d)
    (Jt : Jac m d w) (x : Batch n d) (J : Jac n d v) (c : Mat (m * w) 1) (mu : ℝ) :
    predictDerivsIter θ e.obj xt Jt x J c mu = predictDerivsDense θ e.obj xt Jt x J c mu := by
  unfold predictDerivsIter predictDerivsDense predictDerivsFlat
  rw [(axDerivsLhsFun_eq θ (C63_sampleWise e θ.kernelParams)).1]
  have : aDerivsLhs θ e.obj x J xt Jt = (aDerivsLhs θ e.obj xt Jt x J).transpose := by
    ext i j; exact (C21_symmetric e θ.kernelParams).d01kj x xt J Jt i j
  rw [this]

theorem predictYDerivsIter_eq (e : KExpr d) (θ : GPParams) (xt : Batch m d)
    (Jt : Jac m d w) (x : Batch n d) (c : Mat (m * w) 1) (mu : ℝ) :
    predictYDerivsIter θ e.obj xt Jt x c mu = predictYDerivsDense θ e.obj xt Jt x c mu := by
  unfold predictYDerivsIter predictYDerivsDense
  rw [kxDerivs1Fun_eq θ (C63_sampleWise e θ.kernelParams)]
  have : (Matrix.of (e.obj.d1kj θ.kernelParams x xt Jt) : Mat n (m * w)) =
      (Matrix.of (e.obj.d0kj θ.kernelParams xt x Jt)).transpose := by
    ext i j; exact (C21_symmetric e θ.kernelParams).d1kj x xt Jt i j
  rw [this]

theorem predictDerivsCoef_eq {κ : KernelObj d} (θ : GPParams) (h : CoefficientSums κ θ.kernelParams)
    (xt : Batch m d) (Jt : Jac m d w) (x : Batch n d) (J : Jac n d v) (c : Mat (m * w) 1) (mu : ℝ) :
    predictDerivsCoef θ κ xt x J mu (jaccoef (fun s u => c (flat s u) 0) Jt) =
      predictDerivsDense θ κ xt Jt x J c mu := by
  ext j q
  simp only [predictDerivsCoef, predictDerivsDense, unflatCol, predictDerivsFlat, addScalar,
    Matrix.of_apply, prod_flat, Matrix.mul_apply, Matrix.transpose_apply, aDerivsLhs, sum_flat]
  rw [h.2]
  congr 1
  exact Finset.sum_congr rfl fun i _ => Finset.sum_congr rfl fun u _ => mul_comm _ _

theorem predictYDerivsCoef_eq {κ : KernelObj d} (θ : GPParams) (h : CoefficientSums κ θ.kernelParams)
    (xt : Batch m d) (Jt : Jac m d w) (x : Batch n d) (c : Mat (m * w) 1) (mu : ℝ) :
    predictYDerivsCoef θ κ xt x mu (jaccoef (fun s u => c (flat s u) 0) Jt) =
      predictYDerivsDense θ κ xt Jt x c mu := by
  ext j q
  rw [Fin.eq_zero q]
  simp only [predictYDerivsCoef, predictYDerivsDense, addScalar,
    Matrix.of_apply, Matrix.mul_apply, Matrix.transpose_apply, sum_flat]
  rw [h.1]
  congr 1
  exact Finset.sum_congr rfl fun i _ => Finset.sum_congr rfl fun u _ => mul_comm _ _

/-- **C32**, iterative against dense, for every kernel expression: `predict`, `predict_derivs` and
`predict_y_derivs` return the same values with `iterative=True` as the dense formulas. -/
theorem C32_iterative_eq_dense (e : KExpr d) (θ : GPParams) (xt : Batch m d)
    (Jt : Jac m d w) (x : Batch n d) (J : Jac n d v) (mu : ℝ) :
    (∀ {o : ℕ} (c : Mat m o), predictIter θ e.obj xt x c mu = predictDense θ e.obj xt x c mu) ∧
    (∀ c : Mat (m * w) 1,
      predictDerivsIter θ e.obj xt Jt x J c mu = predictDerivsDense θ e.obj xt Jt x J c mu ∧
      predictYDerivsIter θ e.obj xt Jt x c mu = predictYDerivsDense θ e.obj xt Jt x c mu) :=
  ⟨fun c => predictIter_eq e θ xt x c mu, fun c =>
    ⟨predictDerivsIter_eq e θ xt Jt x J c mu, predictYDerivsIter_eq e θ xt Jt x c mu⟩⟩

/-- **C32**, all of it, for kernel expressions without `Matern52`. -/
theorem C32_predictions_agree_partial (e : KExpr d) (hm : NoMatern52 e)
    (θ : GPParams) (xt : Batch m d) (Jt : Jac m d w) (x : Batch n d) (J : Jac n d v) (mu : ℝ) :
    (∀ {o : ℕ} (c : Mat m o), predictIter θ e.obj xt x c mu = predictDense θ e.obj xt x c mu) ∧
    (∀ c : Mat (m * w) 1,
      predictDerivsIter θ e.obj xt Jt x J c mu = predictDerivsDense θ e.obj xt Jt x J c mu ∧
      predictDerivsCoef θ e.obj xt x J mu (jaccoef (fun s u => c (flat s u) 0) Jt) =
        predictDerivsDense θ e.obj xt Jt x J c mu ∧
      predictYDerivsIter θ e.obj xt Jt x c mu = predictYDerivsDense θ e.obj xt Jt x c mu ∧
      predictYDerivsCoef θ e.obj xt x mu (jaccoef (fun s u => c (flat s u) 0) Jt) =
        predictYDerivsDense θ e.obj xt Jt x c mu) := by
  have hc := C20_library_partial e hm θ.kernelParams
  exact ⟨fun c => predictIter_eq e θ xt x c mu, fun c =>
    ⟨predictDerivsIter_eq e θ xt Jt x J c mu, predictDerivsCoef_eq θ hc xt Jt x J c mu,
      predictYDerivsIter_eq e θ xt Jt x c mu, predictYDerivsCoef_eq θ hc xt Jt x c mu⟩⟩

/-- **C32** for a single `Matern52` kernel, derivative predictions from contracted coefficients. -/
theorem C32_matern52_derivs_partial (a : Option (Dims d)) (θ : GPParams)
    (xt : Batch m d) (Jt : Jac m d w) (x : Batch n d) (J : Jac n d v) (mu : ℝ) (c : Mat (m * w) 1) :
    predictDerivsCoef θ (KernelObj.matern52 a) xt x J mu (jaccoef (fun s u => c (flat s u) 0) Jt) =
      predictDerivsDense θ (KernelObj.matern52 a) xt Jt x J c mu := by
  have hc := closedJ_m52 a θ.kernelParams
  ext j q
  simp only [predictDerivsCoef, predictDerivsDense, unflatCol, predictDerivsFlat, addScalar,
    Matrix.of_apply, prod_flat, Matrix.mul_apply, Matrix.transpose_apply, aDerivsLhs, sum_flat]
  congr 1
  refine Finset.sum_congr rfl fun i _ => ?_
  rw [hc.d01kjc]
  simp only [jaccoef, Finset.sum_mul]
  rw [Finset.sum_congr rfl fun f _ => Finset.sum_comm, Finset.sum_comm]
  refine Finset.sum_congr rfl fun u _ => ?_
  rw [hc.d01kj, Finset.sum_mul]
  refine Finset.sum_congr rfl fun f _ => ?_
  rw [Finset.sum_mul]
  exact Finset.sum_congr rfl fun e _ => by ring

/-- The full claim is false: for `Matern52`, `predict_y_derivs` from contracted coefficients (no jitter)
differs from the dense and iterative versions (jitter `1e-12`). One training sample, one test sample. -/
theorem C32_false : ¬ C32_full := by
  intro h
  have h1 := ((h 1 (.matern52 none) ⟨fun _ => 1, 0⟩ 1 1 1 1 1 (fun _ _ => 1) (fun _ _ _ => 1)
    (fun _ _ => 0) (fun _ _ _ => 0) 0).2 (Matrix.of fun _ _ => 1)).2.2.2
  have h2 := congrFun (congrFun h1 0) 0
  simp only [predictYDerivsCoef, predictYDerivsDense, addScalar, Matrix.of_apply, Matrix.mul_apply,
    Matrix.transpose_apply, sum_flat, Finset.univ_unique, Finset.sum_singleton, mul_one, zero_add] at h2
  exact matern52_coef_ne h2

/-- **C32**, fitting: if the conjugate gradient routine solves positive definite systems exactly, the iterative
fit returns the coefficients of the dense fit, for any preconditioner, key and number of pivots (the dataset
does not consist of a single sample, see C66). -/
theorem C32_fit_iterative (ex : la.Exact) (cg : CG) (hcg : CGExact cg) {Key : Type}
    (split : Key → Key × Key) (choice : Key → (Fin n → ℝ) → Fin n) (e : KExpr d)
    (θ : GPParams) (h : Admissible e θ.kernelParams) (mf : MeanFun) (x : Batch n d) (y : Mat n o)
    (nPivots : ℕ) (key : Key) (hn : n ≠ 1) :
    fitIter la cg split choice θ e.obj mf x y nPivots key = .ok (fitDense la θ e.obj mf x y) := by
  have hp := aLhsNoise_posDef e θ h x
  have hmv : (axLhsFun θ e.obj true x x : Mat n o → Mat n o) = fun z : Mat n o => aLhsNoise θ e.obj x x * z :=
    funext fun z => (axLhsFun_eq θ (C63_sampleWise e θ.kernelParams)).2 x x z
  unfold fitIter precondRpcholesky rpcholesky
  simp only [hn, if_false, hmv]
  refine congrArg Except.ok (Prod.ext ?_ rfl)
  exact solve_unique (posDef_isUnit hp) (hcg _ _ _ hp) (ex.solve _ _ (posDef_isUnit hp))

/-- **C32**, fitting derivatives. -/
theorem C32_fit_derivs_iterative (ex : la.Exact) (cg : CG) (hcg : CGExact cg) {Key : Type}
    (split : Key → Key × Key) (choice : Key → (Fin (n * v) → ℝ) → Fin (n * v)) (e : KExpr d) (θ : GPParams) (mf : MeanFun) (x : Batch n d) (J : Jac n d v) (y : Mat n v)
    (h : (Matrix.of (e.obj.d01kj θ.kernelParams x x J J)).PosSemidef) (nPivots : ℕ) (key : Key) :
    fitDerivsIter la cg split choice θ e.obj mf x J y nPivots key =
      fitDerivsDense la θ e.obj mf x J y := by
  have hp : (aDerivsLhsNoise θ e.obj x J x J).PosDef := posDef_add_smul_one h (noise_pos θ)
  have hmv : (axDerivsLhsFun θ e.obj true x J x J : Mat (n * v) 1 → Mat (n * v) 1) =
      fun z : Mat (n * v) 1 => aDerivsLhsNoise θ e.obj x J x J * z :=
    funext fun z => (axDerivsLhsFun_eq θ (C63_sampleWise e θ.kernelParams)).2 x J x J z
  unfold fitDerivsIter
  simp only [hmv]
  refine Prod.ext ?_ rfl
  exact solve_unique (posDef_isUnit hp) (hcg _ _ _ hp) (ex.solve _ _ (posDef_isUnit hp))

/-- Non-vacuity: an exact conjugate gradient routine exists. -/
example : CGExact idealCG := idealCG_exact

/-! ## C33 -/

/-- The joint prior covariance of training and test samples. -/
theorem joint_psd (e : KExpr d) (p : KPar) (h : Admissible e p) (xt : Batch m d) (x : Batch n d) :
    (Matrix.fromBlocks (Matrix.of (e.obj.k p xt xt)) (Matrix.of (e.obj.k p xt x))
      (Matrix.of (e.obj.k p xt x)).transpose (Matrix.of (e.obj.k p x x))).PosSemidef := by
  obtain ⟨L, hL, hk⟩ := e.psd p h
  have key : Matrix.fromBlocks (Matrix.of (e.obj.k p xt xt)) (Matrix.of (e.obj.k p xt x))
      (Matrix.of (e.obj.k p xt x)).transpose (Matrix.of (e.obj.k p x x)) =
      (Matrix.of fun i j => L (Fin.append xt x i) (Fin.append xt x j)).submatrix finSumFinEquiv
        finSumFinEquiv := by
    ext i j
    rcases i with i | i <;> rcases j with j | j
    · simp [hk]
    · simp [hk]
    · simp [hk, hL.symm (xt j) (x i)]
    · simp [hk]
  rw [key]
  exact (hL (m + n) (Fin.append xt x)).submatrix _

theorem predictDenseCov_eq (ex : la.Exact) (e : KExpr d) (θ : GPParams)
    (h : Admissible e θ.kernelParams) (xt : Batch m d) (x : Batch n d) :
    predictDenseCov la θ e.obj xt x = aLhs θ e.obj x x -
      (aLhs θ e.obj xt x).transpose * (aLhsNoise θ e.obj xt xt)⁻¹ * aLhs θ e.obj xt x := by
  unfold predictDenseCov
  simp only
  rw [ex.gram (aLhsNoise_posDef e θ h xt)]

/-- **C33.** For every kernel expression with admissible hyperparameters, all training and test sets
(duplicates and empty sets allowed) and every `sigma`: the covariance returned by
`predict(full_covariance=True)` is symmetric positive semidefinite, and the prior covariance `k(x, x)` minus it
is positive semidefinite. In particular every posterior variance lies between `0` and the prior variance. -/
theorem C33_posterior_covariance (ex : la.Exact) (e : KExpr d) (θ : GPParams)
    (h : Admissible e θ.kernelParams) (xt : Batch m d) (x : Batch n d) :
    (predictDenseCov la θ e.obj xt x).PosSemidef ∧
    (Matrix.of (e.obj.k θ.kernelParams x x) - predictDenseCov la θ e.obj xt x).PosSemidef ∧
    (∀ i, 0 ≤ predictDenseCov la θ e.obj xt x i i ∧
      predictDenseCov la θ e.obj xt x i i ≤ e.obj.k θ.kernelParams x x i i) := by
  have hp := aLhsNoise_posDef e θ h xt
  have h1 : (predictDenseCov la θ e.obj xt x).PosSemidef := by
    rw [predictDenseCov_eq ex e θ h]
    exact schur_psd hp _ _ (blocks_noise (noise_pos θ).le (joint_psd e θ.kernelParams h xt x))
  have h2 : (Matrix.of (e.obj.k θ.kernelParams x x) - predictDenseCov la θ e.obj xt x).PosSemidef := by
    rw [predictDenseCov_eq ex e θ h]
    have : Matrix.of (e.obj.k θ.kernelParams x x) - (aLhs θ e.obj x x -
        (aLhs θ e.obj xt x).transpose * (aLhsNoise θ e.obj xt xt)⁻¹ * aLhs θ e.obj xt x) =
        (aLhs θ e.obj xt x).transpose * (aLhsNoise θ e.obj xt xt)⁻¹ * aLhs θ e.obj xt x := by
      rw [aLhs, sub_sub_cancel]
    rw [this]
    exact psd_sandwich hp.inv.posSemidef _
  refine ⟨h1, h2, fun i => ⟨h1.diag_nonneg, ?_⟩⟩
  have := h2.diag_nonneg (i := i)
  simpa using this

/-- **C33**, the values: the covariance is `k(x, x) - k(x, X) (k(X, X) + (sigma² + 1e-10) I)⁻¹ k(X, x)`. -/
theorem C33_posterior_formula (ex : la.Exact) (e : KExpr d) (θ : GPParams)
    (h : Admissible e θ.kernelParams) (xt : Batch m d) (x : Batch n d) :
    predictDenseCov la θ e.obj xt x = Matrix.of (e.obj.k θ.kernelParams x x) -
      (Matrix.of (e.obj.k θ.kernelParams xt x)).transpose *
        (Matrix.of (e.obj.k θ.kernelParams xt xt) +
          (θ.sigma ^ 2 + 1 / 10 ^ 10) • (1 : Mat m m))⁻¹ *
        Matrix.of (e.obj.k θ.kernelParams xt x) :=
  predictDenseCov_eq ex e θ h xt x

/-- **C64.** Training on more data never increases the posterior covariance: for any selection `f` of distinct
training samples, the covariance given the selected samples minus the covariance given all samples is positive
semidefinite. -/
theorem C64_more_data (ex : la.Exact) (e : KExpr d) (θ : GPParams) (h : Admissible e θ.kernelParams)
    (xt : Batch m d) (x : Batch n d) {k : ℕ} (f : Fin k → Fin m) (hf : Function.Injective f) :
    (predictDenseCov la θ e.obj (fun s => xt (f s)) x - predictDenseCov la θ e.obj xt x).PosSemidef ∧
    ∀ i, predictDenseCov la θ e.obj xt x i i ≤ predictDenseCov la θ e.obj (fun s => xt (f s)) x i i := by
  obtain ⟨L, hL, hk⟩ := e.psd θ.kernelParams h
  have e1 : aLhs θ e.obj (fun s => xt (f s)) x = (aLhs θ e.obj xt x).submatrix f id := by
    ext i j; simp [aLhs, hk]
  have e2 : aLhsNoise θ e.obj (fun s => xt (f s)) (fun s => xt (f s)) =
      (aLhsNoise θ e.obj xt xt).submatrix f f := by
    ext i j; simp [aLhsNoise, aLhs, hk, Matrix.one_apply, hf.eq_iff]
  have key : (predictDenseCov la θ e.obj (fun s => xt (f s)) x -
      predictDenseCov la θ e.obj xt x).PosSemidef := by
    rw [predictDenseCov_eq ex e θ h, predictDenseCov_eq ex e θ h, sub_sub_sub_cancel_left, e1, e2]
    exact explained_mono (aLhsNoise_posDef e θ h xt) _ f (e2 ▸ aLhsNoise_posDef e θ h _)
  refine ⟨key, fun i => ?_⟩
  have := key.diag_nonneg (i := i)
  simpa using this

/-- Non-vacuity: the first of two samples. -/
example : Function.Injective (![0] : Fin 1 → Fin 2) := fun a b _ => Subsingleton.elim a b

end GPX.Props
