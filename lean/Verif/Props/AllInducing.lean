import Verif.Lemmas.AllInducing
import Verif.Props.SGPR
import Verif.Props.TrainingPoints
import Verif.Props.JointPSD

/-!
# C126: SGPR with the training samples as inducing points, against GPR
-/

namespace GPX.Props
open GPX GPX.Spec

variable {d m n o v w : ℕ} {la : LinAlg}

theorem gp_system (ex : la.Exact) (e : KExpr d) (θ : GPParams) (h : Admissible e θ.kernelParams) (mf : MeanFun)
    (x : Batch n d) (y : Mat n o) :
    ((Matrix.of (e.obj.k θ.kernelParams x x) : Mat n n) + (θ.sigma ^ 2 + 1 / 10 ^ 10) • (1 : Mat n n)) *
      (fitDense la θ e.obj mf x y).1 = centerBy y (mf y) := by
  have hp := aLhsNoise_posDef e θ h x
  exact ex.solve _ _ (posDef_isUnit hp)

theorem sparse_system (ex : la.Exact) (e : KExpr d) (θ : GPParams) (h : Admissible e θ.kernelParams) (mf : MeanFun)
    (x : Batch n d) (y : Mat n o) :
    (θ.sigma ^ 2 • (Matrix.of (e.obj.k θ.kernelParams x x) : Mat n n) +
        Matrix.of (e.obj.k θ.kernelParams x x) * (Matrix.of (e.obj.k θ.kernelParams x x)).transpose +
        (1 / 10 ^ 10 : ℝ) • (1 : Mat n n)) * (sgprFitDense la θ e.obj mf x x y).1 =
      Matrix.of (e.obj.k θ.kernelParams x x) * centerBy y (mf y) :=
  ex.solve _ _ (posDef_isUnit (sgprALhs_posDef e θ h x x))

/-- **C126.** `SGPR` with the training samples as inducing points predicts what `GPR` predicts, up to the effect of the
regularisation `1e-10`. With `S = (1 + 1 / (sigma² + 1e-10)²) Σ (y - mu)²` (per output): the squared differences at the
training inputs, times `sigma⁴`, add up to at most `1e-20 S`; the squared difference at any input `x`, times `4 sigma²`, is at
most `1e-10 k(x, x) S`. -/
theorem C126_targets (ex : la.Exact) (e : KExpr d) (θ : GPParams) (h : Admissible e θ.kernelParams) (mf : MeanFun)
    (x : Batch n d) (y : Mat n o) (a : Fin o) :
    let gp := fitDense la θ e.obj mf x y
    let sp := sgprFitDense la θ e.obj mf x x y
    let S := (1 + 1 / (θ.sigma ^ 2 + 1 / 10 ^ 10) ^ 2) * ∑ i, (y i a - mf y) ^ 2
    (θ.sigma ^ 2) ^ 2 * ∑ i, (sgprPredict θ e.obj x x sp.1 sp.2 i a - predictDense θ e.obj x x gp.1 gp.2 i a) ^ 2 ≤
      (1 / 10 ^ 10) ^ 2 * S ∧
    ∀ {m : ℕ} (xs : Batch m d) (j : Fin m),
      4 * θ.sigma ^ 2 * (sgprPredict θ e.obj x xs sp.1 sp.2 j a - predictDense θ e.obj x xs gp.1 gp.2 j a) ^ 2 ≤
        1 / 10 ^ 10 * e.obj.k θ.kernelParams xs xs j j * S := by
  intro gp sp S
  have hK := C22_gram_posSemidef e θ.kernelParams h x
  have key := all_inducing_column hK (sq_nonneg θ.sigma) (by norm_num : (0 : ℝ) < 1 / 10 ^ 10)
    (sparse_system ex e θ h mf x y) (gp_system ex e θ h mf x y) a
  have hsymm : ∀ {m : ℕ} (xs : Batch m d) (i : Fin n) (j : Fin m),
      e.obj.k θ.kernelParams xs x j i = e.obj.k θ.kernelParams x xs i j := fun xs i j => by
    obtain ⟨L, hL, hk⟩ := e.psd θ.kernelParams h
    rw [hk, hk, hL.symm]
  have hdiff : ∀ {m : ℕ} (xs : Batch m d) (j : Fin m),
      sgprPredict θ e.obj x xs sp.1 sp.2 j a - predictDense θ e.obj x xs gp.1 gp.2 j a =
        ∑ i, e.obj.k θ.kernelParams x xs i j * (sp.1 i a - gp.1 i a) := fun xs j => by
    simp only [sgprPredict, predictDense, addScalar, Matrix.of_apply, Matrix.mul_apply, Matrix.transpose_apply, aLhs,
      mul_sub, Finset.sum_sub_distrib, hsymm]
    have : sp.2 = gp.2 := rfl
    rw [this]
    ring
  refine ⟨?_, fun xs j => ?_⟩
  · refine le_trans (le_of_eq ?_) key.1
    congr 1
    refine Finset.sum_congr rfl fun i _ => ?_
    rw [hdiff]
    congr 1
    exact Finset.sum_congr rfl fun j _ => by rw [← hsymm]; rfl
  · rw [hdiff]
    have hb := block_cauchy (joint_psd e θ.kernelParams h x xs) (fun i => sp.1 i a - gp.1 i a) j
    have hd : 0 ≤ e.obj.k θ.kernelParams xs xs j j :=
      (C22_gram_posSemidef e θ.kernelParams h xs).diag_nonneg
    have k1 := mul_le_mul_of_nonneg_left hb (by positivity : 0 ≤ 4 * θ.sigma ^ 2)
    have k2 := mul_le_mul_of_nonneg_left key.2 hd
    refine k1.trans (le_of_eq_of_le ?_ (k2.trans (le_of_eq ?_)))
    · simp only [Matrix.of_apply]; ring
    · simp only [S, centerBy, Matrix.of_apply]; ring

/-- **C126** for models trained on derivatives (expressions whose derivative Gram matrices are positive semidefinite, C65). -/
theorem C126_derivs (ex : la.Exact) (e : KExpr d) (θ : GPParams) (h : DerivSmooth e θ.kernelParams)
    (mf : MeanFun) (x : Batch n d) (J : Jac n d v) (y : Mat n v) :
    let gp := fitDerivsDense la θ e.obj mf x J y
    let sp := sgprFitDerivsDense la θ e.obj mf x J x J y
    let S := (1 + 1 / (θ.sigma ^ 2 + 1 / 10 ^ 10) ^ 2) * ∑ i, ∑ u, (y i u - gp.2) ^ 2
    (θ.sigma ^ 2) ^ 2 * ∑ i, ∑ u, (sgprPredictDerivs θ e.obj x J x J sp.1 sp.2 i u -
        predictDerivsDense θ e.obj x J x J gp.1 gp.2 i u) ^ 2 ≤ (1 / 10 ^ 10) ^ 2 * S ∧
    ∀ {m w : ℕ} (xs : Batch m d) (Js : Jac m d w) (j : Fin m) (u : Fin w),
      4 * θ.sigma ^ 2 * (sgprPredictDerivs θ e.obj x J xs Js sp.1 sp.2 j u -
          predictDerivsDense θ e.obj x J xs Js gp.1 gp.2 j u) ^ 2 ≤
        1 / 10 ^ 10 * e.obj.d01kj θ.kernelParams xs xs Js Js (flat j u) (flat j u) * S := by
  intro gp sp S
  have hK := C65_gram_partial e θ.kernelParams h x J
  have s1 : (θ.sigma ^ 2 • (Matrix.of (e.obj.d01kj θ.kernelParams x x J J) : Mat (n * v) (n * v)) +
      Matrix.of (e.obj.d01kj θ.kernelParams x x J J) * (Matrix.of (e.obj.d01kj θ.kernelParams x x J J)).transpose +
      (1 / 10 ^ 10 : ℝ) • (1 : Mat (n * v) (n * v))) * sp.1 =
      Matrix.of (e.obj.d01kj θ.kernelParams x x J J) * centerBy (flatCol y) gp.2 :=
    ex.solve _ _ (posDef_isUnit (sparse_posDef hK _ _))
  have s2 : ((Matrix.of (e.obj.d01kj θ.kernelParams x x J J) : Mat (n * v) (n * v)) +
      (θ.sigma ^ 2 + 1 / 10 ^ 10) • (1 : Mat (n * v) (n * v))) * gp.1 = centerBy (flatCol y) gp.2 :=
    ex.solve _ _ (posDef_isUnit (posDef_add_smul_one hK (noise_pos θ)))
  have key := all_inducing_column hK (sq_nonneg θ.sigma) (by norm_num : (0 : ℝ) < 1 / 10 ^ 10) s1 s2 0
  have hS : (1 + 1 / (θ.sigma ^ 2 + 1 / 10 ^ 10) ^ 2) * ∑ r, centerBy (flatCol y) gp.2 r 0 ^ 2 = S := by
    simp only [S]
    rw [← finProdFinEquiv.sum_comp, Fintype.sum_prod_type]
    simp only [prod_flat, centerBy, flatCol, Matrix.of_apply, flat_divNat, flat_modNat]
  rw [hS] at key
  have hsymm : ∀ {m w : ℕ} (xs : Batch m d) (Js : Jac m d w) i j,
      e.obj.d01kj θ.kernelParams xs x Js J j i = e.obj.d01kj θ.kernelParams x xs J Js i j := fun xs Js i j =>
    (C21_symmetric e θ.kernelParams).d01kj xs x Js J j i
  have hdiff : ∀ {m w : ℕ} (xs : Batch m d) (Js : Jac m d w) (j : Fin m) (u : Fin w),
      sgprPredictDerivs θ e.obj x J xs Js sp.1 sp.2 j u - predictDerivsDense θ e.obj x J xs Js gp.1 gp.2 j u =
        ∑ i, e.obj.d01kj θ.kernelParams x xs J Js i (flat j u) * (sp.1 i 0 - gp.1 i 0) := fun xs Js j u => by
    simp only [sgprPredictDerivs, predictDerivsDense, predictDerivsFlat, addScalar, Matrix.of_apply, Matrix.mul_apply,
      Matrix.transpose_apply, aDerivsLhs, unflatCol, prod_flat, mul_sub, Finset.sum_sub_distrib, hsymm]
    have : sp.2 = gp.2 := rfl
    rw [this]
    ring
  refine ⟨?_, fun xs Js j u => ?_⟩
  · refine le_trans (le_of_eq ?_) key.1
    congr 1
    rw [← finProdFinEquiv.sum_comp, Fintype.sum_prod_type]
    refine Finset.sum_congr rfl fun i _ => Finset.sum_congr rfl fun u _ => ?_
    rw [hdiff, prod_flat]
    congr 1
    exact Finset.sum_congr rfl fun j _ => by rw [← hsymm]; rfl
  · rw [hdiff]
    have hb := block_cauchy (C65_two_datasets_partial e θ.kernelParams h x J xs Js)
      (fun i => sp.1 i 0 - gp.1 i 0) (flat j u)
    have hd : 0 ≤ e.obj.d01kj θ.kernelParams xs xs Js Js (flat j u) (flat j u) :=
      (C65_gram_partial e θ.kernelParams h xs Js).diag_nonneg
    have k1 := mul_le_mul_of_nonneg_left hb (by positivity : 0 ≤ 4 * θ.sigma ^ 2)
    have k2 := mul_le_mul_of_nonneg_left key.2 hd
    refine k1.trans (le_of_eq_of_le ?_ (k2.trans (le_of_eq ?_)))
    · simp only [Matrix.of_apply]; ring
    · ring

/-- The two models are not exactly equal: one sample, constant kernel of variance 2, no noise. `GPR` stores
`1 / (2 + 1e-10)`, `SGPR` stores `2 / (4 + 1e-10)`. -/
theorem C126_not_exact (ex : la.Exact) : ∃ (e : KExpr 1) (θ : GPParams) (x : Batch 1 1) (y : Mat 1 1),
    Admissible e θ.kernelParams ∧
    sgprPredict θ e.obj x x (sgprFitDense la θ e.obj (fun _ => 0) x x y).1 0 ≠
      predictDense θ e.obj x x (fitDense la θ e.obj (fun _ => 0) x y).1 0 := by
  refine ⟨.constant none, ⟨fun _ => 2, 0⟩, 0, 1, ?_, fun heq => ?_⟩
  · norm_num [Admissible, KPar.val]
  have ha : Admissible (.constant none : KExpr 1) (fun _ => 2) := by norm_num [Admissible, KPar.val]
  have h1 := congrFun (congrFun (sparse_system ex (.constant none) ⟨fun _ => 2, 0⟩ ha (fun _ => 0) 0 (1 : Mat 1 1)) 0) 0
  have h2 := congrFun (congrFun (gp_system ex (.constant none) ⟨fun _ => 2, 0⟩ ha (fun _ => 0) 0 (1 : Mat 1 1)) 0) 0
  have h3 := congrFun (congrFun heq 0) 0
  have hk : ∀ i j, (KExpr.constant none : KExpr 1).obj.k (fun _ => 2) (0 : Batch 1 1) (0 : Batch 1 1) i j = 2 :=
    fun i j => by simp [KExpr.obj, KernelObj.constant, KPar.val, constantK]
  simp [Matrix.mul_apply, hk, centerBy, sgprPredict, predictDense, addScalar, aLhs] at h1 h2 h3
  rw [h3] at h1
  linarith

/-- Non-vacuity: a scaled `SquaredExponential` kernel. -/
example : Admissible (.prod (.constant none) (.squaredExponential none) : KExpr 2) (fun _ => 1) := by
  norm_num [Admissible, KPar.val, KPar.sub]

end GPX.Props
