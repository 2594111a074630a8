import Verif.Props.LinearMore
import Verif.Props.Interactions

/-!
# C175: a model of several outputs is several models of one output
-/

namespace GPX.Props
open GPX GPX.Spec Matrix

variable {d m n o l : ℕ} {la : LinAlg}

/-- One column of the targets, as the targets of a model of one output. -/
def outputColumn (y : Mat n o) (a : Fin o) : Mat n 1 := Matrix.of fun i _ => y i a

/-- What a user of a model of several outputs expects of `GPR` with one mean function: each output is predicted as by the model of this output
alone. -/
def C175_full (mf : MeanFun) : Prop :=
  ∀ (d m n o : ℕ) (la : LinAlg), la.Exact → ∀ (e : KExpr d) (θ : GPParams), Admissible e θ.kernelParams →
    ∀ (xt : Batch m d) (y : Mat m o) (x : Batch n d) (a : Fin o) (j : Fin n),
      predictDense θ e.obj xt x (fitDense la θ e.obj mf xt y).1 (fitDense la θ e.obj mf xt y).2 j a =
        predictDense θ e.obj xt x (fitDense la θ e.obj mf xt (outputColumn y a)).1
          (fitDense la θ e.obj mf xt (outputColumn y a)).2 j 0

/-- **C175**, `GPR`: the predictions of an output by a model of several outputs are those of the model of this output alone, with the same
number subtracted and added as mean; in particular of the model of this output alone with the same mean function, if this gives the output
alone the same mean. -/
theorem C175_gpr_partial (ex : la.Exact) (e : KExpr d) (θ : GPParams) (h : Admissible e θ.kernelParams) (mf mf' : MeanFun) (xt : Batch m d)
    (y : Mat m o) (x : Batch n d) (a : Fin o) (hm : mf' (outputColumn y a) = mf y) (j : Fin n) :
    let fit := fitDense la θ e.obj mf xt y
    let one := fitDense la θ e.obj mf' xt (outputColumn y a)
    (∀ i, fit.1 i a = one.1 i 0) ∧ fit.2 = one.2 ∧
    predictDense θ e.obj xt x fit.1 fit.2 j a = predictDense θ e.obj xt x one.1 one.2 j 0 := by
  intro fit one
  have hp := aLhsNoise_posDef e θ h xt
  have h2 : fit.2 = one.2 := hm.symm
  have h1 : ∀ i, fit.1 i a = one.1 i 0 := fun i => by
    simp only [fit, one, fitDense, ex.solve_eq (posDef_isUnit hp), Matrix.mul_apply, centerBy, Matrix.of_apply, outputColumn]
    exact Finset.sum_congr rfl fun q _ => by rw [← hm]; rfl
  refine ⟨h1, h2, ?_⟩
  simp only [predictDense, addScalar, Matrix.of_apply, Matrix.mul_apply, h1, h2]

/-- **C175**, sparse models. -/
theorem C175_sgpr_partial (ex : la.Exact) (e : KExpr d) (θ : GPParams) (h : Admissible e θ.kernelParams) (mf mf' : MeanFun) (xl : Batch l d)
    (xt : Batch m d) (y : Mat m o) (x : Batch n d) (a : Fin o) (hm : mf' (outputColumn y a) = mf y) (j : Fin n) :
    let fit := sgprFitDense la θ e.obj mf xl xt y
    let one := sgprFitDense la θ e.obj mf' xl xt (outputColumn y a)
    (∀ i, fit.1 i a = one.1 i 0) ∧ fit.2 = one.2 ∧
    sgprPredict θ e.obj xl x fit.1 fit.2 j a = sgprPredict θ e.obj xl x one.1 one.2 j 0 := by
  intro fit one
  have hp := sgprALhs_posDef e θ h xl xt
  have h2 : fit.2 = one.2 := hm.symm
  have h1 : ∀ i, fit.1 i a = one.1 i 0 := fun i => by
    simp only [fit, one, sgprFitDense, ex.solve_eq (posDef_isUnit hp), Matrix.mul_apply, centerBy, Matrix.of_apply, outputColumn]
    exact Finset.sum_congr rfl fun q _ => by rw [← hm]; rfl
  refine ⟨h1, h2, ?_⟩
  simp only [sparse_predict_sum, predictDense, addScalar, Matrix.of_apply, Matrix.mul_apply, h1, h2]

/-- **C175** with `zero_mean`, in full. -/
theorem C175_zero_mean : C175_full zeroMean := fun _ _ _ _ _ ex e θ h xt y x a j =>
  (C175_gpr_partial ex e θ h zeroMean zeroMean xt y x a rfl j).2.2

/-- **C175** with `data_mean`: outputs of the same average. -/
theorem C175_same_average_partial (ex : la.Exact) (e : KExpr d) (θ : GPParams) (h : Admissible e θ.kernelParams) (xt : Batch m d)
    (y : Mat m o) (x : Batch n d) (a : Fin o) (hy : ∀ b, ∑ i, y i b = ∑ i, y i a) (j : Fin n) :
    predictDense θ e.obj xt x (fitDense la θ e.obj dataMean xt y).1 (fitDense la θ e.obj dataMean xt y).2 j a =
      predictDense θ e.obj xt x (fitDense la θ e.obj dataMean xt (outputColumn y a)).1
        (fitDense la θ e.obj dataMean xt (outputColumn y a)).2 j 0 := by
  refine (C175_gpr_partial ex e θ h dataMean dataMean xt y x a ?_ j).2.2
  have ho : (o : ℝ) ≠ 0 := Nat.cast_ne_zero.2 (Fin.pos a).ne'
  simp only [dataMean, outputColumn, Matrix.of_apply, Finset.univ_unique, Finset.sum_const, Finset.card_singleton, one_smul,
    Nat.cast_one, mul_one]
  rw [Finset.sum_comm (f := fun i c => y i c), Finset.sum_congr rfl fun b _ => hy b, Finset.sum_const, Finset.card_univ, Fintype.card_fin,
    nsmul_eq_mul, mul_comm (m : ℝ), mul_div_mul_left _ _ ho]

/-- **C175** fails for `data_mean`, the default mean function: it averages over all outputs, so an output is drawn towards the average of the
others. -/
theorem C175_false : ¬ C175_full dataMean := by
  intro h
  have h1 := h 1 1 1 2 LinAlg.ideal LinAlg.ideal_exact (.linear none) ⟨fun _ => 1, 1⟩ trivial (fun _ _ => 0) (fun _ c => if c = 0 then 1 else 0)
    (fun _ _ => 0) 0 0
  have hz : ∀ i j : Fin 1, (KExpr.linear none : KExpr 1).obj.k (fun _ => 1) (fun _ _ => 0 : Batch 1 1) (fun _ _ => 0 : Batch 1 1) i j = 0 :=
    fun i j => by simp [KExpr.obj, KernelObj.linear, linearK, matmulT, Dims.takeCols, Dims.take]
  simp [predictDense, fitDense, aLhs, addScalar, Matrix.mul_apply, hz, dataMean, outputColumn] at h1

/-- The same expectation of sparse models. -/
def C175_sparse_full (mf : MeanFun) : Prop :=
  ∀ (d l m n o : ℕ) (la : LinAlg), la.Exact → ∀ (e : KExpr d) (θ : GPParams), Admissible e θ.kernelParams →
    ∀ (xl : Batch l d) (xt : Batch m d) (y : Mat m o) (x : Batch n d) (a : Fin o) (j : Fin n),
      sgprPredict θ e.obj xl x (sgprFitDense la θ e.obj mf xl xt y).1 (sgprFitDense la θ e.obj mf xl xt y).2 j a =
        sgprPredict θ e.obj xl x (sgprFitDense la θ e.obj mf xl xt (outputColumn y a)).1
          (sgprFitDense la θ e.obj mf xl xt (outputColumn y a)).2 j 0

/-- **C175** for sparse models: it holds with `zero_mean` and fails with `data_mean`. -/
theorem C175_sparse : C175_sparse_full zeroMean ∧ ¬ C175_sparse_full dataMean := by
  refine ⟨fun _ _ _ _ _ _ ex e θ h xl xt y x a j => (C175_sgpr_partial ex e θ h zeroMean zeroMean xl xt y x a rfl j).2.2, fun h => ?_⟩
  have h1 := h 1 1 1 1 2 LinAlg.ideal LinAlg.ideal_exact (.linear none) ⟨fun _ => 1, 1⟩ trivial (fun _ _ => 0) (fun _ _ => 0)
    (fun _ c => if c = 0 then 1 else 0) (fun _ _ => 0) 0 0
  have hz : ∀ i j : Fin 1, (KExpr.linear none : KExpr 1).obj.k (fun _ => 1) (fun _ _ => 0 : Batch 1 1) (fun _ _ => 0 : Batch 1 1) i j = 0 :=
    fun i j => by simp [KExpr.obj, KernelObj.linear, linearK, matmulT, Dims.takeCols, Dims.take]
  simp [sgprPredict, sgprFitDense, addScalar, Matrix.mul_apply, hz, dataMean, outputColumn] at h1

/-- **C175**, the exact difference for any two mean functions: the difference of the means times what the model leaves unexplained of the
constant one. -/
theorem C175_difference (ex : la.Exact) (e : KExpr d) (θ : GPParams) (h : Admissible e θ.kernelParams) (mf mf' : MeanFun) (xt : Batch m d)
    (y : Mat m o) (x : Batch n d) (a : Fin o) (j : Fin n) :
    let ones : Mat m 1 := Matrix.of fun _ _ => 1
    predictDense θ e.obj xt x (fitDense la θ e.obj mf xt y).1 (fitDense la θ e.obj mf xt y).2 j a -
      predictDense θ e.obj xt x (fitDense la θ e.obj mf' xt (outputColumn y a)).1 (fitDense la θ e.obj mf' xt (outputColumn y a)).2 j 0 =
    (mf y - mf' (outputColumn y a)) *
      (1 - predictDense θ e.obj xt x (fitDense la θ e.obj zeroMean xt ones).1 (fitDense la θ e.obj zeroMean xt ones).2 j 0) := by
  intro ones
  have hp := posDef_isUnit (aLhsNoise_posDef e θ h xt)
  simp only [predictDense, fitDense, ex.solve_eq hp, addScalar, Matrix.of_apply, ← Matrix.mul_assoc]
  generalize (aLhs θ e.obj xt x).transpose * (aLhsNoise θ e.obj xt xt)⁻¹ = W
  simp only [Matrix.mul_apply, centerBy, Matrix.of_apply, outputColumn, zeroMean, ones]
  simp only [sub_zero, mul_one, mul_sub, Finset.sum_sub_distrib, ← Finset.sum_mul]
  ring

/-- **C175**, the exact difference for sparse models. -/
theorem C175_difference_sparse (ex : la.Exact) (e : KExpr d) (θ : GPParams) (h : Admissible e θ.kernelParams) (mf mf' : MeanFun) (xl : Batch l d)
    (xt : Batch m d) (y : Mat m o) (x : Batch n d) (a : Fin o) (j : Fin n) :
    let ones : Mat m 1 := Matrix.of fun _ _ => 1
    sgprPredict θ e.obj xl x (sgprFitDense la θ e.obj mf xl xt y).1 (sgprFitDense la θ e.obj mf xl xt y).2 j a -
      sgprPredict θ e.obj xl x (sgprFitDense la θ e.obj mf' xl xt (outputColumn y a)).1
        (sgprFitDense la θ e.obj mf' xl xt (outputColumn y a)).2 j 0 =
    (mf y - mf' (outputColumn y a)) *
      (1 - sgprPredict θ e.obj xl x (sgprFitDense la θ e.obj zeroMean xl xt ones).1 (sgprFitDense la θ e.obj zeroMean xl xt ones).2 j 0) := by
  intro ones
  have hp := posDef_isUnit (sgprALhs_posDef e θ h xl xt)
  simp only [sgprPredict, sgprFitDense, ex.solve_eq hp, addScalar, Matrix.of_apply, ← Matrix.mul_assoc]
  generalize (Matrix.of (e.obj.k θ.kernelParams x xl)) * (sgprALhs θ e.obj xl xt).1⁻¹ * (sgprALhs θ e.obj xl xt).2 = W
  simp only [Matrix.mul_apply, centerBy, Matrix.of_apply, outputColumn, zeroMean, ones]
  simp only [sub_zero, mul_one, mul_sub, Finset.sum_sub_distrib, ← Finset.sum_mul]
  ring

/-- Two outputs of the same average, not the same; and the mean function of C175 for the sparse model. -/
example : Admissible (.matern52 none : KExpr 2) (fun _ => 1) ∧
    (∀ b : Fin 2, ∑ i, (!![1, 3; 4, 2] : Mat 2 2) i b = ∑ i, (!![1, 3; 4, 2] : Mat 2 2) i 0) ∧
    zeroMean (outputColumn (!![1, 3; 4, 2] : Mat 2 2) 1) = zeroMean (!![1, 3; 4, 2] : Mat 2 2) ∧
    dataMean (outputColumn (!![1, 3; 5, 2] : Mat 2 2) 1) ≠ dataMean (!![1, 3; 5, 2] : Mat 2 2) := by
  refine ⟨by simp [Admissible, KPar.val], fun b => ?_, rfl, ?_⟩
  · fin_cases b <;> norm_num [Fin.sum_univ_two]
  · norm_num [dataMean, outputColumn, Fin.sum_univ_two]

end GPX.Props
