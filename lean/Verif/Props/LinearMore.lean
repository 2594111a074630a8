import Verif.Props.GPROrder
import Verif.Props.SGPR
import Verif.Props.GPRTD

/-!
# C36 for sparse and joint models
-/

namespace GPX.Props
open GPX GPX.Spec

variable {d m n o v v' w w' k : ℕ} {la : LinAlg}

/-- **C36**, linearity for the sparse model. -/
theorem C36_linear_sparse (ex : la.Exact) (e : KExpr d) (θ : GPParams) (h : Admissible e θ.kernelParams) (mf : MeanFun)
    (hmf : MeanFun.Linear mf) (xl : Batch k d) (xt : Batch m d) (y y' : Mat m o) (x : Batch n d) (a b : ℝ) :
    let predict : Mat m o → Mat n o := fun y =>
      sgprPredict θ e.obj xl x (sgprFitDense la θ e.obj mf xl xt y).1 (sgprFitDense la θ e.obj mf xl xt y).2
    predict (a • y + b • y') = a • predict y + b • predict y' := by
  intro predict
  have hp := sgprALhs_posDef e θ h xl xt
  change addScalar (mf (a • y + b • y')) ((Matrix.of (e.obj.k θ.kernelParams x xl) : Mat n k) *
      la.solve (sgprALhs θ e.obj xl xt).1 ((sgprALhs θ e.obj xl xt).2 *
        centerBy (a • y + b • y') (mf (a • y + b • y')))) = _
  rw [show mf (a • y + b • y') = a * mf y + b * mf y' from hmf a b y y', centerBy_lin, Matrix.mul_add, Matrix.mul_smul,
    Matrix.mul_smul, solve_lin ex hp, addScalar_lin]
  rfl

/-- **C36**, linearity for the sparse model with inducing points chosen by randomly pivoted Cholesky: the points chosen
do not depend on the targets, and with the same key the predictions are linear in the targets. -/
theorem C36_linear_rpchol (ex : la.Exact) {Key : Type} (split : Key → Key × Key) (choice : Key → (Fin m → ℝ) → Fin m)
    (e : KExpr d) (θ : GPParams) (h : Admissible e θ.kernelParams) (mf : MeanFun) (hmf : MeanFun.Linear mf)
    (xt : Batch m d) (y y' : Mat m o) (key : Key) (nLocs : ℕ) (x : Batch n d) (a b : ℝ) :
    let predict : Mat m o → Except RpcErr (Mat n o) := fun y => do
      let r ← rpcFitDense la split choice θ e.obj mf xt y key nLocs
      pure (sgprPredict θ e.obj r.2.2 x r.1 r.2.1)
    predict (a • y + b • y') = (do
      let p ← predict y
      let p' ← predict y'
      pure (a • p + b • p')) := by
  intro predict
  simp only [predict, rpcFitDense]
  rcases hr : rpcholesky split choice key xt nLocs e.obj θ.kernelParams with er | ⟨f, pivots⟩
  · rfl
  · exact congrArg Except.ok (C36_linear_sparse ex e θ h mf hmf (takeRows xt pivots : Batch nLocs d) xt y y' x a b)

/-- **C36**, linearity for the sparse model trained on derivatives, for predicted derivatives and targets. -/
theorem C36_linear_sparse_derivs (ex : la.Exact) (κ : KernelObj d) (θ : GPParams) (mf : MeanFun)
    (hmf : MeanFun.Linear mf) (xl : Batch k d) (Jl : Jac k d v')
    (h : (Matrix.of (κ.d01kj θ.kernelParams xl xl Jl Jl)).PosSemidef) (xt : Batch m d) (Jt : Jac m d w) (y y' : Mat m w)
    (x : Batch n d) (J : Jac n d v) (a b : ℝ) :
    let fit := fun y => sgprFitDerivsDense la θ κ mf xl Jl xt Jt y
    let predict : Mat m w → Mat n v := fun y => sgprPredictDerivs θ κ xl Jl x J (fit y).1 (fit y).2
    let predictY : Mat m w → Mat n 1 := fun y => sgprPredictYDerivs θ κ xl Jl x (fit y).1 (fit y).2
    predict (a • y + b • y') = a • predict y + b • predict y' ∧
    predictY (a • y + b • y') = a • predictY y + b • predictY y' := by
  intro fit predict predictY
  have hp : (sgprADerivsLhs θ κ xl Jl xt Jt).1.PosDef := sparse_posDef h _ _
  have hm : (fit (a • y + b • y')).2 = a * (fit y).2 + b * (fit y').2 := hmf a b (flatCol y) (flatCol y')
  have hc : (fit (a • y + b • y')).1 = a • (fit y).1 + b • (fit y').1 := by
    change la.solve _ ((sgprADerivsLhs θ κ xl Jl xt Jt).2 * centerBy (a • flatCol y + b • flatCol y')
      (mf (a • flatCol y + b • flatCol y'))) = _
    rw [show mf (a • flatCol y + b • flatCol y') = a * mf (flatCol y) + b * mf (flatCol y') from hmf a b _ _,
      centerBy_lin, Matrix.mul_add, Matrix.mul_smul, Matrix.mul_smul, solve_lin ex hp]
    rfl
  constructor
  · simp only [predict, sgprPredictDerivs, hm, hc, addScalar_lin, unflatCol_lin]
  · simp only [predictY, sgprPredictYDerivs, hm, hc, addScalar_lin]

theorem vcat_lin {p q : ℕ} (a b : ℝ) (A A' : Mat p o) (B B' : Mat q o) :
    vcat (a • A + b • A') (a • B + b • B') = a • vcat A B + b • vcat A' B' := by
  ext i c
  refine Fin.addCases (fun i => ?_) (fun i => ?_) i <;> simp [vcat]

theorem tdSplit1_lin (K : Mat (n + n * v) m) (a b mu mu' : ℝ) (c c' : Mat m 1) :
    tdSplit1 (a * mu + b * mu') (K * (a • c + b • c')) =
      (a • (tdSplit1 mu (K * c)).1 + b • (tdSplit1 mu' (K * c')).1,
        a • (tdSplit1 mu (K * c)).2 + b • (tdSplit1 mu' (K * c')).2) := by
  rw [Matrix.mul_add, Matrix.mul_smul, Matrix.mul_smul]
  refine Prod.ext ?_ rfl
  ext i j
  simp [tdSplit1, topRows]
  ring

theorem tdRhs1_lin (mf : MeanFun) (hmf : MeanFun.Linear mf) (a b : ℝ) (y y' : Mat n 1) (yd yd' : Mat n v) :
    tdRhs1 mf (a • y + b • y') (a • yd + b • yd') = a • tdRhs1 mf y yd + b • tdRhs1 mf y' yd' := by
  unfold tdRhs1
  beta_reduce
  rw [show mf (a • y + b • y') = a * mf y + b * mf y' from hmf a b y y', centerBy_lin, flatCol_lin, vcat_lin]

/-- **C36**, linearity for joint training on targets and one set of derivatives: predicted targets and derivatives are
linear in the training targets and derivatives taken together. -/
theorem C36_linear_joint (ex : la.Exact) (κ : KernelObj d) (θ : TDParams) (mf : MeanFun) (hmf : MeanFun.Linear mf)
    (xt : Batch m d) (Jt : Jac m d v) (h : (Matrix.of (cov1 κ θ.kernelParams xt Jt xt Jt)).PosSemidef)
    (y y' : Mat m 1) (yd yd' : Mat m v) (x : Batch n d) (J : Jac n d w) (a b : ℝ) :
    let predict : Mat m 1 → Mat m v → Mat n 1 × Mat n w := fun y yd =>
      let fit := tdFitDense1 la θ κ mf xt y Jt yd
      tdPredictDense1 θ κ xt Jt x J fit.1 fit.2
    predict (a • y + b • y') (a • yd + b • yd') =
      (a • (predict y yd).1 + b • (predict y' yd').1, a • (predict y yd).2 + b • (predict y' yd').2) := by
  intro predict
  have hp := C52_posDef1 κ θ xt Jt h
  simp only [predict, tdPredictDense1, tdFitDense1, tdRhs1_lin mf hmf, solve_lin ex hp]
  rw [show mf (a • y + b • y') = a * mf y + b * mf y' from hmf a b y y']
  exact tdSplit1_lin _ _ _ _ _ _ _

/-- **C36**, linearity for joint training on targets and two sets of derivatives. -/
theorem C36_linear_joint2 (ex : la.Exact) (κ : KernelObj d) (θ : TDParams) (mf : MeanFun) (hmf : MeanFun.Linear mf)
    (xt : Batch m d) (Jt : Jac m d v) (Jt' : Jac m d v')
    (h : (Matrix.of (cov2 κ θ.kernelParams xt Jt Jt' xt Jt Jt')).PosSemidef) (y y' : Mat m 1) (yd yd' : Mat m v)
    (ye ye' : Mat m v') (x : Batch n d) (J : Jac n d w) (J' : Jac n d w') (a b : ℝ) :
    let predict : Mat m 1 → Mat m v → Mat m v' → Mat n 1 × Mat n w × Mat n w' := fun y yd ye =>
      let fit := tdFitDense2 la θ κ mf xt y Jt Jt' yd ye
      tdPredictDense2 θ κ xt Jt Jt' x J J' fit.1 fit.2
    predict (a • y + b • y') (a • yd + b • yd') (a • ye + b • ye') =
      (a • (predict y yd ye).1 + b • (predict y' yd' ye').1,
        a • (predict y yd ye).2.1 + b • (predict y' yd' ye').2.1,
        a • (predict y yd ye).2.2 + b • (predict y' yd' ye').2.2) := by
  intro predict
  have hp := C52_posDef2 κ θ xt Jt Jt' h
  have hr : tdRhs2 mf (a • y + b • y') (a • yd + b • yd') (a • ye + b • ye') =
      a • tdRhs2 mf y yd ye + b • tdRhs2 mf y' yd' ye' := by
    unfold tdRhs2
    rw [tdRhs1_lin mf hmf, flatCol_lin, vcat_lin]
  simp only [predict, tdPredictDense2, tdFitDense2, hr, solve_lin ex hp, Matrix.mul_add, Matrix.mul_smul]
  rw [show mf (a • y + b • y') = a * mf y + b * mf y' from hmf a b y y']
  refine Prod.ext ?_ rfl
  ext i j
  simp [tdSplit2, tdSplit1, topRows]
  ring

theorem dataMean_shift (y : Mat m o) (hm : 0 < m) (ho : 0 < o) (t : ℝ) :
    dataMean (Matrix.of fun i c => y i c + t : Mat m o) = dataMean y + t ∧
    centerBy (Matrix.of fun i c => y i c + t : Mat m o) (dataMean (Matrix.of fun i c => y i c + t : Mat m o)) =
      centerBy y (dataMean y) := by
  have h1 : (m : ℝ) ≠ 0 := by positivity
  have h2 : (o : ℝ) ≠ 0 := by positivity
  have hmu : dataMean (Matrix.of fun i c => y i c + t : Mat m o) = dataMean y + t := by
    simp only [dataMean, Matrix.of_apply, Finset.sum_add_distrib, Finset.sum_const, Finset.card_univ,
      Fintype.card_fin, nsmul_eq_mul]
    field_simp
  refine ⟨hmu, ?_⟩
  rw [hmu]
  ext i c
  simp [centerBy]

/-- **C36**, shifts, sparse model: with `data_mean`, adding a constant to all training targets adds it to every
prediction. -/
theorem C36_shift_sparse (κ : KernelObj d) (θ : GPParams) (xl : Batch k d) (xt : Batch m d) (y : Mat m o) (hm : 0 < m)
    (ho : 0 < o) (x : Batch n d) (t : ℝ) :
    let predict : Mat m o → Mat n o := fun y =>
      sgprPredict θ κ xl x (sgprFitDense la θ κ dataMean xl xt y).1 (sgprFitDense la θ κ dataMean xl xt y).2
    ∀ i c, predict (Matrix.of fun i c => y i c + t) i c = predict y i c + t := by
  intro predict i c
  obtain ⟨h1, h2⟩ := dataMean_shift y hm ho t
  simp only [predict, sgprPredict, sgprFitDense, addScalar, Matrix.of_apply]
  rw [h2, h1]
  ring

/-- **C36**, shifts, joint training: with `data_mean`, adding a constant to all training targets adds it to every
predicted target and leaves every predicted derivative as it was, with one or two sets of derivatives. -/
theorem C36_shift_joint (κ : KernelObj d) (θ : TDParams) (xt : Batch m d) (Jt : Jac m d v) (Jt' : Jac m d v')
    (y : Mat m 1) (yd : Mat m v) (yd' : Mat m v') (hm : 0 < m) (x : Batch n d) (J : Jac n d w) (J' : Jac n d w')
    (t : ℝ) :
    let p1 : Mat m 1 → Mat n 1 × Mat n w := fun y =>
      let fit := tdFitDense1 la θ κ dataMean xt y Jt yd
      tdPredictDense1 θ κ xt Jt x J fit.1 fit.2
    let p2 : Mat m 1 → Mat n 1 × Mat n w × Mat n w' := fun y =>
      let fit := tdFitDense2 la θ κ dataMean xt y Jt Jt' yd yd'
      tdPredictDense2 θ κ xt Jt Jt' x J J' fit.1 fit.2
    let y' : Mat m 1 := Matrix.of fun i c => y i c + t
    ((∀ i c, (p1 y').1 i c = (p1 y).1 i c + t) ∧ (p1 y').2 = (p1 y).2) ∧
    (∀ i c, (p2 y').1 i c = (p2 y).1 i c + t) ∧ (p2 y').2 = (p2 y).2 := by
  intro p1 p2 y'
  obtain ⟨h1, h2⟩ := dataMean_shift y hm one_pos t
  have r1 : tdRhs1 dataMean y' yd = tdRhs1 dataMean y yd := by unfold tdRhs1; rw [h2]
  have r2 : tdRhs2 dataMean y' yd yd' = tdRhs2 dataMean y yd yd' := by unfold tdRhs2; rw [r1]
  refine ⟨⟨fun i c => ?_, ?_⟩, fun i c => ?_, ?_⟩
  · simp only [p1, tdPredictDense1, tdFitDense1, tdSplit1, r1, Matrix.of_apply]
    rw [show dataMean y' = dataMean y + t from h1]
    ring
  · simp only [p1, tdPredictDense1, tdFitDense1, tdSplit1, r1]
  · simp only [p2, tdPredictDense2, tdFitDense2, tdSplit2, tdSplit1, r2, Matrix.of_apply]
    rw [show dataMean y' = dataMean y + t from h1]
    ring
  · simp only [p2, tdPredictDense2, tdFitDense2, tdSplit2, tdSplit1, r2]

/-- Non-vacuity: linear mean functions, a covariance of targets and derivatives that is positive semidefinite, and
predictions of the sparse model that do depend on the targets. -/
example : MeanFun.Linear zeroMean ∧ MeanFun.Linear dataMean ∧
    (Matrix.of (cov1 (KExpr.obj (.matern52 none : KExpr 1)) (fun _ => 1) (![![0], ![1]] : Batch 2 1)
      (fun _ _ _ => 1 : Jac 2 1 1) (![![0], ![1]] : Batch 2 1) (fun _ _ _ => 1 : Jac 2 1 1))).PosSemidef ∧
    dataMean (Matrix.of fun _ _ => 1 : Mat 1 1) ≠ dataMean (Matrix.of fun _ _ => 0 : Mat 1 1) :=
  ⟨zeroMean_linear, dataMean_linear,
    (C78_joint_partial (.matern52 none : KExpr 1) (fun _ => 1) (by norm_num [JointSmooth, KPar.val]) _ _
      (fun _ _ _ => 1 : Jac 2 1 1)).1, by simp [dataMean]⟩

end GPX.Props
