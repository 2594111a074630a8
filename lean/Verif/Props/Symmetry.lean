import Verif.Spec.Symmetry
import Verif.Props.InvarianceMore
import Verif.Props.GPROrder
import Verif.Props.OrderSparse
import Verif.Props.LinearMore

/-!
# C169: symmetric data give symmetric predictions
-/

namespace GPX.Props
open GPX GPX.Spec

variable {d m n o k v w : ℕ} {la : LinAlg} {T L : (Fin d → ℝ) → (Fin d → ℝ)}

theorem unnoticed_same {e : KExpr d} (hT : Unnoticed e T L) (θ : GPParams) : SameModels e.obj θ e.obj θ T L := by
  cases hT with
  | rigid he Q hQ b => exact C123_rigid_motion e he θ Q hQ b
  | rotation he Q hQ => exact C123_rotation e he θ Q hQ
  | translation he b => exact C123_translation e he θ b

theorem unnoticed_joint {e : KExpr d} (hT : Unnoticed e T L) (θ : TDParams) : SameJoint e.obj θ e.obj θ T L := by
  cases hT with
  | rigid he Q hQ b => exact C123_rigid_motion_joint e he θ Q hQ b
  | rotation he Q hQ => exact C123_rotation_joint e he θ Q hQ
  | translation he b => exact C123_translation_joint e he θ b

/-- **C169.** Symmetric data. If a motion that the kernel does not notice maps the training inputs onto themselves (sample `i` onto
sample `π i`, which has the same targets), the predictions and covariances of GPR are the same at inputs and at their images. -/
theorem C169_gpr (ex : la.Exact) (e : KExpr d) (hT : Unnoticed e T L) (θ : GPParams) (h : Admissible e θ.kernelParams)
    (mf : MeanFun) (hmf : MeanFun.OrderFree mf) (xt : Batch m d) (y : Mat m o) (π : Equiv.Perm (Fin m))
    (hx : ∀ i, xt (π i) = T (xt i)) (hy : ∀ i a, y (π i) a = y i a) (x : Batch n d) :
    let fit := fitDense la θ e.obj mf xt y
    predictDense θ e.obj xt (mapBatch T x) fit.1 fit.2 = predictDense θ e.obj xt x fit.1 fit.2 ∧
    predictDenseCov la θ e.obj xt (mapBatch T x) = predictDenseCov la θ e.obj xt x := by
  intro fit
  have hs := unnoticed_same hT θ
  obtain ⟨-, -, h1, -, h2, -⟩ := C35_order ex e θ h mf hmf xt y (mapBatch T x) π
  have ex' : (fun i => xt (π i)) = mapBatch T xt := funext hx
  have ey' : (Matrix.of fun i c => y (π i) c) = y := by ext i c; exact hy i c
  rw [ex', ey', hs.fit, hs.predict] at h1
  rw [ex', hs.predictCov] at h2
  exact ⟨h1.symm, h2.symm⟩

/-- **C169.** Antisymmetric data: if instead the targets of the image are `s` times those of the sample (`s = -1` for an odd
function), for a mean function linear in the targets, such as `zero_mean` and `data_mean`, predictions at the images are `s` times
those at the inputs. -/
theorem C169_gpr_odd (ex : la.Exact) (e : KExpr d) (hT : Unnoticed e T L) (θ : GPParams) (h : Admissible e θ.kernelParams)
    (mf : MeanFun) (hmf : MeanFun.OrderFree mf) (hl : MeanFun.Linear mf) (xt : Batch m d) (y : Mat m o) (π : Equiv.Perm (Fin m))
    (s : ℝ) (hx : ∀ i, xt (π i) = T (xt i)) (hy : ∀ i a, y (π i) a = s * y i a) (x : Batch n d) :
    let fit := fitDense la θ e.obj mf xt y
    predictDense θ e.obj xt (mapBatch T x) fit.1 fit.2 = s • predictDense θ e.obj xt x fit.1 fit.2 := by
  intro fit
  have hs := unnoticed_same hT θ
  obtain ⟨-, -, h1, -⟩ := C35_order ex e θ h mf hmf xt y (mapBatch T x) π
  have ex' : (fun i => xt (π i)) = mapBatch T xt := funext hx
  have ey' : (Matrix.of fun i c => y (π i) c) = s • y + (0 : ℝ) • y := by
    ext i c
    rw [zero_smul, add_zero]
    exact hy i c
  have h2 := C36_linear ex e θ h mf hl xt y y x s 0
  rw [ex', ey', hs.fit, hs.predict] at h1
  simp only [zero_smul, add_zero] at h1 h2
  exact h1.symm.trans h2

/-- **C169.** The same for SGPR, when the inducing points are also mapped onto themselves. -/
theorem C169_sgpr (ex : la.Exact) (e : KExpr d) (hT : Unnoticed e T L) (θ : GPParams) (h : Admissible e θ.kernelParams)
    (mf : MeanFun) (hmf : MeanFun.OrderFree mf) (xl : Batch k d) (xt : Batch m d) (y : Mat m o) (ρ : Equiv.Perm (Fin k))
    (π : Equiv.Perm (Fin m)) (hl : ∀ i, xl (ρ i) = T (xl i)) (hx : ∀ i, xt (π i) = T (xt i)) (hy : ∀ i a, y (π i) a = y i a)
    (x : Batch n d) :
    let fit := sgprFitDense la θ e.obj mf xl xt y
    sgprPredict θ e.obj xl (mapBatch T x) fit.1 fit.2 = sgprPredict θ e.obj xl x fit.1 fit.2 ∧
    sgprPredictCov la θ e.obj xl (mapBatch T x) = sgprPredictCov la θ e.obj xl x := by
  intro fit
  have hs := unnoticed_same hT θ
  obtain ⟨-, -, -, h1⟩ := C136_sgpr ex e θ h mf hmf xl xt y ρ π
  obtain ⟨h1, -, h2⟩ := h1 (mapBatch T x)
  have el' : (fun i => xl (ρ i)) = mapBatch T xl := funext hl
  have ex' : (fun i => xt (π i)) = mapBatch T xt := funext hx
  have ey' : (Matrix.of fun i c => y (π i) c) = y := by ext i c; exact hy i c
  rw [el', ex', ey', hs.sgprFit, hs.sgprPredict] at h1
  rw [el', hs.sgprPredictCov] at h2
  exact ⟨h1.symm, h2.symm⟩

/-- **C169.** Models trained on derivatives: when the jacobians are mapped along (`jac (π i) = L (jac i)`, column by column) and the
measured derivatives are the same, the derivatives predicted at the image along the mapped jacobian are those predicted at the
input, and so are predicted targets and the covariances. -/
theorem C169_derivs (ex : la.Exact) (e : KExpr d) (hT : Unnoticed e T L) (θ : GPParams) (mf : MeanFun)
    (hmf : MeanFun.OrderFree mf) (xt : Batch m d) (Jt : Jac m d w) (y : Mat m w)
    (h : (Matrix.of (e.obj.d01kj θ.kernelParams xt xt Jt Jt)).PosSemidef) (π : Equiv.Perm (Fin m))
    (hx : ∀ i, xt (π i) = T (xt i)) (hJ : ∀ i u, (fun f => Jt (π i) f u) = L fun f => Jt i f u) (hy : ∀ i u, y (π i) u = y i u)
    (x : Batch n d) (J : Jac n d v) :
    let fit := fitDerivsDense la θ e.obj mf xt Jt y
    predictDerivsDense θ e.obj xt Jt (mapBatch T x) (mapJac L J) fit.1 fit.2 =
      predictDerivsDense θ e.obj xt Jt x J fit.1 fit.2 ∧
    predictYDerivsDense θ e.obj xt Jt (mapBatch T x) fit.1 fit.2 = predictYDerivsDense θ e.obj xt Jt x fit.1 fit.2 ∧
    predictDerivsDenseCov la θ e.obj xt Jt (mapBatch T x) (mapJac L J) = predictDerivsDenseCov la θ e.obj xt Jt x J := by
  intro fit
  have hs := unnoticed_same hT θ
  obtain ⟨-, -, h1, h2, h3, -⟩ := C35_order_derivs ex e θ mf hmf xt Jt y h (mapBatch T x) (mapJac L J) π
  have ex' : (fun i => xt (π i)) = mapBatch T xt := funext hx
  have eJ' : (fun i => Jt (π i)) = mapJac L Jt := by
    funext i f u
    exact congrFun (hJ i u) f
  have ey' : (Matrix.of fun i c => y (π i) c) = y := by ext i c; exact hy i c
  rw [ex', eJ', ey', hs.fitDerivs, hs.predictDerivs] at h1
  rw [ex', eJ', ey', hs.fitDerivs, hs.predictYDerivs] at h2
  rw [ex', eJ', hs.predictDerivsCov] at h3
  exact ⟨h1.symm, h2.symm, h3.symm⟩

/-- **C169.** GPR_TD: both the targets and the derivatives predicted at the images, the latter along the mapped jacobian, are those
predicted at the inputs. -/
theorem C169_joint (ex : la.Exact) (e : KExpr d) (hT : Unnoticed e T L) (θ : TDParams) (mf : MeanFun)
    (hmf : MeanFun.OrderFree mf) (xt : Batch m d) (y : Mat m 1) (Jt : Jac m d w) (yd : Mat m w)
    (hp : (tdALhsNoise1 θ e.obj xt Jt xt Jt).PosDef) (π : Equiv.Perm (Fin m)) (hx : ∀ i, xt (π i) = T (xt i))
    (hJ : ∀ i u, (fun f => Jt (π i) f u) = L fun f => Jt i f u) (hy : ∀ i a, y (π i) a = y i a)
    (hyd : ∀ i u, yd (π i) u = yd i u) (x : Batch n d) (J : Jac n d v) :
    let fit := tdFitDense1 la θ e.obj mf xt y Jt yd
    tdPredictDense1 θ e.obj xt Jt (mapBatch T x) (mapJac L J) fit.1 fit.2 = tdPredictDense1 θ e.obj xt Jt x J fit.1 fit.2 := by
  intro fit
  have hs := unnoticed_joint hT θ
  obtain ⟨-, -, -, -, h1⟩ := C136_gpr_td ex e θ mf hmf xt y Jt yd hp π
  have h1 := (h1 (mapBatch T x) (mapJac L J)).1
  have ex' : (fun i => xt (π i)) = mapBatch T xt := funext hx
  have eJ' : (fun i => Jt (π i)) = mapJac L Jt := by
    funext i f u
    exact congrFun (hJ i u) f
  have ey' : (Matrix.of fun i c => y (π i) c) = y := by ext i c; exact hy i c
  have eyd' : (Matrix.of fun i c => yd (π i) c) = yd := by ext i c; exact hyd i c
  have h2 := hs.predict1 xt Jt fit.1 fit.2 false x J none
  have h3 : tdPredictDense1 θ e.obj (mapBatch T xt) (mapJac L Jt) (mapBatch T x) (mapJac L J) fit.1 fit.2 =
      tdPredictDense1 θ e.obj xt Jt x J fit.1 fit.2 := by
    have h4 := Except.ok.inj h2
    exact Prod.ext (congrArg (fun q => q.1) h4) (congrArg (fun q => q.2.1) h4)
  rw [ex', eJ', ey', eyd', hs.fit1] at h1
  exact h1.symm.trans h3

/-- Non-vacuity: swapping two features (identical atoms) with a squared exponential times a constant; three samples, the first two
swapped, the third on the diagonal. -/
example : let e : KExpr 2 := .prod (.constant none) (.squaredExponential none)
    let Q : Matrix (Fin 2) (Fin 2) ℝ := !![0, 1; 1, 0]
    let xt : Batch 3 2 := ![![1, 2], ![2, 1], ![5, 5]]
    let y : Mat 3 1 := ![![7], ![7], ![4]]
    let π : Equiv.Perm (Fin 3) := Equiv.swap 0 1
    Unnoticed e (affine Q 0) (affine Q 0) ∧ (∀ i, xt (π i) = affine Q 0 (xt i)) ∧ ∀ i a, y (π i) a = y i a := by
  intro e Q xt y π
  have h0 : π 0 = 1 := by decide
  have h1 : π 1 = 0 := by decide
  have h2 : π 2 = 2 := by decide
  refine ⟨.rotation (e := e) (show _ ∧ _ from ⟨trivial, rfl⟩) Q (by ext i j; fin_cases i <;> fin_cases j <;> simp [Q, Matrix.mul_apply, Fin.sum_univ_succ]), ?_, ?_⟩
  · intro i
    funext f
    fin_cases i
    · change xt (π 0) f = _
      rw [h0]
      fin_cases f <;> simp [affine, Q, xt, Fin.sum_univ_succ]
    · change xt (π 1) f = _
      rw [h1]
      fin_cases f <;> simp [affine, Q, xt, Fin.sum_univ_succ]
    · change xt (π 2) f = _
      rw [h2]
      fin_cases f <;> simp [affine, Q, xt, Fin.sum_univ_succ]
  · intro i a
    fin_cases i
    · change y (π 0) a = y 0 a
      rw [h0]
      rfl
    · change y (π 1) a = y 1 a
      rw [h1]
      rfl
    · change y (π 2) a = y 2 a
      rw [h2]

/-- Non-vacuity for derivatives: two samples and their directions swapped. -/
example : let Q : Matrix (Fin 2) (Fin 2) ℝ := !![0, 1; 1, 0]
    let xt : Batch 2 2 := ![![1, 2], ![2, 1]]
    let Jt : Jac 2 2 1 := ![![![3], ![4]], ![![4], ![3]]]
    let π : Equiv.Perm (Fin 2) := Equiv.swap 0 1
    (∀ i, xt (π i) = affine Q 0 (xt i)) ∧ ∀ i u, (fun f => Jt (π i) f u) = affine Q 0 fun f => Jt i f u := by
  intro Q xt Jt π
  have h0 : π 0 = 1 := by decide
  have h1 : π 1 = 0 := by decide
  constructor
  · intro i
    funext f
    fin_cases i
    · change xt (π 0) f = _
      rw [h0]
      fin_cases f <;> simp [affine, Q, xt, Fin.sum_univ_succ]
    · change xt (π 1) f = _
      rw [h1]
      fin_cases f <;> simp [affine, Q, xt, Fin.sum_univ_succ]
  · intro i u
    funext f
    fin_cases i
    · change Jt (π 0) f u = _
      rw [h0]
      fin_cases f <;> fin_cases u <;> simp [affine, Q, Jt, Fin.sum_univ_succ]
    · change Jt (π 1) f u = _
      rw [h1]
      fin_cases f <;> fin_cases u <;> simp [affine, Q, Jt, Fin.sum_univ_succ]

end GPX.Props
