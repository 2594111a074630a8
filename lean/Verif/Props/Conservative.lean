import Mathlib.MeasureTheory.Integral.IntervalIntegral.FundThmCalculus
import Verif.Props.Consistency
import Verif.Props.ContinuityDerivs
import Verif.Props.WorstCase

/-!
# C174: predicted derivatives are conservative
-/

namespace GPX.Props
open GPX GPX.Spec Matrix

variable {d m n v w : ℕ}

theorem gaussian_noMatern {e : KExpr d} (h : Gaussian e) : NoMatern32 e := by
  induction h with
  | squaredExponential => trivial
  | constant => trivial
  | sum _ _ h1 h2 => exact ⟨h1, h2⟩
  | scaleLeft _ h => exact ⟨trivial, h⟩
  | scaleRight _ h => exact ⟨h, trivial⟩

theorem moves_continuous {x : ℝ → Batch n d} {J : ℝ → Jac n d v} {u : Fin v} (hm : ∀ t, Moves x t (J t) u) : Continuous x :=
  continuous_pi fun i => continuous_pi fun f => continuous_iff_continuousAt.2 fun t => (hm t i f).continuousAt

theorem predict_derivs_path (e : KExpr d) (θ : GPParams) (hs : Smooth e θ.kernelParams) (hn : NoMatern32 e) (xt : Batch m d)
    (Jt : Jac m d w) {x : ℝ → Batch n d} {J : ℝ → Jac n d v} {u : Fin v} (hm : ∀ t, Moves x t (J t) u) (hJ : Continuous J)
    (c : Mat (m * w) 1) (mu : ℝ) (j : Fin n) : Continuous fun t => predictDerivsDense θ e.obj xt Jt (x t) (J t) c mu j u := by
  have hk : ContinuousKernel e.obj fun _ : ℝ => θ.kernelParams :=
    C132_kernel e hn (fun _ => θ.kernelParams) (fun _ => continuous_const) fun _ => hs
  have : (fun t => predictDerivsDense θ e.obj xt Jt (x t) (J t) c mu j u) = fun t =>
      (∑ l, e.obj.d01kj θ.kernelParams xt (x t) Jt (J t) l (flat j u) * c l 0) + mu := funext fun t => by
    rw [← predict_derivs_sub, sub_add_cancel]
  rw [this]
  exact (continuous_finsetSum _ fun l _ => (hk.d01kj continuous_const (moves_continuous hm) continuous_const hJ l _).mul
    continuous_const).add continuous_const

/-- The prediction with a stored mean is that without it, plus the mean. -/
theorem predict_derivs_mean (e : KExpr d) (θ : GPParams) (xt : Batch m d) (Jt : Jac m d w) (x : Batch n d) (J : Jac n d v)
    (c : Mat (m * w) 1) (mu : ℝ) (j : Fin n) (u : Fin v) :
    predictDerivsDense θ e.obj xt Jt x J c mu j u = predictDerivsDense θ e.obj xt Jt x J c 0 j u + mu := by
  have h1 := predict_derivs_sub e θ xt Jt x J c mu j u
  have h2 := predict_derivs_sub e θ xt Jt x J c 0 j u
  linarith

/-- **C174**, models trained on derivatives: along a path, the integral of the predicted derivatives is the difference of the predicted
targets at its ends, plus the mean that `predict_derivs` adds times the length of the interval. -/
theorem C174_derivs (e : KExpr d) (θ : GPParams) (h : JointSmooth e θ.kernelParams) (xt : Batch m d) (Jt : Jac m d w)
    (x : ℝ → Batch n d) (J : ℝ → Jac n d v) (u : Fin v) (hm : ∀ t, Moves x t (J t) u) (hJ : Continuous J) (c : Mat (m * w) 1)
    (mu : ℝ) (j : Fin n) (a b : ℝ) :
    ∫ t in a..b, predictDerivsDense θ e.obj xt Jt (x t) (J t) c mu j u =
      predictYDerivsDense θ e.obj xt Jt (x b) c mu j 0 - predictYDerivsDense θ e.obj xt Jt (x a) c mu j 0 + mu * (b - a) := by
  have hc := predict_derivs_path e θ (jointSmooth_smooth h).1 (jointSmooth_smooth h).2 xt Jt hm hJ c
  simp only [fun t => predict_derivs_mean e θ xt Jt (x t) (J t) c mu j u]
  rw [intervalIntegral.integral_add ((hc 0 j).intervalIntegrable _ _) (continuous_const.intervalIntegrable _ _),
    intervalIntegral.integral_eq_sub_of_hasDerivAt (fun t _ => (C80_gpr_derivs_partial e θ h xt Jt x t (J t) u (hm t) c mu j).1)
      ((hc 0 j).intervalIntegrable _ _)]
  simp [mul_comm]

/-- **C174**, the same for kernels made of `SquaredExponential`s and `Constant`s, with the factor `exp(1e-12)` of C80. -/
theorem C174_gaussian (e : KExpr d) (hg : Gaussian e) (θ : GPParams) (hs : Smooth e θ.kernelParams) (xt : Batch m d) (Jt : Jac m d w)
    (x : ℝ → Batch n d) (J : ℝ → Jac n d v) (u : Fin v) (hm : ∀ t, Moves x t (J t) u) (hJ : Continuous J) (c : Mat (m * w) 1)
    (mu : ℝ) (j : Fin n) (a b : ℝ) :
    Real.exp (1 / 10 ^ 12) * ∫ t in a..b, (predictDerivsDense θ e.obj xt Jt (x t) (J t) c mu j u - mu) =
      predictYDerivsDense θ e.obj xt Jt (x b) c mu j 0 - predictYDerivsDense θ e.obj xt Jt (x a) c mu j 0 := by
  have hc := predict_derivs_path e θ hs (gaussian_noMatern hg) xt Jt hm hJ c
  simp only [fun t => predict_derivs_mean e θ xt Jt (x t) (J t) c mu j u, add_sub_cancel_right]
  rw [← intervalIntegral.integral_const_mul]
  exact intervalIntegral.integral_eq_sub_of_hasDerivAt
    (fun t _ => (C80_gaussian e hg θ xt x t (J t) u (hm t) mu j).1 Jt c)
    ((continuous_const.mul (hc 0 j)).intervalIntegrable _ _)

/-- **C174**, closed paths of models trained on derivatives: the integral of the predicted derivatives is the stored mean times the
length of the interval, and so 0 when no mean is stored. -/
theorem C174_loop (e : KExpr d) (θ : GPParams) (h : JointSmooth e θ.kernelParams ∨ (Gaussian e ∧ Smooth e θ.kernelParams)) (xt : Batch m d)
    (Jt : Jac m d w) (x : ℝ → Batch n d) (J : ℝ → Jac n d v) (u : Fin v) (hm : ∀ t, Moves x t (J t) u) (hJ : Continuous J)
    (c : Mat (m * w) 1) (mu : ℝ) (j : Fin n) (a b : ℝ) (hab : x a = x b) :
    ∫ t in a..b, predictDerivsDense θ e.obj xt Jt (x t) (J t) c mu j u = mu * (b - a) := by
  rcases h with h | ⟨hg, hs⟩
  · rw [C174_derivs e θ h xt Jt x J u hm hJ, hab, sub_self, zero_add]
  · have h1 := C174_gaussian e hg θ hs xt Jt x J u hm hJ c mu j a b
    have hc := predict_derivs_path e θ hs (gaussian_noMatern hg) xt Jt hm hJ c mu j
    rw [hab, sub_self, mul_eq_zero, or_iff_right (Real.exp_pos _).ne',
      intervalIntegral.integral_sub (hc.intervalIntegrable _ _) (continuous_const.intervalIntegrable _ _)] at h1
    simp only [intervalIntegral.integral_const, smul_eq_mul] at h1
    linarith

/-- **C174**, sparse models trained on derivatives. -/
theorem C174_sparse (e : KExpr d) (θ : GPParams) (h : JointSmooth e θ.kernelParams) (xl : Batch m d) (Jl : Jac m d w)
    (x : ℝ → Batch n d) (J : ℝ → Jac n d v) (u : Fin v) (hm : ∀ t, Moves x t (J t) u) (hJ : Continuous J) (c : Mat (m * w) 1)
    (mu : ℝ) (j : Fin n) (a b : ℝ) :
    ∫ t in a..b, sgprPredictDerivs θ e.obj xl Jl (x t) (J t) c mu j u =
      sgprPredictYDerivs θ e.obj xl Jl (x b) c mu j 0 - sgprPredictYDerivs θ e.obj xl Jl (x a) c mu j 0 + mu * (b - a) := by
  have hs := C21_symmetric e θ.kernelParams
  simp only [fun t => (sgpr_derivs_eq hs xl Jl (x t) (J t) c mu).1]
  exact C174_derivs e θ h xl Jl x J u hm hJ c mu j a b

/-- **C174**, `predict_ol`: the integral of the predicted derivatives is the difference of the predicted targets. -/
theorem C174_ol (e : KExpr d) (θ : GPParams) (h : JointSmooth e θ.kernelParams) (xt : Batch m d) (x : ℝ → Batch n d)
    (J : ℝ → Jac n d v) (u : Fin v) (hm : ∀ t, Moves x t (J t) u) (hJ : Continuous J) (c : Mat m 1) (mu : ℝ) (j : Fin n) (a b : ℝ) :
    ∫ t in a..b, (predictOl θ e.obj xt (x t) (J t) c mu).2 (flat j u) 0 =
      predictDense θ e.obj xt (x b) c mu j 0 - predictDense θ e.obj xt (x a) c mu j 0 := by
  have hk : ContinuousKernel e.obj fun _ : ℝ => θ.kernelParams :=
    C132_kernel e (jointSmooth_smooth h).2 (fun _ => θ.kernelParams) (fun _ => continuous_const) fun _ => (jointSmooth_smooth h).1
  have hc : Continuous fun t => (predictOl θ e.obj xt (x t) (J t) c mu).2 (flat j u) 0 := by
    simp only [predictOl, Matrix.of_apply, Matrix.mul_apply]
    exact continuous_finsetSum _ fun l _ => continuous_const.mul (hk.d1kj continuous_const (moves_continuous hm) hJ l _)
  have hp : ∀ (x : Batch n d) (J : Jac n d v), (predictOl θ e.obj xt x J c mu).1 j 0 = predictDense θ e.obj xt x c mu j 0 := fun x J => by
    simp only [predictOl, predictDense, addScalar, Matrix.of_apply, Matrix.mul_apply, Matrix.transpose_apply]
    congr 1
    exact Finset.sum_congr rfl fun l _ => mul_comm _ _
  refine intervalIntegral.integral_eq_sub_of_hasDerivAt (f := fun t => predictDense θ e.obj xt (x t) c mu j 0) (fun t _ => ?_)
    (hc.intervalIntegrable _ _)
  have := C80_ol_partial e θ h xt x t (J t) u (hm t) c mu j
  simpa only [hp] using this

/-- **C174**, `GPR_TD`: the integral of the predicted derivatives is the difference of the predicted targets. -/
theorem C174_td (e : KExpr d) (θ : TDParams) (h : JointSmooth e θ.kernelParams) (xt : Batch m d) (Jt : Jac m d w)
    (x : ℝ → Batch n d) (J : ℝ → Jac n d v) (u : Fin v) (hm : ∀ t, Moves x t (J t) u) (hJ : Continuous J) (c : Mat (m + m * w) 1)
    (mu : ℝ) (j : Fin n) (a b : ℝ) :
    ∫ t in a..b, (tdPredictDense1 θ e.obj xt Jt (x t) (J t) c mu).2 j u =
      (tdPredictDense1 θ e.obj xt Jt (x b) (J b) c mu).1 j 0 - (tdPredictDense1 θ e.obj xt Jt (x a) (J a) c mu).1 j 0 := by
  have hk : ContinuousKernel e.obj fun _ : ℝ => θ.kernelParams :=
    C132_kernel e (jointSmooth_smooth h).2 (fun _ => θ.kernelParams) (fun _ => continuous_const) fun _ => (jointSmooth_smooth h).1
  have hc : Continuous fun t => (tdPredictDense1 θ e.obj xt Jt (x t) (J t) c mu).2 j u := by
    simp only [fun t => (C76_predict1 e θ xt Jt (x t) (J t) c mu).2.1]
    refine continuous_finsetSum _ fun l _ => Continuous.mul ?_ continuous_const
    rcases l with i | ⟨i, q⟩
    · exact hk.d1kj continuous_const (moves_continuous hm) hJ i (flat j u)
    · exact hk.d01kj continuous_const (moves_continuous hm) continuous_const hJ (flat i q) (flat j u)
  have hp : ∀ (x : Batch n d) (J J' : Jac n d v), (tdPredictDense1 θ e.obj xt Jt x J c mu).1 j 0 =
      (tdPredictDense1 θ e.obj xt Jt x J' c mu).1 j 0 := fun x J J' => by
    rw [(C76_predict1 e θ xt Jt x J c mu).1, (C76_predict1 e θ xt Jt x J' c mu).1]
    congr 1
    exact Finset.sum_congr rfl fun l _ => by rcases l with i | ⟨i, q⟩ <;> rfl
  refine intervalIntegral.integral_eq_sub_of_hasDerivAt (f := fun t => (tdPredictDense1 θ e.obj xt Jt (x t) (J t) c mu).1 j 0)
    (fun t _ => ?_) (hc.intervalIntegrable _ _)
  have := (C80_td1_partial e θ h xt Jt x t (J t) u (hm t) c mu j).1
  simpa only [fun s => hp (x s) (J s) (J t)] using this

/-- **C174**, `GPR_TD` with two sets of derivatives: along a path with either jacobian. -/
theorem C174_td2 {w' v' : ℕ} (e : KExpr d) (θ : TDParams) (h : JointSmooth e θ.kernelParams) (xt : Batch m d) (Jt : Jac m d w) (Jt' : Jac m d w')
    (x : ℝ → Batch n d) (J : ℝ → Jac n d v) (J' : ℝ → Jac n d v') (hJ : Continuous J) (hJ' : Continuous J')
    (c : Mat (m + m * w + m * w') 1) (mu : ℝ) (j : Fin n) (a b : ℝ) :
    let pred := fun t => tdPredictDense2 θ e.obj xt Jt Jt' (x t) (J t) (J' t) c mu
    (∀ u, (∀ t, Moves x t (J t) u) → ∫ t in a..b, (pred t).2.1 j u = (pred b).1 j 0 - (pred a).1 j 0) ∧
    (∀ u, (∀ t, Moves x t (J' t) u) → ∫ t in a..b, (pred t).2.2 j u = (pred b).1 j 0 - (pred a).1 j 0) := by
  intro pred
  have hk : ContinuousKernel e.obj fun _ : ℝ => θ.kernelParams :=
    C132_kernel e (jointSmooth_smooth h).2 (fun _ => θ.kernelParams) (fun _ => continuous_const) fun _ => (jointSmooth_smooth h).1
  have hp : ∀ (x : Batch n d) (J K : Jac n d v) (J' K' : Jac n d v'), (tdPredictDense2 θ e.obj xt Jt Jt' x J J' c mu).1 j 0 =
      (tdPredictDense2 θ e.obj xt Jt Jt' x K K' c mu).1 j 0 := fun x J K J' K' => by
    rw [(C76_predict2 e θ xt Jt Jt' x J J' c mu).1, (C76_predict2 e θ xt Jt Jt' x K K' c mu).1]
    congr 1
    exact Finset.sum_congr rfl fun l _ => by rcases l with (i | ⟨i, q⟩) | ⟨i, q⟩ <;> rfl
  constructor
  · intro u hm
    have hc : Continuous fun t => (pred t).2.1 j u := by
      simp only [pred, fun t => (C76_predict2 e θ xt Jt Jt' (x t) (J t) (J' t) c mu).2.1]
      refine continuous_finsetSum _ fun l _ => Continuous.mul ?_ continuous_const
      rcases l with (i | ⟨i, q⟩) | ⟨i, q⟩
      · exact hk.d1kj continuous_const (moves_continuous hm) hJ i (flat j u)
      · exact hk.d01kj continuous_const (moves_continuous hm) continuous_const hJ (flat i q) (flat j u)
      · exact hk.d01kj continuous_const (moves_continuous hm) continuous_const hJ (flat i q) (flat j u)
    refine intervalIntegral.integral_eq_sub_of_hasDerivAt (f := fun t => (pred t).1 j 0) (fun t _ => ?_) (hc.intervalIntegrable _ _)
    have := ((C80_td2_partial e θ h xt Jt Jt' x t (J t) (J' t) c mu j).1 u (hm t)).1
    simpa only [pred, fun s => hp (x s) (J s) (J t) (J' s) (J' t)] using this
  · intro u hm
    have hc : Continuous fun t => (pred t).2.2 j u := by
      simp only [pred, fun t => (C76_predict2 e θ xt Jt Jt' (x t) (J t) (J' t) c mu).2.2.1]
      refine continuous_finsetSum _ fun l _ => Continuous.mul ?_ continuous_const
      rcases l with (i | ⟨i, q⟩) | ⟨i, q⟩
      · exact hk.d1kj continuous_const (moves_continuous hm) hJ' i (flat j u)
      · exact hk.d01kj continuous_const (moves_continuous hm) continuous_const hJ' (flat i q) (flat j u)
      · exact hk.d01kj continuous_const (moves_continuous hm) continuous_const hJ' (flat i q) (flat j u)
    refine intervalIntegral.integral_eq_sub_of_hasDerivAt (f := fun t => (pred t).1 j 0) (fun t _ => ?_) (hc.intervalIntegrable _ _)
    have := ((C80_td2_partial e θ h xt Jt Jt' x t (J t) (J' t) c mu j).2 u (hm t)).1
    simpa only [pred, fun s => hp (x s) (J s) (J t) (J' s) (J' t)] using this

/-- The unit circle and its tangent. -/
noncomputable def circlePath (t : ℝ) : Batch 1 2 := fun _ => ![Real.cos t, Real.sin t]
noncomputable def circleTangent (t : ℝ) : Jac 1 2 1 := fun _ f _ => (![-Real.sin t, Real.cos t] : Fin 2 → ℝ) f

theorem circle_moves (t : ℝ) : Moves circlePath t (circleTangent t) 0 := by
  intro i f
  fin_cases f
  · exact Real.hasDerivAt_cos t
  · exact Real.hasDerivAt_sin t

theorem circle_continuous : Continuous circleTangent := by
  refine continuous_pi fun i => continuous_pi fun f => continuous_pi fun u => ?_
  fin_cases f
  · exact Real.continuous_sin.neg
  · exact Real.continuous_cos

theorem circle_closed : circlePath 0 = circlePath (2 * Real.pi) := by
  funext i
  simp [circlePath]

/-- Non-vacuity: a model trained on one derivative, round the unit circle. -/
example (c : Mat 1 1) : ∫ t in (0 : ℝ)..(2 * Real.pi), predictDerivsDense ⟨fun _ => 1, 1⟩ (KExpr.matern52 none).obj
    (fun _ _ => 1 : Batch 1 2) (fun _ _ _ => 1 : Jac 1 2 1) (circlePath t) (circleTangent t) c 0 0 0 = 0 := by
  have := C174_loop (KExpr.matern52 none) ⟨fun _ => 1, 1⟩ (Or.inl (by simp [JointSmooth, KPar.val])) (fun _ _ => 1 : Batch 1 2)
    (fun _ _ _ => 1 : Jac 1 2 1) circlePath circleTangent 0 circle_moves circle_continuous c 0 0 0 (2 * Real.pi) circle_closed
  rw [this, zero_mul]

/-- Two sets of derivatives on the circle. -/
example : JointSmooth (KExpr.matern52 none : KExpr 2) (fun _ => 1) ∧ (∀ t, Moves circlePath t (circleTangent t) 0) ∧
    Continuous circleTangent ∧ circlePath 0 = circlePath (2 * Real.pi) ∧ circlePath 0 ≠ circlePath Real.pi :=
  ⟨by simp [JointSmooth, KPar.val], circle_moves, circle_continuous, circle_closed, fun h => by
    have := congrFun (congrFun h 0) 0
    norm_num [circlePath] at this⟩

/-- **C174**, the stored mean: a model trained on derivatives with the mean of the data predicts derivatives whose integral round the
unit circle is not 0, although its predicted targets are the same at both ends. -/
theorem C174_mean {la : LinAlg} : ∃ (e : KExpr 2) (θ : GPParams) (xt : Batch 1 2) (Jt : Jac 1 2 1) (y : Mat 1 1),
    JointSmooth e θ.kernelParams ∧
    let fit := fitDerivsDense la θ e.obj dataMean xt Jt y
    ∫ t in (0 : ℝ)..(2 * Real.pi), predictDerivsDense θ e.obj xt Jt (circlePath t) (circleTangent t) fit.1 fit.2 0 0 ≠ 0 := by
  have hj : JointSmooth (KExpr.matern52 none : KExpr 2) (fun _ => 1) := by simp [JointSmooth, KPar.val]
  refine ⟨.matern52 none, ⟨fun _ => 1, 1⟩, fun _ _ => 1, fun _ _ _ => 1, Matrix.of fun _ _ => 1, hj, ?_⟩
  intro fit
  rw [C174_loop _ _ (Or.inl hj) _ _ circlePath circleTangent 0 circle_moves circle_continuous fit.1 fit.2 0 0 (2 * Real.pi)
    circle_closed]
  have : fit.2 = 1 := by
    change dataMean (flatCol _) = 1
    simp [dataMean, flatCol]
  rw [this, one_mul, sub_zero]
  exact (by positivity : (0 : ℝ) < 2 * Real.pi).ne'

end GPX.Props
