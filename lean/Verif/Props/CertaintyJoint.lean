import Verif.Lemmas.Ignored
import Verif.Props.Certainty
import Verif.Props.WorstCase

/-!
# C166 for joint training: a set of observations with unbounded noise drops out
-/

namespace GPX.Props
open GPX GPX.Spec Filter Matrix

variable {d m n v w : ℕ} {la : LinAlg}

/-- The equations solved by the joint fit, when they have one solution. -/
theorem td1_equations (ex : la.Exact) (κ : KernelObj d) (θ : TDParams) (mf : MeanFun) (x : Batch n d) (y : Mat n 1)
    (J : Jac n d v) (yd : Mat n v) (hu : IsUnit (tdALhsNoise1 θ κ x J x J).det) (a : Obs1 n v) :
    ∑ b, dataCov1 κ θ x J a b * (tdFitDense1 la θ κ mf x y J yd).1 (pos1 b) 0 = residual1 (mf y) y yd a := by
  have hs : tdALhsNoise1 θ κ x J x J * (tdFitDense1 la θ κ mf x y J yd).1 = tdRhs1 mf y yd := ex.solve _ _ hu
  rw [← rhs1_pos, ← hs, Matrix.mul_apply, sum_pos pos1_bij]
  exact Finset.sum_congr rfl fun b _ => by rw [(C52_entries1 κ θ x J x J).2.2]

/-- The joint system has one solution when only zero solves the homogeneous equations. -/
theorem td1_isUnit (κ : KernelObj d) (θ : TDParams) (x : Batch n d) (J : Jac n d v)
    (h : ∀ z : Obs1 n v → ℝ, (∀ a, ∑ b, dataCov1 κ θ x J a b * z b = 0) → z = 0) :
    IsUnit (tdALhsNoise1 θ κ x J x J).det := by
  rw [isUnit_iff_ne_zero]
  intro h0
  obtain ⟨z, hz, he⟩ := Matrix.exists_mulVec_eq_zero_iff.2 h0
  refine hz ?_
  have := h (fun a => z (pos1 a)) fun a => by
    have := congrFun he (pos1 a)
    rw [Matrix.mulVec, dotProduct, sum_pos pos1_bij] at this
    exact (Finset.sum_congr rfl fun b _ => by rw [(C52_entries1 κ θ x J x J).2.2]).trans this
  ext s
  obtain ⟨a, rfl⟩ := pos1_bij.2 s
  exact congrFun this a

theorem noise_tendsto : Tendsto (fun s : ℝ => s ^ 2 + 1 / 10 ^ 10) atTop atTop :=
  tendsto_atTop_add_const_right _ _ (tendsto_pow_atTop (by norm_num))

/-- The four blocks of the covariance of the observations. -/
noncomputable def blockTT (κ : KernelObj d) (p : KPar) (x : Batch n d) : Matrix (Fin n) (Fin n) ℝ := Matrix.of (κ.k p x x)

noncomputable def blockTD (κ : KernelObj d) (p : KPar) (x : Batch n d) (J : Jac n d v) :
    Matrix (Fin n) (Fin n × Fin v) ℝ := Matrix.of fun i b => cov1 κ p x J x J (.inl i) (.inr b)

noncomputable def blockDT (κ : KernelObj d) (p : KPar) (x : Batch n d) (J : Jac n d v) :
    Matrix (Fin n × Fin v) (Fin n) ℝ := Matrix.of fun a j => cov1 κ p x J x J (.inr a) (.inl j)

noncomputable def blockDD (κ : KernelObj d) (p : KPar) (x : Batch n d) (J : Jac n d v) :
    Matrix (Fin n × Fin v) (Fin n × Fin v) ℝ := Matrix.of fun a b => cov1 κ p x J x J (.inr a) (.inr b)

theorem row_target (κ : KernelObj d) (θ : TDParams) (x : Batch n d) (J : Jac n d v) (z : Obs1 n v → ℝ) (i : Fin n) :
    ∑ b, dataCov1 κ θ x J (.inl i) b * z b = (blockTT κ θ.kernelParams x *ᵥ fun j => z (.inl j)) i +
      (blockTD κ θ.kernelParams x J *ᵥ fun b => z (.inr b)) i + (θ.sigmaTargets ^ 2 + 1 / 10 ^ 10) * z (.inl i) := by
  rw [Fintype.sum_sum_type]
  simp only [dataCov1, Sum.inl.injEq, reduceCtorEq, if_false, add_zero, add_mul, Finset.sum_add_distrib, ite_mul, zero_mul,
    Finset.sum_ite_eq, Finset.mem_univ, if_true, noise1, blockTT, blockTD, Matrix.mulVec, dotProduct, Matrix.of_apply]
  simp only [cov1]
  ring

theorem row_deriv (κ : KernelObj d) (θ : TDParams) (x : Batch n d) (J : Jac n d v) (z : Obs1 n v → ℝ) (a : Fin n × Fin v) :
    ∑ b, dataCov1 κ θ x J (.inr a) b * z b = (blockDT κ θ.kernelParams x J *ᵥ fun j => z (.inl j)) a +
      (blockDD κ θ.kernelParams x J *ᵥ fun b => z (.inr b)) a + (θ.sigmaDerivs ^ 2 + 1 / 10 ^ 10) * z (.inr a) := by
  rw [Fintype.sum_sum_type]
  simp only [dataCov1, Sum.inr.injEq, reduceCtorEq, if_false, add_zero, add_mul, Finset.sum_add_distrib, ite_mul, zero_mul,
    Finset.sum_ite_eq, Finset.mem_univ, if_true, noise1, blockDT, blockDD, Matrix.mulVec, dotProduct, Matrix.of_apply]
  ring

/-- **C166.** As the noise of the derivatives grows without bound, the targets predicted by the joint model tend to those of
the model trained on the targets alone: derivatives taken for noise are ignored. For every kernel expression. -/
theorem C166_derivs_ignored (ex : la.Exact) (e : KExpr d) (p : KPar) (h : Admissible e p) (st s2 : ℝ) (mf : MeanFun)
    (xt : Batch m d) (y : Mat m 1) (Jt : Jac m d v) (yd : Mat m v) (x : Batch n d) (J : Jac n d w) (j : Fin n) :
    Tendsto (fun s : ℝ =>
        let fit := tdFitDense1 la ⟨p, st, s, s2⟩ e.obj mf xt y Jt yd
        (tdPredictDense1 ⟨p, st, s, s2⟩ e.obj xt Jt x J fit.1 fit.2).1 j 0) atTop
      (nhds (predictDense ⟨p, st⟩ e.obj xt x (fitDense la ⟨p, st⟩ e.obj mf xt y).1
        (fitDense la ⟨p, st⟩ e.obj mf xt y).2 j 0)) := by
  set A : Matrix (Fin m) (Fin m) ℝ := blockTT e.obj p xt + (st ^ 2 + 1 / 10 ^ 10) • 1 with hAd
  have hA : IsUnit A.det := by
    have := posDef_isUnit (aLhsNoise_posDef e ⟨p, st⟩ h xt)
    convert this using 2
    simp [hAd, blockTT, aLhsNoise, aLhs, GPParams.noise, noiseJitter]
  have hArow : ∀ (z : Fin m → ℝ) i, (A *ᵥ z) i = (blockTT e.obj p xt *ᵥ z) i + (st ^ 2 + 1 / 10 ^ 10) * z i := fun z i => by
    rw [hAd, Matrix.add_mulVec, Matrix.smul_mulVec, Matrix.one_mulVec]
    rfl
  have hu : ∀ᶠ s : ℝ in atTop, IsUnit (tdALhsNoise1 ⟨p, st, s, s2⟩ e.obj xt Jt xt Jt).det := by
    filter_upwards [noise_tendsto.eventually_gt_atTop
      (∑ i, ∑ j, |(blockDD e.obj p xt Jt - blockDT e.obj p xt Jt * (A⁻¹ * blockTD e.obj p xt Jt)) i j|)] with s hs
    refine td1_isUnit _ _ _ _ fun z hz => ?_
    obtain ⟨h1, h2⟩ := system_injective hA (blockTD e.obj p xt Jt) (blockDT e.obj p xt Jt) (blockDD e.obj p xt Jt) hs
      (fun i => z (.inl i)) (fun a => z (.inr a))
      (by
        ext i
        have := hz (.inl i)
        rw [row_target] at this
        rw [Pi.add_apply, hArow, Pi.zero_apply]
        linarith)
      (by
        ext a
        have := hz (.inr a)
        rw [row_deriv] at this
        rw [Pi.add_apply, Pi.add_apply, Pi.smul_apply, smul_eq_mul, Pi.zero_apply]
        exact this)
    ext b
    rcases b with i | a
    · exact congrFun h1 i
    · exact congrFun h2 a
  have key := ignored_limit hA (blockTD e.obj p xt Jt) (blockDT e.obj p xt Jt) (blockDD e.obj p xt Jt)
    (fun i => y i 0 - mf y) (fun a => yd a.1 a.2) (fun i => (fitDense la ⟨p, st⟩ e.obj mf xt y).1 i 0)
    (by
      ext i
      have := fit_column ex e ⟨p, st⟩ h mf xt y 0 i
      rw [hArow]
      rw [← this]
      simp only [blockTT, Matrix.mulVec, dotProduct, noise_val])
    (fun i => cov1 e.obj p xt Jt x J (.inl i) (.inl j)) (fun a => cov1 e.obj p xt Jt x J (.inr a) (.inl j)) noise_tendsto
    (fun s i => (tdFitDense1 la ⟨p, st, s, s2⟩ e.obj mf xt y Jt yd).1 (pos1 (.inl i)) 0)
    (fun s a => (tdFitDense1 la ⟨p, st, s, s2⟩ e.obj mf xt y Jt yd).1 (pos1 (.inr a)) 0)
    (by
      filter_upwards [hu] with s hs
      ext i
      have := td1_equations ex e.obj ⟨p, st, s, s2⟩ mf xt y Jt yd hs (.inl i)
      rw [row_target] at this
      rw [Pi.add_apply, hArow]
      simp only [residual1] at this
      linarith)
    (by
      filter_upwards [hu] with s hs
      ext a
      have := td1_equations ex e.obj ⟨p, st, s, s2⟩ mf xt y Jt yd hs (.inr a)
      rw [row_deriv] at this
      rw [Pi.add_apply, Pi.add_apply, Pi.smul_apply, smul_eq_mul]
      exact this)
  have key2 := key.const_add (mf y)
  have e1 : mf y + (fun i => cov1 e.obj p xt Jt x J (.inl i) (.inl j)) ⬝ᵥ
      (fun i => (fitDense la ⟨p, st⟩ e.obj mf xt y).1 i 0) = predictDense ⟨p, st⟩ e.obj xt x
        (fitDense la ⟨p, st⟩ e.obj mf xt y).1 (fitDense la ⟨p, st⟩ e.obj mf xt y).2 j 0 := by
    have := predict_sub_mu e ⟨p, st⟩ xt x (fitDense la ⟨p, st⟩ e.obj mf xt y).1
      (fitDense la ⟨p, st⟩ e.obj mf xt y).2 j 0
    have hm : (fitDense la ⟨p, st⟩ e.obj mf xt y).2 = mf y := rfl
    rw [hm] at this ⊢
    rw [sub_eq_iff_eq_add'] at this
    rw [this]
    rfl
  rw [e1] at key2
  refine key2.congr fun s => ?_
  have h1 := (C76_predict1 e ⟨p, st, s, s2⟩ xt Jt x J (tdFitDense1 la ⟨p, st, s, s2⟩ e.obj mf xt y Jt yd).1
    (tdFitDense1 la ⟨p, st, s, s2⟩ e.obj mf xt y Jt yd).2).1 j
  simp only
  rw [h1, Fintype.sum_sum_type]
  rfl

/-- **C166.** As the noise of the targets grows without bound, the derivatives predicted by the joint model tend to those of the
model trained on the derivatives alone, and the predicted targets to those of that model, the mean of the targets added. Kernels
whose derivative covariances are covariances (C65). -/
theorem C166_targets_ignored (ex : la.Exact) (e : KExpr d) (p : KPar) (h : DerivSmooth e p) (sd s2 : ℝ) (mf : MeanFun)
    (xt : Batch m d) (y : Mat m 1) (Jt : Jac m d v) (yd : Mat m v) (x : Batch n d) (J : Jac n d w) (j : Fin n) :
    let alone := fitDerivsDense la ⟨p, sd⟩ e.obj zeroMean xt Jt yd
    (∀ t, Tendsto (fun s : ℝ =>
        let fit := tdFitDense1 la ⟨p, s, sd, s2⟩ e.obj mf xt y Jt yd
        (tdPredictDense1 ⟨p, s, sd, s2⟩ e.obj xt Jt x J fit.1 fit.2).2 j t) atTop
      (nhds (predictDerivsDense ⟨p, sd⟩ e.obj xt Jt x J alone.1 alone.2 j t))) ∧
    Tendsto (fun s : ℝ =>
        let fit := tdFitDense1 la ⟨p, s, sd, s2⟩ e.obj mf xt y Jt yd
        (tdPredictDense1 ⟨p, s, sd, s2⟩ e.obj xt Jt x J fit.1 fit.2).1 j 0) atTop
      (nhds (mf y + predictYDerivsDense ⟨p, sd⟩ e.obj xt Jt x alone.1 alone.2 j 0)) := by
  intro alone
  set A : Matrix (Fin m × Fin v) (Fin m × Fin v) ℝ := blockDD e.obj p xt Jt + (sd ^ 2 + 1 / 10 ^ 10) • 1 with hAd
  have hA : IsUnit A.det := by
    have hp : (aDerivsLhsNoise ⟨p, sd⟩ e.obj xt Jt xt Jt).PosDef :=
      (posterior_blocks (noise_pos ⟨p, sd⟩) (C65_two_datasets_partial e _ h xt Jt xt Jt)).1
    have hq := posDef_isUnit hp
    rw [← Matrix.det_submatrix_equiv_self finProdFinEquiv] at hq
    convert hq using 2
    ext a b
    obtain ⟨i, u⟩ := a
    obtain ⟨l, t⟩ := b
    simp [hAd, blockDD, cov1, aDerivsLhsNoise, aDerivsLhs, GPParams.noise, noiseJitter, Matrix.one_apply, prod_flat,
      ← finProdFinEquiv.injective.eq_iff]
  have hArow : ∀ (z : Fin m × Fin v → ℝ) a, (A *ᵥ z) a = (blockDD e.obj p xt Jt *ᵥ z) a + (sd ^ 2 + 1 / 10 ^ 10) * z a :=
    fun z a => by
      rw [hAd, Matrix.add_mulVec, Matrix.smul_mulVec, Matrix.one_mulVec]
      rfl
  have hu : ∀ᶠ s : ℝ in atTop, IsUnit (tdALhsNoise1 ⟨p, s, sd, s2⟩ e.obj xt Jt xt Jt).det := by
    filter_upwards [noise_tendsto.eventually_gt_atTop
      (∑ i, ∑ j, |(blockTT e.obj p xt - blockTD e.obj p xt Jt * (A⁻¹ * blockDT e.obj p xt Jt)) i j|)] with s hs
    refine td1_isUnit _ _ _ _ fun z hz => ?_
    obtain ⟨h1, h2⟩ := system_injective hA (blockDT e.obj p xt Jt) (blockTD e.obj p xt Jt) (blockTT e.obj p xt) hs
      (fun a => z (.inr a)) (fun i => z (.inl i))
      (by
        ext a
        have := hz (.inr a)
        rw [row_deriv] at this
        rw [Pi.add_apply, hArow, Pi.zero_apply]
        linarith)
      (by
        ext i
        have := hz (.inl i)
        rw [row_target] at this
        rw [Pi.add_apply, Pi.add_apply, Pi.smul_apply, smul_eq_mul, Pi.zero_apply]
        linarith)
    ext b
    rcases b with i | a
    · exact congrFun h2 i
    · exact congrFun h1 a
  have key := fun (k1 : Fin m × Fin v → ℝ) (k2 : Fin m → ℝ) =>
    ignored_limit hA (blockDT e.obj p xt Jt) (blockTD e.obj p xt Jt) (blockTT e.obj p xt)
    (fun a => yd a.1 a.2) (fun i => y i 0 - mf y) (fun a => alone.1 (flat a.1 a.2) 0)
    (by
      ext a
      obtain ⟨i, u⟩ := a
      have := fit_derivs_column ex e ⟨p, sd⟩ h zeroMean xt Jt yd (flat i u)
      rw [sum_flat] at this
      rw [hArow]
      simp only [flat_divNat, flat_modNat, zeroMean, sub_zero, noise_val] at this
      simp only [blockDD, Matrix.mulVec, dotProduct, Fintype.sum_prod_type, Matrix.of_apply, cov1]
      exact this)
    k1 k2 noise_tendsto
    (fun s a => (tdFitDense1 la ⟨p, s, sd, s2⟩ e.obj mf xt y Jt yd).1 (pos1 (.inr a)) 0)
    (fun s i => (tdFitDense1 la ⟨p, s, sd, s2⟩ e.obj mf xt y Jt yd).1 (pos1 (.inl i)) 0)
    (by
      filter_upwards [hu] with s hs
      ext a
      have := td1_equations ex e.obj ⟨p, s, sd, s2⟩ mf xt y Jt yd hs (.inr a)
      rw [row_deriv] at this
      rw [Pi.add_apply, hArow]
      simp only [residual1] at this
      linarith)
    (by
      filter_upwards [hu] with s hs
      ext i
      have := td1_equations ex e.obj ⟨p, s, sd, s2⟩ mf xt y Jt yd hs (.inl i)
      rw [row_target] at this
      rw [Pi.add_apply, Pi.add_apply, Pi.smul_apply, smul_eq_mul]
      simp only [residual1] at this
      linarith)
  have hpred := fun s => C76_predict1 e ⟨p, s, sd, s2⟩ xt Jt x J (tdFitDense1 la ⟨p, s, sd, s2⟩ e.obj mf xt y Jt yd).1
    (tdFitDense1 la ⟨p, s, sd, s2⟩ e.obj mf xt y Jt yd).2
  have hm : alone.2 = 0 := rfl
  refine ⟨fun t => ?_, ?_⟩
  · have k1 := key (fun a => cov1 e.obj p xt Jt x J (.inr a) (.inr (j, t))) fun i => cov1 e.obj p xt Jt x J (.inl i) (.inr (j, t))
    have e1 : (fun a : Fin m × Fin v => cov1 e.obj p xt Jt x J (.inr a) (.inr (j, t))) ⬝ᵥ
        (fun a => alone.1 (flat a.1 a.2) 0) = predictDerivsDense ⟨p, sd⟩ e.obj xt Jt x J alone.1 alone.2 j t := by
      have hs := predict_derivs_sub e ⟨p, sd⟩ xt Jt x J alone.1 alone.2 j t
      rw [hm, sub_zero, sum_flat] at hs
      rw [hm, hs]
      simp only [dotProduct, Fintype.sum_prod_type, cov1]
    rw [e1] at k1
    refine k1.congr fun s => ?_
    simp only
    rw [(hpred s).2.1 j t, Fintype.sum_sum_type, add_comm]
    rfl
  · have k1 := (key (fun a => cov1 e.obj p xt Jt x J (.inr a) (.inl j))
      fun i => cov1 e.obj p xt Jt x J (.inl i) (.inl j)).const_add (mf y)
    have e1 : (fun a : Fin m × Fin v => cov1 e.obj p xt Jt x J (.inr a) (.inl j)) ⬝ᵥ
        (fun a => alone.1 (flat a.1 a.2) 0) = predictYDerivsDense ⟨p, sd⟩ e.obj xt Jt x alone.1 alone.2 j 0 := by
      rw [hm]
      simp only [predictYDerivsDense, addScalar, Matrix.of_apply, Matrix.mul_apply,
        Matrix.transpose_apply, dotProduct, Fintype.sum_prod_type, cov1]
      rw [sum_flat, zero_add]
    rw [e1] at k1
    refine k1.congr fun s => ?_
    simp only
    rw [(hpred s).1 j, Fintype.sum_sum_type, add_comm (∑ a, _)]
    rfl

/-- Non-vacuity: a kernel meeting the hypotheses of both theorems. -/
example : let e : KExpr 2 := .sum (.prod (.constant none) (.matern52 none)) (.linear none)
    let p : KPar := fun _ => 2
    Admissible e p ∧ DerivSmooth e p := by
  intro e p
  have h : JointSmooth e p := by norm_num [e, p, JointSmooth, KPar.val, KPar.sub]
  exact ⟨by norm_num [e, p, Admissible, KPar.val, KPar.sub], .joint h⟩

end GPX.Props
