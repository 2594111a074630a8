import Verif.Props.TrainingPoints
import Verif.Props.GPRTD

/-!
# C119 for joint training and for the sparse model trained on derivatives
-/

namespace GPX.Props
open GPX GPX.Spec

variable {d m n o v w v' : ℕ} {la : LinAlg}

/-- `(K + diag s) c = b`: weighted by the inverse noise, the residual `s c` and the fitted values `K c` are no longer
than `b`. -/
theorem weighted_bounds {I : Type} [Fintype I] [DecidableEq I] {K : I → I → ℝ} (hK : (Matrix.of K).PosSemidef)
    {s : I → ℝ} (hs : ∀ a, 0 < s a) (c b : I → ℝ)
    (h : ∀ a, (∑ j, K a j * c j) + s a * c a = b a) :
    ∑ a, (s a * c a) ^ 2 / s a + ∑ a, (∑ j, K a j * c j) ^ 2 / s a ≤ ∑ a, b a ^ 2 / s a := by
  have hq : 0 ≤ ∑ a, c a * ∑ j, K a j * c j := by
    have := hK.dotProduct_mulVec_nonneg c
    simpa [dotProduct, Matrix.mulVec] using this
  have e1 : ∑ a, b a ^ 2 / s a = ∑ a, (s a * c a) ^ 2 / s a + ∑ a, (∑ j, K a j * c j) ^ 2 / s a +
      2 * ∑ a, c a * ∑ j, K a j * c j := by
    rw [Finset.mul_sum, ← Finset.sum_add_distrib, ← Finset.sum_add_distrib]
    refine Finset.sum_congr rfl fun a _ => ?_
    have := (hs a).ne'
    rw [← h a]
    field_simp
    ring
  linarith

/-- **C119** for GPR_TD with one set of derivatives: squared errors at the training inputs, of targets and of
derivatives, each divided by the variance of its noise, plus the squared fitted values (targets without the mean)
divided alike, add up to at most the same sum for the mean alone. Whenever the covariance of the observations is
positive semidefinite (C78). -/
theorem C119_joint (ex : la.Exact) (e : KExpr d) (θ : TDParams) (mf : MeanFun) (x : Batch n d)
    (y : Mat n 1) (J : Jac n d v) (yd : Mat n v)
    (h : (Matrix.of (cov1 e.obj θ.kernelParams x J x J)).PosSemidef) :
    let fit := tdFitDense1 la θ e.obj mf x y J yd
    let pred := tdPredictDense1 θ e.obj x J x J fit.1 fit.2
    let st := θ.sigmaTargets ^ 2 + 1 / 10 ^ 10
    let sd := θ.sigmaDerivs ^ 2 + 1 / 10 ^ 10
    (∑ i, (y i 0 - pred.1 i 0) ^ 2 / st + ∑ i, ∑ u, (yd i u - pred.2 i u) ^ 2 / sd) +
      (∑ i, (pred.1 i 0 - mf y) ^ 2 / st + ∑ i, ∑ u, pred.2 i u ^ 2 / sd) ≤
      ∑ i, (y i 0 - mf y) ^ 2 / st + ∑ i, ∑ u, yd i u ^ 2 / sd := by
  intro fit pred st sd
  obtain ⟨hm, hs, -⟩ := C76_fit1 ex e.obj θ mf x y J yd (C52_posDef1 e.obj θ x J h)
  obtain ⟨hp1, hp2, -⟩ := C76_predict1 e θ x J x J fit.1 fit.2
  have hsy := C21_symmetric e θ.kernelParams
  have hc : ∀ a, (∑ b, cov1 e.obj θ.kernelParams x J x J a b * fit.1 (pos1 b) 0) + noise1 θ a * fit.1 (pos1 a) 0 =
      residual1 (mf y) y yd a := fun a => by
    have := hs a
    simp only [dataCov1, add_mul, ite_mul, zero_mul, Finset.sum_add_distrib, Finset.sum_ite_eq, Finset.mem_univ,
      if_true] at this
    rw [hm] at this
    exact this
  have key := weighted_bounds h (noise1_pos θ) (fun b => fit.1 (pos1 b) 0) (residual1 (mf y) y yd) hc
  have q1 : ∀ i, pred.1 i 0 = mf y + ∑ b, cov1 e.obj θ.kernelParams x J x J (.inl i) b * fit.1 (pos1 b) 0 := fun i => by
    have := hp1 i
    simp only [cov1_symm hsy x J x J _ (.inl i)] at this
    exact this
  have q2 : ∀ i u, pred.2 i u = ∑ b, cov1 e.obj θ.kernelParams x J x J (.inr (i, u)) b * fit.1 (pos1 b) 0 :=
    fun i u => by
      have := hp2 i u
      simp only [cov1_symm hsy x J x J _ (.inr (i, u))] at this
      exact this
  have r1 : ∀ i, y i 0 - pred.1 i 0 = noise1 θ (.inl i : Obs1 n v) * fit.1 (pos1 (.inl i)) 0 := fun i => by
    have := hc (.inl i)
    rw [q1 i]
    simp only [residual1] at this
    linarith
  have r2 : ∀ i u, yd i u - pred.2 i u = noise1 θ (.inr (i, u) : Obs1 n v) * fit.1 (pos1 (.inr (i, u))) 0 :=
    fun i u => by
      have := hc (.inr (i, u))
      rw [q2 i u]
      simp only [residual1] at this
      linarith
  have r3 : ∀ i, pred.1 i 0 - mf y = ∑ b, cov1 e.obj θ.kernelParams x J x J (.inl i) b * fit.1 (pos1 b) 0 :=
    fun i => by rw [q1 i]; ring
  simp only [r1, r2, r3]
  simp only [q2]
  simp only [Fintype.sum_sum_type, Fintype.sum_prod_type] at key ⊢
  exact key

/-- **C119** for GPR_TD with two sets of derivatives. -/
theorem C119_joint2 (ex : la.Exact) (e : KExpr d) (θ : TDParams) (mf : MeanFun) (x : Batch n d)
    (y : Mat n 1) (J : Jac n d v) (J' : Jac n d v') (yd : Mat n v) (yd' : Mat n v')
    (h : (Matrix.of (cov2 e.obj θ.kernelParams x J J' x J J')).PosSemidef) :
    let fit := tdFitDense2 la θ e.obj mf x y J J' yd yd'
    let pred := tdPredictDense2 θ e.obj x J J' x J J' fit.1 fit.2
    let st := θ.sigmaTargets ^ 2 + 1 / 10 ^ 10
    let sd := θ.sigmaDerivs ^ 2 + 1 / 10 ^ 10
    let sd' := θ.sigmaDerivs2 ^ 2 + 1 / 10 ^ 10
    (∑ i, (y i 0 - pred.1 i 0) ^ 2 / st + ∑ i, ∑ u, (yd i u - pred.2.1 i u) ^ 2 / sd +
        ∑ i, ∑ u, (yd' i u - pred.2.2 i u) ^ 2 / sd') +
      (∑ i, (pred.1 i 0 - mf y) ^ 2 / st + ∑ i, ∑ u, pred.2.1 i u ^ 2 / sd + ∑ i, ∑ u, pred.2.2 i u ^ 2 / sd') ≤
      ∑ i, (y i 0 - mf y) ^ 2 / st + ∑ i, ∑ u, yd i u ^ 2 / sd + ∑ i, ∑ u, yd' i u ^ 2 / sd' := by
  intro fit pred st sd sd'
  obtain ⟨hm, hs, -⟩ := C76_fit2 ex e.obj θ mf x y J J' yd yd' (C52_posDef2 e.obj θ x J J' h)
  obtain ⟨hp1, hp2, hp3, -⟩ := C76_predict2 e θ x J J' x J J' fit.1 fit.2
  have hsy := C21_symmetric e θ.kernelParams
  let C := cov2 e.obj θ.kernelParams x J J' x J J'
  have hc : ∀ a, (∑ b, C a b * fit.1 (pos2 b) 0) + noise2 θ a * fit.1 (pos2 a) 0 =
      residual2 (mf y) y yd yd' a := fun a => by
    have := hs a
    simp only [dataCov2, add_mul, ite_mul, zero_mul, Finset.sum_add_distrib, Finset.sum_ite_eq, Finset.mem_univ,
      if_true] at this
    rw [hm] at this
    exact this
  have key := weighted_bounds h (noise2_pos θ) (fun b => fit.1 (pos2 b) 0) (residual2 (mf y) y yd yd') hc
  have sy : ∀ a b, C a b = C b a := cov2_symm hsy x J J' x J J'
  have q1 : ∀ i, pred.1 i 0 = mf y + ∑ b, C (.inl (.inl i)) b * fit.1 (pos2 b) 0 := fun i =>
    (hp1 i).trans (by congr 1; exact Finset.sum_congr rfl fun b _ => by rw [sy (.inl (.inl i)) b])
  have q2 : ∀ i u, pred.2.1 i u = ∑ b, C (.inl (.inr (i, u))) b * fit.1 (pos2 b) 0 := fun i u =>
    (hp2 i u).trans (Finset.sum_congr rfl fun b _ => by rw [sy (.inl (.inr (i, u))) b])
  have q3 : ∀ i u, pred.2.2 i u = ∑ b, C (.inr (i, u)) b * fit.1 (pos2 b) 0 := fun i u =>
    (hp3 i u).trans (Finset.sum_congr rfl fun b _ => by rw [sy (.inr (i, u)) b])
  have r1 : ∀ i, y i 0 - pred.1 i 0 = noise2 θ (.inl (.inl i) : Obs2 n v v') * fit.1 (pos2 (.inl (.inl i))) 0 :=
    fun i => by
      have := hc (.inl (.inl i))
      rw [q1 i]
      simp only [residual2, residual1] at this
      linarith
  have r2 : ∀ i u, yd i u - pred.2.1 i u =
      noise2 θ (.inl (.inr (i, u)) : Obs2 n v v') * fit.1 (pos2 (.inl (.inr (i, u)))) 0 := fun i u => by
    have := hc (.inl (.inr (i, u)))
    rw [q2 i u]
    simp only [residual2, residual1] at this
    linarith
  have r4 : ∀ i u, yd' i u - pred.2.2 i u =
      noise2 θ (.inr (i, u) : Obs2 n v v') * fit.1 (pos2 (.inr (i, u))) 0 := fun i u => by
    have := hc (.inr (i, u))
    rw [q3 i u]
    simp only [residual2] at this
    linarith
  have r3 : ∀ i, pred.1 i 0 - mf y = ∑ b, C (.inl (.inl i)) b * fit.1 (pos2 b) 0 :=
    fun i => by rw [q1 i]; ring
  simp only [r1, r2, r3, r4]
  simp only [q2, q3]
  simp only [Fintype.sum_sum_type, Fintype.sum_prod_type] at key ⊢
  exact key

/-- **C119** for SGPR trained on derivatives (positive semidefinite derivative Gram matrix of the inducing points). -/
theorem C119_sparse_derivs (ex : la.Exact) (e : KExpr d) (θ : GPParams) (mf : MeanFun)
    (xl : Batch m d) (Jl : Jac m d v) (x : Batch n d) (J : Jac n d w) (y : Mat n w)
    (h : (Matrix.of (e.obj.d01kj θ.kernelParams xl xl Jl Jl)).PosSemidef) :
    let fit := sgprFitDerivsDense la θ e.obj mf xl Jl x J y
    let pred := sgprPredictDerivs θ e.obj xl Jl x J fit.1 fit.2
    ∑ i, ∑ u, (y i u - pred i u) ^ 2 + ∑ i, ∑ u, (pred i u - fit.2) ^ 2 ≤ ∑ i, ∑ u, (y i u - fit.2) ^ 2 := by
  intro fit pred
  have hp : (sgprADerivsLhs θ e.obj xl Jl x J).1.PosDef := sparse_posDef h _ _
  have hs : (sgprADerivsLhs θ e.obj xl Jl x J).1 * fit.1 =
      (sgprADerivsLhs θ e.obj xl Jl x J).2 * centerBy (flatCol y) fit.2 := ex.solve _ _ (posDef_isUnit hp)
  have key := sparse_bounds h (sq_nonneg θ.sigma) jitter_pos'.le (Matrix.of (e.obj.d01kj θ.kernelParams xl x Jl J))
    (fun b => fit.1 b 0) (fun r => flatCol y r 0 - fit.2) (fun b => congrFun (congrFun hs b) 0)
  rw [sum_flat, sum_flat, sum_flat] at key
  have hpr : ∀ i u, pred i u = fit.2 + ∑ b, e.obj.d01kj θ.kernelParams xl x Jl J b (flat i u) * fit.1 b 0 := by
    intro i u
    refine ((C48_predict_derivs e θ xl Jl x J fit.1 fit.2).2.1 i u).trans ?_
    congr 1
    refine Finset.sum_congr rfl fun b _ => ?_
    rw [(C21_symmetric e θ.kernelParams).d01kj x xl J Jl (flat i u) b]
  refine le_trans (le_of_eq ?_) (key.trans (le_of_eq ?_))
  · congr 1
    · exact Finset.sum_congr rfl fun i _ => Finset.sum_congr rfl fun u _ => by
        rw [hpr i u]; simp only [Matrix.of_apply, flatCol, flat_divNat, flat_modNat]; ring
    · exact Finset.sum_congr rfl fun i _ => Finset.sum_congr rfl fun u _ => by
        rw [hpr i u]; simp only [Matrix.of_apply]; ring
  · exact Finset.sum_congr rfl fun i _ => Finset.sum_congr rfl fun u _ => by
      simp only [flatCol, Matrix.of_apply, flat_divNat, flat_modNat]

/-- Non-vacuity of `C119_joint` and `C119_joint2`: two samples in the plane, four or five observations each, one of the
noises zero. -/
example : (Matrix.of (cov1 (KExpr.matern52 none : KExpr 2).obj exθ.kernelParams exX exJ exX exJ)).PosSemidef ∧
    (Matrix.of (cov2 (KExpr.matern52 none : KExpr 2).obj exθ.kernelParams exX exJ exJ' exX exJ exJ')).PosSemidef :=
  ex_psd

end GPX.Props
