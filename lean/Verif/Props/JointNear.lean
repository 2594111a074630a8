import Verif.Lemmas.NearJoint
import Verif.Props.GPRTD

/-!
# C78 for `SquaredExponential`

The values and the Hessian of `SquaredExponential` carry a factor `exp(-1e-12)`, its first derivatives do not, so the
covariance of targets and derivatives can be indefinite (`C78_false`). Here: how much, and which noise repairs it.
-/

namespace GPX.Props
open GPX GPX.Spec

variable {d n v v' : ℕ} {la : LinAlg}

/-- Whether an observation is a target. -/
def isTarget1 : Obs1 n v → Bool
  | .inl _ => true
  | .inr _ => false

/-- The same with two sets of derivatives. -/
def isTarget2 : Obs2 n v v' → Bool
  | .inl a => isTarget1 a
  | .inr _ => false

/-- **C78** (partial: up to a relative `2e-12`): for `SquaredExponential` and all kernels of `C78_joint_partial`, their
sums and their products with a constant, the covariance of targets and one or two sets of derivatives becomes positive
semidefinite when its entries between two targets and between two derivatives are enlarged by a relative `2e-12`, for
every dataset, jacobians and hyperparameters. Missing from the full claim: the enlargement cannot be dropped
(`C78_false`), products of `SquaredExponential` with other kernels, and `Matern32`. -/
theorem C78_near_partial (e : KExpr d) (p : KPar) (h : DerivSmooth e p) (x : Batch n d)
    (J : Jac n d v) (J' : Jac n d v') :
    (Matrix.of fun a b => (if isTarget1 a = isTarget1 b then 1 + 2 / 10 ^ 12 else 1) *
      cov1 e.obj p x J x J a b).PosSemidef ∧
    (Matrix.of fun a b => (if isTarget2 a = isTarget2 b then 1 + 2 / 10 ^ 12 else 1) *
      cov2 e.obj p x J J' x J J' a b).PosSemidef := by
  obtain ⟨E, hE, hk, h0, h1, h01⟩ := nearJoint_expr e p h
  have h2 : (Matrix.of fun a b => (if isTarget2 a = isTarget2 b then 1 + 2 / 10 ^ 12 else 1) *
      cov2 e.obj p x J J' x J J' a b).PosSemidef := by
    have := hE.gram (I := Obs2 n v v') fun q => match q with
      | .inl (.inl i) => (x i, none)
      | .inl (.inr (i, u)) => (x i, some fun f => J i f u)
      | .inr (i, u) => (x i, some fun f => J' i f u)
    convert this using 1
    ext s t
    rcases s with (i | ⟨i, u⟩) | ⟨i, u⟩ <;> rcases t with (j | ⟨j, t⟩) | ⟨j, t⟩ <;>
      simp [cov2, cov1, hk, h0, h1, h01, damp, isTarget2, isTarget1]
  exact ⟨h2.submatrix (Sum.inl : Obs1 n v → Obs2 n v v'), h2⟩

/-- **C78**, consequence: the systems of GPR_TD are positive definite for `SquaredExponential`, sums with it and
multiples of it as soon as the noise variances exceed `2e-12` times the sum of the prior variances of the targets, and
of the derivatives. -/
theorem C78_well_posed_noise_partial (e : KExpr d) (θ : TDParams)
    (h : DerivSmooth e θ.kernelParams) (x : Batch n d) (J : Jac n d v) (J' : Jac n d v')
    (ht : 2 / 10 ^ 12 * ∑ i, e.obj.k θ.kernelParams x x i i < θ.sigmaTargets ^ 2 + 1 / 10 ^ 10) :
    (2 / 10 ^ 12 * ∑ s, e.obj.d01kj θ.kernelParams x x J J s s < θ.sigmaDerivs ^ 2 + 1 / 10 ^ 10 →
      (tdALhsNoise1 θ e.obj x J x J).PosDef) ∧
    (2 / 10 ^ 12 * (∑ s, e.obj.d01kj θ.kernelParams x x J J s s + ∑ s, e.obj.d01kj θ.kernelParams x x J' J' s s) <
        min (θ.sigmaDerivs ^ 2) (θ.sigmaDerivs2 ^ 2) + 1 / 10 ^ 10 →
      (tdALhsNoise2 θ e.obj x J J' x J J').PosDef) := by
  obtain ⟨h1, h2⟩ := C78_near_partial e θ.kernelParams h x J J'
  have hflat : ∀ {w : ℕ} (f : Fin (n * w) → ℝ), ∑ s, f s = ∑ q : Fin n × Fin w, f (flat q.1 q.2) := fun f => by
    rw [← finProdFinEquiv.sum_comp]
    exact Finset.sum_congr rfl fun q _ => by rw [← prod_flat]
  constructor
  · intro hd
    have h3 := posDef_of_damped isTarget1 (by norm_num) _ h1 (noise1 θ) (fun a => ?_)
    · exact posDef_reindex pos1 pos1_bij _ _ (fun a b => by
        rw [(C52_entries1 e.obj θ x J x J).2.2, Matrix.add_apply, Matrix.diagonal_apply, Matrix.of_apply, add_comm]
        rfl) h3
    · rw [hflat] at hd
      rcases a with i | i
      · simpa [isTarget1, noise1, cov1, Fintype.sum_sum_type] using ht
      · simpa [isTarget1, noise1, cov1, Fintype.sum_sum_type] using hd
  · intro hd
    have h3 := posDef_of_damped isTarget2 (by norm_num) _ h2 (noise2 θ) (fun a => ?_)
    · exact posDef_reindex pos2 pos2_bij _ _ (fun a b => by
        rw [(C52_entries2 e.obj θ x J J' x J J').2.2, Matrix.add_apply, Matrix.diagonal_apply, Matrix.of_apply, add_comm]
        rfl) h3
    · rw [hflat, hflat] at hd
      have hd1 := hd.trans_le (add_le_add_left (min_le_left _ _) _)
      have hd2 := hd.trans_le (add_le_add_left (min_le_right _ _) _)
      rcases a with (i | i) | i
      · simpa [isTarget2, isTarget1, noise2, noise1, cov2, cov1, Fintype.sum_sum_type] using ht
      · simpa [isTarget2, isTarget1, noise2, noise1, cov2, cov1, Fintype.sum_sum_type] using hd1
      · simpa [isTarget2, isTarget1, noise2, noise1, cov2, cov1, Fintype.sum_sum_type] using hd2

/-- Prior variances of `SquaredExponential`: at most one for a target, at most `2 / lengthscale²` times the squared
norm of the jacobian for a derivative. -/
theorem se_variances (a : Option (Dims d)) (he : NoRepeat a) (p : KPar) (x : Batch n d) (J : Jac n d v) :
    ∑ i, (KernelObj.squaredExponential a).k p x x i i ≤ n ∧
    ∑ s, (KernelObj.squaredExponential a).d01kj p x x J J s s ≤
      2 / p.val "lengthscale" ^ 2 * ∑ i, ∑ f, ∑ u, J i f u ^ 2 := by
  have hc := closed_se a he p
  have h1 : ∀ l : ℝ, ∀ {k : ℕ} (z : Fin k → ℝ), Real.exp (-(sqd l z z + sqDistJitter)) ≤ 1 := fun l k z => by
    rw [Real.exp_le_one_iff]
    have : sqd l z z = 0 := by simp [sqd]
    rw [this]
    norm_num [sqDistJitter]
  constructor
  · refine (Finset.sum_le_sum fun i _ => (hc.k x x i i).trans_le (h1 _ _)).trans ?_
    simp
  · have e : ∀ f : Fin (n * v) → ℝ, ∑ s, f s = ∑ q : Fin n × Fin v, f (flat q.1 q.2) := fun f => by
      rw [← finProdFinEquiv.sum_comp]
      exact Finset.sum_congr rfl fun q _ => by rw [← prod_flat]
    rw [e, Fintype.sum_prod_type, Finset.mul_sum]
    refine Finset.sum_le_sum fun i _ => ?_
    rw [Finset.sum_comm (s := (Finset.univ : Finset (Fin d))), Finset.mul_sum]
    refine Finset.sum_le_sum fun u _ => ?_
    rw [hc.d01kj]
    have h2 : ∀ b : Fin (Dims.resolve a).k,
        ∑ b', J i ((Dims.resolve a).idx b) u * (Core.se (p.val "lengthscale")).H ((Dims.resolve a).take (x i))
          ((Dims.resolve a).take (x i)) b b' * J i ((Dims.resolve a).idx b') u ≤
        2 / p.val "lengthscale" ^ 2 * J i ((Dims.resolve a).idx b) u ^ 2 := fun b => by
      rw [Finset.sum_eq_single b (fun b' _ hb => ?_) fun hb => absurd (Finset.mem_univ b) hb]
      · simp only [Core.se, sub_self, mul_zero, if_true, zero_add]
        have := h1 (p.val "lengthscale") ((Dims.resolve a).take (x i))
        have h3 : 0 ≤ 2 / p.val "lengthscale" ^ 2 * J i ((Dims.resolve a).idx b) u ^ 2 := by positivity
        nlinarith
      · simp [Core.se, hb.symm]
    refine (Finset.sum_le_sum fun b _ => h2 b).trans ?_
    rw [← Finset.mul_sum]
    refine mul_le_mul_of_nonneg_left ?_ (by positivity)
    have := Finset.sum_le_univ_sum_of_nonneg (s := Finset.univ.image (Dims.resolve a).idx)
      (f := fun f => J i f u ^ 2) fun f => sq_nonneg _
    rwa [Finset.sum_image fun _ _ _ _ h => resolve_injective a he h] at this

/-- **C78** for `SquaredExponential` in terms of the data: with fewer than `5e11 * (sigma_targets² + 1e-10)` samples and
jacobians whose squared norm is below `2.5e11 * lengthscale² * (sigma_derivs² + 1e-10)` the systems of GPR_TD are
positive definite. -/
theorem C78_squared_exponential_partial (a : Option (Dims d)) (he : NoRepeat a) (θ : TDParams)
    (hl : 0 < θ.kernelParams.val "lengthscale") (x : Batch n d) (J : Jac n d v) (J' : Jac n d v')
    (ht : 2 / 10 ^ 12 * (n : ℝ) < θ.sigmaTargets ^ 2 + 1 / 10 ^ 10) :
    (4 / 10 ^ 12 / θ.kernelParams.val "lengthscale" ^ 2 * ∑ i, ∑ f, ∑ u, J i f u ^ 2 <
        θ.sigmaDerivs ^ 2 + 1 / 10 ^ 10 →
      (tdALhsNoise1 θ (KExpr.squaredExponential a).obj x J x J).PosDef) ∧
    (4 / 10 ^ 12 / θ.kernelParams.val "lengthscale" ^ 2 *
        (∑ i, ∑ f, ∑ u, J i f u ^ 2 + ∑ i, ∑ f, ∑ u, J' i f u ^ 2) <
        min (θ.sigmaDerivs ^ 2) (θ.sigmaDerivs2 ^ 2) + 1 / 10 ^ 10 →
      (tdALhsNoise2 θ (KExpr.squaredExponential a).obj x J J' x J J').PosDef) := by
  obtain ⟨h1, h2⟩ := se_variances a he θ.kernelParams x J
  obtain ⟨_, h3⟩ := se_variances a he θ.kernelParams x J'
  have hw := C78_well_posed_noise_partial (.squaredExponential a) θ (.squaredExponential hl) x J J' (by
    refine lt_of_le_of_lt ?_ ht
    exact mul_le_mul_of_nonneg_left h1 (by norm_num))
  refine ⟨fun h => hw.1 (lt_of_le_of_lt ?_ h), fun h => hw.2 (lt_of_le_of_lt ?_ h)⟩
  · refine (mul_le_mul_of_nonneg_left h2 (by norm_num)).trans (le_of_eq ?_)
    ring
  · refine (mul_le_mul_of_nonneg_left (add_le_add h2 h3) (by norm_num)).trans (le_of_eq ?_)
    ring

/-- Non-vacuity: two samples in the plane, unit lengthscale, no noise on the targets, noise `1` and `2` on the
derivatives. -/
example : (tdALhsNoise1 ⟨fun _ => 1, 0, 1, 2⟩ (KExpr.squaredExponential none : KExpr 2).obj exX exJ exX exJ).PosDef ∧
    (tdALhsNoise2 ⟨fun _ => 1, 0, 1, 2⟩ (KExpr.squaredExponential none : KExpr 2).obj exX exJ exJ' exX exJ
      exJ').PosDef := by
  have h := C78_squared_exponential_partial none trivial ⟨fun _ => 1, 0, 1, 2⟩ (by norm_num [KPar.val]) exX exJ exJ'
    (by norm_num)
  refine ⟨h.1 ?_, h.2 ?_⟩ <;> norm_num [KPar.val, exJ, exJ', Fin.sum_univ_succ]

end GPX.Props
