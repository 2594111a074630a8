import Verif.Props.SGPR
import Verif.Lemmas.KernelClosedJ

/-!
# C50, C72: SGPR trained on the derivatives at a single inducing point

The noise and the jitter are added as `value * jnp.eye(m)` with `m` the number of inducing points. With one inducing point
the shapes broadcast, so the value is added to every entry of the covariance of the derivative components.
-/

namespace GPX.Props
open GPX GPX.Spec

variable {d n m o v w : ℕ} {la : LinAlg}

/-- The matrix with every entry equal to one. -/
theorem ones_psd (N : ℕ) : (Matrix.of fun _ _ => 1 : Mat N N).PosSemidef := by
  have h := gram_posSemidef' (Matrix.of fun _ _ => 1 : Mat N 1)
  convert h using 1
  ext i j
  simp [Matrix.mul_apply]

/-- **C50** (partial) for SGPR at one inducing point with any number of derivative components: the covariance is
`k(x, x) - k(x, dX) (k(dX, dX) + sigma² 1)⁻¹ k(dX, x)` where `1` has every entry equal to one. The noise is shared by the
components instead of being independent; the covariance of `C50_sgpr_partial` is what a user expects. -/
theorem C50_one_point_partial (ex : la.Exact) (κ : KernelObj d) (θ : GPParams) (xl : Batch 1 d) (Jl : Jac 1 d w)
    (x : Batch n d) (c : Mat (1 * w) 1) (mu : ℝ) (h : (Matrix.of (κ.d01kj θ.kernelParams xl xl Jl Jl)).PosDef) :
    sgprPredictYDerivsDense la θ κ xl Jl x c mu (fullCovariance := true) =
      .ok (sgprPredictYDerivs θ κ xl Jl x c mu, some (Matrix.of (κ.k θ.kernelParams x x) -
        (Matrix.of (κ.d0kj θ.kernelParams xl x Jl) : Mat (1 * w) n).transpose *
          (Matrix.of fun r s => κ.d01kj θ.kernelParams xl xl Jl Jl r s + θ.sigma ^ 2)⁻¹ *
          Matrix.of (κ.d0kj θ.kernelParams xl x Jl))) := by
  have hA : (Matrix.of (κ.d01kj θ.kernelParams xl xl Jl Jl) + θ.sigma ^ 2 •
      (Matrix.of fun _ _ => 1 : Mat (1 * w) (1 * w))).PosDef :=
    h.add_posSemidef ((ones_psd _).smul (sq_nonneg _))
  have hE : (Matrix.of (κ.d01kj θ.kernelParams xl xl Jl Jl) + θ.sigma ^ 2 •
      (Matrix.of fun _ _ => 1 : Mat (1 * w) (1 * w))) =
      Matrix.of fun r s => κ.d01kj θ.kernelParams xl xl Jl Jl r s + θ.sigma ^ 2 := by
    ext r s
    simp
  have hk : addEye (Matrix.of (κ.d01kj θ.kernelParams xl xl Jl Jl)) (θ.sigma ^ 2) 1 =
      .ok (Matrix.of (κ.d01kj θ.kernelParams xl xl Jl Jl) + θ.sigma ^ 2 •
        (Matrix.of fun _ _ => 1 : Mat (1 * w) (1 * w))) := by
    unfold addEye
    split_ifs with h1 h2
    · have hw : w = 1 := by omega
      subst hw
      congr 2
      ext i j
      have : i = j := Subsingleton.elim (α := Fin 1) i j
      simp [this]
    · rfl
    · exact (h2 rfl).elim
  unfold sgprPredictYDerivsDense sgprPredictYDerivsCov
  simp only [hk, if_true, bind, Except.bind, pure, Except.pure]
  rw [ex.gram hA, hE]

/-- **C72** (partial) at one inducing point: whatever the number of derivative components, the covariance of the predicted
derivatives is defined and it is the one of the sparse model with the jitter added to every entry of the covariance of
the inducing derivatives. -/
theorem C72_one_point_partial (ex : la.Exact) (κ : KernelObj d) (θ : GPParams) (xl : Batch 1 d) (Jl : Jac 1 d w)
    (x : Batch n d) (J : Jac n d v) (h : (Matrix.of (κ.d01kj θ.kernelParams xl xl Jl Jl)).PosDef) :
    sgprPredictDerivsCov la θ κ xl Jl x J = .ok (Matrix.of (κ.d01kj θ.kernelParams x x J J) -
      (Matrix.of (κ.d01kj θ.kernelParams xl x Jl J) : Mat (1 * w) (n * v)).transpose *
        (Matrix.of fun r s => κ.d01kj θ.kernelParams xl xl Jl Jl r s + 1 / 10 ^ 10)⁻¹ *
        Matrix.of (κ.d01kj θ.kernelParams xl x Jl J) +
      θ.sigma ^ 2 • ((Matrix.of (κ.d01kj θ.kernelParams xl x Jl J) : Mat (1 * w) (n * v)).transpose *
        (θ.sigma ^ 2 • Matrix.of (κ.d01kj θ.kernelParams xl xl Jl Jl) +
          Matrix.of (κ.d01kj θ.kernelParams xl x Jl J) *
            (Matrix.of (κ.d01kj θ.kernelParams xl x Jl J) : Mat (1 * w) (n * v)).transpose +
          (1 / 10 ^ 10 : ℝ) • (1 : Mat (1 * w) (1 * w)))⁻¹ * Matrix.of (κ.d01kj θ.kernelParams xl x Jl J))) := by
  have hA : (Matrix.of (κ.d01kj θ.kernelParams xl xl Jl Jl) + noiseJitter •
      (Matrix.of fun _ _ => 1 : Mat (1 * w) (1 * w))).PosDef :=
    h.add_posSemidef ((ones_psd _).smul jitter_pos'.le)
  have hE : (Matrix.of (κ.d01kj θ.kernelParams xl xl Jl Jl) + noiseJitter •
      (Matrix.of fun _ _ => 1 : Mat (1 * w) (1 * w))) =
      Matrix.of fun r s => κ.d01kj θ.kernelParams xl xl Jl Jl r s + 1 / 10 ^ 10 := by
    ext r s
    simp [noiseJitter]
  have hk : addEye (Matrix.of (κ.d01kj θ.kernelParams xl xl Jl Jl)) noiseJitter 1 =
      .ok (Matrix.of (κ.d01kj θ.kernelParams xl xl Jl Jl) + noiseJitter •
        (Matrix.of fun _ _ => 1 : Mat (1 * w) (1 * w))) := by
    unfold addEye
    split_ifs with h1 h2
    · have hw : w = 1 := by omega
      subst hw
      congr 2
      ext i j
      have : i = j := Subsingleton.elim (α := Fin 1) i j
      simp [this]
    · rfl
    · exact (h2 rfl).elim
  have hp : (sgprADerivsLhs θ κ xl Jl x J).1.PosDef := sparse_posDef h.posSemidef _ _
  unfold sgprPredictDerivsCov
  simp only [hk, bind, Except.bind, pure, Except.pure]
  rw [ex.gram hA, ex.gram hp, hE]
  rfl

/-! ## Non-vacuity: the two derivatives of a linear kernel at one point of the plane -/

theorem linear_identity_gram : (Matrix.of ((KExpr.linear none : KExpr 2).obj.d01kj (fun _ => 1)
    (fun _ _ => 3 : Batch 1 2) (fun _ _ => 3 : Batch 1 2) (fun _ f u => if f = u then 1 else 0 : Jac 1 2 2)
    (fun _ f u => if f = u then 1 else 0 : Jac 1 2 2))).PosDef := by
  have h : (Matrix.of ((KExpr.linear none : KExpr 2).obj.d01kj (fun _ => 1)
      (fun _ _ => 3 : Batch 1 2) (fun _ _ => 3 : Batch 1 2) (fun _ f u => if f = u then 1 else 0 : Jac 1 2 2)
      (fun _ f u => if f = u then 1 else 0 : Jac 1 2 2))) = (1 : Mat (1 * 2) (1 * 2)) := by
    ext r s
    obtain ⟨i, u, rfl⟩ := flat_surj r
    obtain ⟨j, w, rfl⟩ := flat_surj s
    rw [show (KExpr.linear none : KExpr 2).obj = KernelObj.linear none from rfl, Matrix.of_apply,
      (closedJ_linear none _).d01kj]
    have hij : (flat i u = flat j w) ↔ u = w := by
      rw [Subsingleton.elim j i, ← prod_flat, ← prod_flat, finProdFinEquiv.injective.eq_iff, Prod.mk.injEq]
      simp
    rw [Matrix.one_apply, if_congr hij rfl rfl]
    show ∑ a : Fin 2, ∑ b : Fin 2, (if a = u then (1 : ℝ) else 0) * (if a = b then (1 : ℝ) else 0) *
      (if b = w then (1 : ℝ) else 0) = _
    simp [eq_comm]
  rw [h]
  exact Matrix.PosDef.one

example : ∃ C, sgprPredictDerivsCov LinAlg.ideal ⟨fun _ => 1, 1⟩ (KExpr.linear none : KExpr 2).obj
    (fun _ _ => 3 : Batch 1 2) (fun _ f u => if f = u then 1 else 0 : Jac 1 2 2) (fun i _ => (i : ℕ) : Batch 4 2)
    (fun _ f _ => (f : ℕ) : Jac 4 2 1) = .ok C :=
  ⟨_, C72_one_point_partial LinAlg.ideal_exact _ ⟨fun _ => 1, 1⟩ _ _ _ _ linear_identity_gram⟩

end GPX.Props
