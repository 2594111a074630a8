import Verif.Props.LeaveOneOut
import Verif.Props.WorstCase

/-!
# C168 for models trained on derivatives: leaving a sample, with all its directions, out
-/

namespace GPX.Props
open GPX GPX.Spec Matrix

variable {d m n w : ℕ} {la : LinAlg}

/-- The covariance that a model predicts for its own training rows. -/
theorem own_covariance {N : ℕ} {K A : Mat N N} {s : ℝ} (hA : A = K + s • (1 : Mat N N)) (hu : IsUnit A.det) :
    s • (1 : Mat N N) - (K - K * A⁻¹ * K) = s ^ 2 • A⁻¹ := by
  have hK : K = A - s • (1 : Mat N N) := by rw [hA, add_sub_cancel_right]
  have h1 : K * A⁻¹ = 1 - s • A⁻¹ := by
    rw [hK, Matrix.sub_mul, Matrix.mul_nonsing_inv _ hu, Matrix.smul_mul, Matrix.one_mul]
  rw [h1, Matrix.sub_mul, Matrix.one_mul, sub_sub_cancel, Matrix.smul_mul, hK, Matrix.mul_sub, Matrix.nonsing_inv_mul _ hu,
    Matrix.mul_smul, Matrix.mul_one, smul_sub, sub_sub_cancel, smul_smul, sq]

/-- **C168**, models trained on derivatives: with `V` the covariance the model trained on all samples predicts for the derivatives of sample
`i`, its residuals there are `(1 - V / nz)` times the errors of the model trained without that sample. The matrix `nz - V` is positive
definite, so the errors are known without training again. -/
theorem C168_leave_out_derivs (ex : la.Exact) (e : KExpr d) (θ : GPParams) (h : DerivSmooth e θ.kernelParams) (mf : MeanFun)
    (x : Batch (m + 1) d) (J : Jac (m + 1) d w) (y : Mat (m + 1) w) (i : Fin (m + 1))
    (hmf : mf (flatCol (y.submatrix i.succAbove id)) = mf (flatCol y)) :
    let nz := θ.sigma ^ 2 + 1 / 10 ^ 10
    let fit := fitDerivsDense la θ e.obj mf x J y
    let pred := predictDerivsDense θ e.obj x J x J fit.1 fit.2
    let x' : Batch m d := fun s => x (i.succAbove s)
    let J' : Jac m d w := fun s => J (i.succAbove s)
    let fit' := fitDerivsDense la θ e.obj mf x' J' (y.submatrix i.succAbove id)
    let out := predictDerivsDense θ e.obj x' J' x J fit'.1 fit'.2
    let V : Mat w w := Matrix.of fun u r => predictDerivsDenseCov la θ e.obj x J x J (flat i u) (flat i r)
    (nz • (1 : Mat w w) - V).PosDef ∧
      (nz • (1 : Mat w w) - V) *ᵥ (fun r => y i r - out i r) = nz • fun r => y i r - pred i r := by
  intro nz fit pred x' J' fit' out V
  obtain ⟨E, hE, hk⟩ := derivPSD_flat e θ.kernelParams h
  have hp : (aDerivsLhsNoise θ e.obj x J x J).PosDef :=
    (posterior_blocks (noise_pos θ) (C65_two_datasets_partial e _ h x J x J)).1
  set A := aDerivsLhsNoise θ e.obj x J x J with hA
  set K : Mat ((m + 1) * w) ((m + 1) * w) := Matrix.of (e.obj.d01kj θ.kernelParams x x J J) with hK
  have hAK : A = K + nz • (1 : Mat _ _) := by
    rw [hA, hK]
    change Matrix.of _ + θ.noise • _ = _
    rw [noise_val]
  have hnz : 0 < nz := by positivity
  have hu := posDef_isUnit hp
  have hKt : K.transpose = K := by
    funext a b
    simp only [hK, Matrix.transpose_apply, Matrix.of_apply, hk]
    exact hE.symm _ _
  have hcov : predictDerivsDenseCov la θ e.obj x J x J = K - K * A⁻¹ * K := by
    have : predictDerivsDenseCov la θ e.obj x J x J = K - K.transpose * A⁻¹ * K := by
      unfold predictDerivsDenseCov
      simp only
      rw [ex.gram hp]
      rfl
    rw [this, hKt]
  have hown := own_covariance hAK hu
  rw [← hcov] at hown
  have hinj : Function.Injective fun u : Fin w => flat i u := fun u r hur => by
    have := congrArg Fin.modNat hur
    simpa only [flat_modNat] using this
  have hV : nz • (1 : Mat w w) - V = (nz ^ 2 • A⁻¹).submatrix (fun u => flat i u) fun u => flat i u := by
    rw [← hown]
    funext u r
    simp only [V, Matrix.sub_apply, Matrix.smul_apply, Matrix.one_apply, Matrix.of_apply, Matrix.submatrix_apply, hinj.eq_iff]
  refine ⟨?_, ?_⟩
  · rw [hV]
    exact (hp.inv.smul (by positivity : 0 < nz ^ 2)).submatrix hinj
  let cx : Fin (m + 1) → Fin w → ℝ := i.insertNth (α := fun _ => Fin w → ℝ) (fun _ => 0) fun a u => fit'.1 (flat a u) 0
  let er : Fin (m + 1) → Fin w → ℝ := i.insertNth (α := fun _ => Fin w → ℝ) (fun u => y i u - out i u) fun _ _ => 0
  have hfit : ∀ s, (A *ᵥ fun l => fit.1 l 0) s = y s.divNat s.modNat - mf (flatCol y) := fun s => by
    rw [← fit_derivs_column ex e θ h mf x J y s, hAK, Matrix.add_mulVec, Matrix.smul_mulVec, Matrix.one_mulVec, noise_val]
    rfl
  have hcx : ∀ j u, (A *ᵥ fun l => cx l.divNat l.modNat) (flat j u) =
      (∑ a, ∑ r, E (x j, fun f => J j f u) (x (i.succAbove a), fun f => J (i.succAbove a) f r) * fit'.1 (flat a r) 0) +
        nz * cx j u := fun j u => by
    rw [hAK, Matrix.add_mulVec, Matrix.smul_mulVec, Matrix.one_mulVec]
    simp only [Pi.add_apply, Pi.smul_apply, smul_eq_mul, flat_divNat, flat_modNat, Matrix.mulVec, dotProduct, hK, Matrix.of_apply, hk]
    congr 1
    rw [sum_flat (fun l : Fin ((m + 1) * w) => E (x j, fun f => J j f u) (x l.divNat, fun f => J l.divNat f l.modNat) *
      cx l.divNat l.modNat)]
    simp only [flat_divNat, flat_modNat]
    rw [Fin.sum_univ_succAbove _ i]
    simp [cx]
  have hkey : A *ᵥ (fun l => fit.1 l 0 - cx l.divNat l.modNat) = fun l => er l.divNat l.modNat := by
    have h1 : (fun l => fit.1 l 0 - cx l.divNat l.modNat) = (fun l => fit.1 l 0) - fun l => cx l.divNat l.modNat := rfl
    rw [h1, Matrix.mulVec_sub]
    funext s
    obtain ⟨j, u, rfl⟩ : ∃ j u, s = flat j u := ⟨s.divNat, s.modNat, (flat_eta s).symm⟩
    rw [Pi.sub_apply, hfit, hcx, flat_divNat, flat_modNat]
    rcases Fin.eq_self_or_eq_succAbove i j with rfl | ⟨a, rfl⟩
    · have h2 := predict_derivs_sub e θ x' J' x J fit'.1 fit'.2 j u
      change out j u - mf (flatCol (y.submatrix j.succAbove id)) = _ at h2
      rw [hmf] at h2
      rw [sum_flat (fun l : Fin (m * w) => e.obj.d01kj θ.kernelParams x' x J' J l (flat j u) * fit'.1 l 0)] at h2
      simp only [hk, flat_divNat, flat_modNat] at h2
      simp only [cx, er, Fin.insertNth_apply_same, mul_zero, add_zero]
      have h3 : ∀ a r, E (x j, fun f => J j f u) (x (j.succAbove a), fun f => J (j.succAbove a) f r) =
          E (x' a, fun f => J' a f r) (x j, fun f => J j f u) := fun a r => hE.symm _ _
      simp only [h3]
      rw [← h2]
      ring
    · have h2 := fit_derivs_column ex e θ h mf x' J' (y.submatrix i.succAbove id) (flat a u)
      rw [sum_flat (fun l : Fin (m * w) => e.obj.d01kj θ.kernelParams x' x' J' J' (flat a u) l *
        (fitDerivsDense la θ e.obj mf x' J' (y.submatrix i.succAbove id)).1 l 0), hmf, noise_val] at h2
      simp only [hk, flat_divNat, flat_modNat, Matrix.submatrix_apply, id] at h2
      simp only [cx, er, Fin.insertNth_apply_succAbove]
      rw [sub_eq_zero]
      exact h2.symm
  have hsol : (fun l => fit.1 l 0 - cx l.divNat l.modNat) = A⁻¹ *ᵥ fun l => er l.divNat l.modNat := by
    rw [← hkey, Matrix.mulVec_mulVec, Matrix.nonsing_inv_mul _ hu, Matrix.one_mulVec]
  rw [hV]
  funext u
  have h4 := congrFun hsol (flat i u)
  simp only [Matrix.mulVec, dotProduct] at h4
  rw [sum_flat (fun l : Fin ((m + 1) * w) => A⁻¹ (flat i u) l * er l.divNat l.modNat)] at h4
  simp only [flat_divNat, flat_modNat] at h4
  rw [Fin.sum_univ_succAbove _ i] at h4
  simp only [cx, er, Fin.insertNth_apply_same, Fin.insertNth_apply_succAbove, mul_zero, Finset.sum_const_zero, add_zero, sub_zero] at h4
  have h5 : y i u - pred i u = nz * fit.1 (flat i u) 0 := by
    have h6 := fit_derivs_column ex e θ h mf x J y (flat i u)
    have h7 := predict_derivs_sub e θ x J x J fit.1 fit.2 i u
    have h8 : ∑ l, e.obj.d01kj θ.kernelParams x x J J l (flat i u) * fit.1 l 0 =
        ∑ l, e.obj.d01kj θ.kernelParams x x J J (flat i u) l * fit.1 l 0 :=
      Finset.sum_congr rfl fun l _ => by rw [hk, hk, hE.symm]
    rw [flat_divNat, flat_modNat, noise_val] at h6
    change pred i u - mf (flatCol y) = _ at h7
    change _ + nz * fit.1 _ 0 = _ at h6
    change ∑ l, e.obj.d01kj θ.kernelParams x x J J (flat i u) l * fit.1 l 0 + _ = _ at h6
    linarith
  rw [Pi.smul_apply, smul_eq_mul, h5, h4]
  simp only [Matrix.mulVec, dotProduct, Matrix.submatrix_apply, Matrix.smul_apply, smul_eq_mul, Finset.mul_sum]
  exact Finset.sum_congr rfl fun r _ => by ring

/-- `zero_mean` satisfies the condition on the mean for all data. -/
example (y : Mat (m + 1) w) (i : Fin (m + 1)) :
    zeroMean (flatCol (y.submatrix i.succAbove id)) = zeroMean (flatCol y) := rfl

/-- Non-vacuity: three samples with one direction each, the middle one left out. -/
example (θ : GPParams) (hl : 0 < θ.kernelParams.val "lengthscale") :
    let x : Batch 3 1 := ![![0], ![1], ![2]]
    let J : Jac 3 1 1 := ![![![1]], ![![2]], ![![1]]]
    let V := predictDerivsDenseCov LinAlg.ideal θ (KExpr.squaredExponential (d := 1) none).obj x J x J (flat 1 0) (flat 1 0)
    V < θ.sigma ^ 2 + 1 / 10 ^ 10 := by
  intro x J V
  have := (C168_leave_out_derivs (m := 2) LinAlg.ideal_exact (KExpr.squaredExponential (d := 1) none) θ (.squaredExponential hl) zeroMean x J
    (fun _ _ => 1) 1 rfl).1.diag_pos (i := 0)
  simp only [Matrix.sub_apply, Matrix.smul_apply, Matrix.one_apply, Matrix.of_apply, if_true, smul_eq_mul, mul_one] at this
  exact sub_pos.mp this

end GPX.Props
