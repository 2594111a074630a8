import Verif.Props.TrainingPoints
import Verif.Props.JointPSD
import Verif.Props.Bounded
import Verif.Props.TrainingJoint
import Verif.Props.IterativeAccuracyTD

/-!
# C140, and C120 and C122 for models trained on derivatives
-/

namespace GPX.Props
open GPX GPX.Spec

variable {d m n o v v' w w' k : ℕ} {la : LinAlg}

/-- Targets at new samples and derivatives at training samples together. -/
theorem joint_y_psd (e : KExpr d) (p : KPar) (h : JointSmooth e p) (xt : Batch m d) (Jt : Jac m d w)
    (x : Batch n d) :
    (Matrix.fromBlocks (Matrix.of (e.obj.d01kj p xt xt Jt Jt)) (Matrix.of (e.obj.d0kj p xt x Jt))
      (Matrix.of (e.obj.d0kj p xt x Jt)).transpose (Matrix.of (e.obj.k p x x))).PosSemidef := by
  obtain ⟨E, hE, hk, h0, h1, h01⟩ := joint_expr e p h
  have := hE.gram (I := Fin (m * w) ⊕ Fin n) fun q => match q with
    | .inl s => (xt s.divNat, some fun f => Jt s.divNat f s.modNat)
    | .inr j => (x j, none)
  convert this using 1
  ext s t
  rcases s with s | s <;> rcases t with t | t
  · obtain ⟨i, u, rfl⟩ := flat_surj s
    obtain ⟨j, w, rfl⟩ := flat_surj t
    simp only [Matrix.of_apply, Matrix.fromBlocks_apply₁₁, h01, flat_divNat, flat_modNat]
  · obtain ⟨i, u, rfl⟩ := flat_surj s
    simp only [Matrix.of_apply, Matrix.fromBlocks_apply₁₂, h0, flat_divNat, flat_modNat]
  · obtain ⟨j, u, rfl⟩ := flat_surj t
    simp only [Matrix.of_apply, Matrix.fromBlocks_apply₂₁, Matrix.transpose_apply, h0, flat_divNat, flat_modNat]
    exact hE.symm _ _
  · simp only [Matrix.of_apply, Matrix.fromBlocks_apply₂₂, hk]

/-- The rows of the selected samples. -/
def pickRows (w : ℕ) (f : Fin k → Fin m) (s : Fin (k * w)) : Fin (m * w) := flat (f s.divNat) s.modNat

theorem pickRows_injective {f : Fin k → Fin m} (hf : Function.Injective f) : Function.Injective (pickRows w f) := by
  intro s t h
  obtain ⟨i, u, rfl⟩ := flat_surj s
  obtain ⟨j, z, rfl⟩ := flat_surj t
  simp only [pickRows, flat_divNat, flat_modNat] at h
  have h1 := congrArg Fin.divNat h
  have h2 := congrArg Fin.modNat h
  rw [flat_divNat, flat_divNat] at h1
  rw [flat_modNat, flat_modNat] at h2
  rw [hf h1, h2]

/-- Posterior covariance from the matrices. -/
theorem posterior_blocks {K : Mat m m} {B : Mat m n} {D : Mat n n} {s : ℝ} (hs : 0 < s)
    (h : (Matrix.fromBlocks K B B.transpose D).PosSemidef) :
    (K + s • (1 : Mat m m)).PosDef ∧ (D - B.transpose * (K + s • (1 : Mat m m))⁻¹ * B).PosSemidef ∧
      (D - (D - B.transpose * (K + s • (1 : Mat m m))⁻¹ * B)).PosSemidef := by
  have hK : K.PosSemidef := h.submatrix (Sum.inl : Fin m → _)
  have hp : (K + s • (1 : Mat m m)).PosDef := posDef_add_smul_one hK hs
  refine ⟨hp, schur_psd hp _ _ (blocks_noise hs.le h), ?_⟩
  rw [sub_sub_cancel]
  exact psd_sandwich hp.inv.posSemidef _

/-! ### C140 -/

/-- What a predictive covariance must satisfy: it is positive semidefinite, the prior covariance minus it is positive
semidefinite, and so is the covariance of the model trained on part of the samples minus it. -/
def GoodCovariance {N : ℕ} (prior cov : Mat N N) (part : Set (Mat N N)) : Prop :=
  cov.PosSemidef ∧ (prior - cov).PosSemidef ∧ ∀ c ∈ part, (c - cov).PosSemidef

/-- **C140**, the full claim: the covariances of derivatives and of targets returned by a model trained on derivatives, for
every expression made of twice differentiable kernels and every noise `sigma ≠ 0`. -/
def C140_full : Prop :=
  ∀ (d : ℕ) (la : LinAlg), la.Exact → ∀ (e : KExpr d), ∀ θ : GPParams, Smooth e θ.kernelParams →
    θ.sigma ≠ 0 → ∀ (m n v w : ℕ) (xt : Batch m d) (Jt : Jac m d w) (x : Batch n d) (J : Jac n d v),
    GoodCovariance (Matrix.of (e.obj.d01kj θ.kernelParams x x J J)) (predictDerivsDenseCov la θ e.obj xt Jt x J)
      {c | ∃ (k : ℕ) (f : Fin k → Fin m), Function.Injective f ∧
        c = predictDerivsDenseCov la θ e.obj (fun s => xt (f s)) (fun s => Jt (f s)) x J} ∧
    GoodCovariance (Matrix.of (e.obj.k θ.kernelParams x x)) (predictYDerivsDenseCov la θ e.obj xt Jt x)
      {c | ∃ (k : ℕ) (f : Fin k → Fin m), Function.Injective f ∧
        c = predictYDerivsDenseCov la θ e.obj (fun s => xt (f s)) (fun s => Jt (f s)) x}

/-- **C140**, part: the covariance of predicted derivatives, for the kernels of C65 and every noise (zero included).
Missing: the other kernels, whose derivative Gram matrix is not positive semidefinite in the first place. -/
theorem C140_derivs_partial (ex : la.Exact) (e : KExpr d) (θ : GPParams)
    (h : DerivSmooth e θ.kernelParams) (xt : Batch m d) (Jt : Jac m d w) (x : Batch n d) (J : Jac n d v) :
    GoodCovariance (Matrix.of (e.obj.d01kj θ.kernelParams x x J J)) (predictDerivsDenseCov la θ e.obj xt Jt x J)
      {c | ∃ (k : ℕ) (f : Fin k → Fin m), Function.Injective f ∧
        c = predictDerivsDenseCov la θ e.obj (fun s => xt (f s)) (fun s => Jt (f s)) x J} := by
  have hform : ∀ {m : ℕ} (xt : Batch m d) (Jt : Jac m d w), predictDerivsDenseCov la θ e.obj xt Jt x J =
      aDerivsLhs θ e.obj x J x J - (aDerivsLhs θ e.obj xt Jt x J).transpose *
        (aDerivsLhsNoise θ e.obj xt Jt xt Jt)⁻¹ * aDerivsLhs θ e.obj xt Jt x J := by
    intro m xt Jt
    have hp : (aDerivsLhsNoise θ e.obj xt Jt xt Jt).PosDef :=
      (posterior_blocks (noise_pos θ) (C65_two_datasets_partial e _ h xt Jt x J)).1
    unfold predictDerivsDenseCov
    simp only
    rw [ex.gram hp]
  obtain ⟨h1, h2, h3⟩ := posterior_blocks (noise_pos θ) (C65_two_datasets_partial e _ h xt Jt x J)
  refine ⟨?_, ?_, ?_⟩
  · rw [hform]; exact h2
  · rw [hform]; exact h3
  · rintro c ⟨k, f, hf, rfl⟩
    obtain ⟨E, hE, h01⟩ := derivPSD_expr e _ h
    have e1 : aDerivsLhs θ e.obj (fun s => xt (f s)) (fun s => Jt (f s)) x J =
        (aDerivsLhs θ e.obj xt Jt x J).submatrix (pickRows w f) id := by
      ext s t
      obtain ⟨i, u, rfl⟩ := flat_surj s
      obtain ⟨j, z, rfl⟩ := flat_surj t
      simp only [aDerivsLhs, Matrix.submatrix_apply, Matrix.of_apply, pickRows, flat_divNat, flat_modNat, id_eq, h01]
    have e2 : aDerivsLhsNoise θ e.obj (fun s => xt (f s)) (fun s => Jt (f s)) (fun s => xt (f s)) (fun s => Jt (f s)) =
        (aDerivsLhsNoise θ e.obj xt Jt xt Jt).submatrix (pickRows w f) (pickRows w f) := by
      have e3 : aDerivsLhs θ e.obj (fun s => xt (f s)) (fun s => Jt (f s)) (fun s => xt (f s)) (fun s => Jt (f s)) =
          (aDerivsLhs θ e.obj xt Jt xt Jt).submatrix (pickRows w f) (pickRows w f) := by
        ext s t
        obtain ⟨i, u, rfl⟩ := flat_surj s
        obtain ⟨j, z, rfl⟩ := flat_surj t
        simp only [aDerivsLhs, Matrix.submatrix_apply, Matrix.of_apply, pickRows, flat_divNat, flat_modNat, h01]
      unfold aDerivsLhsNoise
      rw [e3]
      ext s t
      simp only [Matrix.add_apply, Matrix.submatrix_apply, Matrix.smul_apply, Matrix.one_apply,
        (pickRows_injective hf).eq_iff]
    rw [hform, hform, sub_sub_sub_cancel_left, e1, e2]
    exact explained_mono h1 _ _ (e2 ▸ (posterior_blocks (noise_pos θ) (C65_two_datasets_partial e _ h _ _ x J)).1)

/-- **C140**, part: the covariance of targets predicted from derivatives, for the kernels of C78. Missing:
`SquaredExponential` and `Matern32`. -/
theorem C140_targets_partial (ex : la.Exact) (e : KExpr d) (θ : GPParams)
    (h : JointSmooth e θ.kernelParams) (hs : θ.sigma ≠ 0) (xt : Batch m d) (Jt : Jac m d w) (x : Batch n d) :
    GoodCovariance (Matrix.of (e.obj.k θ.kernelParams x x)) (predictYDerivsDenseCov la θ e.obj xt Jt x)
      {c | ∃ (k : ℕ) (f : Fin k → Fin m), Function.Injective f ∧
        c = predictYDerivsDenseCov la θ e.obj (fun s => xt (f s)) (fun s => Jt (f s)) x} := by
  have hs2 : 0 < θ.sigma ^ 2 := by positivity
  have hform : ∀ {m : ℕ} (xt : Batch m d) (Jt : Jac m d w), predictYDerivsDenseCov la θ e.obj xt Jt x =
      Matrix.of (e.obj.k θ.kernelParams x x) - (Matrix.of (e.obj.d0kj θ.kernelParams xt x Jt)).transpose *
        (Matrix.of (e.obj.d01kj θ.kernelParams xt xt Jt Jt) + θ.sigma ^ 2 • (1 : Mat (m * w) (m * w)))⁻¹ *
          Matrix.of (e.obj.d0kj θ.kernelParams xt x Jt) := by
    intro m xt Jt
    unfold predictYDerivsDenseCov
    simp only
    rw [ex.gram (posterior_blocks hs2 (joint_y_psd e _ h xt Jt x)).1]
  obtain ⟨h1, h2, h3⟩ := posterior_blocks hs2 (joint_y_psd e _ h xt Jt x)
  refine ⟨?_, ?_, ?_⟩
  · rw [hform]; exact h2
  · rw [hform]; exact h3
  · rintro c ⟨k, f, hf, rfl⟩
    obtain ⟨E, hE, hk, h0, h1', h01⟩ := joint_expr e _ h
    have e1 : (Matrix.of (e.obj.d0kj θ.kernelParams (fun s => xt (f s)) x (fun s => Jt (f s))) : Mat (k * w) n) =
        (Matrix.of (e.obj.d0kj θ.kernelParams xt x Jt) : Mat (m * w) n).submatrix (pickRows w f) id := by
      ext s t
      obtain ⟨i, u, rfl⟩ := flat_surj s
      simp only [Matrix.submatrix_apply, Matrix.of_apply, pickRows, flat_divNat, flat_modNat, id_eq, h0]
    have e2 : (Matrix.of (e.obj.d01kj θ.kernelParams (fun s => xt (f s)) (fun s => xt (f s)) (fun s => Jt (f s))
          (fun s => Jt (f s))) : Mat (k * w) (k * w)) + θ.sigma ^ 2 • (1 : Mat (k * w) (k * w)) =
        (Matrix.of (e.obj.d01kj θ.kernelParams xt xt Jt Jt) + θ.sigma ^ 2 • (1 : Mat (m * w) (m * w))).submatrix
          (pickRows w f) (pickRows w f) := by
      ext s t
      simp only [Matrix.add_apply, Matrix.submatrix_apply, Matrix.smul_apply, Matrix.one_apply,
        (pickRows_injective hf).eq_iff, Matrix.of_apply]
      obtain ⟨i, u, rfl⟩ := flat_surj s
      obtain ⟨j, z, rfl⟩ := flat_surj t
      simp only [pickRows, flat_divNat, flat_modNat, h01]
    rw [hform, hform, sub_sub_sub_cancel_left, e1, e2]
    exact explained_mono h1 _ _ (e2 ▸ (posterior_blocks hs2 (joint_y_psd e _ h _ _ x)).1)

/-- Variance of a combination of predictions is at most the variance of the error of any other guess. -/
theorem schur_quad_le {A : Mat m m} (hA : A.PosDef) (B : Mat m n) (D : Mat n n) (c : Fin n → ℝ) (a : Fin m → ℝ) :
    ∑ i, ∑ j, c i * (D - B.transpose * A⁻¹ * B) i j * c j ≤
      ∑ i, ∑ j, c i * D i j * c j + 2 * ∑ i, ∑ j, a i * B i j * c j + ∑ i, ∑ j, a i * A i j * a j := by
  have := (explained_var hA (Matrix.of fun i (_ : Fin 1) => ∑ j, B i j * c j : Mat m 1) 0 (fun i => -a i)).1
  have e1 : ((Matrix.of fun i (_ : Fin 1) => ∑ j, B i j * c j : Mat m 1).transpose * A⁻¹ *
      (Matrix.of fun i (_ : Fin 1) => ∑ j, B i j * c j : Mat m 1)) 0 0 =
      ∑ i, ∑ j, c i * (B.transpose * A⁻¹ * B) i j * c j := by
    have hc : (Matrix.of fun i (_ : Fin 1) => ∑ j, B i j * c j : Mat m 1) =
        B * (Matrix.of fun j (_ : Fin 1) => c j : Mat n 1) := by
      ext i j; simp [Matrix.mul_apply]
    rw [hc, Matrix.transpose_mul]
    have : (Matrix.of fun j (_ : Fin 1) => c j : Mat n 1).transpose * B.transpose * A⁻¹ *
        (B * (Matrix.of fun j (_ : Fin 1) => c j : Mat n 1)) =
        (Matrix.of fun j (_ : Fin 1) => c j : Mat n 1).transpose * (B.transpose * A⁻¹ * B) *
          (Matrix.of fun j (_ : Fin 1) => c j : Mat n 1) := by
      simp only [Matrix.mul_assoc]
    rw [this, Matrix.mul_apply]
    simp only [Matrix.mul_apply (M := (Matrix.of fun j (_ : Fin 1) => c j : Mat n 1).transpose), Matrix.transpose_apply,
      Matrix.of_apply, Finset.sum_mul]
    rw [Finset.sum_comm]
  rw [e1] at this
  have e2 : ∑ i, ∑ j, c i * (D - B.transpose * A⁻¹ * B) i j * c j =
      ∑ i, ∑ j, c i * D i j * c j - ∑ i, ∑ j, c i * (B.transpose * A⁻¹ * B) i j * c j := by
    rw [← Finset.sum_sub_distrib]
    refine Finset.sum_congr rfl fun i _ => ?_
    rw [← Finset.sum_sub_distrib]
    refine Finset.sum_congr rfl fun j _ => ?_
    rw [Matrix.sub_apply]; ring
  rw [e2]
  simp only [Matrix.of_apply, neg_mul, mul_neg, neg_neg, Finset.mul_sum, Finset.sum_neg_distrib] at this ⊢
  have e3 : ∀ i j, a i * (B i j * c j) = a i * B i j * c j := fun i j => by ring
  simp only [e3] at this
  linarith

/-- **C140** fails. The full claim does not hold: with a `SquaredExponential` kernel and a small noise, the covariance of the
targets at `±1e-7` given the derivative at `0` is not positive semidefinite. -/
theorem C140_false : ¬ C140_full := fun H => by
  let xt : Batch 1 1 := ![![0]]
  let x : Batch 2 1 := ![![1 / 10 ^ 7], ![-(1 / 10 ^ 7)]]
  let J : Jac 1 1 1 := fun _ _ _ => 1
  let p : KPar := fun _ => 1
  set S := ∑ i : Fin 3, ∑ j : Fin 3, ![1, -1, -(2 / 10 ^ 7)] i *
      (![![Real.exp (-(1 / 10 ^ 12)), Real.exp (-(1 / 10 ^ 12)) * Real.exp (-(4 / 10 ^ 14)), 2 / 10 ^ 7 * Real.exp (-(1 / 10 ^ 14))],
        ![Real.exp (-(1 / 10 ^ 12)) * Real.exp (-(4 / 10 ^ 14)), Real.exp (-(1 / 10 ^ 12)), -(2 / 10 ^ 7) * Real.exp (-(1 / 10 ^ 14))],
        ![2 / 10 ^ 7 * Real.exp (-(1 / 10 ^ 14)), -(2 / 10 ^ 7) * Real.exp (-(1 / 10 ^ 14)), Real.exp (-(1 / 10 ^ 12)) * 2]] i j : ℝ) *
      ![1, -1, -(2 / 10 ^ 7)] j with hS
  have hneg : S < 0 := se_indefinite _ rfl
  have hsq : Real.sqrt (-S) ^ 2 = -S := Real.sq_sqrt (by linarith)
  have hsig : Real.sqrt (-S) ≠ 0 := (Real.sqrt_pos.2 (by linarith)).ne'
  let θ : GPParams := ⟨p, Real.sqrt (-S)⟩
  have ex := LinAlg.ideal_exact
  obtain ⟨t1, -, -, t4⟩ := se_one (d := 1) none p rfl (0 : Fin 1) (fun f => Fin.sum_univ_one f) xt xt J J
  obtain ⟨g1, -, -, -⟩ := se_one (d := 1) none p rfl (0 : Fin 1) (fun f => Fin.sum_univ_one f) x x
    (fun _ _ _ => 1 : Jac 2 1 1) (fun _ _ _ => 1 : Jac 2 1 1)
  obtain ⟨-, g2, -, -⟩ := se_one (d := 1) none p rfl (0 : Fin 1) (fun f => Fin.sum_univ_one f) xt x J
    (fun _ _ _ => 1 : Jac 2 1 1)
  have x0 : ∀ q, x 0 q = 1 / 10 ^ 7 := fun q => by fin_cases q; rfl
  have x1 : ∀ q, x 1 q = -(1 / 10 ^ 7) := fun q => by fin_cases q; rfl
  have xz : ∀ i q, xt i q = 0 := fun i q => by fin_cases i; fin_cases q; rfl
  have hJ : ∀ i f u, J i f u = 1 := fun _ _ _ => rfl
  have h := ((H 1 LinAlg.ideal ex (.squaredExponential none) θ (by norm_num [Smooth, θ, p, KPar.val]) hsig
    1 2 0 1 xt J x (fun _ _ _ => 0)).2).1
  refine not_posSemidef_of_quad ![1, -1] ?_ h
  set A : Mat (1 * 1) (1 * 1) := Matrix.of ((KernelObj.squaredExponential none).d01kj p xt xt J J) +
    Real.sqrt (-S) ^ 2 • (1 : Mat (1 * 1) (1 * 1)) with hA
  have hflat : ∀ s : Fin (1 * 1), s = flat 0 0 := fun s => Subsingleton.elim (α := Fin 1) _ _
  have hentry : ∀ s t, A s t = Real.exp (-(1 / 10 ^ 12)) * 2 - S := fun s t => by
    rw [hflat s, hflat t, hA, Matrix.add_apply, Matrix.smul_apply, Matrix.one_apply_eq, Matrix.of_apply, t4, hsq]
    simp only [xz, hJ, smul_eq_mul]
    norm_num
    ring
  have hpd : A.PosDef := by
    have : A = (Real.exp (-(1 / 10 ^ 12)) * 2 - S) • (1 : Mat (1 * 1) (1 * 1)) := by
      ext s t
      rw [hentry, hflat s, hflat t, Matrix.smul_apply, Matrix.one_apply_eq, smul_eq_mul, mul_one]
    rw [this]
    exact Matrix.PosDef.one.smul (by have := Real.exp_pos (-(1 / 10 ^ 12)); linarith)
  have hcov : predictYDerivsDenseCov LinAlg.ideal θ (KExpr.squaredExponential none : KExpr 1).obj xt J x =
      Matrix.of ((KernelObj.squaredExponential none).k p x x) -
        (Matrix.of ((KernelObj.squaredExponential none).d0kj p xt x J)).transpose * A⁻¹ *
          Matrix.of ((KernelObj.squaredExponential none).d0kj p xt x J) := by
    unfold predictYDerivsDenseCov
    simp only
    rw [← ex.gram hpd]
    rfl
  rw [hcov]
  refine lt_of_le_of_lt (schur_quad_le hpd _ _ _ fun _ => -(2 / 10 ^ 7)) ?_
  have hone : ∀ f : Fin (1 * 1) → ℝ, ∑ s, f s = f (flat 0 0) := fun f => by
    rw [Fintype.sum_eq_single (flat 0 0) fun s hs => absurd (hflat s) hs]
  have hfin : ∀ y : ℝ, y = S + (2 / 10 ^ 7) ^ 2 * -S → y < 0 := fun y hy => by
    rw [hy]; nlinarith
  apply hfin
  simp only [hone, hentry, Fin.sum_univ_two, Matrix.of_apply, g1, g2, x0, x1, xz, hJ, Matrix.cons_val_zero,
    Matrix.cons_val_one]
  rw [hS]
  simp only [Fin.sum_univ_three, Matrix.cons_val_zero, Matrix.cons_val_one, Matrix.cons_val]
  norm_num
  ring

/-- Non-vacuity: a product of kernels with derivatives, two training samples out of three. -/
example : LinAlg.ideal.Exact ∧ JointSmooth (.prod (.linear none) (.matern52 none) : KExpr 2) (fun _ => 1) ∧
    DerivSmooth (.prod (.linear none) (.matern52 none) : KExpr 2) (fun _ => 1) ∧
    Function.Injective (![0, 2] : Fin 2 → Fin 3) :=
  ⟨LinAlg.ideal_exact, by norm_num [JointSmooth, KPar.val, KPar.sub],
    .joint (by norm_num [JointSmooth, KPar.val, KPar.sub]), by decide⟩

/-! ### C120: the best linear prediction from derivatives -/

theorem fit_derivs_solves (ex : la.Exact) (e : KExpr d) (θ : GPParams)
    (h : DerivSmooth e θ.kernelParams) (mf : MeanFun) (xt : Batch m d) (Jt : Jac m d w) (y : Mat m w) :
    (aDerivsLhsNoise θ e.obj xt Jt xt Jt).PosDef ∧
    aDerivsLhsNoise θ e.obj xt Jt xt Jt * (fitDerivsDense la θ e.obj mf xt Jt y).1 =
      centerBy (flatCol y) (mf (flatCol y)) := by
  have hp : (aDerivsLhsNoise θ e.obj xt Jt xt Jt).PosDef :=
    (posterior_blocks (noise_pos θ) (C65_two_datasets_partial e _ h xt Jt xt Jt)).1
  exact ⟨hp, ex.solve _ _ (posDef_isUnit hp)⟩

/-- Entry of `Bᵀ A⁻¹ b`. -/
theorem weights_apply {A : Mat m m} (hp : A.PosDef) (B : Mat m n) (b c : Mat m o) (hc : A * c = b) (j : Fin n)
    (q : Fin o) : (B.transpose * c) j q = ∑ i, (A⁻¹ * B) i j * b i q := by
  have hT : A⁻¹.transpose = A⁻¹ := posDef_transpose hp.inv.posSemidef
  have hc' : c = A⁻¹ * b := by
    rw [← hc, ← Matrix.mul_assoc, Matrix.nonsing_inv_mul _ (posDef_isUnit hp), Matrix.one_mul]
  rw [hc', ← Matrix.mul_assoc, Matrix.mul_apply]
  refine Finset.sum_congr rfl fun i _ => ?_
  congr 1
  rw [← Matrix.transpose_apply (A⁻¹ * B), Matrix.transpose_mul, hT]

/-- **C120** for models trained on derivatives: the predicted derivative is the best linear guess from the training
derivatives, `mu + Σ a_iu (y_iu - mu)`, and the reported variance is the mean squared error of that guess under the
prior. For the kernels of C65. The derivative `u` at sample `i` is the row `flat i u` of the derivative Gram matrix. -/
theorem C120_best_linear_derivs (ex : la.Exact) (e : KExpr d) (θ : GPParams)
    (h : DerivSmooth e θ.kernelParams) (xt : Batch m d) (Jt : Jac m d w) (x : Batch n d) (J : Jac n d v) (j : Fin n)
    (t : Fin v) :
    let K := fun {m v n w : ℕ} (x1 : Batch m d) (J1 : Jac m d v) (x2 : Batch n d) (J2 : Jac n d w) =>
      e.obj.d01kj θ.kernelParams x1 x2 J1 J2
    let err := fun a : Fin (m * w) → ℝ => K x J x J (flat j t) (flat j t) -
      2 * ∑ s, a s * K xt Jt x J s (flat j t) +
      ∑ s, ∑ l, a s * (K xt Jt xt Jt s l + if s = l then θ.sigma ^ 2 + 1 / 10 ^ 10 else 0) * a l
    (∀ a, predictDerivsDenseCov la θ e.obj xt Jt x J (flat j t) (flat j t) ≤ err a) ∧
    ∃ a, err a = predictDerivsDenseCov la θ e.obj xt Jt x J (flat j t) (flat j t) ∧
      ∀ (mf : MeanFun) (y : Mat m w),
        let fit := fitDerivsDense la θ e.obj mf xt Jt y
        predictDerivsDense θ e.obj xt Jt x J fit.1 fit.2 j t =
          mf (flatCol y) + ∑ i, ∑ u, a (flat i u) * (y i u - mf (flatCol y)) := by
  intro K err
  have hp : (aDerivsLhsNoise θ e.obj xt Jt xt Jt).PosDef :=
    (posterior_blocks (noise_pos θ) (C65_two_datasets_partial e _ h xt Jt xt Jt)).1
  set A := aDerivsLhsNoise θ e.obj xt Jt xt Jt with hA
  set B := aDerivsLhs θ e.obj xt Jt x J with hB
  have hcov : predictDerivsDenseCov la θ e.obj xt Jt x J (flat j t) (flat j t) =
      K x J x J (flat j t) (flat j t) - (B.transpose * A⁻¹ * B) (flat j t) (flat j t) := by
    have : predictDerivsDenseCov la θ e.obj xt Jt x J = aDerivsLhs θ e.obj x J x J - B.transpose * A⁻¹ * B := by
      unfold predictDerivsDenseCov
      simp only
      rw [ex.gram hp]
    rw [this]
    rfl
  have herr : ∀ a, err a = K x J x J (flat j t) (flat j t) - (2 * ∑ s, a s * B s (flat j t) -
      ∑ s, ∑ l, a s * A s l * a l) := by
    intro a
    have : ∀ s l, A s l = K xt Jt xt Jt s l + if s = l then θ.sigma ^ 2 + 1 / 10 ^ 10 else 0 := fun s l => by
      simp [hA, aDerivsLhsNoise, aDerivsLhs, GPParams.noise, noiseJitter, Matrix.one_apply, K]
    simp only [this]
    simp only [err, hB, aDerivsLhs, Matrix.of_apply, K]
    ring
  refine ⟨fun a => ?_, fun s => (A⁻¹ * B) s (flat j t), ?_, ?_⟩
  · rw [herr, hcov]
    linarith [(explained_var hp B (flat j t) a).1]
  · rw [herr, hcov, (explained_var hp B (flat j t) _).2 fun _ => rfl]
  · intro mf y fit
    have hs := (fit_derivs_solves ex e θ h mf xt Jt y).2
    have e1 : predictDerivsDense θ e.obj xt Jt x J fit.1 fit.2 j t =
        mf (flatCol y) + (B.transpose * fit.1) (flat j t) 0 := by
      simp only [predictDerivsDense, unflatCol, Matrix.of_apply, prod_flat]
      rfl
    rw [e1, weights_apply hp B _ _ hs, sum_flat]
    simp only [centerBy, flatCol, Matrix.of_apply, flat_divNat, flat_modNat]

/-! ### C122: bounds for models trained on derivatives -/

/-- **C122** for models trained on derivatives: the square of the difference of a predicted derivative from the mean is
at most its prior variance times `Σ (y - mu)² / (4 (sigma² + 1e-10))`. -/
theorem C122_bounded_derivs (ex : la.Exact) (e : KExpr d) (θ : GPParams)
    (h : DerivSmooth e θ.kernelParams) (mf : MeanFun) (xt : Batch m d) (Jt : Jac m d w) (y : Mat m w) (x : Batch n d)
    (J : Jac n d v) (j : Fin n) (t : Fin v) :
    let fit := fitDerivsDense la θ e.obj mf xt Jt y
    (predictDerivsDense θ e.obj xt Jt x J fit.1 fit.2 j t - mf (flatCol y)) ^ 2 ≤
      e.obj.d01kj θ.kernelParams x x J J (flat j t) (flat j t) * (∑ i, ∑ u, (y i u - mf (flatCol y)) ^ 2) /
        (4 * (θ.sigma ^ 2 + 1 / 10 ^ 10)) := by
  intro fit
  have hn : 0 < θ.sigma ^ 2 + 1 / 10 ^ 10 := noise_pos θ
  have hs := (fit_derivs_solves ex e θ h mf xt Jt y).2
  have key := residual_predict (C65_two_datasets_partial e _ h xt Jt x J) (noise_pos θ) hs (c' := 0) (flat j t) 0
  have e1 : predictDerivsDense θ e.obj xt Jt x J fit.1 fit.2 j t - mf (flatCol y) =
      ((aDerivsLhs θ e.obj xt Jt x J).transpose * fit.1) (flat j t) 0 := by
    have : predictDerivsDense θ e.obj xt Jt x J fit.1 fit.2 j t =
        mf (flatCol y) + ((aDerivsLhs θ e.obj xt Jt x J).transpose * fit.1) (flat j t) 0 := by
      simp only [predictDerivsDense, unflatCol, Matrix.of_apply, prod_flat]
      rfl
    rw [this]; ring
  rw [e1, le_div_iff₀ (by positivity)]
  have e2 : sumSq (centerBy (flatCol y) (mf (flatCol y))) = ∑ i, ∑ u, (y i u - mf (flatCol y)) ^ 2 := by
    simp only [sumSq, sum_flat, Fin.sum_univ_one, centerBy, flatCol, Matrix.of_apply, flat_divNat, flat_modNat]
  simp only [Matrix.mul_zero, Matrix.zero_apply, zero_sub, sub_zero, neg_sq, e2, noise_val, Matrix.of_apply] at key
  rw [mul_comm]
  exact key

/-- **C122** for targets predicted from derivatives: the same with the prior variance `k(x, x)`. For the kernels of
C78. -/
theorem C122_bounded_y_derivs (ex : la.Exact) (e : KExpr d) (θ : GPParams)
    (h : JointSmooth e θ.kernelParams) (mf : MeanFun) (xt : Batch m d) (Jt : Jac m d w) (y : Mat m w) (x : Batch n d)
    (j : Fin n) :
    let fit := fitDerivsDense la θ e.obj mf xt Jt y
    (predictYDerivsDense θ e.obj xt Jt x fit.1 fit.2 j 0 - mf (flatCol y)) ^ 2 ≤
      e.obj.k θ.kernelParams x x j j * (∑ i, ∑ u, (y i u - mf (flatCol y)) ^ 2) /
        (4 * (θ.sigma ^ 2 + 1 / 10 ^ 10)) := by
  intro fit
  have hn : 0 < θ.sigma ^ 2 + 1 / 10 ^ 10 := noise_pos θ
  have hB := joint_y_psd e _ h xt Jt x
  have hp : (aDerivsLhsNoise θ e.obj xt Jt xt Jt).PosDef := (posterior_blocks (noise_pos θ) hB).1
  have hs : aDerivsLhsNoise θ e.obj xt Jt xt Jt * fit.1 = centerBy (flatCol y) (mf (flatCol y)) :=
    ex.solve _ _ (posDef_isUnit hp)
  have key := residual_predict hB (noise_pos θ) hs (c' := 0) j 0
  have e1 : predictYDerivsDense θ e.obj xt Jt x fit.1 fit.2 j 0 - mf (flatCol y) =
      ((Matrix.of (e.obj.d0kj θ.kernelParams xt x Jt) : Mat (m * w) n).transpose * fit.1) j 0 := by
    have : predictYDerivsDense θ e.obj xt Jt x fit.1 fit.2 j 0 =
      mf (flatCol y) + ((Matrix.of (e.obj.d0kj θ.kernelParams xt x Jt) : Mat (m * w) n).transpose * fit.1) j 0 := rfl
    rw [this]; ring
  rw [e1, le_div_iff₀ (by positivity)]
  have e2 : sumSq (centerBy (flatCol y) (mf (flatCol y))) = ∑ i, ∑ u, (y i u - mf (flatCol y)) ^ 2 := by
    simp only [sumSq, sum_flat, Fin.sum_univ_one, centerBy, flatCol, Matrix.of_apply, flat_divNat, flat_modNat]
  simp only [Matrix.mul_zero, Matrix.zero_apply, zero_sub, sub_zero, neg_sq, e2, noise_val, Matrix.of_apply] at key
  rw [mul_comm]
  exact key

/-- `(K + diag s) c = b`: the energy of `c` is at most a quarter of the weighted length of `b`. -/
theorem weighted_energy {I : Type} [Fintype I] {K : I → I → ℝ} {s : I → ℝ} (hs : ∀ a, 0 < s a) (c b : I → ℝ)
    (h : ∀ a, (∑ j, K a j * c j) + s a * c a = b a) :
    4 * ∑ a, c a * ∑ j, K a j * c j ≤ ∑ a, b a ^ 2 / s a := by
  rw [Finset.mul_sum]
  refine Finset.sum_le_sum fun a _ => ?_
  rw [← h a, le_div_iff₀ (hs a)]
  nlinarith [sq_nonneg ((∑ j, K a j * c j) - s a * c a)]

/-- Cauchy-Schwarz for a positive semidefinite block matrix over any observations. -/
theorem block_cauchy_obs {I I' : Type} [Fintype I] [Fintype I'] [DecidableEq I'] {K : I → I → ℝ} {B : I → I' → ℝ}
    {D : I' → I' → ℝ}
    (h : (Matrix.fromBlocks (Matrix.of K) (Matrix.of B) (Matrix.of B).transpose (Matrix.of D)).PosSemidef) (e : I → ℝ)
    (j : I') : (∑ i, B i j * e i) ^ 2 ≤ D j j * ∑ i, e i * ∑ i', K i i' * e i' := by
  set q := ∑ i, e i * ∑ i', K i i' * e i' with hq
  set b := ∑ i, B i j * e i
  have hpos : ∀ t : ℝ, 0 ≤ D j j * (t * t) + 2 * b * t + q := by
    intro t
    have := h.dotProduct_mulVec_nonneg (Sum.elim e (Pi.single j t))
    simp only [star_trivial, dotProduct, Matrix.mulVec, Fintype.sum_sum_type, Matrix.fromBlocks_apply₁₁,
      Matrix.fromBlocks_apply₁₂, Matrix.fromBlocks_apply₂₁, Matrix.fromBlocks_apply₂₂, Sum.elim_inl, Sum.elim_inr,
      Pi.single_apply, mul_ite, mul_zero, ite_mul, zero_mul, Finset.sum_ite_eq', Finset.mem_univ, if_true,
      Matrix.transpose_apply, Matrix.of_apply] at this
    refine this.trans_eq ?_
    simp only [mul_add, Finset.sum_add_distrib]
    have a2 : ∑ i, e i * (B i j * t) = b * t := by
      rw [Finset.sum_mul]
      exact Finset.sum_congr rfl fun i' _ => by ring
    rw [a2]
    ring
  have := discrim_le_zero hpos
  unfold discrim at this
  nlinarith

/-- Bound of one prediction of a joint model. -/
theorem weighted_predict {I I' : Type} [Fintype I] [Fintype I'] [DecidableEq I'] {K : I → I → ℝ} {B : I → I' → ℝ}
    {D : I' → I' → ℝ} {s : I → ℝ} (hs : ∀ a, 0 < s a)
    (hB : (Matrix.fromBlocks (Matrix.of K) (Matrix.of B) (Matrix.of B).transpose (Matrix.of D)).PosSemidef)
    (c b : I → ℝ) (h : ∀ a, (∑ j, K a j * c j) + s a * c a = b a) (j : I') :
    (∑ a, B a j * c a) ^ 2 ≤ D j j * (∑ a, b a ^ 2 / s a) / 4 := by
  have h1 := block_cauchy_obs hB c j
  have h2 := weighted_energy hs c b h
  have hD : 0 ≤ D j j := (hB.diag_nonneg (i := .inr j))
  have := mul_le_mul_of_nonneg_left h2 hD
  linarith

/-- **C122** for GPR_TD with targets and two sets of derivatives: with `Q` the sum of the squares of the centred targets
and of the derivatives, each divided by the variance of its noise, the square of the difference of a predicted target
from the mean is at most `k(x, x) Q / 4`, and the square of a predicted derivative at most its prior variance times
`Q / 4`. For the kernels of C78. -/
theorem C122_bounded_joint2 (ex : la.Exact) (e : KExpr d) (θ : TDParams)
    (h : JointSmooth e θ.kernelParams) (mf : MeanFun) (xt : Batch m d) (y : Mat m 1) (Jt : Jac m d v) (Jt' : Jac m d v')
    (yd : Mat m v) (yd' : Mat m v') (x : Batch n d) (J : Jac n d w) (J' : Jac n d w') :
    let fit := tdFitDense2 la θ e.obj mf xt y Jt Jt' yd yd'
    let pred := tdPredictDense2 θ e.obj xt Jt Jt' x J J' fit.1 fit.2
    let Q := ∑ i, (y i 0 - mf y) ^ 2 / (θ.sigmaTargets ^ 2 + 1 / 10 ^ 10) +
      ∑ i, ∑ u, yd i u ^ 2 / (θ.sigmaDerivs ^ 2 + 1 / 10 ^ 10) +
      ∑ i, ∑ u, yd' i u ^ 2 / (θ.sigmaDerivs2 ^ 2 + 1 / 10 ^ 10)
    (∀ j, (pred.1 j 0 - mf y) ^ 2 ≤ e.obj.k θ.kernelParams x x j j * Q / 4) ∧
    (∀ j t, pred.2.1 j t ^ 2 ≤ e.obj.d01kj θ.kernelParams x x J J (flat j t) (flat j t) * Q / 4) ∧
    ∀ j t, pred.2.2 j t ^ 2 ≤ e.obj.d01kj θ.kernelParams x x J' J' (flat j t) (flat j t) * Q / 4 := by
  intro fit pred Q
  have hB := joint_obs2 e θ.kernelParams h xt Jt Jt' x J J'
  have hK : (Matrix.of (cov2 e.obj θ.kernelParams xt Jt Jt' xt Jt Jt')).PosSemidef :=
    (C78_joint_partial e θ.kernelParams h xt Jt Jt').2
  obtain ⟨hm, hs, -⟩ := C76_fit2 ex e.obj θ mf xt y Jt Jt' yd yd' (C52_posDef2 e.obj θ xt Jt Jt' hK)
  obtain ⟨hp1, hp2, hp3, -⟩ := C76_predict2 e θ xt Jt Jt' x J J' fit.1 fit.2
  have hc : ∀ a, (∑ b, cov2 e.obj θ.kernelParams xt Jt Jt' xt Jt Jt' a b * fit.1 (pos2 b) 0) +
      noise2 θ a * fit.1 (pos2 a) 0 = residual2 (mf y) y yd yd' a := fun a => by
    have := hs a
    simp only [dataCov2, add_mul, ite_mul, zero_mul, Finset.sum_add_distrib, Finset.sum_ite_eq, Finset.mem_univ,
      if_true] at this
    rw [hm] at this
    exact this
  have key := weighted_predict (noise2_pos θ) hB (fun b => fit.1 (pos2 b) 0) (residual2 (mf y) y yd yd') hc
  have hQ : ∑ a, residual2 (mf y) y yd yd' a ^ 2 / noise2 θ a = Q := by
    simp only [Fintype.sum_sum_type, Fintype.sum_prod_type]
    rfl
  rw [hQ] at key
  refine ⟨fun j => ?_, fun j t => ?_, fun j t => ?_⟩
  · have e1 : pred.1 j 0 - mf y = _ := sub_eq_of_eq_add' (hp1 j)
    rw [e1]
    exact key (.inl (.inl j))
  · rw [hp2 j t]
    exact key (.inl (.inr (j, t)))
  · rw [hp3 j t]
    exact key (.inr (j, t))

/-- **C122** for GPR_TD with targets and one set of derivatives. -/
theorem C122_bounded_joint (ex : la.Exact) (e : KExpr d) (θ : TDParams)
    (h : JointSmooth e θ.kernelParams) (mf : MeanFun) (xt : Batch m d) (y : Mat m 1) (Jt : Jac m d v)
    (yd : Mat m v) (x : Batch n d) (J : Jac n d w) :
    let fit := tdFitDense1 la θ e.obj mf xt y Jt yd
    let pred := tdPredictDense1 θ e.obj xt Jt x J fit.1 fit.2
    let Q := ∑ i, (y i 0 - mf y) ^ 2 / (θ.sigmaTargets ^ 2 + 1 / 10 ^ 10) +
      ∑ i, ∑ u, yd i u ^ 2 / (θ.sigmaDerivs ^ 2 + 1 / 10 ^ 10)
    (∀ j, (pred.1 j 0 - mf y) ^ 2 ≤ e.obj.k θ.kernelParams x x j j * Q / 4) ∧
    ∀ j t, pred.2 j t ^ 2 ≤ e.obj.d01kj θ.kernelParams x x J J (flat j t) (flat j t) * Q / 4 := by
  intro fit pred Q
  have hB : (Matrix.fromBlocks (Matrix.of (cov1 e.obj θ.kernelParams xt Jt xt Jt))
      (Matrix.of (cov1 e.obj θ.kernelParams xt Jt x J)) (Matrix.of (cov1 e.obj θ.kernelParams xt Jt x J)).transpose
      (Matrix.of (cov1 e.obj θ.kernelParams x J x J))).PosSemidef := by
    have := (joint_obs2 e θ.kernelParams h xt Jt (fun _ _ (u : Fin 0) => u.elim0) x J
      (fun _ _ (u : Fin 0) => u.elim0)).submatrix (Sum.map Sum.inl Sum.inl)
    convert this using 1
    ext a b
    rcases a with a | a <;> rcases b with b | b <;> rfl
  have hK : (Matrix.of (cov1 e.obj θ.kernelParams xt Jt xt Jt)).PosSemidef :=
    (C78_joint_partial e θ.kernelParams h xt Jt Jt).1
  obtain ⟨hm, hs, -⟩ := C76_fit1 ex e.obj θ mf xt y Jt yd (C52_posDef1 e.obj θ xt Jt hK)
  obtain ⟨hp1, hp2, -⟩ := C76_predict1 e θ xt Jt x J fit.1 fit.2
  have hc : ∀ a, (∑ b, cov1 e.obj θ.kernelParams xt Jt xt Jt a b * fit.1 (pos1 b) 0) +
      noise1 θ a * fit.1 (pos1 a) 0 = residual1 (mf y) y yd a := fun a => by
    have := hs a
    simp only [dataCov1, add_mul, ite_mul, zero_mul, Finset.sum_add_distrib, Finset.sum_ite_eq, Finset.mem_univ,
      if_true] at this
    rw [hm] at this
    exact this
  have key := weighted_predict (noise1_pos θ) hB (fun b => fit.1 (pos1 b) 0) (residual1 (mf y) y yd) hc
  have hQ : ∑ a, residual1 (mf y) y yd a ^ 2 / noise1 θ a = Q := by
    simp only [Fintype.sum_sum_type, Fintype.sum_prod_type]
    rfl
  rw [hQ] at key
  refine ⟨fun j => ?_, fun j t => ?_⟩
  · have e1 : pred.1 j 0 - mf y = _ := sub_eq_of_eq_add' (hp1 j)
    rw [e1]
    exact key (.inl j)
  · rw [hp2 j t]
    exact key (.inr (j, t))

/-- Non-vacuity: a joint model with targets, derivatives and a kernel of C78. -/
example : JointSmooth (.sum (.matern52 none) (.linear none) : KExpr 2) (fun _ => 2) := by
  norm_num [JointSmooth, KPar.val, KPar.sub]

end GPX.Props
