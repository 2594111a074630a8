import Verif.Props.DensityLaw

/-!
# C155: predictions of the sparse models as conditional means
-/

namespace GPX.Props
open GPX GPX.Spec MeasureTheory ProbabilityTheory Matrix

variable {d m n k v w u : ℕ} {Ω : Type} {la : LinAlg} [MeasurableSpace Ω]

/-- The joint covariance of a process given by finitely many random coefficients. -/
theorem sandwich_blocks {L I J : Type} [Fintype L] [DecidableEq L] [Fintype I] [DecidableEq I] [Fintype J] [DecidableEq J]
    {S : Matrix L L ℝ} (hS : S.PosDef) (B : Matrix L I ℝ) (D : Matrix L J ℝ) :
    (Matrix.fromBlocks (B.transpose * S⁻¹ * B) (B.transpose * S⁻¹ * D) (B.transpose * S⁻¹ * D).transpose
      (D.transpose * S⁻¹ * D)).PosSemidef := by
  have h := hS.inv.posSemidef.conjTranspose_mul_mul_same (Matrix.fromCols B D)
  have hsym : S⁻¹.transpose = S⁻¹ := by
    have := hS.inv.isHermitian
    rwa [Matrix.IsHermitian, Matrix.conjTranspose_eq_transpose_of_trivial] at this
  rw [Matrix.conjTranspose_eq_transpose_of_trivial, Matrix.transpose_fromCols, Matrix.fromRows_mul,
    Matrix.fromRows_mul_fromCols] at h
  rw [Matrix.transpose_mul, Matrix.transpose_mul, Matrix.transpose_transpose, hsym, ← Matrix.mul_assoc D.transpose]
  exact h

/-- Woodbury's identity as it is used by the sparse models. -/
theorem push_through {L I J : Type} [Fintype L] [DecidableEq L] [Fintype I] [DecidableEq I] [Fintype J] [DecidableEq J]
    {S : Matrix L L ℝ} (hS : S.PosDef) {s : ℝ} (hs : 0 < s) (B : Matrix L I ℝ) (D : Matrix L J ℝ) :
    (B.transpose * S⁻¹ * B + s • (1 : Matrix I I ℝ)).PosDef ∧ (s • S + B * B.transpose).PosDef ∧
    (B.transpose * S⁻¹ * D).transpose * (B.transpose * S⁻¹ * B + s • (1 : Matrix I I ℝ))⁻¹ =
      D.transpose * (s • S + B * B.transpose)⁻¹ * B ∧
    D.transpose * S⁻¹ * D - (B.transpose * S⁻¹ * D).transpose * (B.transpose * S⁻¹ * B + s • (1 : Matrix I I ℝ))⁻¹ *
        (B.transpose * S⁻¹ * D) =
      s • (D.transpose * (s • S + B * B.transpose)⁻¹ * D) := by
  have hsym : S⁻¹.transpose = S⁻¹ := by
    have := hS.inv.isHermitian
    rwa [Matrix.IsHermitian, Matrix.conjTranspose_eq_transpose_of_trivial] at this
  have hA : (B.transpose * S⁻¹ * B + s • (1 : Matrix I I ℝ)).PosDef := by
    rw [add_comm]
    have h1 := hS.inv.posSemidef.conjTranspose_mul_mul_same B
    rw [Matrix.conjTranspose_eq_transpose_of_trivial] at h1
    exact (Matrix.PosDef.one.smul hs).add_posSemidef h1
  have hC : (s • S + B * B.transpose).PosDef := by
    have h1 := Matrix.posSemidef_self_mul_conjTranspose B
    rw [Matrix.conjTranspose_eq_transpose_of_trivial] at h1
    exact (hS.smul hs).add_posSemidef h1
  have uA : IsUnit (B.transpose * S⁻¹ * B + s • (1 : Matrix I I ℝ)).det := (Matrix.isUnit_iff_isUnit_det _).mp hA.isUnit
  have uC : IsUnit (s • S + B * B.transpose).det := (Matrix.isUnit_iff_isUnit_det _).mp hC.isUnit
  have uS : IsUnit S.det := (Matrix.isUnit_iff_isUnit_det _).mp hS.isUnit
  have key : (s • S + B * B.transpose) * (S⁻¹ * B) = B * (B.transpose * S⁻¹ * B + s • (1 : Matrix I I ℝ)) := by
    rw [Matrix.add_mul, Matrix.smul_mul, ← Matrix.mul_assoc S, Matrix.mul_nonsing_inv _ uS, Matrix.one_mul,
      Matrix.mul_add, Matrix.mul_smul, Matrix.mul_one, add_comm]
    simp only [Matrix.mul_assoc]
  have key2 : S⁻¹ * B * (B.transpose * S⁻¹ * B + s • (1 : Matrix I I ℝ))⁻¹ = (s • S + B * B.transpose)⁻¹ * B := by
    have h1 : (s • S + B * B.transpose)⁻¹ * ((s • S + B * B.transpose) * (S⁻¹ * B)) *
        (B.transpose * S⁻¹ * B + s • (1 : Matrix I I ℝ))⁻¹ = (s • S + B * B.transpose)⁻¹ *
        (B * (B.transpose * S⁻¹ * B + s • (1 : Matrix I I ℝ))) * (B.transpose * S⁻¹ * B + s • (1 : Matrix I I ℝ))⁻¹ := by
      rw [key]
    rw [← Matrix.mul_assoc, Matrix.nonsing_inv_mul _ uC, Matrix.one_mul] at h1
    rw [h1, Matrix.mul_assoc, Matrix.mul_assoc, Matrix.mul_nonsing_inv _ uA, Matrix.mul_one]
  have e1 : (B.transpose * S⁻¹ * D).transpose = D.transpose * (S⁻¹ * B) := by
    rw [Matrix.transpose_mul, Matrix.transpose_mul, Matrix.transpose_transpose, hsym]
  have e2 : (B.transpose * S⁻¹ * D).transpose * (B.transpose * S⁻¹ * B + s • (1 : Matrix I I ℝ))⁻¹ =
      D.transpose * (s • S + B * B.transpose)⁻¹ * B := by
    rw [e1, Matrix.mul_assoc, key2, Matrix.mul_assoc]
  refine ⟨hA, hC, e2, ?_⟩
  rw [e2]
  have e3 : D.transpose * S⁻¹ * D = D.transpose * (s • S + B * B.transpose)⁻¹ * ((s • S + B * B.transpose) * (S⁻¹ * D)) := by
    rw [Matrix.mul_assoc, Matrix.mul_assoc, ← Matrix.mul_assoc _ _ (S⁻¹ * D), Matrix.nonsing_inv_mul _ uC, Matrix.one_mul]
  rw [e3, Matrix.add_mul, Matrix.smul_mul, ← Matrix.mul_assoc S, Matrix.mul_nonsing_inv _ uS, Matrix.one_mul,
    Matrix.mul_add, Matrix.mul_smul]
  simp only [Matrix.mul_assoc]
  rw [add_sub_cancel_right]

/-- The system solved by the sparse models, with the jitter moved into the covariance of the inducing points. -/
theorem sparse_system_shift {L I : Type} [Fintype L] [DecidableEq L] [Fintype I] (K : Matrix L L ℝ) (B : Matrix L I ℝ) {s ε : ℝ}
    (hs : s ≠ 0) :
    s • K + B * B.transpose + ε • (1 : Matrix L L ℝ) = s • (K + (ε / s) • (1 : Matrix L L ℝ)) + B * B.transpose := by
  rw [smul_add, smul_smul, mul_div_cancel₀ _ hs, add_right_comm]

/-- **C155**, SGPR on targets with one output, a constant mean function and `sigma ≠ 0`. Let the targets be observations,
with noise variance `sigma²`, of a Gaussian process with the covariance `sparsePrior`. Then what `predict` returns after
`fit` on these targets is the conditional mean of this process at the new inputs given the targets. -/
theorem C155_sgpr (ex : la.Exact) (e : KExpr d) (θ : GPParams) (h : Admissible e θ.kernelParams)
    (hs : θ.sigma ≠ 0) (mf : MeanFun) (mu : ℝ) (hmf : ∀ y : Mat n 1, mf y = mu) (xl : Batch m d) (xt : Batch n d)
    (x : Batch k d) (P : Measure Ω) [IsProbabilityMeasure P] (Y : Ω → Fin n → ℝ) (g : Ω → Fin k → ℝ)
    (hP : NoisyObservations P Y g (fun _ => mu)
      (Matrix.fromBlocks (sparsePrior e.obj θ xl xt xt) (sparsePrior e.obj θ xl xt x)
        (sparsePrior e.obj θ xl xt x).transpose (sparsePrior e.obj θ xl x x))
      fun _ => θ.sigma ^ 2) :
    PosteriorLaw P Y g
      (fun y j => sgprPredict θ e.obj xl x (sgprFitDense la θ e.obj mf xl xt (column y)).1
        (sgprFitDense la θ e.obj mf xl xt (column y)).2 j 0)
      (θ.sigma ^ 2 • ((Matrix.of (e.obj.k θ.kernelParams xl x) : Mat m k).transpose *
        (Matrix.of (sparseEntry e.obj θ xl xt))⁻¹ * (Matrix.of (e.obj.k θ.kernelParams xl x) : Mat m k))) := by
  have hs2 : 0 < θ.sigma ^ 2 := by positivity
  have hS : (Matrix.of (e.obj.k θ.kernelParams xl xl) + (1 / 10 ^ 10 / θ.sigma ^ 2) • (1 : Mat m m)).PosDef :=
    posDef_add_smul_one (C22_gram_posSemidef e θ.kernelParams h xl) (by positivity)
  obtain ⟨hA, hC, hG, hV⟩ := push_through hS hs2 (Matrix.of (e.obj.k θ.kernelParams xl xt) : Mat m n)
    (Matrix.of (e.obj.k θ.kernelParams xl x) : Mat m k)
  have hsys : (sgprALhs θ e.obj xl xt).1 = θ.sigma ^ 2 • (Matrix.of (e.obj.k θ.kernelParams xl xl) +
      (1 / 10 ^ 10 / θ.sigma ^ 2) • (1 : Mat m m)) + (Matrix.of (e.obj.k θ.kernelParams xl xt) : Mat m n) *
      (Matrix.of (e.obj.k θ.kernelParams xl xt) : Mat m n).transpose :=
    sparse_system_shift _ _ hs2.ne'
  have hd : Matrix.diagonal (fun _ : Fin n => θ.sigma ^ 2) = θ.sigma ^ 2 • (1 : Mat n n) :=
    (Matrix.smul_one_eq_diagonal _).symm
  have hμ : (fun _ : Fin n ⊕ Fin k => mu) = Sum.elim (fun _ => mu) fun _ => mu := by
    funext a
    rcases a with a | a <;> rfl
  rw [hμ] at hP
  refine posterior (fun _ => hs2.le) (sandwich_blocks hS _ _) (by rw [hd]; exact hA) P hP ?_ ?_
  · intro y
    funext j
    rw [hd]
    rw [hG, ← hsys]
    have hp := sgprALhs_posDef e θ h xl xt
    have hc : centerBy (column y) mu = column (y - fun _ => mu) := rfl
    have hk : (Matrix.of (e.obj.k θ.kernelParams x xl) : Mat k m) =
        (Matrix.of (e.obj.k θ.kernelParams xl x) : Mat m k).transpose := by
      ext a b
      exact (C21_symmetric e θ.kernelParams).k x xl a b
    simp only [sgprPredict, sgprFitDense, hmf, addScalar, Matrix.of_apply, hc, ex.solve_eq (posDef_isUnit hp), hk,
      ← Matrix.mul_assoc]
    simp [Matrix.mul_apply, Matrix.mulVec, dotProduct, column, sgprALhs]
  · rw [hd, ← sgprALhs_entry, hsys]
    exact hV.symm

/-- **C155**, SGPR on derivatives, with mean function zero and `sigma ≠ 0`. -/
theorem C155_sgpr_derivs (ex : la.Exact) (e : KExpr d) (θ : GPParams)
    (h : DerivSmooth e θ.kernelParams) (hs : θ.sigma ≠ 0) (mf : MeanFun) (hmf : ∀ y : Mat (n * w) 1, mf y = 0)
    (xl : Batch m d) (Jl : Jac m d u) (xt : Batch n d) (Jt : Jac n d w) (x : Batch k d) (J : Jac k d v) (P : Measure Ω)
    [IsProbabilityMeasure P] (Y : Ω → Fin (n * w) → ℝ) (g : Ω → Fin (k * v) → ℝ)
    (hP : NoisyObservations P Y g 0
      (Matrix.fromBlocks (sparseDerivsPrior e.obj θ xl Jl xt Jt xt Jt) (sparseDerivsPrior e.obj θ xl Jl xt Jt x J)
        (sparseDerivsPrior e.obj θ xl Jl xt Jt x J).transpose (sparseDerivsPrior e.obj θ xl Jl x J x J))
      fun _ => θ.sigma ^ 2) :
    PosteriorLaw P Y g
      (fun y a => sgprPredictDerivs θ e.obj xl Jl x J
        (sgprFitDerivsDense la θ e.obj mf xl Jl xt Jt (Matrix.of fun i b => y (flat i b))).1 0 a.divNat a.modNat)
      (θ.sigma ^ 2 • ((Matrix.of (e.obj.d01kj θ.kernelParams xl x Jl J) : Mat (m * u) (k * v)).transpose *
        (Matrix.of (sparseDerivsEntry e.obj θ xl Jl xt Jt))⁻¹ *
        (Matrix.of (e.obj.d01kj θ.kernelParams xl x Jl J) : Mat (m * u) (k * v)))) := by
  have hs2 : 0 < θ.sigma ^ 2 := by positivity
  have hK := C65_gram_partial e θ.kernelParams h xl Jl
  have hS : (Matrix.of (e.obj.d01kj θ.kernelParams xl xl Jl Jl) +
      (1 / 10 ^ 10 / θ.sigma ^ 2) • (1 : Mat (m * u) (m * u))).PosDef := posDef_add_smul_one hK (by positivity)
  obtain ⟨hA, hC, hG, hV⟩ := push_through hS hs2 (Matrix.of (e.obj.d01kj θ.kernelParams xl xt Jl Jt) : Mat (m * u) (n * w))
    (Matrix.of (e.obj.d01kj θ.kernelParams xl x Jl J) : Mat (m * u) (k * v))
  have hsys : (sgprADerivsLhs θ e.obj xl Jl xt Jt).1 = θ.sigma ^ 2 • (Matrix.of (e.obj.d01kj θ.kernelParams xl xl Jl Jl) +
      (1 / 10 ^ 10 / θ.sigma ^ 2) • (1 : Mat (m * u) (m * u))) +
      (Matrix.of (e.obj.d01kj θ.kernelParams xl xt Jl Jt) : Mat (m * u) (n * w)) *
      (Matrix.of (e.obj.d01kj θ.kernelParams xl xt Jl Jt) : Mat (m * u) (n * w)).transpose :=
    sparse_system_shift _ _ hs2.ne'
  have hd : Matrix.diagonal (fun _ : Fin (n * w) => θ.sigma ^ 2) = θ.sigma ^ 2 • (1 : Mat (n * w) (n * w)) :=
    (Matrix.smul_one_eq_diagonal _).symm
  have hμ : (0 : Fin (n * w) ⊕ Fin (k * v) → ℝ) = Sum.elim (0 : Fin (n * w) → ℝ) (0 : Fin (k * v) → ℝ) := by
    funext a
    rcases a with a | a <;> rfl
  rw [hμ] at hP
  refine posterior (fun _ => hs2.le) (sandwich_blocks hS _ _) (by rw [hd]; exact hA) P hP ?_ ?_
  · intro y
    funext a
    rw [hd]
    rw [hG, ← hsys]
    have hp : (sgprADerivsLhs θ e.obj xl Jl xt Jt).1.PosDef := sparse_posDef hK _ _
    have hc : centerBy (flatCol (Matrix.of fun i b => y (flat i b))) 0 = column (y - 0) := by
      ext a b
      simp [centerBy, flatCol, column, flat_eta]
    have hk : (Matrix.of (e.obj.d01kj θ.kernelParams x xl J Jl) : Mat (k * v) (m * u)) =
        (Matrix.of (e.obj.d01kj θ.kernelParams xl x Jl J) : Mat (m * u) (k * v)).transpose := by
      ext a b
      exact (C21_symmetric e θ.kernelParams).d01kj x xl J Jl a b
    have h1 : ∀ M : Mat (k * v) 1, unflatCol M a.divNat a.modNat = M a 0 := fun M => by
      simp only [unflatCol, Matrix.of_apply]
      exact congrArg (fun r => M r 0) (finProdFinEquiv.apply_symm_apply a)
    simp only [sgprPredictDerivs, h1, sgprFitDerivsDense, hmf, addScalar, Matrix.of_apply, hc,
      ex.solve_eq (posDef_isUnit hp), hk, ← Matrix.mul_assoc]
    simp [Matrix.mul_apply, Matrix.mulVec, dotProduct, column, sgprADerivsLhs]
  · rw [hd, ← sgprADerivsLhs_entry, hsys]
    exact hV.symm

/-- There are such targets, for every kernel, hyperparameters, inducing points and inputs. -/
example (e : KExpr d) (θ : GPParams) (h : Admissible e θ.kernelParams) (hs : θ.sigma ≠ 0) (mu : ℝ) (xl : Batch m d)
    (xt : Batch n d) (x : Batch k d) :
    ∃ (Ω : Type) (_ : MeasurableSpace Ω) (P : Measure Ω) (_ : IsProbabilityMeasure P) (Y : Ω → Fin n → ℝ)
      (g : Ω → Fin k → ℝ), NoisyObservations P Y g (fun _ => mu)
      (Matrix.fromBlocks (sparsePrior e.obj θ xl xt xt) (sparsePrior e.obj θ xl xt x)
        (sparsePrior e.obj θ xl xt x).transpose (sparsePrior e.obj θ xl x x))
      fun _ => θ.sigma ^ 2 :=
  exists_noisyObservations _ (sandwich_blocks (posDef_add_smul_one (C22_gram_posSemidef e θ.kernelParams h xl)
    (by have := sq_pos_of_ne_zero hs; positivity)) _ _) fun _ => sq_nonneg _

end GPX.Props
