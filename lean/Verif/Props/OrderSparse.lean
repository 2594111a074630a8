import Verif.Props.GPROrder
import Verif.Props.SGPR
import Verif.Props.GPRTD

/-!
# C136: sparse and joint models do not depend on the order of training data and inducing points
-/

namespace GPX.Props
open GPX GPX.Spec

variable {d m n o v w v' w' l : ℕ} {la : LinAlg}

/-! ## Sparse models -/

theorem gram_cols (B : Mat m n) (ρ : Equiv.Perm (Fin m)) (π : Equiv.Perm (Fin n)) :
    B.submatrix ρ π * (B.submatrix ρ π).transpose = (B * B.transpose).submatrix ρ ρ := by
  rw [Matrix.transpose_submatrix, Matrix.submatrix_mul_equiv]

theorem sgprALhs_perm (θ : GPParams) {κ : KernelObj d} (sw : SampleWise κ θ.kernelParams) (xl : Batch m d)
    (x : Batch n d) (ρ : Equiv.Perm (Fin m)) (π : Equiv.Perm (Fin n)) :
    (sgprALhs θ κ (fun j => xl (ρ j)) fun i => x (π i)).2 = (sgprALhs θ κ xl x).2.submatrix ρ π ∧
    (sgprALhs θ κ (fun j => xl (ρ j)) fun i => x (π i)).1 = (sgprALhs θ κ xl x).1.submatrix ρ ρ := by
  have h2 : (sgprALhs θ κ (fun j => xl (ρ j)) fun i => x (π i)).2 = (sgprALhs θ κ xl x).2.submatrix ρ π := by
    ext i j; exact sw.k xl x ρ π i j
  refine ⟨h2, ?_⟩
  change θ.sigma ^ 2 • Matrix.of (κ.k θ.kernelParams (fun j => xl (ρ j)) fun j => xl (ρ j)) +
    (sgprALhs θ κ (fun j => xl (ρ j)) fun i => x (π i)).2 *
      (sgprALhs θ κ (fun j => xl (ρ j)) fun i => x (π i)).2.transpose + noiseJitter • (1 : Mat m m) = _
  rw [h2, gram_cols]
  ext i j
  simp only [Matrix.add_apply, Matrix.smul_apply, Matrix.submatrix_apply, Matrix.of_apply, sw.k xl xl ρ ρ i j,
    sgprALhs, Matrix.one_apply, ρ.injective.eq_iff]

theorem sgprADerivsLhs_perm (θ : GPParams) {κ : KernelObj d} (sw : SampleWise κ θ.kernelParams) (xl : Batch m d)
    (Jl : Jac m d v) (x : Batch n d) (J : Jac n d w) (ρ : Equiv.Perm (Fin m)) (π : Equiv.Perm (Fin n)) :
    (sgprADerivsLhs θ κ (fun j => xl (ρ j)) (fun j => Jl (ρ j)) (fun i => x (π i)) fun i => J (π i)).2 =
      (sgprADerivsLhs θ κ xl Jl x J).2.submatrix (permFlat ρ v) (permFlat π w) ∧
    (sgprADerivsLhs θ κ (fun j => xl (ρ j)) (fun j => Jl (ρ j)) (fun i => x (π i)) fun i => J (π i)).1 =
      (sgprADerivsLhs θ κ xl Jl x J).1.submatrix (permFlat ρ v) (permFlat ρ v) := by
  have h2 : (sgprADerivsLhs θ κ (fun j => xl (ρ j)) (fun j => Jl (ρ j)) (fun i => x (π i)) fun i => J (π i)).2 =
      (sgprADerivsLhs θ κ xl Jl x J).2.submatrix (permFlat ρ v) (permFlat π w) := by
    ext r s
    obtain ⟨i, q, rfl⟩ := flat_surj r
    obtain ⟨j, q', rfl⟩ := flat_surj s
    simp only [Matrix.submatrix_apply, permFlat_flat]
    exact sw.d01kj xl x Jl J ρ π i q j q'
  refine ⟨h2, ?_⟩
  change θ.sigma ^ 2 • Matrix.of (κ.d01kj θ.kernelParams (fun j => xl (ρ j)) (fun j => xl (ρ j)) (fun j => Jl (ρ j))
      fun j => Jl (ρ j)) +
    (sgprADerivsLhs θ κ (fun j => xl (ρ j)) (fun j => Jl (ρ j)) (fun i => x (π i)) fun i => J (π i)).2 *
      (sgprADerivsLhs θ κ (fun j => xl (ρ j)) (fun j => Jl (ρ j)) (fun i => x (π i)) fun i => J (π i)).2.transpose +
      noiseJitter • (1 : Mat (m * v) (m * v)) = _
  rw [h2, gram_cols]
  ext r s
  obtain ⟨i, q, rfl⟩ := flat_surj r
  obtain ⟨j, q', rfl⟩ := flat_surj s
  simp only [Matrix.add_apply, Matrix.smul_apply, Matrix.submatrix_apply, Matrix.of_apply,
    sw.d01kj xl xl Jl Jl ρ ρ i q j q', sgprADerivsLhs, Matrix.one_apply, permFlat_flat]
  simp only [← permFlat_flat ρ, (permFlat ρ v).injective.eq_iff]

theorem weights_perm (A : Mat n m) (c : Mat m o) (ρ : Equiv.Perm (Fin m)) :
    A.submatrix id ρ * c.submatrix ρ id = A * c := by
  rw [Matrix.submatrix_mul_equiv, Matrix.submatrix_id_id]

/-- **C136**, SGPR: with the training samples in another order and the inducing points in another order, the
coefficients are reordered with the inducing points, the mean is the same, and predictions (dense and iterative),
covariance and likelihood are unchanged. -/
theorem C136_sgpr (ex : la.Exact) (e : KExpr d) (θ : GPParams) (h : Admissible e θ.kernelParams)
    (mf : MeanFun) (hmf : MeanFun.OrderFree mf) (xl : Batch m d) (x : Batch n d) (y : Mat n o)
    (ρ : Equiv.Perm (Fin m)) (π : Equiv.Perm (Fin n)) :
    let xl' : Batch m d := fun j => xl (ρ j)
    let x' : Batch n d := fun i => x (π i)
    let y' : Mat n o := Matrix.of fun i c => y (π i) c
    let fit := sgprFitDense la θ e.obj mf xl x y
    let fit' := sgprFitDense la θ e.obj mf xl' x' y'
    (∀ j c, fit'.1 j c = fit.1 (ρ j) c) ∧ fit'.2 = fit.2 ∧
    sgprLmlDense la θ e.obj mf xl' x' y' = sgprLmlDense la θ e.obj mf xl x y ∧
    ∀ {l : ℕ} (xs : Batch l d),
      sgprPredict θ e.obj xl' xs fit'.1 fit'.2 = sgprPredict θ e.obj xl xs fit.1 fit.2 ∧
      sgprPredictIter θ e.obj xl' xs fit'.1 fit'.2 = sgprPredictIter θ e.obj xl xs fit.1 fit.2 ∧
      sgprPredictCov la θ e.obj xl' xs = sgprPredictCov la θ e.obj xl xs := by
  intro xl' x' y' fit fit'
  have sw := C63_sampleWise e θ.kernelParams
  have hp := sgprALhs_posDef e θ h xl x
  have hmu : mf y' = mf y := hmf y π
  obtain ⟨hB, hA⟩ := sgprALhs_perm θ sw xl x ρ π
  have hfit : fit'.1 = fit.1.submatrix ρ id := by
    change la.solve (sgprALhs θ e.obj xl' x').1 ((sgprALhs θ e.obj xl' x').2 * centerBy y' (mf y')) = _
    rw [hB, hA, hmu]
    change la.solve _ ((sgprALhs θ e.obj xl x).2.submatrix ρ π * (centerBy y (mf y)).submatrix π id) = _
    rw [Matrix.submatrix_mul_equiv]
    exact solve_perm ex hp _ ρ
  have hk : ((Matrix.of (e.obj.k θ.kernelParams xl' xl') : Mat m m) + (1 / 10 ^ 10 : ℝ) • (1 : Mat m m)) =
      ((Matrix.of (e.obj.k θ.kernelParams xl xl) : Mat m m) + (1 / 10 ^ 10 : ℝ) • (1 : Mat m m)).submatrix ρ ρ := by
    rw [← noise_perm]
    congr 1
    ext i j
    exact sw.k xl xl ρ ρ i j
  refine ⟨fun i c => by rw [hfit]; rfl, hmu, ?_, fun xs => ⟨?_, ?_, ?_⟩⟩
  · have hpd : ∀ (xl : Batch m d) (x : Batch n d), (sparseCov e.obj θ xl x).PosDef := fun xl x =>
      posDef_add_smul_one (psd_sandwich (show ((Matrix.of (e.obj.k θ.kernelParams xl xl) : Mat m m) +
        (1 / 10 ^ 10 : ℝ) • (1 : Mat m m))⁻¹.PosSemidef from
        (posDef_add_smul_one (C22_gram_posSemidef e θ.kernelParams h xl) jitter_pos').inv.posSemidef) _) (by positivity)
    have e1 : ∀ (xl : Batch m d) (x : Batch n d) (y : Mat n o),
        sgprLmlDense la θ e.obj mf xl x y = lmlTail la (sparseCov e.obj θ xl x) (centerBy y (mf y)) := fun xl x y => by
      unfold sgprLmlDense
      simp only
      rw [ex.gram (posDef_add_smul_one (C22_gram_posSemidef e θ.kernelParams h xl) jitter_pos'), add_assoc, ← add_smul]
      rfl
    have e2 : sparseCov e.obj θ xl' x' = (sparseCov e.obj θ xl x).submatrix π π := by
      unfold sparseCov
      rw [hk, inv_submatrix_perm, ← noise_perm]
      congr 1
      have e3 : (Matrix.of (e.obj.k θ.kernelParams xl' x') : Mat m n) =
          (Matrix.of (e.obj.k θ.kernelParams xl x)).submatrix ρ π := by
        ext i j; exact sw.k xl x ρ π i j
      rw [e3, Matrix.transpose_submatrix, Matrix.submatrix_mul_equiv, Matrix.submatrix_mul_equiv]
    rw [e1, e1, e2, hmu]
    exact lmlTail_perm ex (hpd xl x) (centerBy y (mf y)) π
  · have e3 : (Matrix.of (e.obj.k θ.kernelParams xs xl') : Mat _ m) =
        (Matrix.of (e.obj.k θ.kernelParams xs xl)).submatrix id ρ := by
      ext i j; exact sw.k xs xl id ρ i j
    unfold sgprPredict
    simp only
    rw [hfit, e3, weights_perm]
    exact congrArg (fun z => addScalar z _) hmu
  · have hd : ∀ (xl : Batch m d) c mu, sgprPredictIter θ e.obj xl xs c mu = sgprPredict θ e.obj xl xs c mu :=
      fun xl c mu => ((C48_iterative_eq_dense ex idealCG idealCG_exact e θ h mf xl x y).2 xs c mu).1
    rw [hd, hd]
    have e3 : (Matrix.of (e.obj.k θ.kernelParams xs xl') : Mat _ m) =
        (Matrix.of (e.obj.k θ.kernelParams xs xl)).submatrix id ρ := by
      ext i j; exact sw.k xs xl id ρ i j
    unfold sgprPredict
    simp only
    rw [hfit, e3, weights_perm]
    exact congrArg (fun z => addScalar z _) hmu
  · have hkk := posDef_add_smul_one (C22_gram_posSemidef e θ.kernelParams h xl) jitter_pos'
    obtain ⟨hB', hA'⟩ := sgprALhs_perm θ sw xl xs ρ (Equiv.refl _)
    have hp' := sgprALhs_posDef e θ h xl xs
    have hk' : ((Matrix.of (e.obj.k θ.kernelParams xl' xl') : Mat m m) + noiseJitter • (1 : Mat m m)) =
      ((Matrix.of (e.obj.k θ.kernelParams xl xl) : Mat m m) + noiseJitter • (1 : Mat m m)).submatrix ρ ρ := hk
    change (sgprALhs θ e.obj xl' xs).2 = _ at hB'
    change (sgprALhs θ e.obj xl' xs).1 = _ at hA'
    unfold sgprPredictCov
    simp only
    rw [hB', hA', hk', ex.gram (posDef_perm hp' _), ex.gram hp', ex.gram (posDef_perm hkk _), ex.gram hkk]
    have c1 := cov_perm (((Matrix.of (e.obj.k θ.kernelParams xl xl) : Mat m m) + noiseJitter • (1 : Mat m m)))
      (sgprALhs θ e.obj xl xs).2 ρ
    have c2 := cov_perm (sgprALhs θ e.obj xl xs).1 (sgprALhs θ e.obj xl xs).2 ρ
    exact congrArg₂ (fun A B => Matrix.of (e.obj.k θ.kernelParams xs xs) - A + θ.sigma ^ 2 • B) c1 c2

/-- **C136**, SGPR trained on derivatives, when the system solved is positive definite (`C136_derivs_system`). -/
theorem C136_sgpr_derivs (ex : la.Exact) (e : KExpr d) (θ : GPParams)
    (mf : MeanFun) (hmf : MeanFun.OrderFree mf) (xl : Batch m d) (Jl : Jac m d v) (x : Batch n d) (J : Jac n d w)
    (y : Mat n w) (hp : (sgprADerivsLhs θ e.obj xl Jl x J).1.PosDef) (ρ : Equiv.Perm (Fin m)) (π : Equiv.Perm (Fin n)) :
    let xl' : Batch m d := fun j => xl (ρ j)
    let Jl' : Jac m d v := fun j => Jl (ρ j)
    let x' : Batch n d := fun i => x (π i)
    let J' : Jac n d w := fun i => J (π i)
    let y' : Mat n w := Matrix.of fun i c => y (π i) c
    let fit := sgprFitDerivsDense la θ e.obj mf xl Jl x J y
    let fit' := sgprFitDerivsDense la θ e.obj mf xl' Jl' x' J' y'
    (∀ j q, fit'.1 (flat j q) 0 = fit.1 (flat (ρ j) q) 0) ∧ fit'.2 = fit.2 ∧
    ∀ {l t : ℕ} (xs : Batch l d) (Js : Jac l d t),
      sgprPredictDerivs θ e.obj xl' Jl' xs Js fit'.1 fit'.2 = sgprPredictDerivs θ e.obj xl Jl xs Js fit.1 fit.2 ∧
      sgprPredictDerivsIter θ e.obj xl' Jl' xs Js fit'.1 fit'.2 =
        sgprPredictDerivsIter θ e.obj xl Jl xs Js fit.1 fit.2 ∧
      sgprPredictYDerivs θ e.obj xl' Jl' xs fit'.1 fit'.2 = sgprPredictYDerivs θ e.obj xl Jl xs fit.1 fit.2 ∧
      sgprPredictYDerivsIter θ e.obj xl' Jl' xs fit'.1 fit'.2 =
        sgprPredictYDerivsIter θ e.obj xl Jl xs fit.1 fit.2 := by
  intro xl' Jl' x' J' y' fit fit'
  have sw := C63_sampleWise e θ.kernelParams
  have hy : flatCol y' = (flatCol y).submatrix (permFlat π w) id := flatCol_perm y π
  have hmu : mf (flatCol y') = mf (flatCol y) := by rw [hy]; exact hmf _ _
  obtain ⟨hB, hA⟩ := sgprADerivsLhs_perm θ sw xl Jl x J ρ π
  have hfit : fit'.1 = fit.1.submatrix (permFlat ρ v) id := by
    change la.solve (sgprADerivsLhs θ e.obj xl' Jl' x' J').1 ((sgprADerivsLhs θ e.obj xl' Jl' x' J').2 *
      centerBy (flatCol y') (mf (flatCol y'))) = _
    rw [hB, hA, hmu, hy, centerBy_perm, Matrix.submatrix_mul_equiv]
    exact solve_perm ex hp _ _
  have hmu' : fit'.2 = fit.2 := hmu
  refine ⟨fun i q => by rw [hfit, Matrix.submatrix_apply, permFlat_flat]; rfl, hmu, fun xs Js => ?_⟩
  rw [(C48_predict_derivs e θ xl' Jl' xs Js _ _).1, (C48_predict_derivs e θ xl Jl xs Js _ _).1,
    (C48_predict_derivs e θ xl' Jl' xs Js _ _).2.2.1,
    (C48_predict_derivs e θ xl Jl xs Js _ _).2.2.1]
  refine (fun {P Q : Prop} (a : P) (b : Q) => (⟨a, a, b, b⟩ : P ∧ P ∧ Q ∧ Q)) ?_ ?_
  · have e3 : (Matrix.of (e.obj.d01kj θ.kernelParams xs xl' Js Jl') : Mat _ (m * v)) =
        (Matrix.of (e.obj.d01kj θ.kernelParams xs xl Js Jl)).submatrix id (permFlat ρ v) := by
      ext r s
      obtain ⟨i, q, rfl⟩ := flat_surj r
      obtain ⟨j, q', rfl⟩ := flat_surj s
      simp only [Matrix.submatrix_apply, Matrix.of_apply, permFlat_flat, id_eq]
      exact sw.d01kj xs xl Js Jl id ρ i q j q'
    unfold sgprPredictDerivs
    simp only
    rw [hfit, hmu', e3, weights_perm]
  · unfold sgprPredictYDerivs
    simp only
    rw [hfit, hmu', d0kj_perm θ sw, explained_perm]

/-- **C136**, the hypothesis of `C136_sgpr_derivs` for the kernels whose derivative Gram matrix is positive
semidefinite: it holds for every dataset. -/
theorem C136_derivs_system (e : KExpr d) (θ : GPParams) (h : DerivSmooth e θ.kernelParams)
    (xl : Batch m d) (Jl : Jac m d v) (x : Batch n d) (J : Jac n d w) :
    (sgprADerivsLhs θ e.obj xl Jl x J).1.PosDef :=
  sparse_posDef (C65_gram_partial e _ h xl Jl) _ _

/-! ## Joint training on targets and derivatives -/

/-- A reordering of the samples on the observations. -/
def obsPerm1 (π : Equiv.Perm (Fin n)) : Equiv.Perm (Obs1 n v) :=
  Equiv.sumCongr π (Equiv.prodCongr π (Equiv.refl (Fin v)))

/-- The same with two sets of derivatives. -/
def obsPerm2 (π : Equiv.Perm (Fin n)) : Equiv.Perm (Obs2 n v v') :=
  Equiv.sumCongr (obsPerm1 π) (Equiv.prodCongr π (Equiv.refl (Fin v')))

/-- A permutation of the observations on the rows. -/
noncomputable def rowPerm {I : Type} {N : ℕ} {pos : I → Fin N} (hpos : Function.Bijective pos) (σ : Equiv.Perm I) :
    Equiv.Perm (Fin N) :=
  (Equiv.ofBijective pos hpos).symm.trans (σ.trans (Equiv.ofBijective pos hpos))

theorem rowPerm_pos {I : Type} {N : ℕ} {pos : I → Fin N} (hpos : Function.Bijective pos) (σ : Equiv.Perm I) (a : I) :
    rowPerm hpos σ (pos a) = pos (σ a) := by
  have : (Equiv.ofBijective pos hpos).symm (pos a) = a := (Equiv.ofBijective pos hpos).symm_apply_apply a
  simp [rowPerm, this]

theorem cov1_perm {κ : KernelObj d} {p : KPar} (sw : SampleWise κ p) (x1 : Batch m d) (J1 : Jac m d v) (x2 : Batch n d)
    (J2 : Jac n d w) (π : Equiv.Perm (Fin m)) (τ : Equiv.Perm (Fin n)) (a b) :
    cov1 κ p (fun i => x1 (π i)) (fun i => J1 (π i)) (fun i => x2 (τ i)) (fun i => J2 (τ i)) a b =
      cov1 κ p x1 J1 x2 J2 (obsPerm1 π a) (obsPerm1 τ b) := by
  rcases a with i | ⟨i, u⟩ <;> rcases b with j | ⟨j, t⟩
  · exact sw.k x1 x2 π τ i j
  · exact sw.d1kj x1 x2 J2 π τ i j t
  · exact sw.d0kj x1 x2 J1 π τ i u j
  · exact sw.d01kj x1 x2 J1 J2 π τ i u j t

theorem cov2_perm {κ : KernelObj d} {p : KPar} (sw : SampleWise κ p) (x1 : Batch m d) (J1 : Jac m d v)
    (J1' : Jac m d v') (x2 : Batch n d) (J2 : Jac n d w) (J2' : Jac n d w') (π : Equiv.Perm (Fin m))
    (τ : Equiv.Perm (Fin n)) (a b) :
    cov2 κ p (fun i => x1 (π i)) (fun i => J1 (π i)) (fun i => J1' (π i)) (fun i => x2 (τ i)) (fun i => J2 (τ i))
      (fun i => J2' (τ i)) a b = cov2 κ p x1 J1 J1' x2 J2 J2' (obsPerm2 π a) (obsPerm2 τ b) := by
  rcases a with (i | ⟨i, u⟩) | ⟨i, u⟩ <;> rcases b with (j | ⟨j, t⟩) | ⟨j, t⟩
  · exact sw.k x1 x2 π τ i j
  · exact sw.d1kj x1 x2 J2 π τ i j t
  · exact sw.d1kj x1 x2 J2' π τ i j t
  · exact sw.d0kj x1 x2 J1 π τ i u j
  · exact sw.d01kj x1 x2 J1 J2 π τ i u j t
  · exact sw.d01kj x1 x2 J1 J2' π τ i u j t
  · exact sw.d0kj x1 x2 J1' π τ i u j
  · exact sw.d01kj x1 x2 J1' J2 π τ i u j t
  · exact sw.d01kj x1 x2 J1' J2' π τ i u j t

theorem tdLmlTail_perm (ex : la.Exact) {N : ℕ} {C : Mat N N} (hC : C.PosDef) (y : Mat N 1) (M : ℕ)
    (σ : Equiv.Perm (Fin N)) : tdLmlTail la (C.submatrix σ σ) (y.submatrix σ id) M = tdLmlTail la C y M := by
  unfold tdLmlTail
  simp only
  have h1 := quad_sum (posDef_perm hC σ) ex (y.submatrix σ id)
  rw [h1, quad_sum hC ex, ex.logdet hC, ex.logdet (posDef_perm hC σ), inv_submatrix_perm,
    Matrix.det_submatrix_equiv_self]
  have : ∀ c, ∑ i, ∑ j, (y.submatrix σ id) i c * (C⁻¹.submatrix σ σ) i j * (y.submatrix σ id) j c =
      ∑ i, ∑ j, y i c * C⁻¹ i j * y j c := fun c => by
    simp only [Matrix.submatrix_apply, id_eq]
    rw [Equiv.sum_comp σ fun i => ∑ j, y i c * C⁻¹ i (σ j) * y (σ j) c]
    exact Finset.sum_congr rfl fun i _ => Equiv.sum_comp σ fun j => y i c * C⁻¹ i j * y j c
  simp only [this]

/-- **C136**, GPR_TD with one set of derivatives: with the training samples in another order, the coefficients are
reordered, the mean is the same, and predictions (dense and iterative) and likelihood are unchanged. -/
theorem C136_gpr_td (ex : la.Exact) (e : KExpr d) (θ : TDParams) (mf : MeanFun)
    (hmf : MeanFun.OrderFree mf) (x : Batch n d) (y : Mat n 1) (J : Jac n d v) (yd : Mat n v)
    (hp : (tdALhsNoise1 θ e.obj x J x J).PosDef) (π : Equiv.Perm (Fin n)) :
    let x' : Batch n d := fun i => x (π i)
    let J' : Jac n d v := fun i => J (π i)
    let y' : Mat n 1 := Matrix.of fun i c => y (π i) c
    let yd' : Mat n v := Matrix.of fun i c => yd (π i) c
    let fit := tdFitDense1 la θ e.obj mf x y J yd
    let fit' := tdFitDense1 la θ e.obj mf x' y' J' yd'
    (∀ i, fit'.1 (pos1 (.inl i)) 0 = fit.1 (pos1 (.inl (π i))) 0) ∧
    (∀ i u, fit'.1 (pos1 (.inr (i, u))) 0 = fit.1 (pos1 (.inr (π i, u))) 0) ∧ fit'.2 = fit.2 ∧
    tdLmlDense1 la θ e.obj mf x' y' J' yd' = tdLmlDense1 la θ e.obj mf x y J yd ∧
    ∀ {l t : ℕ} (xs : Batch l d) (Js : Jac l d t),
      tdPredictDense1 θ e.obj x' J' xs Js fit'.1 fit'.2 = tdPredictDense1 θ e.obj x J xs Js fit.1 fit.2 ∧
      tdPredictIter1 θ e.obj x' J' xs Js fit'.1 fit'.2 = tdPredictIter1 θ e.obj x J xs Js fit.1 fit.2 := by
  intro x' J' y' yd' fit fit'
  have sw := C63_sampleWise e θ.kernelParams
  have hmu : mf y' = mf y := hmf y π
  have hA : tdALhsNoise1 θ e.obj x' J' x' J' =
      (tdALhsNoise1 θ e.obj x J x J).submatrix (rowPerm pos1_bij (obsPerm1 π)) (rowPerm pos1_bij (obsPerm1 π)) := by
    ext s t
    obtain ⟨a, rfl⟩ := pos1_bij.2 s
    obtain ⟨b, rfl⟩ := pos1_bij.2 t
    rw [Matrix.submatrix_apply, rowPerm_pos, rowPerm_pos, (C52_entries1 e.obj θ x' J' x' J').2.2,
      (C52_entries1 e.obj θ x J x J).2.2, dataCov1, dataCov1, cov1_perm sw]
    simp only [(obsPerm1 π).injective.eq_iff]
    rcases a with a | a <;> rfl
  have hb : tdRhs1 mf y' yd' = (tdRhs1 mf y yd).submatrix (rowPerm pos1_bij (obsPerm1 π)) id := by
    ext s q
    obtain ⟨a, rfl⟩ := pos1_bij.2 s
    obtain rfl : q = 0 := Subsingleton.elim _ _
    rw [Matrix.submatrix_apply, rowPerm_pos, id_eq, rhs1_pos, rhs1_pos, hmu]
    rcases a with a | a <;> rfl
  have hfit : fit'.1 = fit.1.submatrix (rowPerm pos1_bij (obsPerm1 π)) id := by
    change la.solve (tdALhsNoise1 θ e.obj x' J' x' J') (tdRhs1 mf y' yd') = _
    rw [hA, hb]
    exact solve_perm ex hp _ _
  have hpred : ∀ {l t : ℕ} (xs : Batch l d) (Js : Jac l d t),
      tdPredictDense1 θ e.obj x' J' xs Js fit'.1 fit'.2 = tdPredictDense1 θ e.obj x J xs Js fit.1 fit.2 := by
    intro l t xs Js
    have hK : tdALhs1 θ e.obj x' J' xs Js =
        (tdALhs1 θ e.obj x J xs Js).submatrix (rowPerm pos1_bij (obsPerm1 π)) id := by
      ext s t
      obtain ⟨a, rfl⟩ := pos1_bij.2 s
      obtain ⟨b, rfl⟩ := pos1_bij.2 t
      rw [Matrix.submatrix_apply, rowPerm_pos, id_eq, (C52_entries1 e.obj θ x' J' xs Js).2.1,
        (C52_entries1 e.obj θ x J xs Js).2.1]
      refine (cov1_perm sw x J xs Js π (Equiv.refl _) a b).trans ?_
      congr 1
      rcases b with b | b <;> rfl
    unfold tdPredictDense1
    simp only
    rw [hfit, hK, explained_perm]
    exact congrArg (fun z => tdSplit1 z _) hmu
  refine ⟨fun i => ?_, fun i u => ?_, hmu, ?_, fun xs Js => ⟨hpred xs Js, ?_⟩⟩
  · rw [hfit, Matrix.submatrix_apply, rowPerm_pos]; rfl
  · rw [hfit, Matrix.submatrix_apply, rowPerm_pos]; rfl
  · unfold tdLmlDense1
    rw [hA, hb, tdLmlTail_perm ex hp]
  · rw [(C76_predict1 e θ x' J' xs Js _ _).2.2, (C76_predict1 e θ x J xs Js _ _).2.2, hpred]

/-- **C136**, GPR_TD with two sets of derivatives. -/
theorem C136_gpr_td2 (ex : la.Exact) (e : KExpr d) (θ : TDParams) (mf : MeanFun)
    (hmf : MeanFun.OrderFree mf) (x : Batch n d) (y : Mat n 1) (J : Jac n d v) (K : Jac n d v') (yd : Mat n v)
    (yk : Mat n v') (hp : (tdALhsNoise2 θ e.obj x J K x J K).PosDef) (π : Equiv.Perm (Fin n)) :
    let x' : Batch n d := fun i => x (π i)
    let J' : Jac n d v := fun i => J (π i)
    let K' : Jac n d v' := fun i => K (π i)
    let y' : Mat n 1 := Matrix.of fun i c => y (π i) c
    let yd' : Mat n v := Matrix.of fun i c => yd (π i) c
    let yk' : Mat n v' := Matrix.of fun i c => yk (π i) c
    let fit := tdFitDense2 la θ e.obj mf x y J K yd yk
    let fit' := tdFitDense2 la θ e.obj mf x' y' J' K' yd' yk'
    (∀ i, fit'.1 (pos2 (.inl (.inl i))) 0 = fit.1 (pos2 (.inl (.inl (π i)))) 0) ∧
    (∀ i u, fit'.1 (pos2 (.inl (.inr (i, u)))) 0 = fit.1 (pos2 (.inl (.inr (π i, u)))) 0) ∧
    (∀ i u, fit'.1 (pos2 (.inr (i, u))) 0 = fit.1 (pos2 (.inr (π i, u))) 0) ∧ fit'.2 = fit.2 ∧
    tdLmlDense2 la θ e.obj mf x' y' J' K' yd' yk' = tdLmlDense2 la θ e.obj mf x y J K yd yk ∧
    ∀ {l t t' : ℕ} (xs : Batch l d) (Js : Jac l d t) (Ks : Jac l d t'),
      tdPredictDense2 θ e.obj x' J' K' xs Js Ks fit'.1 fit'.2 = tdPredictDense2 θ e.obj x J K xs Js Ks fit.1 fit.2 ∧
      tdPredictIter2 θ e.obj x' J' K' xs Js Ks fit'.1 fit'.2 = tdPredictIter2 θ e.obj x J K xs Js Ks fit.1 fit.2 := by
  intro x' J' K' y' yd' yk' fit fit'
  have sw := C63_sampleWise e θ.kernelParams
  have hmu : mf y' = mf y := hmf y π
  have hA : tdALhsNoise2 θ e.obj x' J' K' x' J' K' =
      (tdALhsNoise2 θ e.obj x J K x J K).submatrix (rowPerm pos2_bij (obsPerm2 π)) (rowPerm pos2_bij (obsPerm2 π)) := by
    ext s t
    obtain ⟨a, rfl⟩ := pos2_bij.2 s
    obtain ⟨b, rfl⟩ := pos2_bij.2 t
    rw [Matrix.submatrix_apply, rowPerm_pos, rowPerm_pos, (C52_entries2 e.obj θ x' J' K' x' J' K').2.2,
      (C52_entries2 e.obj θ x J K x J K).2.2, dataCov2, dataCov2, cov2_perm sw]
    simp only [(obsPerm2 π).injective.eq_iff]
    rcases a with (a | a) | a <;> rfl
  have hb : tdRhs2 mf y' yd' yk' = (tdRhs2 mf y yd yk).submatrix (rowPerm pos2_bij (obsPerm2 π)) id := by
    ext s q
    obtain ⟨a, rfl⟩ := pos2_bij.2 s
    obtain rfl : q = 0 := Subsingleton.elim _ _
    rw [Matrix.submatrix_apply, rowPerm_pos, id_eq, rhs2_pos, rhs2_pos, hmu]
    rcases a with (a | a) | a <;> rfl
  have hfit : fit'.1 = fit.1.submatrix (rowPerm pos2_bij (obsPerm2 π)) id := by
    change la.solve (tdALhsNoise2 θ e.obj x' J' K' x' J' K') (tdRhs2 mf y' yd' yk') = _
    rw [hA, hb]
    exact solve_perm ex hp _ _
  have hpred : ∀ {l t t' : ℕ} (xs : Batch l d) (Js : Jac l d t) (Ks : Jac l d t'),
      tdPredictDense2 θ e.obj x' J' K' xs Js Ks fit'.1 fit'.2 =
        tdPredictDense2 θ e.obj x J K xs Js Ks fit.1 fit.2 := by
    intro l t t' xs Js Ks
    have hK : tdALhs2 θ e.obj x' J' K' xs Js Ks =
        (tdALhs2 θ e.obj x J K xs Js Ks).submatrix (rowPerm pos2_bij (obsPerm2 π)) id := by
      ext s t
      obtain ⟨a, rfl⟩ := pos2_bij.2 s
      obtain ⟨b, rfl⟩ := pos2_bij.2 t
      rw [Matrix.submatrix_apply, rowPerm_pos, id_eq, (C52_entries2 e.obj θ x' J' K' xs Js Ks).2.1,
        (C52_entries2 e.obj θ x J K xs Js Ks).2.1]
      refine (cov2_perm sw x J K xs Js Ks π (Equiv.refl _) a b).trans ?_
      congr 1
      rcases b with (b | b) | b <;> rfl
    unfold tdPredictDense2
    simp only
    rw [hfit, hK, explained_perm]
    exact congrArg (fun z => tdSplit2 z _) hmu
  refine ⟨fun i => ?_, fun i u => ?_, fun i u => ?_, hmu, ?_, fun xs Js Ks => ⟨hpred xs Js Ks, ?_⟩⟩
  · rw [hfit, Matrix.submatrix_apply, rowPerm_pos]; rfl
  · rw [hfit, Matrix.submatrix_apply, rowPerm_pos]; rfl
  · rw [hfit, Matrix.submatrix_apply, rowPerm_pos]; rfl
  · unfold tdLmlDense2
    rw [hA, hb, tdLmlTail_perm ex hp]
  · rw [(C76_predict2 e θ x' J' K' xs Js Ks _ _).2.2.2, (C76_predict2 e θ x J K xs Js Ks _ _).2.2.2, hpred]

/-- Non-vacuity: two samples swapped; the hypotheses on kernel, mean and system hold, and the swap changes the data. -/
example : (tdALhsNoise1 exθ (KExpr.matern52 none : KExpr 2).obj exX exJ exX exJ).PosDef ∧
    (tdALhsNoise2 exθ (KExpr.matern52 none : KExpr 2).obj exX exJ exJ' exX exJ exJ').PosDef ∧
    MeanFun.OrderFree dataMean ∧ DerivSmooth (.matern52 none : KExpr 2) (fun _ => 1) ∧
    (fun i => exX (Equiv.swap 0 1 i)) ≠ exX :=
  ⟨ex_pd.1, ex_pd.2, dataMean_orderFree, .joint (by norm_num [JointSmooth, KPar.val]), fun h => by
    have := congrFun (congrFun h 0) 0
    norm_num [exX] at this⟩

end GPX.Props
