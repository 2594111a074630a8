import Verif.Lemmas.Frames
import Verif.Props.GPRTD

/-! # Changes of coordinates of the derivatives, joint training -/

namespace GPX
open GPX.Spec GPX.Props Matrix

variable {d m n o v w v' w' a b a' b' : ℕ}

/-- The change of coordinates on observations: targets stay, derivatives change. -/
def obsFrame1 (R : Fin n → Mat v v') : Matrix (Obs1 n v) (Obs1 n v') ℝ := fun p q =>
  match p, q with
  | .inl i, .inl j => if i = j then 1 else 0
  | .inr (i, t), .inr (j, u) => if i = j then R i t u else 0
  | _, _ => 0

/-- The same with two sets of derivatives. -/
def obsFrame2 (R : Fin n → Mat v v') (R' : Fin n → Mat w w') : Matrix (Obs2 n v w) (Obs2 n v' w') ℝ := fun p q =>
  match p, q with
  | .inl p, .inl q => obsFrame1 R p q
  | .inr (i, t), .inr (j, u) => if i = j then R' i t u else 0
  | _, _ => 0

section
variable {κ : KernelObj d} {p : KPar}

theorem cov1_left (h : FrameLinear κ p) (x1 : Batch m d) (J1 : Jac m d v) (R : Fin m → Mat v v') (x2 : Batch n d)
    (J2 : Jac n d w) : (Matrix.of (cov1 κ p x1 (inFrames R J1) x2 J2) : Matrix (Obs1 m v') (Obs1 n w) ℝ) =
      (obsFrame1 R)ᵀ * Matrix.of (cov1 κ p x1 J1 x2 J2) := by
  ext (i | ⟨i, u⟩) q
  · rw [mul_apply, Fintype.sum_sum_type]
    simp only [transpose_apply, obsFrame1, of_apply, zero_mul, Finset.sum_const_zero, add_zero, ite_mul, one_mul,
      Finset.sum_ite_eq', Finset.mem_univ, if_true]
    rcases q with j | ⟨j, r⟩ <;> rfl
  · rw [mul_apply, Fintype.sum_sum_type, Fintype.sum_prod_type]
    simp only [transpose_apply, obsFrame1, of_apply, zero_mul, Finset.sum_const_zero, zero_add, ite_mul]
    rw [Finset.sum_comm]
    simp only [Finset.sum_ite_eq', Finset.mem_univ, if_true]
    rcases q with j | ⟨j, r⟩
    · simp only [cov1, h.d0kj]
      exact Finset.sum_congr rfl fun t _ => mul_comm _ _
    · simp only [cov1, h.left]
      exact Finset.sum_congr rfl fun t _ => mul_comm _ _

theorem cov1_right (h : FrameLinear κ p) (x1 : Batch m d) (J1 : Jac m d v) (x2 : Batch n d)
    (J2 : Jac n d w) (R : Fin n → Mat w w') :
    (Matrix.of (cov1 κ p x1 J1 x2 (inFrames R J2)) : Matrix (Obs1 m v) (Obs1 n w') ℝ) =
      Matrix.of (cov1 κ p x1 J1 x2 J2) * obsFrame1 R := by
  ext q (i | ⟨i, u⟩)
  · rw [mul_apply, Fintype.sum_sum_type]
    simp only [obsFrame1, of_apply, mul_zero, Finset.sum_const_zero, add_zero, mul_ite, mul_one,
      Finset.sum_ite_eq', Finset.mem_univ, if_true]
    rcases q with j | ⟨j, r⟩ <;> rfl
  · rw [mul_apply, Fintype.sum_sum_type, Fintype.sum_prod_type]
    simp only [obsFrame1, of_apply, mul_zero, Finset.sum_const_zero, zero_add, mul_ite]
    rw [Finset.sum_comm]
    simp only [Finset.sum_ite_eq', Finset.mem_univ, if_true]
    rcases q with j | ⟨j, r⟩
    · simp only [cov1, h.d1kj]
    · simp only [cov1, h.right]

theorem cov2_left (h : FrameLinear κ p) (x1 : Batch m d) (J1 : Jac m d v) (R : Fin m → Mat v v') (J1' : Jac m d w)
    (R' : Fin m → Mat w w') (x2 : Batch n d) (J2 : Jac n d a) (J2' : Jac n d b) :
    (Matrix.of (cov2 κ p x1 (inFrames R J1) (inFrames R' J1') x2 J2 J2') : Matrix (Obs2 m v' w') (Obs2 n a b) ℝ) =
      (obsFrame2 R R')ᵀ * Matrix.of (cov2 κ p x1 J1 J1' x2 J2 J2') := by
  have h1 := cov1_left h x1 J1 R x2 J2
  ext (i | ⟨i, u⟩) q
  · rw [mul_apply, Fintype.sum_sum_type]
    simp only [transpose_apply, obsFrame2, of_apply, zero_mul, Finset.sum_const_zero, add_zero]
    rcases q with q | ⟨j, r⟩
    · exact congrFun (congrFun h1 i) q
    · rcases i with i | ⟨i, u⟩
      · rw [Fintype.sum_sum_type]
        simp only [obsFrame1, zero_mul, Finset.sum_const_zero, add_zero, ite_mul, one_mul,
          Finset.sum_ite_eq', Finset.mem_univ, if_true]
        rfl
      · rw [Fintype.sum_sum_type, Fintype.sum_prod_type]
        simp only [obsFrame1, zero_mul, Finset.sum_const_zero, zero_add, ite_mul]
        rw [Finset.sum_comm]
        simp only [Finset.sum_ite_eq', Finset.mem_univ, if_true]
        simp only [cov2, h.left]
        exact Finset.sum_congr rfl fun t _ => mul_comm _ _
  · rw [mul_apply, Fintype.sum_sum_type]
    simp only [transpose_apply, obsFrame2, of_apply, zero_mul, Finset.sum_const_zero, zero_add]
    rw [Fintype.sum_prod_type]
    simp only [ite_mul, zero_mul]
    rw [Finset.sum_comm]
    simp only [Finset.sum_ite_eq', Finset.mem_univ, if_true]
    rcases q with (j | ⟨j, r⟩) | ⟨j, r⟩
    · simp only [cov2, h.d0kj]
      exact Finset.sum_congr rfl fun t _ => mul_comm _ _
    · simp only [cov2, h.left]
      exact Finset.sum_congr rfl fun t _ => mul_comm _ _
    · simp only [cov2, h.left]
      exact Finset.sum_congr rfl fun t _ => mul_comm _ _

theorem cov2_right (h : FrameLinear κ p) (x1 : Batch m d) (J1 : Jac m d a) (J1' : Jac m d b) (x2 : Batch n d)
    (J2 : Jac n d v) (R : Fin n → Mat v v') (J2' : Jac n d w) (R' : Fin n → Mat w w') :
    (Matrix.of (cov2 κ p x1 J1 J1' x2 (inFrames R J2) (inFrames R' J2')) : Matrix (Obs2 m a b) (Obs2 n v' w') ℝ) =
      Matrix.of (cov2 κ p x1 J1 J1' x2 J2 J2') * obsFrame2 R R' := by
  have h1 := cov1_right h x1 J1 x2 J2 R
  ext q (i | ⟨i, u⟩)
  · rw [mul_apply, Fintype.sum_sum_type]
    simp only [obsFrame2, of_apply, mul_zero, Finset.sum_const_zero, add_zero]
    rcases q with q | ⟨j, r⟩
    · exact congrFun (congrFun h1 q) i
    · rcases i with i | ⟨i, u⟩
      · rw [Fintype.sum_sum_type]
        simp only [obsFrame1, mul_zero, Finset.sum_const_zero, add_zero, mul_ite, mul_one,
          Finset.sum_ite_eq', Finset.mem_univ, if_true]
        rfl
      · rw [Fintype.sum_sum_type, Fintype.sum_prod_type]
        simp only [obsFrame1, mul_zero, Finset.sum_const_zero, zero_add, mul_ite]
        rw [Finset.sum_comm]
        simp only [Finset.sum_ite_eq', Finset.mem_univ, if_true]
        simp only [cov2, h.right]
  · rw [mul_apply, Fintype.sum_sum_type]
    simp only [obsFrame2, of_apply, mul_zero, Finset.sum_const_zero, zero_add]
    rw [Fintype.sum_prod_type]
    simp only [mul_ite, mul_zero]
    rw [Finset.sum_comm]
    simp only [Finset.sum_ite_eq', Finset.mem_univ, if_true]
    rcases q with (j | ⟨j, r⟩) | ⟨j, r⟩
    · simp only [cov2, h.d1kj]
    · simp only [cov2, h.right]
    · simp only [cov2, h.right]

end

theorem obsFrame1_coiso {R : Fin n → Mat v v'} (hR : Frames R) : obsFrame1 R * (obsFrame1 R)ᵀ = 1 := by
  ext (i | ⟨i, u⟩) (j | ⟨j, t⟩)
  · rw [mul_apply, Fintype.sum_sum_type]
    simp [obsFrame1, Matrix.one_apply, eq_comm]
  · rw [mul_apply, Fintype.sum_sum_type]
    simp [obsFrame1, Matrix.one_apply]
  · rw [mul_apply, Fintype.sum_sum_type]
    simp [obsFrame1, Matrix.one_apply]
  · rw [mul_apply, Fintype.sum_sum_type, Fintype.sum_prod_type]
    simp only [obsFrame1, transpose_apply, mul_zero, Finset.sum_const_zero, zero_add, Matrix.one_apply, Sum.inr.injEq,
      Prod.mk.injEq, ite_mul, zero_mul, mul_ite]
    rw [Finset.sum_comm]
    by_cases hij : i = j
    · subst hij
      simpa using hR i u t
    · simp [hij, Ne.symm hij]

theorem obsFrame2_coiso {R : Fin n → Mat v v'} (hR : Frames R) {R' : Fin n → Mat w w'} (hR' : Frames R') :
    obsFrame2 R R' * (obsFrame2 R R')ᵀ = 1 := by
  have h1 := obsFrame1_coiso hR
  ext (i | ⟨i, u⟩) (j | ⟨j, t⟩)
  · rw [mul_apply, Fintype.sum_sum_type]
    have := congrFun (congrFun h1 i) j
    rw [mul_apply] at this
    simp only [obsFrame2, transpose_apply, mul_zero, Finset.sum_const_zero, add_zero]
    refine this.trans ?_
    simp [Matrix.one_apply]
  · rw [mul_apply, Fintype.sum_sum_type]
    simp [obsFrame2, Matrix.one_apply]
  · rw [mul_apply, Fintype.sum_sum_type]
    simp [obsFrame2, Matrix.one_apply]
  · rw [mul_apply, Fintype.sum_sum_type, Fintype.sum_prod_type]
    simp only [obsFrame2, transpose_apply, mul_zero, Finset.sum_const_zero, zero_add, Matrix.one_apply, Sum.inr.injEq,
      Prod.mk.injEq, ite_mul, zero_mul, mul_ite]
    rw [Finset.sum_comm]
    by_cases hij : i = j
    · subst hij
      simpa using hR' i u t
    · simp [hij, Ne.symm hij]

theorem obsFrame1_noise (θ : TDParams) (R : Fin n → Mat v v') :
    diagonal (noise1 θ) * obsFrame1 R = obsFrame1 R * diagonal (noise1 θ) := by
  ext (i | ⟨i, u⟩) (j | ⟨j, t⟩) <;> rw [diagonal_mul, mul_diagonal] <;> simp [obsFrame1, noise1, mul_comm]

theorem obsFrame2_noise (θ : TDParams) (R : Fin n → Mat v v') (R' : Fin n → Mat w w') :
    diagonal (noise2 θ) * obsFrame2 R R' = obsFrame2 R R' * diagonal (noise2 θ) := by
  have h1 := obsFrame1_noise θ R
  ext (i | ⟨i, u⟩) (j | ⟨j, t⟩) <;> rw [diagonal_mul, mul_diagonal]
  · have := congrFun (congrFun h1 i) j
    rw [diagonal_mul, mul_diagonal] at this
    exact this
  · simp [obsFrame2]
  · simp [obsFrame2]
  · simp [obsFrame2, noise2, mul_comm]

theorem residual1_frames (mu : ℝ) (y : Mat n 1) (yd : Mat n v) (R : Fin n → Mat v v') :
    (Matrix.of fun a (_ : Fin 1) => residual1 mu y (readIn R yd) a) =
      (obsFrame1 R)ᵀ * Matrix.of fun a _ => residual1 mu y yd a := by
  ext (i | ⟨i, u⟩) c
  · rw [mul_apply, Fintype.sum_sum_type]
    simp [obsFrame1, residual1]
  · rw [mul_apply, Fintype.sum_sum_type, Fintype.sum_prod_type]
    simp only [transpose_apply, obsFrame1, of_apply, zero_mul, Finset.sum_const_zero, zero_add, ite_mul]
    rw [Finset.sum_comm]
    simp only [Finset.sum_ite_eq', Finset.mem_univ, if_true, residual1, readIn, of_apply]
    exact Finset.sum_congr rfl fun t _ => mul_comm _ _

theorem residual2_frames (mu : ℝ) (y : Mat n 1) (yd : Mat n v) (R : Fin n → Mat v v') (yd' : Mat n w)
    (R' : Fin n → Mat w w') :
    (Matrix.of fun a (_ : Fin 1) => residual2 mu y (readIn R yd) (readIn R' yd') a) =
      (obsFrame2 R R')ᵀ * Matrix.of fun a _ => residual2 mu y yd yd' a := by
  have h1 := residual1_frames mu y yd R
  ext (i | ⟨i, u⟩) c
  · rw [mul_apply, Fintype.sum_sum_type]
    simp only [transpose_apply, obsFrame2, of_apply, zero_mul, Finset.sum_const_zero, add_zero]
    exact congrFun (congrFun h1 i) c
  · rw [mul_apply, Fintype.sum_sum_type, Fintype.sum_prod_type]
    simp only [transpose_apply, obsFrame2, of_apply, zero_mul, Finset.sum_const_zero, zero_add, ite_mul]
    rw [Finset.sum_comm]
    simp only [Finset.sum_ite_eq', Finset.mem_univ, if_true, residual2, readIn, of_apply]
    exact Finset.sum_congr rfl fun t _ => mul_comm _ _

/-! ## On the stacked arrays -/

noncomputable def posE1 : Obs1 n v ≃ Fin (n + n * v) := Equiv.ofBijective pos1 pos1_bij
noncomputable def posE2 : Obs2 n v w ≃ Fin (n + n * v + n * w) := Equiv.ofBijective pos2 pos2_bij

theorem posE1_symm (q : Obs1 n v) : posE1.symm (pos1 q) = q := posE1.symm_apply_apply q
theorem posE2_symm (q : Obs2 n v w) : posE2.symm (pos2 q) = q := posE2.symm_apply_apply q

theorem tdALhs1_obs (θ : TDParams) (κ : KernelObj d) (x1 : Batch m d) (J1 : Jac m d v) (x2 : Batch n d)
    (J2 : Jac n d w) : tdALhs1 θ κ x1 J1 x2 J2 =
      (Matrix.of (cov1 κ θ.kernelParams x1 J1 x2 J2)).submatrix posE1.symm posE1.symm := by
  ext s t
  obtain ⟨p, rfl⟩ := pos1_bij.2 s
  obtain ⟨q, rfl⟩ := pos1_bij.2 t
  rw [(C52_entries1 κ θ x1 J1 x2 J2).2.1, submatrix_apply, posE1_symm, posE1_symm]; rfl

theorem tdALhsNoise1_obs (θ : TDParams) (κ : KernelObj d) (x : Batch n d) (J : Jac n d v) :
    tdALhsNoise1 θ κ x J x J =
      (Matrix.of (cov1 κ θ.kernelParams x J x J) + diagonal (noise1 θ)).submatrix posE1.symm posE1.symm := by
  ext s t
  obtain ⟨p, rfl⟩ := pos1_bij.2 s
  obtain ⟨q, rfl⟩ := pos1_bij.2 t
  rw [(C52_entries1 κ θ x J x J).2.2, submatrix_apply, posE1_symm, posE1_symm, Matrix.add_apply, diagonal_apply]; rfl

theorem tdRhs1_obs (mf : MeanFun) (y : Mat n 1) (yd : Mat n v) :
    tdRhs1 mf y yd = (Matrix.of fun a (_ : Fin 1) => residual1 (mf y) y yd a).submatrix posE1.symm id := by
  ext s t
  obtain ⟨p, rfl⟩ := pos1_bij.2 s
  rw [submatrix_apply, posE1_symm, of_apply, ← rhs1_pos, Subsingleton.elim t 0]

theorem tdALhs2_obs (θ : TDParams) (κ : KernelObj d) (x1 : Batch m d) (J1 : Jac m d v) (J1' : Jac m d w)
    (x2 : Batch n d) (J2 : Jac n d a) (J2' : Jac n d b) : tdALhs2 θ κ x1 J1 J1' x2 J2 J2' =
      (Matrix.of (cov2 κ θ.kernelParams x1 J1 J1' x2 J2 J2')).submatrix posE2.symm posE2.symm := by
  ext s t
  obtain ⟨p, rfl⟩ := pos2_bij.2 s
  obtain ⟨q, rfl⟩ := pos2_bij.2 t
  rw [(C52_entries2 κ θ x1 J1 J1' x2 J2 J2').2.1, submatrix_apply, posE2_symm, posE2_symm]; rfl

theorem tdALhsNoise2_obs (θ : TDParams) (κ : KernelObj d) (x : Batch n d) (J : Jac n d v) (J' : Jac n d w) :
    tdALhsNoise2 θ κ x J J' x J J' =
      (Matrix.of (cov2 κ θ.kernelParams x J J' x J J') + diagonal (noise2 θ)).submatrix posE2.symm posE2.symm := by
  ext s t
  obtain ⟨p, rfl⟩ := pos2_bij.2 s
  obtain ⟨q, rfl⟩ := pos2_bij.2 t
  rw [(C52_entries2 κ θ x J J' x J J').2.2, submatrix_apply, posE2_symm, posE2_symm, Matrix.add_apply, diagonal_apply]; rfl

theorem tdRhs2_obs (mf : MeanFun) (y : Mat n 1) (yd : Mat n v) (yd' : Mat n w) :
    tdRhs2 mf y yd yd' = (Matrix.of fun a (_ : Fin 1) => residual2 (mf y) y yd yd' a).submatrix posE2.symm id := by
  ext s t
  obtain ⟨p, rfl⟩ := pos2_bij.2 s
  rw [submatrix_apply, posE2_symm, of_apply, ← rhs2_pos, Subsingleton.elim t 0]

/-- The core of the argument, on any stacking of the observations. -/
theorem stacked_frames {I I' : Type} [Fintype I] [DecidableEq I] [Fintype I'] [DecidableEq I'] {N N' : ℕ}
    (E : I ≃ Fin N) (E' : I' ≃ Fin N') {M : Matrix I I ℝ} {D : I → ℝ} {D' : I' → ℝ} {B : Matrix I I' ℝ}
    (hB : B * Bᵀ = 1) (hD : diagonal D * B = B * diagonal D') (hD' : ∀ q, 0 < D' q)
    (hp : ((M + diagonal D).submatrix E.symm E.symm).PosDef) {A' : Mat N' N'}
    (hA' : A' = (Bᵀ * M * B + diagonal D').submatrix E'.symm E'.symm) :
    A'.PosDef ∧ ∀ (la : LinAlg), la.Exact → ∀ r : Matrix I (Fin 1) ℝ,
      la.solve A' ((Bᵀ * r).submatrix E'.symm id) =
        (B.submatrix E.symm E'.symm)ᵀ * la.solve ((M + diagonal D).submatrix E.symm E.symm) (r.submatrix E.symm id) := by
  have hp0 : (M + diagonal D).PosDef := by
    have := hp.submatrix E.injective
    simpa [submatrix_submatrix] using this
  have hp' : A'.PosDef := by
    rw [hA']
    exact (coiso_posDef hB hD hD' hp0).submatrix E'.symm.injective
  refine ⟨hp', fun la ex r => ?_⟩
  refine coiso_solution (A := (M + diagonal D).submatrix E.symm E.symm) (A' := A') ?_ (posDef_isUnit hp')
    (ex.solve _ _ (posDef_isUnit hp)) ?_
  · rw [hA', transpose_submatrix, submatrix_mul_equiv, submatrix_mul_equiv, coiso_mul hB hD]
  · rw [ex.solve _ _ (posDef_isUnit hp'), transpose_submatrix, submatrix_mul_equiv]

theorem stacked_cancel {I I' : Type} [Fintype I] [DecidableEq I] [Fintype I'] [DecidableEq I'] {N N' q : ℕ}
    (E : I ≃ Fin N) (E' : I' ≃ Fin N') {B : Matrix I I' ℝ} (hB : B * Bᵀ = 1) {K : Type} (f : Fin q → K)
    (G : Matrix I K ℝ) (c : Mat N 1) : ((Bᵀ * G).submatrix E'.symm f)ᵀ * ((B.submatrix E.symm E'.symm)ᵀ * c) =
      (G.submatrix E.symm f)ᵀ * c := by
  rw [← Matrix.mul_assoc, transpose_submatrix, transpose_submatrix, submatrix_mul_equiv, transpose_mul,
    transpose_transpose, Matrix.mul_assoc, hB, Matrix.mul_one, ← transpose_submatrix]

end GPX
