import Verif.Model.SGPR
import Verif.Props.GPR

/-! # Matrix-free products of the sparse models -/

namespace GPX
open GPX.Spec GPX.Props

variable {d m n o v w : ℕ}

theorem cast_one_divNat (b : Fin m) : (Fin.cast (one_mul m).symm b).modNat = b := by
  apply Fin.ext; simp [Fin.modNat, Nat.mod_eq_of_lt b.isLt]

theorem k_col {κ : KernelObj d} {p : KPar} (h : SampleWise κ p) (x1 : Batch m d) (x2 : Batch n d)
    (i : Fin m) (j : Fin n) (q : Fin 1) :
    κ.k p x1 (recoverFirstAxis (x2 j)) i q = κ.k p x1 x2 i j :=
  h.k x1 x2 id (fun _ : Fin 1 => j) i q

theorem d01kj_col {κ : KernelObj d} {p : KPar} (h : SampleWise κ p) (x1 : Batch m d) (x2 : Batch n d)
    (J1 : Jac m d v) (J2 : Jac n d w) (r : Fin (m * v)) (j : Fin n) (q : Fin 1) (t : Fin w) :
    κ.d01kj p x1 (recoverFirstAxis (x2 j)) J1 (recoverFirstAxis (J2 j)) r (flat q t) =
      κ.d01kj p x1 x2 J1 J2 r (flat j t) := by
  obtain ⟨i, u, rfl⟩ := flat_surj r
  exact h.d01kj x1 x2 J1 J2 id (fun _ : Fin 1 => j) i u q t

/-- The column of the `(1, m)` row computed from the sample `b`. -/
theorem sgprAxLhs_eq {κ : KernelObj d} (θ : GPParams) (h : SampleWise κ θ.kernelParams)
    (hs : Symmetric κ θ.kernelParams) (x1 : Batch m d) (x2 : Batch n d) (z : Mat m o) :
    sgprAxLhs θ κ x1 x2 z = (sgprALhs θ κ x1 x2).1 * z := by
  ext i c
  simp only [sgprAxLhs, dropOne, Matrix.submatrix_apply, cast_flat_one, id]
  rw [rowfunToMatvec_some' (mul_one m).symm]
  simp only [sgprALhs]
  rw [Matrix.add_mul, Matrix.add_apply, smul_one_mul, Matrix.mul_apply, ← cast_flat_one]
  congr 1
  refine Finset.sum_congr rfl fun b _ => ?_
  simp only [reshapeCols, cast_one_divNat, k_row h x1, k_col h x2 x1, Matrix.add_apply,
    Matrix.smul_apply, Matrix.mul_apply, Matrix.of_apply, Matrix.transpose_apply, smul_eq_mul]
  congr 2
  · exact mul_comm _ _
  · refine Finset.sum_congr rfl fun j _ => ?_
    rw [hs.k x2 x1]

theorem sgprAxRhs_eq {κ : KernelObj d} (θ : GPParams) (h : SampleWise κ θ.kernelParams)
    (x1 : Batch m d) (x2 : Batch n d) (z : Mat n o) :
    sgprAxRhs θ κ x1 x2 z = Matrix.of (κ.k θ.kernelParams x1 x2) * z :=
  (axLhsFun_eq θ h).1 x1 x2 z

theorem sgprAxDerivsRhs_eq {κ : KernelObj d} (θ : GPParams) (h : SampleWise κ θ.kernelParams)
    (x1 : Batch m d) (J1 : Jac m d v) (x2 : Batch n d) (J2 : Jac n d w) (z : Mat (n * w) o) :
    sgprAxDerivsRhs θ κ x1 J1 x2 J2 z = Matrix.of (κ.d01kj θ.kernelParams x1 x2 J1 J2) * z :=
  (axDerivsLhsFun_eq θ h).1 x1 J1 x2 J2 z

/-- The column read at position `s` of the reshaped row: sample `s % m`, component `s / m`. -/
def scramble (s : Fin (m * v)) : Fin (m * v) :=
  flat (Fin.cast (by rw [one_mul, Nat.mul_comm]) s : Fin ((1 * v) * m)).modNat
    (Fin.cast (one_mul v) (Fin.cast (by rw [one_mul, Nat.mul_comm]) s : Fin ((1 * v) * m)).divNat)

theorem scramble_val (s : Fin (m * v)) : (scramble s).val = (s.val % m) * v + s.val / m := rfl

theorem scramble_one (h : v = 1 ∨ m = 1) (s : Fin (m * v)) : scramble s = s := by
  apply Fin.ext
  rw [scramble_val]
  rcases h with rfl | rfl
  · have : s.val < m := lt_of_lt_of_eq s.isLt (mul_one m)
    rw [mul_one, Nat.mod_eq_of_lt this, Nat.div_eq_of_lt this, add_zero]
  · rw [Nat.mod_one, Nat.div_one, zero_mul, zero_add]

theorem flat_cast_one (q : Fin (1 * v)) : q = flat (0 : Fin 1) (Fin.cast (one_mul v) q) := by
  apply Fin.ext; simp [flat]

theorem sgprAxDerivsLhs_apply {κ : KernelObj d} (θ : GPParams) (h : SampleWise κ θ.kernelParams)
    (hs : Symmetric κ θ.kernelParams) (x1 : Batch m d) (J1 : Jac m d v) (x2 : Batch n d)
    (J2 : Jac n d w) (z : Mat (m * v) o) :
    sgprAxDerivsLhs θ κ x1 J1 x2 J2 z =
      (θ.sigma ^ 2 • Matrix.of (κ.d01kj θ.kernelParams x1 x1 J1 J1) +
        ((Matrix.of (κ.d01kj θ.kernelParams x1 x2 J1 J2) : Mat (m * v) (n * w)) *
          (Matrix.of (κ.d01kj θ.kernelParams x1 x2 J1 J2) : Mat (m * v) (n * w)).transpose).submatrix
            id scramble + noiseJitter • (1 : Mat (m * v) (m * v))) * z := by
  ext r c
  obtain ⟨i, u, rfl⟩ := flat_surj r
  simp only [sgprAxDerivsLhs, dropMid, Matrix.submatrix_apply, cast_flat_mul, id]
  rw [rowfunToMatvec_some' (by rw [one_mul])]
  rw [Matrix.add_mul, Matrix.add_apply, smul_one_mul, Matrix.mul_apply,
    ← cast_flat_mul i u (by rw [one_mul])]
  congr 1
  refine Finset.sum_congr rfl fun b _ => ?_
  simp only [Matrix.add_apply, Matrix.smul_apply, Matrix.of_apply, smul_eq_mul,
    Matrix.submatrix_apply, id, d01kj_row h x1]
  congr 2
  · exact mul_comm _ _
  · simp only [reshapeCols, Matrix.mul_apply, Matrix.of_apply, Matrix.transpose_apply, d01kj_row h x1]
    refine Finset.sum_congr rfl fun j _ => ?_
    congr 1
    rw [flat_cast_one (Fin.divNat _), d01kj_col h x2 x1, hs.d01kj]
    rfl

/-- `K_nm (K_mm + 1e-10)⁻¹ K_mn` plus the noise. -/
theorem sgprHx_eq {la : LinAlg} {κ : KernelObj d} (θ : GPParams) (h : SampleWise κ θ.kernelParams)
    (hs : Symmetric κ θ.kernelParams) (x1 : Batch m d) (x2 : Batch n d) (z : Mat n o) :
    sgprHx la θ κ x1 x2 z =
      ((Matrix.of (κ.k θ.kernelParams x1 x2) : Mat m n).transpose *
        la.inv (Matrix.of (κ.k θ.kernelParams x1 x1) + noiseJitter • (1 : Mat m m)) *
        Matrix.of (κ.k θ.kernelParams x1 x2) + θ.noise • (1 : Mat n n)) * z := by
  ext i c
  simp only [sgprHx, dropOne, Matrix.submatrix_apply, cast_flat_one, id]
  rw [rowfunToMatvec_some' (mul_one n).symm]
  rw [Matrix.add_mul, Matrix.add_apply, smul_one_mul, Matrix.mul_apply, ← cast_flat_one]
  congr 1
  refine Finset.sum_congr rfl fun b _ => ?_
  congr 1
  simp only [reshapeCols, cast_one_divNat]
  rw [Matrix.mul_apply, Matrix.mul_apply]
  refine Finset.sum_congr rfl fun a _ => ?_
  congr 1
  · rw [Matrix.mul_apply, Matrix.mul_apply]
    refine Finset.sum_congr rfl fun j _ => ?_
    rw [Matrix.of_apply, k_row h x2, hs.k x2 x1]
    rfl
  · exact k_col h x1 x2 a b _

theorem sgprHxDerivs_apply {la : LinAlg} {κ : KernelObj d} (θ : GPParams) (h : SampleWise κ θ.kernelParams)
    (hs : Symmetric κ θ.kernelParams) (x1 : Batch m d) (J1 : Jac m d v) (x2 : Batch n d)
    (J2 : Jac n d v) (z : Mat (n * v) o) :
    sgprHxDerivs la θ κ x1 J1 x2 J2 z =
      (((Matrix.of (κ.d01kj θ.kernelParams x1 x2 J1 J2) : Mat (m * v) (n * v)).transpose *
        la.inv (Matrix.of (κ.d01kj θ.kernelParams x1 x1 J1 J1) + noiseJitter • (1 : Mat (m * v) (m * v))) *
        Matrix.of (κ.d01kj θ.kernelParams x1 x2 J1 J2)).submatrix id scramble +
          θ.noise • (1 : Mat (n * v) (n * v))) * z := by
  ext r c
  obtain ⟨i, u, rfl⟩ := flat_surj r
  simp only [sgprHxDerivs, dropMid, Matrix.submatrix_apply, cast_flat_mul, id]
  rw [rowfunToMatvec_some' (by rw [one_mul])]
  rw [Matrix.add_mul, Matrix.add_apply, smul_one_mul, Matrix.mul_apply,
    ← cast_flat_mul i u (by rw [one_mul])]
  congr 1
  refine Finset.sum_congr rfl fun b _ => ?_
  congr 1
  simp only [reshapeCols, Matrix.submatrix_apply, id]
  rw [Matrix.mul_apply, Matrix.mul_apply]
  refine Finset.sum_congr rfl fun a _ => ?_
  congr 1
  · rw [Matrix.mul_apply, Matrix.mul_apply]
    refine Finset.sum_congr rfl fun j _ => ?_
    rw [Matrix.of_apply, d01kj_row h x2, hs.d01kj x2 x1]
    rfl
  · rw [Matrix.of_apply, flat_cast_one (Fin.divNat _), d01kj_col h x1 x2]
    rfl

end GPX
