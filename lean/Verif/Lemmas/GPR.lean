import Verif.Lemmas.LinAlg
import Verif.Spec.GPR

/-! # Matrix facts behind the GPR theorems -/

namespace GPX
open Matrix

variable {k m n o : ℕ}

theorem posDef_add_smul_one {K : Mat n n} (hK : K.PosSemidef) {c : ℝ} (hc : 0 < c) :
    (K + c • (1 : Mat n n)).PosDef :=
  ((Matrix.PosDef.one).smul hc).posSemidef_add hK

theorem gram_posSemidef (F : Mat m n) : (F.transpose * F).PosSemidef := by
  rw [← Matrix.conjTranspose_eq_transpose_of_trivial]
  exact Matrix.posSemidef_conjTranspose_mul_self F

theorem gram_posSemidef' (F : Mat m n) : (F * F.transpose).PosSemidef := by
  rw [← Matrix.conjTranspose_eq_transpose_of_trivial]
  exact Matrix.posSemidef_self_mul_conjTranspose F

theorem posDef_transpose {A : Mat n n} (h : A.PosSemidef) : A.transpose = A := by
  have := h.1
  rwa [Matrix.IsHermitian, Matrix.conjTranspose_eq_transpose_of_trivial] at this

theorem psd_sandwich {A : Mat m m} (h : A.PosSemidef) (B : Mat m n) :
    (B.transpose * A * B).PosSemidef := by
  have := h.conjTranspose_mul_mul_same B
  rwa [Matrix.conjTranspose_eq_transpose_of_trivial] at this

theorem schur_psd {A : Mat m m} (hA : A.PosDef) (B : Mat m n) (D : Mat n n)
    (h : (Matrix.fromBlocks A B B.transpose D).PosSemidef) :
    (D - B.transpose * A⁻¹ * B).PosSemidef := by
  have : Invertible A := Matrix.invertibleOfIsUnitDet A (posDef_isUnit hA)
  rw [← Matrix.conjTranspose_eq_transpose_of_trivial] at h ⊢
  exact (Matrix.PosDef.fromBlocks₁₁ B D hA).1 h

/-- Noise added to the first block keeps a block matrix positive semidefinite. -/
theorem blocks_noise {K : Mat m m} {B : Mat m n} {D : Mat n n} {c : ℝ} (hc : 0 ≤ c)
    (h : (Matrix.fromBlocks K B B.transpose D).PosSemidef) :
    (Matrix.fromBlocks (K + c • (1 : Mat m m)) B B.transpose D).PosSemidef := by
  have h2 : (Matrix.fromBlocks (c • (1 : Mat m m)) (0 : Mat m n) (0 : Mat n m) (0 : Mat n n)).PosSemidef := by
    have : Matrix.fromBlocks (c • (1 : Mat m m)) (0 : Mat m n) (0 : Mat n m) (0 : Mat n n) =
        Matrix.diagonal (Sum.elim (fun _ => c) (fun _ => 0)) := by
      rw [← Matrix.fromBlocks_diagonal, ← Matrix.smul_one_eq_diagonal]
      simp
    rw [this, Matrix.posSemidef_diagonal_iff]
    rintro (i | i)
    · exact hc
    · exact le_rfl
  have := h.add h2
  rwa [Matrix.fromBlocks_add, add_zero, add_zero, add_zero] at this

/-- The part of a covariance explained by a subset `f` of the data is at most the part explained by all data. -/
theorem explained_mono {A : Mat m m} (hA : A.PosDef) (B : Mat m n) (f : Fin k → Fin m)
    (hA' : (A.submatrix f f).PosDef) :
    (B.transpose * A⁻¹ * B -
      (B.submatrix f id).transpose * (A.submatrix f f)⁻¹ * B.submatrix f id).PosSemidef := by
  set A1 := A.submatrix f f with hA1
  set B1 := B.submatrix f id with hB1
  set S : Mat m k := (1 : Mat m m).submatrix id f with hS
  have hSA : S.transpose * A * S = A1 := by
    rw [hS, hA1, Matrix.transpose_submatrix, Matrix.transpose_one]
    ext i j
    simp [Matrix.mul_apply, Matrix.one_apply]
  have hSB : S.transpose * B = B1 := by
    rw [hS, hB1, Matrix.transpose_submatrix, Matrix.transpose_one]
    ext i j
    simp [Matrix.mul_apply, Matrix.one_apply]
  have u := posDef_isUnit hA
  have u1 := posDef_isUnit hA'
  have sA : A.transpose = A := posDef_transpose hA.posSemidef
  have sA1 : A1.transpose = A1 := posDef_transpose hA'.posSemidef
  have key : B.transpose * A⁻¹ * B - B1.transpose * A1⁻¹ * B1 =
      (A⁻¹ * B - S * (A1⁻¹ * B1)).transpose * A * (A⁻¹ * B - S * (A1⁻¹ * B1)) := by
    have e1 : (A⁻¹ * B).transpose = B.transpose * A⁻¹ := by
      rw [Matrix.transpose_mul, Matrix.transpose_nonsing_inv, sA]
    have e2 : (S * (A1⁻¹ * B1)).transpose = B1.transpose * A1⁻¹ * S.transpose := by
      rw [Matrix.transpose_mul, Matrix.transpose_mul, Matrix.transpose_nonsing_inv, sA1]
    rw [Matrix.transpose_sub, e1, e2, Matrix.sub_mul, Matrix.sub_mul, Matrix.mul_sub,
      Matrix.mul_sub]
    have c1 : B.transpose * A⁻¹ * A = B.transpose := by
      rw [Matrix.mul_assoc, Matrix.nonsing_inv_mul A u, Matrix.mul_one]
    have c2 : B.transpose * S = B1.transpose := by
      rw [← hSB, Matrix.transpose_mul, Matrix.transpose_transpose]
    have t1 : B.transpose * A⁻¹ * A * (A⁻¹ * B) = B.transpose * A⁻¹ * B := by
      rw [c1, ← Matrix.mul_assoc]
    have t2 : B.transpose * A⁻¹ * A * (S * (A1⁻¹ * B1)) = B1.transpose * A1⁻¹ * B1 := by
      rw [c1, ← Matrix.mul_assoc, c2, ← Matrix.mul_assoc]
    have t3 : B1.transpose * A1⁻¹ * S.transpose * A * (A⁻¹ * B) = B1.transpose * A1⁻¹ * B1 := by
      rw [Matrix.mul_assoc _ A, ← Matrix.mul_assoc A, Matrix.mul_nonsing_inv A u, Matrix.one_mul,
        Matrix.mul_assoc _ S.transpose, hSB]
    have t4 : B1.transpose * A1⁻¹ * S.transpose * A * (S * (A1⁻¹ * B1)) =
        B1.transpose * A1⁻¹ * B1 := by
      have : B1.transpose * A1⁻¹ * S.transpose * A * (S * (A1⁻¹ * B1)) =
          B1.transpose * A1⁻¹ * (S.transpose * A * S) * (A1⁻¹ * B1) := by
        simp only [Matrix.mul_assoc]
      rw [this, hSA, Matrix.mul_assoc _ A1, ← Matrix.mul_assoc A1, Matrix.mul_nonsing_inv A1 u1,
        Matrix.one_mul]
    rw [t1, t2, t3, t4]
    abel
  rw [key]
  exact psd_sandwich hA.posSemidef _

/-- Reordering rows and columns commutes with inversion. -/
theorem inv_submatrix_perm (A : Mat n n) (π : Equiv.Perm (Fin n)) :
    (A.submatrix π π)⁻¹ = A⁻¹.submatrix π π := Matrix.inv_submatrix_equiv A π π

open Classical in
/-- An exact conjugate gradient routine. -/
noncomputable def idealCG : CG := fun {n o} f b _ =>
  if h : ∃ A : Mat n n, A.PosDef ∧ f = fun z : Mat n o => A * z then (h.choose)⁻¹ * b else 0

theorem idealCG_exact : Spec.CGExact idealCG := by
  intro n o A b M hA
  have h : ∃ B : Mat n n, B.PosDef ∧ (fun z : Mat n o => A * z) = fun z : Mat n o => B * z :=
    ⟨A, hA, rfl⟩
  have e : idealCG (fun z : Mat n o => A * z) b M = (h.choose)⁻¹ * b := dif_pos h
  change A * idealCG (fun z : Mat n o => A * z) b M = b
  rw [e]
  obtain ⟨h1, h2⟩ := h.choose_spec
  have := congrFun h2 ((h.choose)⁻¹ * b)
  rw [this, ← Matrix.mul_assoc, Matrix.mul_nonsing_inv _ (posDef_isUnit h1), Matrix.one_mul]

end GPX
