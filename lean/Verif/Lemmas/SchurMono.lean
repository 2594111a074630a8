import Mathlib.Data.Matrix.ColumnRowPartitioned
import Verif.Lemmas.GPR

/-! # Conditional covariances grow with the joint covariance -/

namespace GPX
open Matrix

variable {m n : ℕ}

/-- The conditional covariance is the smallest value of a quadratic form, hence grows with the joint covariance. -/
theorem schur_mono {A A' : Mat m m} (hA : A.PosDef) (hA' : A'.PosDef) (B B' : Mat m n) (D D' : Mat n n)
    (h : (Matrix.fromBlocks (A' - A) (B' - B) (B' - B).transpose (D' - D)).PosSemidef) :
    ((D' - B'.transpose * A'⁻¹ * B') - (D - B.transpose * A⁻¹ * B)).PosSemidef := by
  have u := posDef_isUnit hA
  have u' := posDef_isUnit hA'
  have sA : A⁻¹.transpose = A⁻¹ := by rw [Matrix.transpose_nonsing_inv, posDef_transpose hA.posSemidef]
  have sA' : A'⁻¹.transpose = A'⁻¹ := by rw [Matrix.transpose_nonsing_inv, posDef_transpose hA'.posSemidef]
  set U := A'⁻¹ * B' with hU
  set V := A⁻¹ * B with hV
  have eU : U.transpose = B'.transpose * A'⁻¹ := by rw [hU, Matrix.transpose_mul, sA']
  have eV : V.transpose = B.transpose * A⁻¹ := by rw [hV, Matrix.transpose_mul, sA]
  have aU : A' * U = B' := by rw [hU, Matrix.mul_nonsing_inv_cancel_left _ _ u']
  have aV : A * V = B := by rw [hV, Matrix.mul_nonsing_inv_cancel_left _ _ u]
  have p1 : ((U - V).transpose * A * (U - V)).PosSemidef := psd_sandwich hA.posSemidef _
  have p2 : (U.transpose * (A' - A) * U - U.transpose * (B' - B) - (B' - B).transpose * U + (D' - D)).PosSemidef := by
    have := h.conjTranspose_mul_mul_same (Matrix.fromRows (-U) (1 : Mat n n))
    rw [Matrix.conjTranspose_eq_transpose_of_trivial, Matrix.transpose_fromRows, Matrix.fromCols_mul_fromBlocks,
      Matrix.fromCols_mul_fromRows] at this
    convert this using 1
    simp only [Matrix.transpose_neg, Matrix.transpose_one, Matrix.neg_mul, Matrix.mul_neg, Matrix.one_mul, Matrix.mul_one,
      Matrix.add_mul]
    abel
  have key : (D' - B'.transpose * A'⁻¹ * B') - (D - B.transpose * A⁻¹ * B) =
      (U - V).transpose * A * (U - V) +
        (U.transpose * (A' - A) * U - U.transpose * (B' - B) - (B' - B).transpose * U + (D' - D)) := by
    have f1 : B'.transpose * A'⁻¹ * B' = U.transpose * A' * U := by
      rw [Matrix.mul_assoc U.transpose, aU, eU]
    have f2 : B.transpose * A⁻¹ * B = V.transpose * A * V := by
      rw [Matrix.mul_assoc V.transpose, aV, eV]
    have f3 : B.transpose = V.transpose * A := by
      conv_lhs => rw [← aV, Matrix.transpose_mul, posDef_transpose hA.posSemidef]
    have f4 : B'.transpose = U.transpose * A' := by
      conv_lhs => rw [← aU, Matrix.transpose_mul, posDef_transpose hA'.posSemidef]
    have f5 : U.transpose * (B' - B) = U.transpose * A' * U - U.transpose * A * V := by
      rw [Matrix.mul_assoc, Matrix.mul_assoc, aU, aV, Matrix.mul_sub]
    rw [f1, f2, Matrix.transpose_sub, Matrix.transpose_sub B', f3, f4, f5]
    simp only [Matrix.sub_mul, Matrix.mul_sub]
    abel
  rw [key]
  exact p1.add p2

/-- The same with noise on the observations: neither a larger prior covariance nor more noise lowers the conditional
covariance. -/
theorem posterior_mono {K K' : Mat m m} {B B' : Mat m n} {D D' : Mat n n} {s s' : ℝ} (hs : 0 < s) (hs' : s ≤ s')
    (h : K.PosSemidef)
    (hd : (Matrix.fromBlocks (K' - K) (B' - B) (B' - B).transpose (D' - D)).PosSemidef) :
    ((D' - B'.transpose * (K' + s' • (1 : Mat m m))⁻¹ * B') -
      (D - B.transpose * (K + s • (1 : Mat m m))⁻¹ * B)).PosSemidef := by
  have hK' : K'.PosSemidef := by
    have := h.add (hd.submatrix (Sum.inl : Fin m → _))
    convert this using 1
    ext i j
    simp
  refine schur_mono (posDef_add_smul_one h hs) (posDef_add_smul_one hK' (hs.trans_le hs')) _ _ _ _ ?_
  have e : K' + s' • (1 : Mat m m) - (K + s • (1 : Mat m m)) = (K' - K) + (s' - s) • (1 : Mat m m) := by
    rw [sub_smul]; abel
  rw [e]
  exact blocks_noise (sub_nonneg.2 hs') hd

end GPX
