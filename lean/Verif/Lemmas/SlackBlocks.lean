import Verif.Props.JointSlack
import Verif.Props.DerivModels
import Verif.Lemmas.Operations
import Mathlib.Data.Matrix.ColumnRowPartitioned

/-! # Posterior covariances from matrices that are positive semidefinite once a slack is added -/

namespace GPX
open GPX.Spec GPX.Props

variable {m n d v w : ℕ}

/-- A multiple of the identity above the trace dominates. -/
theorem smul_one_sub_posDef {S : Mat m m} (hS : S.PosSemidef) {c : ℝ} (hc : S.trace < c) :
    (c • (1 : Mat m m) - S).PosDef := by
  refine Matrix.posDef_iff_dotProduct_mulVec.2 ⟨?_, fun {z} hz => ?_⟩
  · refine Matrix.IsHermitian.sub ?_ hS.1
    exact (Matrix.PosSemidef.one.1 : (1 : Mat m m).IsHermitian).smul (IsSelfAdjoint.all c)
  · have h := quad_le_trace hS z
    have hz2 : 0 < ∑ i, z i ^ 2 := by
      obtain ⟨i, hi⟩ := Function.ne_iff.1 hz
      exact lt_of_lt_of_le (by have : z i ≠ 0 := hi; positivity)
        (Finset.single_le_sum (f := fun i => z i ^ 2) (fun j _ => sq_nonneg _) (Finset.mem_univ i))
    have e : dotProduct (star z) ((c • (1 : Mat m m) - S).mulVec z) =
        c * ∑ i, z i ^ 2 - ∑ i, ∑ j, z i * S i j * z j := by
      rw [Matrix.sub_mulVec, dotProduct_sub, Matrix.smul_mulVec, Matrix.one_mulVec, dotProduct_smul]
      congr 1
      · simp only [dotProduct, star_trivial, smul_eq_mul, pow_two]
      · simp only [dotProduct, star_trivial, Matrix.mulVec, Finset.mul_sum, mul_assoc]
    rw [e]
    nlinarith

theorem psd_topLeft {A : Mat m m} (h : A.PosSemidef) :
    (Matrix.fromBlocks A (0 : Mat m n) (0 : Mat n m) (0 : Mat n n)).PosSemidef := by
  have e : Matrix.fromBlocks A (0 : Mat m n) (0 : Mat n m) (0 : Mat n n) =
      (Matrix.fromCols (1 : Mat m m) (0 : Mat m n)).transpose * A * Matrix.fromCols (1 : Mat m m) (0 : Mat m n) := by
    rw [Matrix.transpose_fromCols, Matrix.fromRows_mul, Matrix.fromRows_mul_fromCols]
    simp
  rw [e, ← Matrix.conjTranspose_eq_transpose_of_trivial]
  exact h.conjTranspose_mul_mul_same _

theorem psd_flip {A : Mat m m} {B : Mat m n} {D : Mat n n} (h : (Matrix.fromBlocks A B B.transpose D).PosSemidef) :
    (Matrix.fromBlocks A (-B) (-B).transpose D).PosSemidef := by
  have e : Matrix.fromBlocks A (-B) (-B).transpose D =
      (Matrix.fromBlocks (1 : Mat m m) 0 0 (-1 : Mat n n)).conjTranspose * Matrix.fromBlocks A B B.transpose D *
        Matrix.fromBlocks (1 : Mat m m) 0 0 (-1 : Mat n n) := by
    rw [Matrix.fromBlocks_conjTranspose, Matrix.fromBlocks_multiply, Matrix.fromBlocks_multiply]
    simp
  rw [e]
  exact h.conjTranspose_mul_mul_same _

theorem trace_nonneg' {S : Mat m m} (h : S.PosSemidef) : 0 ≤ S.trace :=
  Finset.sum_nonneg fun _ _ => h.diag_nonneg

theorem slack_system {K S : Mat m m} (hK : (K + S).PosSemidef) (hS : S.PosSemidef) {c : ℝ} (hc : S.trace < c) :
    (K + c • (1 : Mat m m)).PosDef := by
  have e : K + c • (1 : Mat m m) = (c • (1 : Mat m m) - S) + (K + S) := by abel
  rw [e]
  exact (smul_one_sub_posDef hS hc).add_posSemidef hK

/-- The slack on both blocks. -/
theorem slack_blocks {K : Mat m m} {B : Mat m n} {D : Mat n n} {S1 : Mat m m} {S2 : Mat m n} {S3 : Mat n n}
    (hK : (Matrix.fromBlocks (K + S1) (B + S2) (B + S2).transpose (D + S3)).PosSemidef)
    (hS : (Matrix.fromBlocks S1 S2 S2.transpose S3).PosSemidef) {c : ℝ} (hc : 2 * S1.trace < c) :
    (K + c • (1 : Mat m m)).PosDef ∧
      (D + (2 : ℝ) • S3 - B.transpose * (K + c • (1 : Mat m m))⁻¹ * B).PosSemidef := by
  have hK1 : (K + S1).PosSemidef := hK.submatrix (Sum.inl : Fin m → _)
  have hS1 : S1.PosSemidef := hS.submatrix (Sum.inl : Fin m → _)
  have hp := slack_system hK1 hS1 (c := c) (by have := trace_nonneg' hS1; linarith)
  refine ⟨hp, schur_psd hp _ _ ?_⟩
  have h2 : (c • (1 : Mat m m) - (2 : ℝ) • S1).PosSemidef :=
    (smul_one_sub_posDef (hS1.smul (by norm_num : (0 : ℝ) ≤ 2)) (by
      rw [Matrix.trace_smul, smul_eq_mul]; exact hc)).posSemidef
  have e : Matrix.fromBlocks (K + c • (1 : Mat m m)) B B.transpose (D + (2 : ℝ) • S3) =
      Matrix.fromBlocks (K + S1) (B + S2) (B + S2).transpose (D + S3) +
        Matrix.fromBlocks S1 (-S2) (-S2).transpose S3 +
        Matrix.fromBlocks (c • (1 : Mat m m) - (2 : ℝ) • S1) (0 : Mat m n) (0 : Mat n m) (0 : Mat n n) := by
    rw [Matrix.fromBlocks_add, Matrix.fromBlocks_add]
    congr 1
    · rw [two_smul]; abel
    · simp
    · simp
    · rw [two_smul]; abel
  rw [e]
  exact (hK.add (psd_flip hS)).add (psd_topLeft h2)

/-- The slack on the first block only. -/
theorem slack_blocks_left {K : Mat m m} {B : Mat m n} {D : Mat n n} {S : Mat m m}
    (hK : (Matrix.fromBlocks (K + S) B B.transpose D).PosSemidef) (hS : S.PosSemidef) {c : ℝ} (hc : S.trace < c) :
    (K + c • (1 : Mat m m)).PosDef ∧ (D - B.transpose * (K + c • (1 : Mat m m))⁻¹ * B).PosSemidef := by
  have hp := slack_system (hK.submatrix (Sum.inl : Fin m → _)) hS hc
  refine ⟨hp, schur_psd hp _ _ ?_⟩
  have e : Matrix.fromBlocks (K + c • (1 : Mat m m)) B B.transpose D =
      Matrix.fromBlocks (K + S) B B.transpose D +
        Matrix.fromBlocks (c • (1 : Mat m m) - S) (0 : Mat m n) (0 : Mat n m) (0 : Mat n n) := by
    rw [Matrix.fromBlocks_add]
    congr 1
    · abel
    · simp
    · simp
    · simp
  rw [e]
  exact hK.add (psd_topLeft (smul_one_sub_posDef hS hc).posSemidef)

/-- The slack between all pairs of derivative observations of two datasets. -/
noncomputable def slackMat (e : KExpr d) (p : KPar) (x1 : Batch m d) (J1 : Jac m d v) (x2 : Batch n d) (J2 : Jac n d w) :
    Mat (m * v) (n * w) :=
  Matrix.of fun r s => slack e p (x1 r.divNat, some fun f => J1 r.divNat f r.modNat)
    (x2 s.divNat, some fun f => J2 s.divNat f s.modNat)

theorem slackMat_trace (e : KExpr d) (p : KPar) (x : Batch m d) (J : Jac m d v) :
    (slackMat e p x J x J).trace = ∑ i, ∑ u, slack e p (x i, some fun f => J i f u) (x i, some fun f => J i f u) := by
  rw [Matrix.trace, sum_flat]
  simp only [Matrix.diag, slackMat, Matrix.of_apply, flat_divNat, flat_modNat]

end GPX
