import Verif.Model.LinAlg
import Mathlib.Analysis.Matrix.LDL
import Mathlib.Analysis.Matrix.Spectrum
import Mathlib.Analysis.Matrix.PosDef
import Mathlib.LinearAlgebra.Matrix.Block
import Mathlib.Algebra.Order.Star.Real
import Mathlib.Analysis.SpecialFunctions.Log.Basic

/-!
# Routines satisfying `LinAlg.Exact` exist
-/

namespace GPX
open Matrix

variable {n m o : ℕ}

theorem LowerTri.block {L : Mat n n} (h : LowerTri L) : L.BlockTriangular OrderDual.toDual :=
  fun i j hij => h i j hij

theorem LowerTri.of_block {L : Mat n n} (h : L.BlockTriangular OrderDual.toDual) : LowerTri L :=
  fun i j hij => h (show OrderDual.toDual j < OrderDual.toDual i from hij)

theorem LowerTri.det {L : Mat n n} (h : LowerTri L) : L.det = ∏ i, L i i :=
  Matrix.det_of_isLowerTriangular L h.block

theorem LowerTri.isUnit_det {L : Mat n n} (h : LowerTri L) (hd : ∀ i, L i i ≠ 0) : IsUnit L.det := by
  rw [h.det, isUnit_iff_ne_zero]
  exact Finset.prod_ne_zero_iff.2 fun i _ => hd i

/-- Every positive definite matrix has a Cholesky factor. -/
theorem exists_cholesky (A : Mat n n) (hA : A.PosDef) :
    ∃ L : Mat n n, LowerTri L ∧ (∀ i, 0 < L i i) ∧ L * L.transpose = A := by
  set M := LDL.lowerInv hA with hM
  have htri : LowerTri M := fun i j hij => LDL.lowerInv_triangular hA hij
  have hdet : IsUnit M.det := by
    have : Invertible M := by rw [hM]; infer_instance
    exact M.isUnit_det_of_invertible
  set B := LDL.lower hA with hB
  have hBM : B = M⁻¹ := rfl
  have : Invertible M := by rw [hM]; infer_instance
  have htB : LowerTri B := by
    rw [hBM]
    exact LowerTri.of_block (Matrix.blockTriangular_inv_of_blockTriangular htri.block)
  have hdetB : IsUnit B.det := by
    rw [hBM]
    exact (Matrix.isUnit_nonsing_inv_det_iff).2 hdet
  have hBne : ∀ i, B i i ≠ 0 := by
    rw [htB.det, isUnit_iff_ne_zero] at hdetB
    exact fun i => Finset.prod_ne_zero_iff.1 hdetB i (Finset.mem_univ i)
  have hconj := LDL.lower_conj_diag hA
  have hD : LDL.diag hA = Matrix.diagonal (LDL.diagEntries hA) := rfl
  have hpos : ∀ i, 0 < LDL.diagEntries hA i := by
    have h1 : (LDL.diag hA).PosDef := by
      rw [LDL.diag_eq_lowerInv_conj]
      have := hA.conjTranspose_mul_mul_same (B := (LDL.lowerInv hA)ᴴ) (by
        rw [Matrix.mulVec_injective_iff_isUnit]
        exact (Matrix.isUnit_iff_isUnit_det _).2 (by
          rw [Matrix.det_conjTranspose]; simpa using hdet))
      simpa using this
    rw [hD] at h1
    exact Matrix.posDef_diagonal_iff.1 h1
  refine ⟨B * Matrix.diagonal (fun i => Real.sqrt (LDL.diagEntries hA i) * SignType.sign (B i i)), ?_, ?_, ?_⟩
  · intro i j hij
    rw [Matrix.mul_diagonal, htB i j hij, zero_mul]
  · intro i
    rw [Matrix.mul_diagonal]
    have h1 : 0 < Real.sqrt (LDL.diagEntries hA i) := Real.sqrt_pos.2 (hpos i)
    rcases lt_or_gt_of_ne (hBne i) with h | h
    · rw [sign_neg h]; simp; nlinarith
    · rw [sign_pos h]; simp; positivity
  · have hBA : B * LDL.diag hA * Bᴴ = A := hconj
    rw [Matrix.transpose_mul, Matrix.diagonal_transpose, ← Matrix.mul_assoc,
      Matrix.mul_assoc B, Matrix.diagonal_mul_diagonal]
    rw [hD] at hBA
    refine Eq.trans ?_ hBA
    congr 2
    congr 1
    funext i
    have h2 : ((SignType.sign (B i i) : SignType) : ℝ) * (SignType.sign (B i i) : SignType) = 1 := by
      rcases lt_or_gt_of_ne (hBne i) with h | h
      · rw [sign_neg h]; simp
      · rw [sign_pos h]; simp
    calc _ = Real.sqrt (LDL.diagEntries hA i) * Real.sqrt (LDL.diagEntries hA i) *
        (((SignType.sign (B i i) : SignType) : ℝ) * (SignType.sign (B i i) : SignType)) := by ring
      _ = _ := by rw [h2, Real.mul_self_sqrt (hpos i).le, mul_one]

/-- Spectral theorem over the reals, with matrices only. -/
theorem exists_spectral (H : Mat n n) (hH : H.IsHermitian) :
    ∃ (V : Mat n n) (l : Fin n → ℝ), V.transpose * V = 1 ∧ V * V.transpose = 1 ∧
      V.transpose * H * V = Matrix.diagonal l := by
  refine ⟨(hH.eigenvectorUnitary : Mat n n), hH.eigenvalues, ?_, ?_, ?_⟩
  · have := Unitary.coe_star_mul_self hH.eigenvectorUnitary
    rwa [Matrix.star_eq_conjTranspose, Matrix.conjTranspose_eq_transpose_of_trivial] at this
  · have := Unitary.coe_mul_star_self hH.eigenvectorUnitary
    rwa [Unitary.coe_star, Matrix.star_eq_conjTranspose, Matrix.conjTranspose_eq_transpose_of_trivial] at this
  · have := hH.conjStarAlgAut_star_eigenvectorUnitary
    rw [Unitary.conjStarAlgAut_star_apply, Matrix.star_eq_conjTranspose,
      Matrix.conjTranspose_eq_transpose_of_trivial] at this
    exact this

/-- Every real matrix with at least as many rows as columns has a thin singular value decomposition. -/
theorem exists_svd (A : Mat m n) (hnm : n ≤ m) :
    ∃ (U : Mat m n) (s : Fin n → ℝ) (Vt : Mat n n), U * Matrix.diagonal s * Vt = A ∧
      U.transpose * U = 1 ∧ Vt * Vt.transpose = 1 ∧ ∀ i, 0 ≤ s i := by
  obtain ⟨V, l, hV1, hV2, hV⟩ := exists_spectral (A.transpose * A) (by
    rw [Matrix.IsHermitian, Matrix.conjTranspose_eq_transpose_of_trivial, Matrix.transpose_mul,
      Matrix.transpose_transpose])
  set W : Mat m n := A * V with hW
  have hWW : W.transpose * W = Matrix.diagonal l := by
    rw [hW, Matrix.transpose_mul, ← hV]
    simp only [Matrix.mul_assoc]
  have hdot : ∀ i j, ∑ k, W k i * W k j = if i = j then l i else 0 := by
    intro i j
    have := congrFun (congrFun hWW i) j
    rw [Matrix.mul_apply, Matrix.diagonal_apply] at this
    exact this
  have hl : ∀ i, 0 ≤ l i := by
    intro i
    have := hdot i i
    rw [if_pos rfl] at this
    rw [← this]
    exact Finset.sum_nonneg fun k _ => mul_self_nonneg _
  let w : Fin m → EuclideanSpace ℝ (Fin m) := fun i =>
    if h : i.val < n then WithLp.toLp 2 (fun k => W k ⟨i.val, h⟩ / Real.sqrt (l ⟨i.val, h⟩)) else 0
  let S : Set (Fin m) := {i | ∃ h : i.val < n, l ⟨i.val, h⟩ ≠ 0}
  have hon : Orthonormal ℝ (S.domRestrict w) := by
    rw [orthonormal_iff_ite]
    rintro ⟨i, hi, hli⟩ ⟨j, hj, hlj⟩
    have e1 : w i = WithLp.toLp 2 (fun k => W k ⟨i.val, hi⟩ / Real.sqrt (l ⟨i.val, hi⟩)) := dif_pos hi
    have e2 : w j = WithLp.toLp 2 (fun k => W k ⟨j.val, hj⟩ / Real.sqrt (l ⟨j.val, hj⟩)) := dif_pos hj
    simp only [Set.domRestrict_apply, e1, e2]
    rw [EuclideanSpace.inner_eq_star_dotProduct]
    simp only [star_trivial, dotProduct]
    have h3 := hdot ⟨j.val, hj⟩ ⟨i.val, hi⟩
    have h4 : ∑ k, W k ⟨j.val, hj⟩ / Real.sqrt (l ⟨j.val, hj⟩) * (W k ⟨i.val, hi⟩ / Real.sqrt (l ⟨i.val, hi⟩)) =
        (∑ k, W k ⟨j.val, hj⟩ * W k ⟨i.val, hi⟩) / (Real.sqrt (l ⟨j.val, hj⟩) * Real.sqrt (l ⟨i.val, hi⟩)) := by
      rw [Finset.sum_div]
      exact Finset.sum_congr rfl fun k _ => by rw [div_mul_div_comm]
    rw [h4, h3]
    by_cases hij : i = j
    · subst hij
      have hp : l ⟨i.val, hi⟩ ≠ 0 := hli
      simp [Real.mul_self_sqrt (hl ⟨i.val, hi⟩), hp]
    · have : ¬ ((⟨j.val, hj⟩ : Fin n) = ⟨i.val, hi⟩) := by
        intro h; exact hij (Fin.ext (Fin.mk.inj_iff.1 h).symm)
      simp [this, hij]
  obtain ⟨b, hb⟩ := hon.exists_orthonormalBasis_extension_of_card_eq (by simp)
  have hcast : ∀ j : Fin n, (Fin.castLE hnm j).val < n := fun j => j.isLt
  set U : Mat m n := Matrix.of fun k j => b (Fin.castLE hnm j) k with hU
  refine ⟨U, fun j => Real.sqrt (l j), V.transpose, ?_, ?_, ?_, fun _ => Real.sqrt_nonneg _⟩
  · have hUW : U * Matrix.diagonal (fun j => Real.sqrt (l j)) = W := by
      ext k j
      rw [Matrix.mul_diagonal, hU, Matrix.of_apply]
      by_cases h0 : l j = 0
      · have h1 := hdot j j
        rw [if_pos rfl, h0] at h1
        have h2 := (Finset.sum_eq_zero_iff_of_nonneg (fun k _ => mul_self_nonneg (W k j))).1 h1 k
          (Finset.mem_univ k)
        rw [h0, Real.sqrt_zero, mul_zero]
        exact (mul_self_eq_zero.1 h2).symm
      · have h1 := hb (Fin.castLE hnm j) ⟨hcast j, h0⟩
        rw [h1]
        have e1 : w (Fin.castLE hnm j) = WithLp.toLp 2 (fun k => W k j / Real.sqrt (l j)) := dif_pos (hcast j)
        rw [e1]
        have hs : Real.sqrt (l j) ≠ 0 := Real.sqrt_ne_zero'.2 (lt_of_le_of_ne (hl j) (Ne.symm h0))
        exact div_mul_cancel₀ _ hs
    rw [hUW, hW, Matrix.mul_assoc, hV2, Matrix.mul_one]
  · ext i j
    rw [Matrix.mul_apply, Matrix.one_apply]
    have h1 := orthonormal_iff_ite.1 b.orthonormal (Fin.castLE hnm j) (Fin.castLE hnm i)
    rw [EuclideanSpace.inner_eq_star_dotProduct] at h1
    simp only [star_trivial, dotProduct] at h1
    simp only [Matrix.transpose_apply, hU, Matrix.of_apply]
    rw [h1]
    by_cases hij : i = j
    · simp [hij]
    · rw [if_neg hij, if_neg]
      intro h
      exact hij (Fin.castLE_injective hnm h).symm
  · rw [Matrix.transpose_transpose, hV1]

open Classical in
/-- Routines meeting the contract. -/
noncomputable def LinAlg.ideal : LinAlg where
  solve A b := A⁻¹ * b
  inv A := A⁻¹
  cholesky A := if h : A.PosDef then (exists_cholesky A h).choose else 0
  solveLower L b := L⁻¹ * b
  svd A := if h : _ ≤ _ then
    ((exists_svd A h).choose, (exists_svd A h).choose_spec.choose,
      (exists_svd A h).choose_spec.choose_spec.choose) else (0, 0, 0)

theorem LinAlg.ideal_exact : LinAlg.ideal.Exact where
  solve A b h := by
    show A * (A⁻¹ * b) = b
    rw [← Matrix.mul_assoc, Matrix.mul_nonsing_inv A h, Matrix.one_mul]
  inv A h := Matrix.mul_nonsing_inv A h
  cholesky A h := by
    have e : LinAlg.ideal.cholesky A = (exists_cholesky A h).choose := dif_pos h
    rw [e]
    exact (exists_cholesky A h).choose_spec
  solveLower L b h hd := by
    show L * (L⁻¹ * b) = b
    rw [← Matrix.mul_assoc, Matrix.mul_nonsing_inv L (h.isUnit_det hd), Matrix.one_mul]
  svd A h := by
    have e : LinAlg.ideal.svd A = ((exists_svd A h).choose, (exists_svd A h).choose_spec.choose,
      (exists_svd A h).choose_spec.choose_spec.choose) := dif_pos h
    rw [e]
    exact (exists_svd A h).choose_spec.choose_spec.choose_spec

/-! ## Consequences of the contract -/

variable {la : LinAlg}

/-- A solution of a regular system is unique. -/
theorem solve_unique {A : Mat n n} (hA : IsUnit A.det) {b c c' : Mat n o} (h : A * c = b)
    (h' : A * c' = b) : c = c' := by
  have := congrArg (fun z : Mat n o => A⁻¹ * z) (h.trans h'.symm)
  simpa [← Matrix.mul_assoc, Matrix.nonsing_inv_mul A hA] using this

theorem LinAlg.Exact.solve_eq (ex : la.Exact) {A : Mat n n} (hA : IsUnit A.det) (b : Mat n o) :
    la.solve A b = A⁻¹ * b :=
  solve_unique hA (ex.solve A b hA) (by
    rw [← Matrix.mul_assoc, Matrix.mul_nonsing_inv A hA, Matrix.one_mul])

theorem LinAlg.Exact.inv_eq (ex : la.Exact) {A : Mat n n} (hA : IsUnit A.det) : la.inv A = A⁻¹ :=
  solve_unique hA (ex.inv A hA) (Matrix.mul_nonsing_inv A hA)

theorem posDef_isUnit {A : Mat n n} (h : A.PosDef) : IsUnit A.det :=
  isUnit_iff_ne_zero.2 h.det_pos.ne'

/-- `G = L⁻¹ B` for the Cholesky factor `L` of `A` gives `Gᵀ G = Bᵀ A⁻¹ B`. -/
theorem LinAlg.Exact.gram (ex : la.Exact) {A : Mat n n} (hA : A.PosDef) (B : Mat n o) :
    (la.solveLower (la.cholesky A) B).transpose * la.solveLower (la.cholesky A) B =
      B.transpose * A⁻¹ * B := by
  obtain ⟨h1, h2, h3⟩ := ex.cholesky A hA
  have hu := h1.isUnit_det fun i => (h2 i).ne'
  have hs := ex.solveLower (la.cholesky A) B h1 fun i => (h2 i).ne'
  set L := la.cholesky A
  set G := la.solveLower L B
  have hG : G = L⁻¹ * B := solve_unique hu hs (by
    rw [← Matrix.mul_assoc, Matrix.mul_nonsing_inv L hu, Matrix.one_mul])
  rw [hG, Matrix.transpose_mul, ← h3, Matrix.mul_inv_rev, Matrix.transpose_nonsing_inv]
  simp only [Matrix.mul_assoc]

/-- The sum of the logarithms of the diagonal of the Cholesky factor is half the log determinant. -/
theorem LinAlg.Exact.logdet (ex : la.Exact) {A : Mat n n} (hA : A.PosDef) :
    ∑ i, Real.log (la.cholesky A i i) = 1 / 2 * Real.log A.det := by
  obtain ⟨h1, h2, h3⟩ := ex.cholesky A hA
  have hdet : A.det = (∏ i, la.cholesky A i i) ^ 2 := by
    conv_lhs => rw [← h3]
    rw [Matrix.det_mul, Matrix.det_transpose, h1.det, sq]
  rw [hdet, Real.log_pow, Real.log_prod (fun i _ => (h2 i).ne')]
  push_cast
  ring

end GPX
