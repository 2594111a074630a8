import Verif.Lemmas.GPR
import Verif.Spec.Residual
import Mathlib.Algebra.QuadraticDiscriminant

/-! # From residuals to errors -/

namespace GPX
open Matrix Spec

variable {k m n o : ℕ}

theorem psd_quad {K : Mat n n} (hK : K.PosSemidef) (e : Fin n → ℝ) : 0 ≤ ∑ i, ∑ j, e i * K i j * e j := by
  have := hK.dotProduct_mulVec_nonneg e
  simp only [star_trivial, dotProduct, mulVec, Finset.mul_sum] at this
  refine this.trans_eq (Finset.sum_congr rfl fun i _ => Finset.sum_congr rfl fun j _ => by ring)

/-- One column: `(K + s I) e = r`. -/
theorem residual_column {K : Mat n n} (hK : K.PosSemidef) {s : ℝ} (hs : 0 < s) (e r : Fin n → ℝ)
    (h : ∀ i, (∑ j, K i j * e j) + s * e i = r i) :
    s ^ 2 * ∑ i, e i ^ 2 ≤ ∑ i, r i ^ 2 ∧ 4 * s * (∑ i, ∑ j, e i * K i j * e j) ≤ ∑ i, r i ^ 2 := by
  have hq := psd_quad hK e
  have h1 : (∑ i, ∑ j, e i * K i j * e j) + s * ∑ i, e i ^ 2 = ∑ i, e i * r i := by
    rw [Finset.mul_sum, ← Finset.sum_add_distrib]
    refine Finset.sum_congr rfl fun i _ => ?_
    rw [← h i, mul_add, Finset.mul_sum]
    congr 1
    · exact Finset.sum_congr rfl fun j _ => by ring
    · ring
  have h2 : 0 ≤ ∑ i, (r i - s * e i) ^ 2 := Finset.sum_nonneg fun i _ => sq_nonneg _
  have h3 : 0 ≤ ∑ i, (r i - 2 * s * e i) ^ 2 := Finset.sum_nonneg fun i _ => sq_nonneg _
  have e2 : ∑ i, (r i - s * e i) ^ 2 = ∑ i, r i ^ 2 - 2 * s * (∑ i, e i * r i) + s ^ 2 * ∑ i, e i ^ 2 := by
    simp only [Finset.mul_sum, ← Finset.sum_add_distrib, ← Finset.sum_sub_distrib]
    exact Finset.sum_congr rfl fun i _ => by ring
  have e3 : ∑ i, (r i - 2 * s * e i) ^ 2 =
      ∑ i, r i ^ 2 - 4 * s * (∑ i, e i * r i) + 4 * s ^ 2 * ∑ i, e i ^ 2 := by
    simp only [Finset.mul_sum, ← Finset.sum_add_distrib, ← Finset.sum_sub_distrib]
    exact Finset.sum_congr rfl fun i _ => by ring
  rw [e2] at h2
  rw [e3] at h3
  rw [← h1] at h2 h3
  have hsq : 0 ≤ s * ∑ i, ∑ j, e i * K i j * e j := mul_nonneg hs.le hq
  constructor <;> nlinarith

/-- Cauchy-Schwarz for a positive semidefinite block matrix. -/
theorem block_cauchy {K : Mat m m} {B : Mat m n} {D : Mat n n}
    (h : (Matrix.fromBlocks K B B.transpose D).PosSemidef) (e : Fin m → ℝ) (j : Fin n) :
    (∑ i, B i j * e i) ^ 2 ≤ D j j * ∑ i, ∑ i', e i * K i i' * e i' := by
  set q := ∑ i, ∑ i', e i * K i i' * e i'
  set b := ∑ i, B i j * e i
  have hpos : ∀ t : ℝ, 0 ≤ D j j * (t * t) + 2 * b * t + q := by
    intro t
    have := h.dotProduct_mulVec_nonneg (Sum.elim e (Pi.single j t))
    simp only [star_trivial, dotProduct, mulVec, Fintype.sum_sum_type, Matrix.fromBlocks_apply₁₁,
      Matrix.fromBlocks_apply₁₂, Matrix.fromBlocks_apply₂₁, Matrix.fromBlocks_apply₂₂, Sum.elim_inl, Sum.elim_inr,
      Pi.single_apply, mul_ite, mul_zero, ite_mul, zero_mul, Finset.sum_ite_eq', Finset.mem_univ, if_true,
      Matrix.transpose_apply] at this
    refine this.trans_eq ?_
    simp only [mul_add, Finset.sum_add_distrib]
    have a1 : ∑ i, e i * ∑ i', K i i' * e i' = q := by
      refine Finset.sum_congr rfl fun i _ => ?_
      rw [Finset.mul_sum]
      exact Finset.sum_congr rfl fun i' _ => by ring
    have a2 : ∑ i, e i * (B i j * t) = b * t := by
      rw [Finset.sum_mul]
      exact Finset.sum_congr rfl fun i' _ => by ring
    rw [a1, a2]
    ring
  have := discrim_le_zero hpos
  unfold discrim at this
  nlinarith

theorem sumSq_col_le (A : Mat n o) (a : Fin o) : ∑ i, A i a ^ 2 ≤ sumSq A :=
  Finset.sum_le_sum fun i _ => Finset.single_le_sum (f := fun a => A i a ^ 2) (fun _ _ => sq_nonneg _)
    (Finset.mem_univ a)

theorem sumSq_comm (A : Mat n o) : sumSq A = ∑ a, ∑ i, A i a ^ 2 := Finset.sum_comm

theorem sumSq_smul (t : ℝ) (A : Mat n o) : sumSq (t • A) = t ^ 2 * sumSq A := by
  simp only [sumSq, Matrix.smul_apply, smul_eq_mul, mul_pow, Finset.mul_sum]

/-- All columns: if `(K + s I) c = b` and `c'` leaves the residual `b - (K + s I) c'`. -/
theorem residual_bound {K : Mat n n} (hK : K.PosSemidef) {s : ℝ} (hs : 0 < s) {c c' b : Mat n o}
    (h : (K + s • (1 : Mat n n)) * c = b) :
    s ^ 2 * sumSq (c' - c) ≤ sumSq (b - (K + s • (1 : Mat n n)) * c') ∧
    ∀ a, 4 * s * (∑ i, ∑ j, (c' - c) i a * K i j * (c' - c) j a) ≤
      sumSq (b - (K + s • (1 : Mat n n)) * c') := by
  have key : ∀ a i, (∑ j, K i j * (c' - c) j a) + s * (c' - c) i a =
      -(b - (K + s • (1 : Mat n n)) * c') i a := by
    intro a i
    rw [← h, ← Matrix.mul_sub, Matrix.add_mul, Matrix.smul_mul, Matrix.one_mul]
    simp only [Matrix.add_apply, Matrix.mul_apply, Matrix.smul_apply, smul_eq_mul, Matrix.sub_apply, neg_add,
      ← Finset.sum_neg_distrib]
    congr 1
    · exact Finset.sum_congr rfl fun j _ => by ring
    · ring
  have hcol := fun a => residual_column hK hs (fun i => (c' - c) i a) _ (key a)
  simp only [neg_sq] at hcol
  refine ⟨?_, fun a => (hcol a).2.trans (sumSq_col_le _ a)⟩
  rw [sumSq_comm, sumSq_comm, Finset.mul_sum]
  exact Finset.sum_le_sum fun a _ => (hcol a).1

/-- The change of a linear prediction `Bᵀ c`. -/
theorem residual_predict {K : Mat m m} {B : Mat m n} {D : Mat n n}
    (hB : (Matrix.fromBlocks K B B.transpose D).PosSemidef) {s : ℝ} (hs : 0 < s) {c c' b : Mat m o}
    (h : (K + s • (1 : Mat m m)) * c = b) (j : Fin n) (a : Fin o) :
    4 * s * ((B.transpose * c') j a - (B.transpose * c) j a) ^ 2 ≤
      D j j * sumSq (b - (K + s • (1 : Mat m m)) * c') := by
  have hK : K.PosSemidef := by
    have := hB.submatrix (Sum.inl : Fin m → Fin m ⊕ Fin n)
    rwa [show (Matrix.fromBlocks K B B.transpose D).submatrix Sum.inl Sum.inl = K from rfl] at this
  have hD : 0 ≤ D j j := by
    have := hB.diag_nonneg (i := (Sum.inr j : Fin m ⊕ Fin n))
    rwa [Matrix.fromBlocks_apply₂₂] at this
  have h1 := block_cauchy hB (fun i => (c' - c) i a) j
  have h2 := (residual_bound hK hs h (c' := c')).2 a
  have e : (B.transpose * c') j a - (B.transpose * c) j a = ∑ i, B i j * (c' - c) i a := by
    simp only [Matrix.mul_apply, Matrix.transpose_apply, Matrix.sub_apply, mul_sub, Finset.sum_sub_distrib]
  rw [e]
  calc 4 * s * (∑ i, B i j * (c' - c) i a) ^ 2
      ≤ 4 * s * (D j j * ∑ i, ∑ i', (c' - c) i a * K i i' * (c' - c) i' a) :=
        mul_le_mul_of_nonneg_left h1 (by positivity)
    _ = D j j * (4 * s * ∑ i, ∑ i', (c' - c) i a * K i i' * (c' - c) i' a) := by ring
    _ ≤ _ := mul_le_mul_of_nonneg_left h2 hD

theorem CGExact.stops {cg : CG} (h : CGExact cg) (tol atol : ℝ) : CGStops cg tol atol := by
  intro n o A b M hA
  rw [h A b M hA, sub_self]
  refine le_trans ?_ (le_max_right _ _)
  simp only [sumSq, Matrix.zero_apply]
  simpa using sq_nonneg atol

/-- A routine that stops early: it solves for a multiple of the right-hand side. -/
noncomputable def earlyCG (t : ℝ) : CG := fun f b M => t • idealCG f b M

theorem earlyCG_stops {t tol atol : ℝ} (ht : |1 - t| ≤ tol) : CGStops (earlyCG t) tol atol := by
  intro n o A b M hA
  have : b - A * earlyCG t (fun z : Mat n o => A * z) b M = (1 - t) • b := by
    rw [earlyCG, Matrix.mul_smul, idealCG_exact A b M hA, sub_smul, one_smul]
  rw [this, sumSq_smul]
  refine le_trans ?_ (le_max_left _ _)
  refine mul_le_mul_of_nonneg_right ?_ (Finset.sum_nonneg fun i _ => Finset.sum_nonneg fun a _ => sq_nonneg _)
  exact sq_le_sq' (by linarith [(abs_le.1 ht).1]) (by linarith [(abs_le.1 ht).2])

end GPX
