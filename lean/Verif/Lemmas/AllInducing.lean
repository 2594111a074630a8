import Verif.Lemmas.Residual

/-! # The sparse system with all samples as inducing points, against the full system -/

namespace GPX
open Matrix Spec

variable {n o : ℕ}

theorem all_inducing_system {K : Mat n n} (hK : K.transpose = K) {s2 ε : ℝ} {C C' R : Mat n o}
    (hc : (s2 • K + K * K.transpose + ε • (1 : Mat n n)) * C = K * R)
    (hc' : (K + (s2 + ε) • (1 : Mat n n)) * C' = R) :
    s2 • (K * (C - C')) + K * (K * (C - C')) + ε • (C - C') = ε • (K * C' - C') := by
  rw [hK] at hc
  rw [← hc'] at hc
  simp only [Matrix.add_mul, Matrix.mul_add, Matrix.smul_mul, Matrix.mul_smul, Matrix.one_mul, Matrix.mul_sub, smul_sub,
    add_smul, Matrix.mul_assoc] at hc ⊢
  have := sub_eq_zero.mpr hc
  rw [← sub_eq_zero]
  refine Eq.trans ?_ this
  abel

/-- One column. With `δ` the difference of the coefficients: bounds on `|K δ|²` and on `δᵀ K δ`. -/
theorem all_inducing_column {K : Mat n n} (hK : K.PosSemidef) {s2 ε : ℝ} (hs : 0 ≤ s2) (hε : 0 < ε)
    {C C' R : Mat n o} (hc : (s2 • K + K * K.transpose + ε • (1 : Mat n n)) * C = K * R)
    (hc' : (K + (s2 + ε) • (1 : Mat n n)) * C' = R) (a : Fin o) :
    s2 ^ 2 * ∑ i, (∑ j, K i j * (C j a - C' j a)) ^ 2 ≤ ε ^ 2 * ((1 + 1 / (s2 + ε) ^ 2) * ∑ i, R i a ^ 2) ∧
    4 * s2 * ∑ i, ∑ j, (C i a - C' i a) * K i j * (C j a - C' j a) ≤
      ε * ((1 + 1 / (s2 + ε) ^ 2) * ∑ i, R i a ^ 2) := by
  have hsym : K.transpose = K := by
    have := hK.isHermitian.eq
    rwa [Matrix.conjTranspose_eq_transpose_of_trivial] at this
  have hsys := all_inducing_system hsym hc hc'
  set s := s2 + ε with hsdef
  have hspos : 0 < s := by positivity
  let δ : Fin n → ℝ := fun i => C i a - C' i a
  let η : Fin n → ℝ := fun i => ∑ j, K i j * δ j
  let c' : Fin n → ℝ := fun i => C' i a
  let b : Fin n → ℝ := fun i => ∑ j, K i j * c' j
  let h : Fin n → ℝ := fun i => b i - c' i
  have hrow : ∀ i, s2 * η i + (∑ j, K i j * η j) + ε * δ i = ε * h i := fun i => by
    have := congrFun (congrFun hsys i) a
    simpa only [Matrix.add_apply, Matrix.smul_apply, Matrix.mul_apply, Matrix.sub_apply, smul_eq_mul] using this
  have hR : ∀ i, R i a = b i + s * c' i := fun i => by
    have := congrFun (congrFun hc' i) a
    rw [← this, Matrix.add_mul, Matrix.smul_mul, Matrix.one_mul]
    rfl
  have qform : ∀ u w : Fin n → ℝ, ∑ i, u i * (∑ j, K i j * w j) = ∑ i, ∑ j, u i * K i j * w j := fun u w =>
    Finset.sum_congr rfl fun i _ => by
      rw [Finset.mul_sum]
      exact Finset.sum_congr rfl fun j _ => by ring
  have qsym : ∀ u w : Fin n → ℝ, ∑ i, u i * (∑ j, K i j * w j) = ∑ i, (∑ j, K i j * u j) * w i := fun u w => by
    simp only [Finset.mul_sum, Finset.sum_mul]
    rw [Finset.sum_comm]
    refine Finset.sum_congr rfl fun j _ => Finset.sum_congr rfl fun i _ => ?_
    have : K i j = K j i := congrFun (congrFun hsym.symm i) j
    rw [this]; ring
  have q1 : 0 ≤ ∑ i, δ i * η i := by rw [qform]; exact psd_quad hK δ
  have q2 : 0 ≤ ∑ i, η i * (∑ j, K i j * η j) := by rw [qform]; exact psd_quad hK η
  have q3 : 0 ≤ ∑ i, c' i * b i := by rw [qform]; exact psd_quad hK c'
  -- the size of `h`
  have hh : ∑ i, h i ^ 2 ≤ (1 + 1 / s ^ 2) * ∑ i, R i a ^ 2 := by
    have e1 : ∑ i, h i ^ 2 = ∑ i, b i ^ 2 - 2 * (∑ i, c' i * b i) + ∑ i, c' i ^ 2 := by
      simp only [Finset.mul_sum, ← Finset.sum_add_distrib, ← Finset.sum_sub_distrib]
      exact Finset.sum_congr rfl fun i _ => by simp only [h]; ring
    have e2 : ∑ i, R i a ^ 2 = ∑ i, b i ^ 2 + 2 * s * (∑ i, c' i * b i) + s ^ 2 * ∑ i, c' i ^ 2 := by
      simp only [Finset.mul_sum, ← Finset.sum_add_distrib]
      exact Finset.sum_congr rfl fun i _ => by rw [hR]; ring
    have p1 : 0 ≤ ∑ i, b i ^ 2 := Finset.sum_nonneg fun _ _ => sq_nonneg _
    have p2 : 0 ≤ ∑ i, c' i ^ 2 := Finset.sum_nonneg fun _ _ => sq_nonneg _
    have p3 : 0 ≤ s * ∑ i, c' i * b i := mul_nonneg hspos.le q3
    have f1 : ∑ i, b i ^ 2 ≤ ∑ i, R i a ^ 2 := by
      rw [e2]; nlinarith [mul_nonneg (sq_nonneg s) p2]
    have f2 : ∑ i, c' i ^ 2 ≤ 1 / s ^ 2 * ∑ i, R i a ^ 2 := by
      rw [one_div, inv_mul_eq_div, le_div_iff₀ (by positivity), e2]
      nlinarith
    rw [e1, add_mul, one_mul]
    linarith
  set S := (1 + 1 / s ^ 2) * ∑ i, R i a ^ 2
  have d1 : s2 * ∑ i, η i ^ 2 + ∑ i, η i * (∑ j, K i j * η j) + ε * ∑ i, δ i * η i = ε * ∑ i, η i * h i := by
    simp only [Finset.mul_sum (a := s2), Finset.mul_sum (a := ε), ← Finset.sum_add_distrib]
    exact Finset.sum_congr rfl fun i _ => by linear_combination η i * hrow i
  have d2 : s2 * ∑ i, δ i * η i + ∑ i, η i ^ 2 + ε * ∑ i, δ i ^ 2 = ε * ∑ i, δ i * h i := by
    have : ∑ i, η i ^ 2 = ∑ i, δ i * (∑ j, K i j * η j) := by
      rw [qsym]; exact Finset.sum_congr rfl fun i _ => sq _
    rw [this]
    simp only [Finset.mul_sum (a := s2), Finset.mul_sum (a := ε), ← Finset.sum_add_distrib]
    exact Finset.sum_congr rfl fun i _ => by linear_combination δ i * hrow i
  constructor
  · have g : 0 ≤ ∑ i, (s2 * η i - ε * h i) ^ 2 := Finset.sum_nonneg fun _ _ => sq_nonneg _
    have e : ∑ i, (s2 * η i - ε * h i) ^ 2 =
        s2 ^ 2 * ∑ i, η i ^ 2 - 2 * s2 * ε * (∑ i, η i * h i) + ε ^ 2 * ∑ i, h i ^ 2 := by
      simp only [Finset.mul_sum, ← Finset.sum_add_distrib, ← Finset.sum_sub_distrib]
      exact Finset.sum_congr rfl fun i _ => by ring
    rw [e] at g
    have k1 : s2 * (s2 * ∑ i, η i ^ 2) ≤ s2 * (ε * ∑ i, η i * h i) :=
      mul_le_mul_of_nonneg_left (by nlinarith [mul_nonneg hε.le q1]) hs
    have k2 : ε ^ 2 * ∑ i, h i ^ 2 ≤ ε ^ 2 * S := mul_le_mul_of_nonneg_left hh (sq_nonneg _)
    change s2 ^ 2 * ∑ i, η i ^ 2 ≤ ε ^ 2 * S
    nlinarith
  · have g : 0 ≤ ∑ i, (h i - 2 * δ i) ^ 2 := Finset.sum_nonneg fun _ _ => sq_nonneg _
    have e : ∑ i, (h i - 2 * δ i) ^ 2 = ∑ i, h i ^ 2 - 4 * (∑ i, δ i * h i) + 4 * ∑ i, δ i ^ 2 := by
      simp only [Finset.mul_sum, ← Finset.sum_add_distrib, ← Finset.sum_sub_distrib]
      exact Finset.sum_congr rfl fun i _ => by ring
    rw [e] at g
    have p : 0 ≤ ∑ i, η i ^ 2 := Finset.sum_nonneg fun _ _ => sq_nonneg _
    have k1 : ε * (4 * (∑ i, δ i * h i) - 4 * ∑ i, δ i ^ 2) ≤ ε * S := mul_le_mul_of_nonneg_left (by linarith) hε.le
    have e3 : ∑ i, ∑ j, (C i a - C' i a) * K i j * (C j a - C' j a) = ∑ i, δ i * η i := (qform δ δ).symm
    rw [e3]
    nlinarith

end GPX
