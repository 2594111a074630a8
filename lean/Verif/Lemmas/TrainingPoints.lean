import Verif.Lemmas.Residual
import Verif.Lemmas.LinAlg

/-! # Ridge systems: bounds on residuals, fitted values and posterior covariance at the training points -/

namespace GPX
open Matrix Spec

variable {m n o : ℕ}

/-- `(K + t) c = b`: the residual `t c` and the fitted values `K c` are no longer than `b`. -/
theorem ridge_bounds {K : Mat n n} (hK : K.PosSemidef) {t : ℝ} (ht : 0 < t) (c b : Fin n → ℝ)
    (h : ∀ i, (∑ j, K i j * c j) + t * c i = b i) :
    ∑ i, (t * c i) ^ 2 + ∑ i, (∑ j, K i j * c j) ^ 2 ≤ ∑ i, b i ^ 2 := by
  have hq := psd_quad hK c
  have e1 : ∑ i, b i ^ 2 = ∑ i, (t * c i) ^ 2 + ∑ i, (∑ j, K i j * c j) ^ 2 +
      2 * t * ∑ i, ∑ j, c i * K i j * c j := by
    have e2 : ∑ i, ∑ j, c i * K i j * c j = ∑ i, c i * ∑ j, K i j * c j := by
      refine Finset.sum_congr rfl fun i _ => ?_
      rw [Finset.mul_sum]
      exact Finset.sum_congr rfl fun j _ => by ring
    rw [e2, Finset.mul_sum, ← Finset.sum_add_distrib, ← Finset.sum_add_distrib]
    refine Finset.sum_congr rfl fun i _ => ?_
    rw [← h i]
    ring
  have : 0 ≤ 2 * t * ∑ i, ∑ j, c i * K i j * c j := by positivity
  linarith

/-- `(s K + t + B Bᵀ) c = B b`: the fitted values `Bᵀ c` and the residual `b - Bᵀ c` are orthogonal up to a non-negative
term. -/
theorem sparse_bounds {K : Mat m m} (hK : K.PosSemidef) {s t : ℝ} (hs : 0 ≤ s) (ht : 0 ≤ t) (B : Mat m n)
    (c : Fin m → ℝ) (b : Fin n → ℝ)
    (h : ∀ i, ∑ j, (s • K + B * B.transpose + t • (1 : Mat m m)) i j * c j = ∑ l, B i l * b l) :
    ∑ i, (b i - ∑ j, B j i * c j) ^ 2 + ∑ i, (∑ j, B j i * c j) ^ 2 ≤ ∑ i, b i ^ 2 := by
  have hq := psd_quad hK c
  have e1 : ∑ i, c i * ∑ l, B i l * b l = ∑ l, b l * ∑ j, B j l * c j := by
    simp only [Finset.mul_sum]
    rw [Finset.sum_comm]
    exact Finset.sum_congr rfl fun _ _ => Finset.sum_congr rfl fun _ _ => by ring
  have e2 : ∑ i, c i * ∑ j, (s • K + B * B.transpose + t • (1 : Mat m m)) i j * c j =
      s * ∑ i, ∑ j, c i * K i j * c j + ∑ l, (∑ j, B j l * c j) ^ 2 + t * ∑ i, c i ^ 2 := by
    simp only [Matrix.add_apply, Matrix.smul_apply, smul_eq_mul, add_mul, Finset.sum_add_distrib, mul_add]
    congr 1
    · congr 1
      · simp only [Finset.mul_sum]
        exact Finset.sum_congr rfl fun _ _ => Finset.sum_congr rfl fun _ _ => by ring
      · simp only [Matrix.mul_apply, Matrix.transpose_apply, sq, Finset.sum_mul, Finset.mul_sum]
        rw [Finset.sum_congr rfl fun i _ => Finset.sum_comm, Finset.sum_comm]
        refine Finset.sum_congr rfl fun l _ => ?_
        rw [Finset.sum_comm]
        exact Finset.sum_congr rfl fun _ _ => Finset.sum_congr rfl fun _ _ => by ring
    · simp only [Matrix.one_apply, mul_ite, mul_one, mul_zero, ite_mul, zero_mul, Finset.sum_ite_eq, Finset.mem_univ,
        if_true, Finset.mul_sum]
      exact Finset.sum_congr rfl fun _ _ => by ring
  have e3 : ∑ l, b l * ∑ j, B j l * c j =
      s * ∑ i, ∑ j, c i * K i j * c j + ∑ l, (∑ j, B j l * c j) ^ 2 + t * ∑ i, c i ^ 2 := by
    rw [← e1, ← e2]
    exact Finset.sum_congr rfl fun i _ => by rw [h i]
  have e4 : ∑ i, (b i - ∑ j, B j i * c j) ^ 2 = ∑ i, b i ^ 2 - 2 * ∑ l, b l * ∑ j, B j l * c j +
      ∑ l, (∑ j, B j l * c j) ^ 2 := by
    rw [Finset.mul_sum, ← Finset.sum_sub_distrib, ← Finset.sum_add_distrib]
    exact Finset.sum_congr rfl fun _ _ => by ring
  have e5 : 0 ≤ s * ∑ i, ∑ j, c i * K i j * c j := mul_nonneg hs hq
  have e6 : 0 ≤ t * ∑ i, c i ^ 2 := mul_nonneg ht (Finset.sum_nonneg fun _ _ => sq_nonneg _)
  linarith

/-- A larger `t` gives a longer residual `t (K + t)⁻¹ b`. -/
theorem ridge_mono {K : Mat n n} (hK : K.PosSemidef) {s t : ℝ} (hs : 0 < s) (hst : s ≤ t) (c c' b : Fin n → ℝ)
    (h : ∀ i, (∑ j, K i j * c j) + s * c i = b i) (h' : ∀ i, (∑ j, K i j * c' j) + t * c' i = b i) :
    ∑ i, (s * c i) ^ 2 ≤ ∑ i, (t * c' i) ^ 2 := by
  have ht : 0 < t := hs.trans_le hst
  -- the two residuals are `r = s c` and `r' = t c'`; `δ = r' - r` satisfies `(K + s) δ = (t - s) K c'`
  have hp : (K + s • (1 : Mat n n)).PosDef := posDef_add_smul_one hK hs
  set w : Fin n → ℝ := (K + s • (1 : Mat n n))⁻¹ *ᵥ c' with hw
  have hwc : ∀ i, (∑ j, K i j * w j) + s * w i = c' i := by
    intro i
    have e : (K + s • (1 : Mat n n)) *ᵥ w = c' := by
      rw [hw, Matrix.mulVec_mulVec, Matrix.mul_nonsing_inv _ (posDef_isUnit hp), Matrix.one_mulVec]
    have := congrFun e i
    rw [Matrix.add_mulVec, Matrix.smul_mulVec, Matrix.one_mulVec] at this
    exact this
  -- `s c = t c' - (t - s) K w`
  have hδ : ∀ i, s * c i = t * c' i - (t - s) * ∑ j, K i j * w j := by
    have e1 : (K + s • (1 : Mat n n)) *ᵥ (fun i => t * c' i - (t - s) * ∑ j, K i j * w j) =
        (K + s • (1 : Mat n n)) *ᵥ (fun i => s * c i) := by
      have k1 : (fun i => t * c' i - (t - s) * ∑ j, K i j * w j) = t • c' - (t - s) • (K *ᵥ w) := rfl
      have k2 : (fun i => s * c i) = s • c := rfl
      have k3 : (K + s • (1 : Mat n n)) *ᵥ w = c' := by
        rw [hw, Matrix.mulVec_mulVec, Matrix.mul_nonsing_inv _ (posDef_isUnit hp), Matrix.one_mulVec]
      have k4 : (K + s • (1 : Mat n n)) *ᵥ (K *ᵥ w) = K *ᵥ c' := by
        have comm : (K + s • (1 : Mat n n)) * K = K * (K + s • (1 : Mat n n)) := by
          rw [Matrix.add_mul, Matrix.mul_add]
          simp
        rw [Matrix.mulVec_mulVec, comm, ← Matrix.mulVec_mulVec, k3]
      have k5 : (K + s • (1 : Mat n n)) *ᵥ c = b := by
        rw [Matrix.add_mulVec, Matrix.smul_mulVec, Matrix.one_mulVec]
        exact funext h
      have k6 : K *ᵥ c' = b - t • c' := by
        funext i
        have := h' i
        simp only [Pi.sub_apply, Pi.smul_apply, smul_eq_mul]
        rw [← this]
        simp [mulVec, dotProduct]
      rw [k1, k2, Matrix.mulVec_sub, Matrix.mulVec_smul, Matrix.mulVec_smul, Matrix.mulVec_smul, k4, k5,
        Matrix.add_mulVec, Matrix.smul_mulVec, Matrix.one_mulVec, k6]
      funext i
      simp only [Pi.sub_apply, Pi.add_apply, Pi.smul_apply, smul_eq_mul]
      ring
    have e2 := congrArg (fun z => (K + s • (1 : Mat n n))⁻¹ *ᵥ z) e1
    simp only [Matrix.mulVec_mulVec, Matrix.nonsing_inv_mul _ (posDef_isUnit hp), Matrix.one_mulVec] at e2
    intro i
    exact (congrFun e2 i).symm
  have hq := psd_quad hK w
  have e2 : ∑ i, ∑ j, w i * K i j * w j = ∑ i, w i * ∑ j, K i j * w j := by
    refine Finset.sum_congr rfl fun i _ => ?_
    rw [Finset.mul_sum]
    exact Finset.sum_congr rfl fun j _ => by ring
  have e3 : ∑ i, (t * c' i) ^ 2 - ∑ i, (s * c i) ^ 2 =
      (t - s) * (2 * t - (t - s)) * (∑ i, (∑ j, K i j * w j) ^ 2) +
        2 * t * (t - s) * s * ∑ i, ∑ j, w i * K i j * w j := by
    rw [e2, Finset.mul_sum, Finset.mul_sum, ← Finset.sum_sub_distrib, ← Finset.sum_add_distrib]
    refine Finset.sum_congr rfl fun i _ => ?_
    rw [hδ i, ← hwc i]
    ring
  have h1 : 0 ≤ (t - s) * (2 * t - (t - s)) * (∑ i, (∑ j, K i j * w j) ^ 2) := by
    refine mul_nonneg (mul_nonneg (by linarith) (by linarith)) (Finset.sum_nonneg fun i _ => sq_nonneg _)
  have h2 : 0 ≤ 2 * t * (t - s) * s * ∑ i, ∑ j, w i * K i j * w j := by
    have : 0 ≤ t - s := by linarith
    positivity
  linarith

/-- `K - K (K + t)⁻¹ K ⪯ t I`. -/
theorem ridge_cov {K : Mat n n} (hK : K.PosSemidef) {t : ℝ} (ht : 0 < t) :
    (t • (1 : Mat n n) - (K - K * (K + t • (1 : Mat n n))⁻¹ * K)).PosSemidef := by
  set M := K + t • (1 : Mat n n) with hM
  have hp : M.PosDef := posDef_add_smul_one hK ht
  have hu := posDef_isUnit hp
  have hKM : K = M - t • (1 : Mat n n) := by rw [hM]; simp
  have e : t • (1 : Mat n n) - (K - K * M⁻¹ * K) = t ^ 2 • M⁻¹ := by
    rw [hKM, Matrix.sub_mul, Matrix.mul_nonsing_inv _ hu, Matrix.mul_sub, Matrix.sub_mul, Matrix.smul_mul,
      Matrix.one_mul, Matrix.one_mul, Matrix.smul_mul, Matrix.nonsing_inv_mul _ hu, Matrix.mul_smul, Matrix.mul_one,
      smul_sub, smul_smul, sq]
    abel
  rw [e]
  exact hp.inv.posSemidef.smul (sq_nonneg t)

end GPX

namespace GPX
open Matrix Spec

variable {m n o : ℕ}

/-- The quadratic `aᵀ M a - 2 aᵀ b` is smallest at `M⁻¹ b`, where it is `- bᵀ M⁻¹ b`. -/
theorem explained_var {M : Mat m m} (hM : M.PosDef) (B : Mat m n) (j : Fin n) (a : Fin m → ℝ) :
    2 * ∑ i, a i * B i j - ∑ i, ∑ i', a i * M i i' * a i' ≤ (B.transpose * M⁻¹ * B) j j ∧
    ((∀ i, a i = (M⁻¹ * B) i j) →
      2 * ∑ i, a i * B i j - ∑ i, ∑ i', a i * M i i' * a i' = (B.transpose * M⁻¹ * B) j j) := by
  have hu := posDef_isUnit hM
  set w : Fin m → ℝ := fun i => (M⁻¹ * B) i j with hw
  have hMw : M *ᵥ w = fun i => B i j := by
    funext i
    have : (M * (M⁻¹ * B)) i j = B i j := by
      rw [← Matrix.mul_assoc, Matrix.mul_nonsing_inv _ hu, Matrix.one_mul]
    exact this
  have hT : M.transpose = M := posDef_transpose hM.posSemidef
  have e1 : (B.transpose * M⁻¹ * B) j j = (fun i => B i j) ⬝ᵥ w := by
    rw [Matrix.mul_assoc]; rfl
  have e2 : ∀ a : Fin m → ℝ, ∑ i, ∑ i', a i * M i i' * a i' = a ⬝ᵥ M *ᵥ a := by
    intro a
    refine Finset.sum_congr rfl fun i _ => ?_
    change _ = a i * ∑ i', M i i' * a i'
    rw [Finset.mul_sum]
    exact Finset.sum_congr rfl fun _ _ => mul_assoc _ _ _
  have e3 : ∀ a : Fin m → ℝ, ∑ i, a i * B i j = a ⬝ᵥ fun i => B i j := fun a => rfl
  rw [e1, e2, e3]
  have h := hM.posSemidef.dotProduct_mulVec_nonneg (a - w)
  have hs : w ⬝ᵥ M *ᵥ a = a ⬝ᵥ fun i => B i j := by
    rw [Matrix.dotProduct_mulVec, ← Matrix.mulVec_transpose, hT, hMw, dotProduct_comm]
  refine ⟨?_, fun ha => ?_⟩
  · simp only [star_trivial, Matrix.mulVec_sub, sub_dotProduct, dotProduct_sub] at h
    rw [hs, hMw, dotProduct_comm w] at h
    linarith
  · have : a = w := funext ha
    rw [this, hMw, dotProduct_comm w]
    ring

end GPX
