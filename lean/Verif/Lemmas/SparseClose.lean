import Verif.Lemmas.Residual
import Verif.Lemmas.JointPSD
import Verif.Props.Conditioning
import Verif.Props.SparseLaw

/-! # The sparse prediction is close to the dense one when the inducing points explain the inputs -/

namespace GPX.Props
open GPX Matrix

variable {X : Type} {m n k : ℕ}

/-- Cauchy-Schwarz for the bilinear form of a positive semidefinite matrix. -/
theorem psd_bilinear {R : Mat n n} (hR : R.PosSemidef) (u w : Fin n → ℝ) :
    (u ⬝ᵥ R *ᵥ w) ^ 2 ≤ (u ⬝ᵥ R *ᵥ u) * (w ⬝ᵥ R *ᵥ w) := by
  have hsym : w ⬝ᵥ R *ᵥ u = u ⬝ᵥ R *ᵥ w := by
    have h1 := hR.isHermitian
    rw [Matrix.IsHermitian, Matrix.conjTranspose_eq_transpose_of_trivial] at h1
    rw [Matrix.dotProduct_mulVec, ← Matrix.mulVec_transpose, h1, dotProduct_comm]
  have h : ∀ t : ℝ, 0 ≤ (u ⬝ᵥ R *ᵥ u) * (t * t) + 2 * (u ⬝ᵥ R *ᵥ w) * t + w ⬝ᵥ R *ᵥ w := fun t => by
    have h1 := hR.dotProduct_mulVec_nonneg (t • u + w)
    rw [star_trivial, Matrix.mulVec_add, Matrix.mulVec_smul, dotProduct_add, add_dotProduct, add_dotProduct, smul_dotProduct,
      smul_dotProduct, dotProduct_smul, dotProduct_smul, hsym] at h1
    simp only [smul_eq_mul] at h1
    linarith
  have := discrim_le_zero h
  rw [discrim] at this
  linarith

theorem dot_sq (w : Fin n → ℝ) : w ⬝ᵥ w = ∑ i, w i ^ 2 := Finset.sum_congr rfl fun _ _ => (sq _).symm

theorem dot_self_nonneg (w : Fin n → ℝ) : 0 ≤ w ⬝ᵥ w := by
  rw [dot_sq]; exact Finset.sum_nonneg fun i _ => sq_nonneg _

theorem quad_trace {R : Mat n n} (hR : R.PosSemidef) (w : Fin n → ℝ) : w ⬝ᵥ R *ᵥ w ≤ R.trace * (w ⬝ᵥ w) := by
  have h := quad_le_trace hR w
  rw [dot_sq]
  refine le_trans (le_of_eq ?_) h
  simp only [dotProduct, Matrix.mulVec, Finset.mul_sum, mul_assoc]

/-- The generic estimate. `S` is the regularised Gram matrix of the inducing points, `B` its products with the training points and `b`
with the new point; `K`, `k`, `κ` are the Gram matrix of the training points, its products with the new point and the variance there. -/
theorem sparse_close {S : Mat m m} (hS : S.PosDef) (B : Mat m n) (b : Mat m k) {K : Mat n n} {kx : Mat n k} {D : Mat k k}
    (hres : (Matrix.fromBlocks (K - B.transpose * S⁻¹ * B) (kx - B.transpose * S⁻¹ * b)
      (kx - B.transpose * S⁻¹ * b).transpose (D - b.transpose * S⁻¹ * b)).PosSemidef)
    {s ε : ℝ} (hs : 0 < s) (hε : 0 ≤ ε) (z : Fin n → ℝ) (j : Fin k) :
    s * |(b.transpose *ᵥ ((s • S + B * B.transpose)⁻¹ *ᵥ (B *ᵥ z))) j -
        (kx.transpose *ᵥ ((K + (s + ε) • (1 : Mat n n))⁻¹ *ᵥ z)) j| ≤
      (Real.sqrt ((D - b.transpose * S⁻¹ * b) j j * (K - B.transpose * S⁻¹ * B).trace) +
        Real.sqrt (D j j / (2 * s)) * ((K - B.transpose * S⁻¹ * B).trace + ε)) * Real.sqrt (∑ i, z i ^ 2) := by
  obtain ⟨hA, hC, hG, -⟩ := push_through hS hs B b
  have hsand := sandwich_blocks hS B b
  obtain ⟨Q, hQd⟩ : ∃ Q, Q = B.transpose * S⁻¹ * B := ⟨_, rfl⟩
  obtain ⟨q, hqd⟩ : ∃ q, q = B.transpose * S⁻¹ * b := ⟨_, rfl⟩
  obtain ⟨E, hE⟩ : ∃ E, E = b.transpose * S⁻¹ * b := ⟨_, rfl⟩
  rw [← hQd, ← hqd, ← hE] at hres hsand
  rw [← hQd, ← hqd] at hG
  rw [← hQd] at hA
  rw [← hQd, ← hE]
  have hR : (K - Q).PosSemidef := by
    have := hres.submatrix (Sum.inl : Fin n → Fin n ⊕ Fin k)
    exact this
  have hρ : 0 ≤ (D - E) j j := by
    have := hres.diag_nonneg (i := Sum.inr j)
    exact this
  have hQ : Q.PosSemidef := hsand.submatrix (Sum.inl : Fin n → Fin n ⊕ Fin k)
  have hK : K.PosSemidef := by have := hR.add hQ; rwa [sub_add_cancel] at this
  have hKp : (K + (s + ε) • (1 : Mat n n)).PosDef := posDef_add_smul_one hK (by linarith)
  obtain ⟨T, hT⟩ : ∃ T, T = (K - Q).trace := ⟨_, rfl⟩
  have hT0 : 0 ≤ T := hT ▸ hR.trace_nonneg
  obtain ⟨w, hw⟩ : ∃ w, w = (K + (s + ε) • (1 : Mat n n))⁻¹ *ᵥ z := ⟨_, rfl⟩
  have hz : z = K *ᵥ w + (s + ε) • w := by
    have h1 : (K + (s + ε) • (1 : Mat n n)) *ᵥ w = z := by
      rw [hw, Matrix.mulVec_mulVec, Matrix.mul_nonsing_inv _ (posDef_isUnit hKp), Matrix.one_mulVec]
    rw [← h1, Matrix.add_mulVec, Matrix.smul_mulVec, Matrix.one_mulVec]
  obtain ⟨u, hu⟩ : ∃ u, u = (Q + s • (1 : Mat n n))⁻¹ *ᵥ (fun i => q i j) := ⟨_, rfl⟩
  have hq : (fun i => q i j) = Q *ᵥ u + s • u := by
    have h1 : (Q + s • (1 : Mat n n)) *ᵥ u = fun i => q i j := by
      rw [hu, Matrix.mulVec_mulVec, Matrix.mul_nonsing_inv _ (posDef_isUnit hA), Matrix.one_mulVec]
    rw [← h1, Matrix.add_mulVec, Matrix.smul_mulVec, Matrix.one_mulVec]
  have hsymQ : ∀ a c : Fin n → ℝ, (Q *ᵥ a) ⬝ᵥ c = a ⬝ᵥ Q *ᵥ c := fun a c => by
    have h1 := hQ.isHermitian
    rw [Matrix.IsHermitian, Matrix.conjTranspose_eq_transpose_of_trivial] at h1
    rw [Matrix.dotProduct_mulVec, ← Matrix.mulVec_transpose, h1]
  -- the sparse prediction
  have e1 : (b.transpose *ᵥ ((s • S + B * B.transpose)⁻¹ *ᵥ (B *ᵥ z))) j = u ⬝ᵥ z := by
    have hAi : ((Q + s • (1 : Mat n n))⁻¹).transpose = (Q + s • (1 : Mat n n))⁻¹ := by
      have := hA.inv.isHermitian
      rwa [Matrix.IsHermitian, Matrix.conjTranspose_eq_transpose_of_trivial] at this
    rw [Matrix.mulVec_mulVec, Matrix.mulVec_mulVec, ← hG, ← Matrix.mulVec_mulVec, hu,
      dotProduct_comm, Matrix.dotProduct_mulVec, ← Matrix.mulVec_transpose, hAi]
    simp only [Matrix.mulVec, dotProduct, Matrix.transpose_apply, mul_comm]
  have e2 : (kx.transpose *ᵥ w) j = (fun i => kx i j) ⬝ᵥ w := rfl
  have e3 : u ⬝ᵥ z - (fun i => kx i j) ⬝ᵥ w = u ⬝ᵥ (K - Q) *ᵥ w + ε * (u ⬝ᵥ w) - (fun i => (kx - q) i j) ⬝ᵥ w := by
    have h1 : (fun i => kx i j) = (fun i => (kx - q) i j) + (Q *ᵥ u + s • u) := by
      rw [← hq]; funext i; simp
    rw [h1, hz, Matrix.sub_mulVec]
    simp only [dotProduct_add, dotProduct_sub, add_dotProduct, dotProduct_smul, smul_dotProduct, smul_eq_mul, hsymQ]
    ring
  -- sizes
  have hwz : s ^ 2 * (w ⬝ᵥ w) ≤ z ⬝ᵥ z := by
    have h0 : 0 ≤ w ⬝ᵥ K *ᵥ w := by simpa using hK.dotProduct_mulVec_nonneg w
    have h1 : w ⬝ᵥ z = w ⬝ᵥ K *ᵥ w + (s + ε) * (w ⬝ᵥ w) := by
      rw [hz, dotProduct_add, dotProduct_smul, smul_eq_mul]
    have h2 : 0 ≤ (z - s • w) ⬝ᵥ (z - s • w) := dot_self_nonneg _
    simp only [dotProduct_sub, sub_dotProduct, dotProduct_smul, smul_dotProduct, smul_eq_mul, dotProduct_comm z w] at h2
    have h3 := dot_self_nonneg w
    nlinarith [mul_nonneg hε h3, mul_nonneg hs.le h0, mul_nonneg hs.le (mul_nonneg hε h3)]
  have huD : 2 * s * (u ⬝ᵥ u) ≤ D j j := by
    have h1 := hsand.dotProduct_mulVec_nonneg (Sum.elim (-u) (Pi.single j 1))
    rw [star_trivial, Matrix.fromBlocks_mulVec, sumElim_dotProduct_sumElim] at h1
    simp only [Sum.elim_comp_inl, Sum.elim_comp_inr, Matrix.mulVec_neg, dotProduct_add, neg_dotProduct, dotProduct_neg, neg_neg,
      Matrix.mulVec_single_one, single_one_dotProduct] at h1
    have h2 : u ⬝ᵥ q.col j = u ⬝ᵥ Q *ᵥ u + s * (u ⬝ᵥ u) := by
      have : q.col j = Q *ᵥ u + s • u := hq
      rw [this, dotProduct_add, dotProduct_smul, smul_eq_mul]
    have h3 : (q.transpose *ᵥ u) j = u ⬝ᵥ q.col j := by
      rw [dotProduct_comm]; rfl
    have h4 : 0 ≤ u ⬝ᵥ Q *ᵥ u := by simpa using hQ.dotProduct_mulVec_nonneg u
    have h5 : E.col j j = E j j := rfl
    have h6 : D j j = E j j + (D - E) j j := by simp
    rw [h2, h3, h2, h5] at h1
    nlinarith [dot_self_nonneg u]
  obtain ⟨N, hN⟩ : ∃ N, N = Real.sqrt (w ⬝ᵥ w) := ⟨_, rfl⟩
  obtain ⟨U, hU⟩ : ∃ U, U = Real.sqrt (u ⬝ᵥ u) := ⟨_, rfl⟩
  have hNz : s * N ≤ Real.sqrt (∑ i, z i ^ 2) := by
    refine Real.le_sqrt_of_sq_le ?_
    rw [← dot_sq, mul_pow, hN, Real.sq_sqrt (dot_self_nonneg w)]
    exact hwz
  have hUD : U ≤ Real.sqrt (D j j / (2 * s)) := by
    rw [hU]
    refine Real.sqrt_le_sqrt ?_
    rw [le_div_iff₀ (by positivity)]
    linarith
  have hN0 : 0 ≤ N := hN ▸ Real.sqrt_nonneg _
  have hU0 : 0 ≤ U := hU ▸ Real.sqrt_nonneg _
  have hN2 : N ^ 2 = w ⬝ᵥ w := by rw [hN, Real.sq_sqrt (dot_self_nonneg w)]
  have hU2 : U ^ 2 = u ⬝ᵥ u := by rw [hU, Real.sq_sqrt (dot_self_nonneg u)]
  -- the three parts
  have p1 : |u ⬝ᵥ (K - Q) *ᵥ w| ≤ T * U * N := by
    refine abs_le_of_sq_le_sq ?_ (by positivity)
    refine (psd_bilinear hR u w).trans ?_
    have h1 := quad_trace hR u
    have h2 := quad_trace hR w
    have h3 : 0 ≤ w ⬝ᵥ (K - Q) *ᵥ w := by simpa using hR.dotProduct_mulVec_nonneg w
    rw [← hT, ← hU2] at h1
    rw [← hT, ← hN2] at h2
    calc _ ≤ (T * U ^ 2) * (T * N ^ 2) := mul_le_mul h1 h2 h3 (by positivity)
      _ = (T * U * N) ^ 2 := by ring
  have p2 : |u ⬝ᵥ w| ≤ U * N := by
    refine abs_le_of_sq_le_sq ?_ (by positivity)
    have h1 := psd_bilinear (Matrix.PosSemidef.one : (1 : Mat n n).PosSemidef) u w
    rw [Matrix.one_mulVec, Matrix.one_mulVec, ← hU2, ← hN2] at h1
    rw [mul_pow]; exact h1
  have p3 : |(fun i => (kx - q) i j) ⬝ᵥ w| ≤ Real.sqrt ((D - E) j j * T) * N := by
    refine abs_le_of_sq_le_sq ?_ (by positivity)
    have h1 := block_cauchy hres w j
    rw [mul_pow, Real.sq_sqrt (by positivity), hN2]
    have h2 := quad_trace hR w
    rw [← hT] at h2
    have h3 : ∑ i, ∑ j, w i * (K - Q) i j * w j = w ⬝ᵥ (K - Q) *ᵥ w := by
      simp only [dotProduct, Matrix.mulVec, Finset.mul_sum, mul_assoc]
    have h4 : (fun i => (kx - q) i j) ⬝ᵥ w = ∑ i, (kx - q) i j * w i := rfl
    rw [h4]
    refine h1.trans ?_
    rw [h3, mul_assoc]
    exact mul_le_mul_of_nonneg_left h2 hρ
  rw [← hw, e1, e2, e3, ← hT]
  have tri : |u ⬝ᵥ (K - Q) *ᵥ w + ε * (u ⬝ᵥ w) - (fun i => (kx - q) i j) ⬝ᵥ w| ≤
      T * U * N + ε * (U * N) + Real.sqrt ((D - E) j j * T) * N := by
    refine (abs_sub _ _).trans (add_le_add ((abs_add_le _ _).trans (add_le_add p1 ?_)) p3)
    rw [abs_mul, abs_of_nonneg hε]
    exact mul_le_mul_of_nonneg_left p2 hε
  calc _ ≤ s * (T * U * N + ε * (U * N) + Real.sqrt ((D - E) j j * T) * N) := mul_le_mul_of_nonneg_left tri hs.le
    _ = (Real.sqrt ((D - E) j j * T) + U * (T + ε)) * (s * N) := by ring
    _ ≤ (Real.sqrt ((D - E) j j * T) + Real.sqrt (D j j / (2 * s)) * (T + ε)) * Real.sqrt (∑ i, z i ^ 2) := by
        have : 0 ≤ T + ε := by linarith
        gcongr

/-- What is left of a positive semidefinite kernel after its projection on regularised inducing points is positive semidefinite. -/
theorem residual_blocks {K : X → X → ℝ} (hK : PSDK K) (l : Fin m → X) (t : Fin n → X) (x : Fin k → X) {c : ℝ} (hc : 0 < c)
    {G : Mat m m} {B : Mat m n} {b : Mat m k} {Kn : Mat n n} {kx : Mat n k} {D : Mat k k}
    (hG : G = Matrix.of fun i j => K (l i) (l j)) (hB : B = Matrix.of fun i j => K (l i) (t j))
    (hb : b = Matrix.of fun i j => K (l i) (x j)) (hKn : Kn = Matrix.of fun i j => K (t i) (t j))
    (hkx : kx = Matrix.of fun i j => K (t i) (x j)) (hD : D = Matrix.of fun i j => K (x i) (x j)) :
    (G + c • (1 : Mat m m)).PosDef ∧
    (Matrix.fromBlocks (Kn - B.transpose * (G + c • (1 : Mat m m))⁻¹ * B) (kx - B.transpose * (G + c • (1 : Mat m m))⁻¹ * b)
      (kx - B.transpose * (G + c • (1 : Mat m m))⁻¹ * b).transpose
      (D - b.transpose * (G + c • (1 : Mat m m))⁻¹ * b)).PosSemidef := by
  have hGp : G.PosSemidef := hG ▸ hK m l
  have hS := posDef_add_smul_one hGp hc
  refine ⟨hS, ?_⟩
  obtain ⟨S, hSd⟩ : ∃ S, S = G + c • (1 : Mat m m) := ⟨_, rfl⟩
  rw [← hSd] at hS ⊢
  have hsymS : S⁻¹.transpose = S⁻¹ := by
    have := hS.inv.isHermitian
    rwa [Matrix.IsHermitian, Matrix.conjTranspose_eq_transpose_of_trivial] at this
  have hsym : ∀ a a', K a a' = K a' a := fun a a' => by
    have := (hK 2 ![a, a']).isHermitian.apply 1 0
    simpa using this
  obtain ⟨y, hy⟩ : ∃ y : Fin (n + k) → X, y = Fin.append t x := ⟨_, rfl⟩
  have hj : (Matrix.fromBlocks G (Matrix.of fun i j => K (l i) (y j)) (Matrix.of fun i j => K (l i) (y j)).transpose
      (Matrix.of fun i j => K (y i) (y j))).PosSemidef := by
    have := hK.gram (I := Fin m ⊕ Fin (n + k)) (Sum.elim l y)
    refine (congrArg Matrix.PosSemidef ?_).mp this
    ext i j
    rcases i with i | i <;> rcases j with j | j <;> simp [hG, hsym]
  have h1 := schur_psd hS (Matrix.of fun i j => K (l i) (y j)) _ (hSd ▸ blocks_noise hc.le hj)
  have h2 := h1.submatrix (finSumFinEquiv : Fin n ⊕ Fin k ≃ Fin (n + k))
  refine (congrArg Matrix.PosSemidef ?_).mp h2
  ext i j
  rcases i with i | i <;> rcases j with j | j <;>
    simp [Matrix.mul_apply, hy, hB, hb, hKn, hkx, hD]
  rw [hsym]
  congr 1
  simp only [Finset.sum_mul, Finset.mul_sum]
  rw [Finset.sum_comm]
  refine Finset.sum_congr rfl fun r _ => Finset.sum_congr rfl fun p _ => ?_
  have : S⁻¹ r p = S⁻¹ p r := by
    conv_lhs => rw [← hsymS]
    rfl
  rw [this, mul_assoc]

end GPX.Props
