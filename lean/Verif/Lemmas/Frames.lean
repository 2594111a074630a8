import Verif.Spec.Frames
import Verif.Lemmas.KernelRepeats
import Verif.Lemmas.LinAlg

/-! # Kernels and linear systems under changes of coordinates of the derivatives -/

namespace GPX
open GPX.Spec GPX.Props

variable {d m n o v w v' w' : ℕ}

/-- The contracted kernels are linear in the jacobians, sample by sample. -/
structure FrameLinear (κ : KernelObj d) (p : KPar) : Prop where
  d0kj : ∀ {n m v v' : ℕ} (x1 : Batch n d) (x2 : Batch m d) (J : Jac n d v) (R : Fin n → Mat v v') i u j,
    κ.d0kj p x1 x2 (inFrames R J) (flat i u) j = ∑ t, κ.d0kj p x1 x2 J (flat i t) j * R i t u
  d1kj : ∀ {n m v v' : ℕ} (x1 : Batch n d) (x2 : Batch m d) (J : Jac m d v) (R : Fin m → Mat v v') i j u,
    κ.d1kj p x1 x2 (inFrames R J) i (flat j u) = ∑ t, κ.d1kj p x1 x2 J i (flat j t) * R j t u
  left : ∀ {n m v v' w : ℕ} (x1 : Batch n d) (x2 : Batch m d) (J1 : Jac n d v) (R : Fin n → Mat v v')
    (J2 : Jac m d w) i u j r,
    κ.d01kj p x1 x2 (inFrames R J1) J2 (flat i u) (flat j r) =
      ∑ t, κ.d01kj p x1 x2 J1 J2 (flat i t) (flat j r) * R i t u
  right : ∀ {n m v w w' : ℕ} (x1 : Batch n d) (x2 : Batch m d) (J1 : Jac n d v) (J2 : Jac m d w)
    (R : Fin m → Mat w w') i u j r,
    κ.d01kj p x1 x2 J1 (inFrames R J2) (flat i u) (flat j r) =
      ∑ t, κ.d01kj p x1 x2 J1 J2 (flat i u) (flat j t) * R j t r

theorem FrameLinear.ofClosedJ {κ : KernelObj d} {p : KPar} {ad : Dims d} {c : Core} (h : ClosedJ κ p ad c) :
    FrameLinear κ p where
  d0kj x1 x2 J R i u j := by
    simp only [h.d0kj, inFrames, Finset.sum_mul]
    rw [Finset.sum_comm]
    exact Finset.sum_congr rfl fun _ _ => Finset.sum_congr rfl fun _ _ => by ring
  d1kj x1 x2 J R i j u := by
    simp only [h.d1kj, inFrames, Finset.mul_sum, Finset.sum_mul]
    rw [Finset.sum_comm]
    exact Finset.sum_congr rfl fun _ _ => Finset.sum_congr rfl fun _ _ => by ring
  left x1 x2 J1 R J2 i u j r := by
    simp only [h.d01kj, inFrames, Finset.sum_mul]
    rw [Finset.sum_congr rfl fun a _ => Finset.sum_comm, Finset.sum_comm]
    exact Finset.sum_congr rfl fun _ _ => Finset.sum_congr rfl fun _ _ => Finset.sum_congr rfl fun _ _ => by ring
  right x1 x2 J1 J2 R i u j r := by
    simp only [h.d01kj, inFrames, Finset.mul_sum, Finset.sum_mul]
    rw [Finset.sum_congr rfl fun a _ => Finset.sum_comm, Finset.sum_comm]
    exact Finset.sum_congr rfl fun _ _ => Finset.sum_congr rfl fun _ _ => Finset.sum_congr rfl fun _ _ => by ring

theorem FrameLinear.sum {κ1 κ2 : KernelObj d} {p : KPar} (h1 : FrameLinear κ1 (p.sub "kernel1"))
    (h2 : FrameLinear κ2 (p.sub "kernel2")) : FrameLinear (κ1.sum κ2) p where
  d0kj x1 x2 J R i u j := by
    simp only [KernelObj.sum, sumKernelsJac, Arr2.add]
    rw [h1.d0kj, h2.d0kj, ← Finset.sum_add_distrib]
    exact Finset.sum_congr rfl fun _ _ => by ring
  d1kj x1 x2 J R i j u := by
    simp only [KernelObj.sum, sumKernelsJac, Arr2.add]
    rw [h1.d1kj, h2.d1kj, ← Finset.sum_add_distrib]
    exact Finset.sum_congr rfl fun _ _ => by ring
  left x1 x2 J1 R J2 i u j r := by
    simp only [KernelObj.sum, sumKernelsJac2, Arr2.add]
    rw [h1.left, h2.left, ← Finset.sum_add_distrib]
    exact Finset.sum_congr rfl fun _ _ => by ring
  right x1 x2 J1 J2 R i u j r := by
    simp only [KernelObj.sum, sumKernelsJac2, Arr2.add]
    rw [h1.right, h2.right, ← Finset.sum_add_distrib]
    exact Finset.sum_congr rfl fun _ _ => by ring

theorem FrameLinear.prod {κ1 κ2 : KernelObj d} {p : KPar} (h1 : FrameLinear κ1 (p.sub "kernel1"))
    (h2 : FrameLinear κ2 (p.sub "kernel2")) : FrameLinear (κ1.prod κ2) p where
  d0kj x1 x2 J R i u j := by
    simp only [KernelObj.prod, prodDeriv0Jac, Arr2.mul, Arr2.add, repeatRows_flat]
    rw [h1.d0kj, h2.d0kj, Finset.mul_sum, Finset.sum_mul, ← Finset.sum_add_distrib]
    exact Finset.sum_congr rfl fun _ _ => by ring
  d1kj x1 x2 J R i j u := by
    simp only [KernelObj.prod, prodDeriv1Jac, Arr2.mul, Arr2.add, repeatCols_flat]
    rw [h1.d1kj, h2.d1kj, Finset.mul_sum, Finset.sum_mul, ← Finset.sum_add_distrib]
    exact Finset.sum_congr rfl fun _ _ => by ring
  left x1 x2 J1 R J2 i u j r := by
    simp only [KernelObj.prod, prodDeriv01Jac, Arr2.mul, Arr2.add, repeatCols_flat, repeatRows_flat]
    rw [h1.left, h2.left, h1.d0kj, h2.d0kj]
    simp only [Finset.mul_sum, Finset.sum_mul, ← Finset.sum_add_distrib]
    exact Finset.sum_congr rfl fun _ _ => by ring
  right x1 x2 J1 J2 R i u j r := by
    simp only [KernelObj.prod, prodDeriv01Jac, Arr2.mul, Arr2.add, repeatCols_flat, repeatRows_flat]
    rw [h1.right, h2.right, h1.d1kj, h2.d1kj]
    simp only [Finset.mul_sum, Finset.sum_mul, ← Finset.sum_add_distrib]
    exact Finset.sum_congr rfl fun _ _ => by ring

/-- Every kernel expression, active features repeated or not. -/
theorem frameLinear (e : KExpr d) (p : KPar) : FrameLinear e.obj p := by
  induction e generalizing p with
  | constant a => exact .ofClosedJ (closed_constant a p).toJ
  | linear a => exact .ofClosedJ (closedJ_linear a p)
  | polynomial a b => exact .ofClosedJ (closedJ_polynomial a b p)
  | squaredExponential a => exact .ofClosedJ (closedJ_se a p)
  | matern12 a => exact .ofClosedJ (closed_m12 a p).toJ
  | matern32 a => exact .ofClosedJ (closed_m32 a p).toJ
  | matern52 a => exact .ofClosedJ (closedJ_m52 a p)
  | expSinSquared a => exact .ofClosedJ (closed_ess a p).toJ
  | sum e1 e2 ih1 ih2 => exact .sum (ih1 _) (ih2 _)
  | prod e1 e2 ih1 ih2 => exact .prod (ih1 _) (ih2 _)

/-! ## Linear systems -/

section Systems
open Matrix

variable {I I' L : Type} [Fintype I] [Fintype I'] [DecidableEq I] [DecidableEq I']

/-- A regularised system seen through a matrix with orthonormal rows that respects the noise. -/
theorem coiso_posDef {M : Matrix I I ℝ} {D : I → ℝ} {D' : I' → ℝ} {B : Matrix I I' ℝ} (hB : B * Bᵀ = 1)
    (hD : diagonal D * B = B * diagonal D') (hD' : ∀ a, 0 < D' a) (hA : (M + diagonal D).PosDef) :
    (Bᵀ * M * B + diagonal D').PosDef := by
  have hM : M.IsHermitian := by
    have := hA.1.sub (isHermitian_diagonal D)
    simpa using this
  have hMt : Mᵀ = M := by simpa [Matrix.IsHermitian, conjTranspose_eq_transpose_of_trivial] using hM
  refine Matrix.posDef_iff_dotProduct_mulVec.2 ⟨?_, fun {z} hz => ?_⟩
  · show _ᴴ = _
    rw [conjTranspose_eq_transpose_of_trivial, transpose_add, transpose_mul, transpose_mul, transpose_transpose, hMt,
      diagonal_transpose, Matrix.mul_assoc]
  · have hDt : diagonal D' * Bᵀ = Bᵀ * diagonal D := by
      have := congrArg transpose hD
      rw [transpose_mul, transpose_mul, diagonal_transpose, diagonal_transpose] at this
      exact this.symm
    set P : Matrix I' I' ℝ := 1 - Bᵀ * B with hP
    have hPt : Pᵀ = P := by simp [hP, transpose_mul]
    have e1 : diagonal D' * (Bᵀ * B) = Bᵀ * diagonal D * B := by rw [← Matrix.mul_assoc, hDt]
    have e2 : Bᵀ * B * diagonal D' = Bᵀ * diagonal D * B := by
      rw [Matrix.mul_assoc, ← hD, Matrix.mul_assoc]
    have e3 : Bᵀ * B * (Bᵀ * diagonal D * B) = Bᵀ * diagonal D * B := by
      rw [Matrix.mul_assoc, ← Matrix.mul_assoc B, ← Matrix.mul_assoc B, hB, Matrix.one_mul, Matrix.mul_assoc]
    have key : Bᵀ * M * B + diagonal D' = Bᵀ * (M + diagonal D) * B + Pᵀ * diagonal D' * P := by
      have : Pᵀ * diagonal D' * P = diagonal D' - Bᵀ * diagonal D * B := by
        rw [hPt, hP, Matrix.sub_mul, Matrix.one_mul, e2, Matrix.mul_sub, Matrix.mul_one, Matrix.sub_mul, e1,
          Matrix.mul_assoc _ B (Bᵀ * B), ← Matrix.mul_assoc B, hB, Matrix.one_mul]
        abel
      rw [this, Matrix.mul_add, Matrix.add_mul]
      abel
    have quad : ∀ {K : Type} [Fintype K] (N : Matrix K K ℝ) (C : Matrix K I' ℝ),
        star z ⬝ᵥ ((Cᵀ * N * C) *ᵥ z) = star (C *ᵥ z) ⬝ᵥ (N *ᵥ (C *ᵥ z)) := fun N C => by
      rw [← mulVec_mulVec, ← mulVec_mulVec, dotProduct_mulVec, star_trivial, star_trivial, ← mulVec_transpose,
        transpose_transpose]
    rw [key, add_mulVec, dotProduct_add, quad, quad]
    have hpos : ∀ u : I' → ℝ, star u ⬝ᵥ (diagonal D' *ᵥ u) = ∑ a, D' a * u a ^ 2 := fun u => by
      simp only [dotProduct, mulVec_diagonal, star_trivial]
      exact Finset.sum_congr rfl fun a _ => by ring
    by_cases hBz : B *ᵥ z = 0
    · have hPz : P *ᵥ z = z := by
        rw [hP, sub_mulVec, one_mulVec, ← mulVec_mulVec, hBz, mulVec_zero, sub_zero]
      rw [hBz, hPz, mulVec_zero, dotProduct_zero, zero_add, hpos]
      obtain ⟨a, ha⟩ := Function.ne_iff.1 hz
      exact Finset.sum_pos' (fun b _ => mul_nonneg (hD' b).le (sq_nonneg _))
        ⟨a, Finset.mem_univ a, mul_pos (hD' a) (by simpa using pow_pos (abs_pos.2 ha) 2)⟩
    · refine add_pos_of_pos_of_nonneg ((Matrix.posDef_iff_dotProduct_mulVec.1 hA).2 hBz) ?_
      rw [hpos]
      exact Finset.sum_nonneg fun b _ => mul_nonneg (hD' b).le (sq_nonneg _)

/-- The two systems are intertwined. -/
theorem coiso_mul {M : Matrix I I ℝ} {D : I → ℝ} {D' : I' → ℝ} {B : Matrix I I' ℝ} (hB : B * Bᵀ = 1)
    (hD : diagonal D * B = B * diagonal D') :
    (Bᵀ * M * B + diagonal D') * Bᵀ = Bᵀ * (M + diagonal D) := by
  have hDt : diagonal D' * Bᵀ = Bᵀ * diagonal D := by
    have := congrArg transpose hD
    rw [transpose_mul, transpose_mul, diagonal_transpose, diagonal_transpose] at this
    exact this.symm
  rw [Matrix.add_mul, Matrix.mul_assoc (Bᵀ * M), hB, Matrix.mul_one, hDt, Matrix.mul_add]

theorem coiso_inv {A : Matrix I I ℝ} {A' : Matrix I' I' ℝ} {B : Matrix I I' ℝ} (h : A' * Bᵀ = Bᵀ * A)
    (hA : IsUnit A.det) (hA' : IsUnit A'.det) : A'⁻¹ * Bᵀ = Bᵀ * A⁻¹ := by
  have h1 : A'⁻¹ * (A' * Bᵀ) * A⁻¹ = A'⁻¹ * (Bᵀ * A) * A⁻¹ := by rw [h]
  rw [← Matrix.mul_assoc, nonsing_inv_mul _ hA', Matrix.one_mul, Matrix.mul_assoc, Matrix.mul_assoc,
    mul_nonsing_inv _ hA, Matrix.mul_one] at h1
  exact h1.symm

/-- Solutions correspond. -/
theorem coiso_solution {A : Matrix I I ℝ} {A' : Matrix I' I' ℝ} {B : Matrix I I' ℝ} (h : A' * Bᵀ = Bᵀ * A)
    (hA' : IsUnit A'.det) {c y : Matrix I L ℝ} {c' : Matrix I' L ℝ} (hc : A * c = y) (hc' : A' * c' = Bᵀ * y) :
    c' = Bᵀ * c := by
  have : A' * c' = A' * (Bᵀ * c) := by rw [hc', ← Matrix.mul_assoc, h, Matrix.mul_assoc, hc]
  have h2 := congrArg (A'⁻¹ * ·) this
  simpa only [← Matrix.mul_assoc, nonsing_inv_mul _ hA', Matrix.one_mul] using h2

/-- The noise seen through a matrix with orthonormal rows and columns. -/
theorem ortho_system {M : Matrix I I ℝ} {D D' : I → ℝ} {B : Matrix I I ℝ} (hB : B * Bᵀ = 1)
    (hD : diagonal D * B = B * diagonal D') : Bᵀ * M * B + diagonal D' = Bᵀ * (M + diagonal D) * B := by
  have hB' : Bᵀ * B = 1 := mul_eq_one_comm.1 hB
  rw [Matrix.mul_add, Matrix.add_mul, Matrix.mul_assoc Bᵀ (diagonal D), hD, ← Matrix.mul_assoc, hB', Matrix.one_mul]

theorem ortho_det {A B : Matrix I I ℝ} (hB : B * Bᵀ = 1) : (Bᵀ * A * B).det = A.det := by
  have hB' : Bᵀ * B = 1 := mul_eq_one_comm.1 hB
  have h : Bᵀ.det * B.det = 1 := by rw [← det_mul, hB', det_one]
  rw [det_mul, det_mul, mul_right_comm, h, one_mul]

end Systems

/-! ## The matrix of the changes of coordinates, on flattened derivatives -/

/-- Block diagonal matrix with the changes of coordinates of the samples. -/
def frameMat (R : Fin n → Mat v v') : Mat (n * v) (n * v') :=
  Matrix.of fun r s => if r.divNat = s.divNat then R r.divNat r.modNat s.modNat else 0

theorem sum_flat_index (f : Fin (n * v) → ℝ) : ∑ s, f s = ∑ i, ∑ u, f (flat i u) := by
  rw [← finProdFinEquiv.sum_comp, Fintype.sum_prod_type]
  simp only [prod_flat]

theorem mul_frameMat (R : Fin n → Mat v v') (M : Mat o (n * v)) (a : Fin o) (i : Fin n) (u : Fin v') :
    (M * frameMat R) a (flat i u) = ∑ t, M a (flat i t) * R i t u := by
  rw [Matrix.mul_apply, sum_flat_index, Finset.sum_eq_single i]
  · exact Finset.sum_congr rfl fun t _ => by simp [frameMat]
  · intro j _ hj
    exact Finset.sum_eq_zero fun t _ => by simp [frameMat, hj]
  · intro h; exact absurd (Finset.mem_univ i) h

theorem frameMat_mul (R : Fin n → Mat v v') (M : Mat (n * v) o) (a : Fin o) (i : Fin n) (u : Fin v') :
    ((frameMat R).transpose * M) (flat i u) a = ∑ t, M (flat i t) a * R i t u := by
  rw [Matrix.mul_apply, sum_flat_index, Finset.sum_eq_single i]
  · exact Finset.sum_congr rfl fun t _ => by simp [frameMat, mul_comm]
  · intro j _ hj
    exact Finset.sum_eq_zero fun t _ => by simp [frameMat, hj]
  · intro h; exact absurd (Finset.mem_univ i) h

theorem frameMat_coiso {R : Fin n → Mat v v'} (hR : Frames R) : frameMat R * (frameMat R).transpose = 1 := by
  ext r s
  obtain ⟨i, t, rfl⟩ := flat_surj r
  obtain ⟨j, t', rfl⟩ := flat_surj s
  have hf : flat i t = flat j t' ↔ i = j ∧ t = t' := by
    rw [← prod_flat, ← prod_flat, finProdFinEquiv.injective.eq_iff, Prod.mk.injEq]
  rw [Matrix.mul_apply, sum_flat_index, Matrix.one_apply]
  simp only [frameMat, Matrix.of_apply, Matrix.transpose_apply, flat_divNat, flat_modNat, hf]
  rw [Finset.sum_eq_single i]
  · by_cases hij : i = j
    · subst hij
      simpa using hR i t t'
    · rw [if_neg (fun h => hij h.1)]
      exact Finset.sum_eq_zero fun u _ => by rw [if_neg (Ne.symm hij), mul_zero]
  · intro k _ hk
    exact Finset.sum_eq_zero fun u _ => by rw [if_neg (Ne.symm hk), zero_mul]
  · intro h; exact absurd (Finset.mem_univ i) h

theorem smul_frameMat (s : ℝ) (R : Fin n → Mat v v') :
    Matrix.diagonal (fun _ : Fin (n * v) => s) * frameMat R = frameMat R * Matrix.diagonal fun _ => s := by
  ext a b
  rw [Matrix.diagonal_mul, Matrix.mul_diagonal, mul_comm]

theorem flatCol_readIn (R : Fin n → Mat v v') (y : Mat n v) :
    flatCol (readIn R y) = (frameMat R).transpose * flatCol y := by
  ext r c
  obtain ⟨i, u, rfl⟩ := flat_surj r
  rw [frameMat_mul]
  simp [flatCol, readIn]

theorem unflatCol_readIn (R : Fin n → Mat v v') (a : Mat (n * v) 1) :
    unflatCol ((frameMat R).transpose * a) = readIn R (unflatCol a) := by
  ext i u
  simp only [unflatCol, readIn, Matrix.of_apply, prod_flat]
  exact frameMat_mul R a 0 i u

section
variable {κ : KernelObj d} {p : KPar}

theorem FrameLinear.d0kj_mat (h : FrameLinear κ p) (x1 : Batch n d) (x2 : Batch m d) (J : Jac n d v)
    (R : Fin n → Mat v v') : (Matrix.of (κ.d0kj p x1 x2 (inFrames R J)) : Mat (n * v') m) =
      (frameMat R).transpose * Matrix.of (κ.d0kj p x1 x2 J) := by
  ext r c
  obtain ⟨i, u, rfl⟩ := flat_surj r
  rw [frameMat_mul]
  exact h.d0kj x1 x2 J R i u c

theorem FrameLinear.d1kj_mat (h : FrameLinear κ p) (x1 : Batch n d) (x2 : Batch m d) (J : Jac m d v)
    (R : Fin m → Mat v v') : (Matrix.of (κ.d1kj p x1 x2 (inFrames R J)) : Mat n (m * v')) =
      Matrix.of (κ.d1kj p x1 x2 J) * frameMat R := by
  ext r c
  obtain ⟨i, u, rfl⟩ := flat_surj c
  rw [mul_frameMat]
  exact h.d1kj x1 x2 J R r i u

theorem FrameLinear.left_mat (h : FrameLinear κ p) (x1 : Batch n d) (x2 : Batch m d) (J1 : Jac n d v)
    (R : Fin n → Mat v v') (J2 : Jac m d w) :
    (Matrix.of (κ.d01kj p x1 x2 (inFrames R J1) J2) : Mat (n * v') (m * w)) =
      (frameMat R).transpose * Matrix.of (κ.d01kj p x1 x2 J1 J2) := by
  ext r c
  obtain ⟨i, u, rfl⟩ := flat_surj r
  obtain ⟨j, q, rfl⟩ := flat_surj c
  rw [frameMat_mul]
  exact h.left x1 x2 J1 R J2 i u j q

theorem FrameLinear.right_mat (h : FrameLinear κ p) (x1 : Batch n d) (x2 : Batch m d) (J1 : Jac n d v)
    (J2 : Jac m d w) (R : Fin m → Mat w w') :
    (Matrix.of (κ.d01kj p x1 x2 J1 (inFrames R J2)) : Mat (n * v) (m * w')) =
      Matrix.of (κ.d01kj p x1 x2 J1 J2) * frameMat R := by
  ext r c
  obtain ⟨i, u, rfl⟩ := flat_surj r
  obtain ⟨j, q, rfl⟩ := flat_surj c
  rw [mul_frameMat]
  exact h.right x1 x2 J1 J2 R i u j q

end

end GPX
