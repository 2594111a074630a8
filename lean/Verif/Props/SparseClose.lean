import Verif.Spec.SparseClose
import Verif.Lemmas.SparseClose
import Verif.Props.AllInducing
import Verif.Props.Objective

/-!
# C163: sparse models are as close to the dense ones as the inducing points explain the data

`Spec.unexplained e.obj p c xl x j` (Spec/SparseClose.lean) is the part of the prior variance at the sample `x j` that the inducing
points `xl` leave unexplained.
-/

namespace GPX.Props
open GPX GPX.Spec Matrix

variable {d m n k o u v w : ℕ} {la : LinAlg}

theorem quad_entry {S : Mat m m} (B : Mat m n) (j : Fin n) :
    (B.transpose * S * B) j j = ∑ a, ∑ b, B a j * S a b * B b j := by
  rw [Matrix.mul_apply, Finset.sum_comm]
  refine Finset.sum_congr rfl fun b _ => ?_
  rw [Matrix.mul_apply, Finset.sum_mul]
  rfl

/-! ## Predictions -/

/-- **C163.** SGPR and GPR with the same hyperparameters, noise, data and mean function. Let `ρ(x)` be the variance at `x` left
unexplained by the inducing points and `T` the sum of `ρ` over the training inputs. The predictions at any input `x` differ by at
most `(√(ρ(x) T) + √(k(x,x) / 2 sigma²) (T + 1e-10)) / sigma²` times the norm of the centred targets. -/
theorem C163_predictions (ex : la.Exact) (e : KExpr d) (θ : GPParams) (h : Admissible e θ.kernelParams) (hs : θ.sigma ≠ 0)
    (mf : MeanFun) (xl : Batch m d) (xt : Batch n d) (y : Mat n o) (x : Batch k d) (j : Fin k) (a : Fin o) :
    let gp := fitDense la θ e.obj mf xt y
    let sp := sgprFitDense la θ e.obj mf xl xt y
    let ρ := unexplained e.obj θ.kernelParams (1 / 10 ^ 10 / θ.sigma ^ 2) xl x j
    let T := ∑ i, unexplained e.obj θ.kernelParams (1 / 10 ^ 10 / θ.sigma ^ 2) xl xt i
    θ.sigma ^ 2 * |sgprPredict θ e.obj xl x sp.1 sp.2 j a - predictDense θ e.obj xt x gp.1 gp.2 j a| ≤
      (Real.sqrt (ρ * T) + Real.sqrt (e.obj.k θ.kernelParams x x j j / (2 * θ.sigma ^ 2)) * (T + 1 / 10 ^ 10)) *
        Real.sqrt (∑ i, (y i a - mf y) ^ 2) := by
  intro gp sp ρ T
  have hs2 : 0 < θ.sigma ^ 2 := by positivity
  obtain ⟨L, hL, hk⟩ := e.psd θ.kernelParams h
  obtain ⟨hS, hres⟩ := residual_blocks hL xl xt x (c := 1 / 10 ^ 10 / θ.sigma ^ 2) (by positivity)
    (G := Matrix.of (e.obj.k θ.kernelParams xl xl)) (B := Matrix.of (e.obj.k θ.kernelParams xl xt))
    (b := Matrix.of (e.obj.k θ.kernelParams xl x)) (Kn := Matrix.of (e.obj.k θ.kernelParams xt xt))
    (kx := Matrix.of (e.obj.k θ.kernelParams xt x)) (D := Matrix.of (e.obj.k θ.kernelParams x x))
    (by ext i j; exact hk _ _ _ _) (by ext i j; exact hk _ _ _ _) (by ext i j; exact hk _ _ _ _)
    (by ext i j; exact hk _ _ _ _) (by ext i j; exact hk _ _ _ _) (by ext i j; exact hk _ _ _ _)
  have key := sparse_close hS _ _ hres hs2 (by positivity : (0 : ℝ) ≤ 1 / 10 ^ 10) (fun i => centerBy y (mf y) i a) j
  have hT : (Matrix.of (e.obj.k θ.kernelParams xt xt) - (Matrix.of (e.obj.k θ.kernelParams xl xt) : Mat m n).transpose *
      (Matrix.of (e.obj.k θ.kernelParams xl xl) + (1 / 10 ^ 10 / θ.sigma ^ 2) • (1 : Mat m m))⁻¹ *
      Matrix.of (e.obj.k θ.kernelParams xl xt) : Mat n n).trace = T := by
    refine Finset.sum_congr rfl fun i _ => ?_
    rw [Matrix.diag_apply, Matrix.sub_apply, quad_entry]
    rfl
  have hρ : (Matrix.of (e.obj.k θ.kernelParams x x) - (Matrix.of (e.obj.k θ.kernelParams xl x) : Mat m k).transpose *
      (Matrix.of (e.obj.k θ.kernelParams xl xl) + (1 / 10 ^ 10 / θ.sigma ^ 2) • (1 : Mat m m))⁻¹ *
      Matrix.of (e.obj.k θ.kernelParams xl x) : Mat k k) j j = ρ := by
    rw [Matrix.sub_apply, quad_entry]
    rfl
  rw [hT, hρ] at key
  refine le_trans (le_of_eq ?_) key
  congr 2
  have hp := sgprALhs_posDef e θ h xl xt
  have hsys : (sgprALhs θ e.obj xl xt).1 = θ.sigma ^ 2 • (Matrix.of (e.obj.k θ.kernelParams xl xl) +
      (1 / 10 ^ 10 / θ.sigma ^ 2) • (1 : Mat m m)) + (Matrix.of (e.obj.k θ.kernelParams xl xt) : Mat m n) *
      (Matrix.of (e.obj.k θ.kernelParams xl xt) : Mat m n).transpose :=
    sparse_system_shift _ _ hs2.ne'
  have hkx : (Matrix.of (e.obj.k θ.kernelParams x xl) : Mat k m) =
      (Matrix.of (e.obj.k θ.kernelParams xl x) : Mat m k).transpose := by
    ext a b
    exact (C21_symmetric e θ.kernelParams).k x xl a b
  have e1 : sgprPredict θ e.obj xl x sp.1 sp.2 j a = mf y + ((Matrix.of (e.obj.k θ.kernelParams xl x) : Mat m k).transpose *ᵥ
      ((sgprALhs θ e.obj xl xt).1⁻¹ *ᵥ ((Matrix.of (e.obj.k θ.kernelParams xl xt) : Mat m n) *ᵥ
        fun i => centerBy y (mf y) i a))) j := by
    have h1 : sp.1 = (sgprALhs θ e.obj xl xt).1⁻¹ * ((Matrix.of (e.obj.k θ.kernelParams xl xt) : Mat m n) * centerBy y (mf y)) :=
      ex.solve_eq (posDef_isUnit hp) _
    have h2 : sp.2 = mf y := rfl
    simp only [sgprPredict, addScalar, Matrix.of_apply, h1, h2, hkx]
    rfl
  have hg := aLhsNoise_posDef e θ h xt
  have e2 : predictDense θ e.obj xt x gp.1 gp.2 j a = mf y + ((Matrix.of (e.obj.k θ.kernelParams xt x) : Mat n k).transpose *ᵥ
      ((Matrix.of (e.obj.k θ.kernelParams xt xt) + (θ.sigma ^ 2 + 1 / 10 ^ 10) • (1 : Mat n n))⁻¹ *ᵥ
        fun i => centerBy y (mf y) i a)) j := by
    have h1 : gp.1 = (aLhsNoise θ e.obj xt xt)⁻¹ * centerBy y (mf y) := ex.solve_eq (posDef_isUnit hg) _
    have h2 : gp.2 = mf y := rfl
    simp only [predictDense, addScalar, Matrix.of_apply, h1, h2]
    rfl
  rw [e1, e2, hsys]
  ring

/-- **C163** for models trained on derivatives. -/
theorem C163_derivs (ex : la.Exact) (e : KExpr d) (θ : GPParams) (h : DerivSmooth e θ.kernelParams) (hs : θ.sigma ≠ 0)
    (mf : MeanFun) (xl : Batch m d) (Jl : Jac m d u) (xt : Batch n d) (Jt : Jac n d w) (y : Mat n w) (x : Batch k d)
    (J : Jac k d v) (j : Fin k) (q : Fin v) :
    let gp := fitDerivsDense la θ e.obj mf xt Jt y
    let sp := sgprFitDerivsDense la θ e.obj mf xl Jl xt Jt y
    let ρ := unexplainedDerivs e.obj θ.kernelParams (1 / 10 ^ 10 / θ.sigma ^ 2) xl Jl x J j q
    let T := ∑ i, ∑ r, unexplainedDerivs e.obj θ.kernelParams (1 / 10 ^ 10 / θ.sigma ^ 2) xl Jl xt Jt i r
    θ.sigma ^ 2 * |sgprPredictDerivs θ e.obj xl Jl x J sp.1 sp.2 j q - predictDerivsDense θ e.obj xt Jt x J gp.1 gp.2 j q| ≤
      (Real.sqrt (ρ * T) + Real.sqrt (e.obj.d01kj θ.kernelParams x x J J (flat j q) (flat j q) / (2 * θ.sigma ^ 2)) *
        (T + 1 / 10 ^ 10)) * Real.sqrt (∑ i, ∑ r, (y i r - gp.2) ^ 2) := by
  intro gp sp ρ T
  have hs2 : 0 < θ.sigma ^ 2 := by positivity
  obtain ⟨E, hE, hk⟩ := derivPSD_expr e θ.kernelParams h
  have hk' : ∀ {n m v w : ℕ} (x1 : Batch n d) (x2 : Batch m d) (J1 : Jac n d v) (J2 : Jac m d w) (a : Fin (n * v))
      (b : Fin (m * w)), e.obj.d01kj θ.kernelParams x1 x2 J1 J2 a b =
        E (x1 a.divNat, fun f => J1 a.divNat f a.modNat) (x2 b.divNat, fun f => J2 b.divNat f b.modNat) := by
    intro n m v w x1 x2 J1 J2 a b
    have := hk x1 x2 J1 J2 a.divNat a.modNat b.divNat b.modNat
    rwa [flat_eta, flat_eta] at this
  obtain ⟨hS, hres⟩ := residual_blocks hE (fun a : Fin (m * u) => (xl a.divNat, fun f => Jl a.divNat f a.modNat))
    (fun a : Fin (n * w) => (xt a.divNat, fun f => Jt a.divNat f a.modNat))
    (fun a : Fin (k * v) => (x a.divNat, fun f => J a.divNat f a.modNat))
    (c := 1 / 10 ^ 10 / θ.sigma ^ 2) (by positivity)
    (G := Matrix.of (e.obj.d01kj θ.kernelParams xl xl Jl Jl)) (B := Matrix.of (e.obj.d01kj θ.kernelParams xl xt Jl Jt))
    (b := Matrix.of (e.obj.d01kj θ.kernelParams xl x Jl J)) (Kn := Matrix.of (e.obj.d01kj θ.kernelParams xt xt Jt Jt))
    (kx := Matrix.of (e.obj.d01kj θ.kernelParams xt x Jt J)) (D := Matrix.of (e.obj.d01kj θ.kernelParams x x J J))
    (by ext i j; exact hk' _ _ _ _ _ _) (by ext i j; exact hk' _ _ _ _ _ _) (by ext i j; exact hk' _ _ _ _ _ _)
    (by ext i j; exact hk' _ _ _ _ _ _) (by ext i j; exact hk' _ _ _ _ _ _) (by ext i j; exact hk' _ _ _ _ _ _)
  have key := sparse_close hS _ _ hres hs2 (by positivity : (0 : ℝ) ≤ 1 / 10 ^ 10) (fun i => centerBy (flatCol y) gp.2 i 0)
    (flat j q)
  have hT : (Matrix.of (e.obj.d01kj θ.kernelParams xt xt Jt Jt) -
      (Matrix.of (e.obj.d01kj θ.kernelParams xl xt Jl Jt) : Mat (m * u) (n * w)).transpose *
      (Matrix.of (e.obj.d01kj θ.kernelParams xl xl Jl Jl) + (1 / 10 ^ 10 / θ.sigma ^ 2) • (1 : Mat (m * u) (m * u)))⁻¹ *
      Matrix.of (e.obj.d01kj θ.kernelParams xl xt Jl Jt) : Mat (n * w) (n * w)).trace = T := by
    rw [Matrix.trace, sum_flat]
    refine Finset.sum_congr rfl fun i _ => Finset.sum_congr rfl fun r _ => ?_
    rw [Matrix.diag_apply, Matrix.sub_apply, quad_entry]
    rfl
  have hρ : (Matrix.of (e.obj.d01kj θ.kernelParams x x J J) -
      (Matrix.of (e.obj.d01kj θ.kernelParams xl x Jl J) : Mat (m * u) (k * v)).transpose *
      (Matrix.of (e.obj.d01kj θ.kernelParams xl xl Jl Jl) + (1 / 10 ^ 10 / θ.sigma ^ 2) • (1 : Mat (m * u) (m * u)))⁻¹ *
      Matrix.of (e.obj.d01kj θ.kernelParams xl x Jl J) : Mat (k * v) (k * v)) (flat j q) (flat j q) = ρ := by
    rw [Matrix.sub_apply, quad_entry]
    rfl
  have hz : ∑ i, centerBy (flatCol y) gp.2 i 0 ^ 2 = ∑ i, ∑ r, (y i r - gp.2) ^ 2 := by
    rw [sum_flat]
    refine Finset.sum_congr rfl fun i _ => Finset.sum_congr rfl fun r _ => ?_
    simp only [centerBy, flatCol, Matrix.of_apply, flat_divNat, flat_modNat]
  rw [hT, hρ, hz] at key
  refine le_trans (le_of_eq ?_) key
  congr 2
  have hK := C65_gram_partial e θ.kernelParams h xl Jl
  have hp : (sgprADerivsLhs θ e.obj xl Jl xt Jt).1.PosDef := sparse_posDef hK _ _
  have hsys : (sgprADerivsLhs θ e.obj xl Jl xt Jt).1 = θ.sigma ^ 2 • (Matrix.of (e.obj.d01kj θ.kernelParams xl xl Jl Jl) +
      (1 / 10 ^ 10 / θ.sigma ^ 2) • (1 : Mat (m * u) (m * u))) +
      (Matrix.of (e.obj.d01kj θ.kernelParams xl xt Jl Jt) : Mat (m * u) (n * w)) *
      (Matrix.of (e.obj.d01kj θ.kernelParams xl xt Jl Jt) : Mat (m * u) (n * w)).transpose :=
    sparse_system_shift _ _ hs2.ne'
  have hkx : (Matrix.of (e.obj.d01kj θ.kernelParams x xl J Jl) : Mat (k * v) (m * u)) =
      (Matrix.of (e.obj.d01kj θ.kernelParams xl x Jl J) : Mat (m * u) (k * v)).transpose := by
    ext a b
    exact (C21_symmetric e θ.kernelParams).d01kj x xl J Jl a b
  have e1 : sgprPredictDerivs θ e.obj xl Jl x J sp.1 sp.2 j q = gp.2 +
      ((Matrix.of (e.obj.d01kj θ.kernelParams xl x Jl J) : Mat (m * u) (k * v)).transpose *ᵥ
      ((sgprADerivsLhs θ e.obj xl Jl xt Jt).1⁻¹ *ᵥ ((Matrix.of (e.obj.d01kj θ.kernelParams xl xt Jl Jt) : Mat (m * u) (n * w)) *ᵥ
        fun i => centerBy (flatCol y) gp.2 i 0))) (flat j q) := by
    have h1 : sp.1 = (sgprADerivsLhs θ e.obj xl Jl xt Jt).1⁻¹ *
        ((Matrix.of (e.obj.d01kj θ.kernelParams xl xt Jl Jt) : Mat (m * u) (n * w)) * centerBy (flatCol y) gp.2) :=
      ex.solve_eq (posDef_isUnit hp) _
    have h2 : sp.2 = gp.2 := rfl
    simp only [sgprPredictDerivs, unflatCol, prod_flat, addScalar, Matrix.of_apply, h1, h2, hkx]
    rfl
  have hg : (aDerivsLhsNoise θ e.obj xt Jt xt Jt).PosDef :=
    posDef_add_smul_one (C65_gram_partial e θ.kernelParams h xt Jt) (noise_pos θ)
  have e2 : predictDerivsDense θ e.obj xt Jt x J gp.1 gp.2 j q = gp.2 +
      ((Matrix.of (e.obj.d01kj θ.kernelParams xt x Jt J) : Mat (n * w) (k * v)).transpose *ᵥ
      ((Matrix.of (e.obj.d01kj θ.kernelParams xt xt Jt Jt) + (θ.sigma ^ 2 + 1 / 10 ^ 10) • (1 : Mat (n * w) (n * w)))⁻¹ *ᵥ
        fun i => centerBy (flatCol y) gp.2 i 0)) (flat j q) := by
    have h1 : gp.1 = (aDerivsLhsNoise θ e.obj xt Jt xt Jt)⁻¹ * centerBy (flatCol y) gp.2 := ex.solve_eq (posDef_isUnit hg) _
    simp only [predictDerivsDense, predictDerivsFlat, unflatCol, prod_flat, addScalar, Matrix.of_apply, h1]
    rfl
  rw [e1, e2, hsys]
  ring

/-! ## The likelihood -/

/-- Log-determinant and quadratic form of `A + R` against those of `A`, for `A` at least `s`. -/
theorem lml_close (ex : la.Exact) {Q R : Mat n n} (hQ : Q.PosSemidef) (hR : R.PosSemidef) {s : ℝ} (hs : 0 < s) (hn : 0 < n)
    (z : Mat n o) :
    -(R.trace / (2 * n * s ^ 2)) * (∑ i, ∑ a, z i a ^ 2) ≤
        lmlTail la (Q + s • (1 : Mat n n)) z - lmlTail la (Q + R + s • (1 : Mat n n)) z ∧
      lmlTail la (Q + s • (1 : Mat n n)) z - lmlTail la (Q + R + s • (1 : Mat n n)) z ≤ R.trace / (2 * n * s) := by
  have hn' : (0 : ℝ) < n := by exact_mod_cast hn
  have hA := posDef_add_smul_one hQ hs
  have hC := posDef_add_smul_one (hQ.add hR) hs
  obtain ⟨A, hAd⟩ : ∃ A, A = Q + s • (1 : Mat n n) := ⟨_, rfl⟩
  have hCA : Q + R + s • (1 : Mat n n) = A + R := by rw [hAd]; abel
  have hT : 0 ≤ R.trace := hR.trace_nonneg
  rw [hCA] at hC ⊢
  rw [← hAd] at hA ⊢
  -- sizes of solutions
  have small : ∀ {P : Mat n n}, P.PosSemidef → ∀ y w : Fin n → ℝ, (P + s • (1 : Mat n n)) *ᵥ w = y →
      s ^ 2 * (w ⬝ᵥ w) ≤ y ⬝ᵥ y := by
    intro P hP y w hw
    have h0 : 0 ≤ w ⬝ᵥ P *ᵥ w := by simpa using hP.dotProduct_mulVec_nonneg w
    have h1 : w ⬝ᵥ y = w ⬝ᵥ P *ᵥ w + s * (w ⬝ᵥ w) := by
      rw [← hw, Matrix.add_mulVec, Matrix.smul_mulVec, Matrix.one_mulVec, dotProduct_add, dotProduct_smul, smul_eq_mul]
    have h2 : 0 ≤ (y - s • w) ⬝ᵥ (y - s • w) := dot_self_nonneg _
    simp only [dotProduct_sub, sub_dotProduct, dotProduct_smul, smul_dotProduct, smul_eq_mul, dotProduct_comm y w] at h2
    nlinarith [mul_nonneg hs.le h0]
  have symm : ∀ {P : Mat n n}, P.PosSemidef → ∀ a c : Fin n → ℝ, (P *ᵥ a) ⬝ᵥ c = a ⬝ᵥ P *ᵥ c := fun {P} hP a c => by
    have h1 := hP.isHermitian
    rw [Matrix.IsHermitian, Matrix.conjTranspose_eq_transpose_of_trivial] at h1
    rw [Matrix.dotProduct_mulVec, ← Matrix.mulVec_transpose, h1]
  -- the quadratic form of one output
  have quad : ∀ y : Fin n → ℝ, 0 ≤ y ⬝ᵥ A⁻¹ *ᵥ y - y ⬝ᵥ (A + R)⁻¹ *ᵥ y ∧
      y ⬝ᵥ A⁻¹ *ᵥ y - y ⬝ᵥ (A + R)⁻¹ *ᵥ y ≤ R.trace / s ^ 2 * (y ⬝ᵥ y) := by
    intro y
    obtain ⟨a, ha⟩ : ∃ a, a = A⁻¹ *ᵥ y := ⟨_, rfl⟩
    obtain ⟨c, hc⟩ : ∃ c, c = (A + R)⁻¹ *ᵥ y := ⟨_, rfl⟩
    have ha' : A *ᵥ a = y := by rw [ha, Matrix.mulVec_mulVec, Matrix.mul_nonsing_inv _ (posDef_isUnit hA), Matrix.one_mulVec]
    have hc' : A *ᵥ c + R *ᵥ c = y := by
      rw [← Matrix.add_mulVec, hc, Matrix.mulVec_mulVec, Matrix.mul_nonsing_inv _ (posDef_isUnit hC), Matrix.one_mulVec]
    have hdiff : y ⬝ᵥ a - y ⬝ᵥ c = a ⬝ᵥ R *ᵥ c := by
      have h1 : y ⬝ᵥ a = a ⬝ᵥ A *ᵥ c + a ⬝ᵥ R *ᵥ c := by rw [← hc', add_dotProduct, dotProduct_comm, dotProduct_comm (R *ᵥ c)]
      have h2 : y ⬝ᵥ c = a ⬝ᵥ A *ᵥ c := by rw [← ha', symm hA.posSemidef]
      rw [h1, h2]; ring
    rw [← ha, ← hc, hdiff]
    constructor
    · -- (a - c) A (a - c) + c R c
      have h1 : A *ᵥ (a - c) = R *ᵥ c := by rw [Matrix.mulVec_sub, ha', ← hc']; abel
      have h2 : 0 ≤ (a - c) ⬝ᵥ A *ᵥ (a - c) := by simpa using hA.posSemidef.dotProduct_mulVec_nonneg (a - c)
      have h3 : 0 ≤ c ⬝ᵥ R *ᵥ c := by simpa using hR.dotProduct_mulVec_nonneg c
      rw [h1, sub_dotProduct] at h2
      linarith
    · have h1 := psd_bilinear hR a c
      have h2 := quad_trace hR a
      have h3 := quad_trace hR c
      have h4 : s ^ 2 * (a ⬝ᵥ a) ≤ y ⬝ᵥ y := small hQ y a (by rw [← hAd]; exact ha')
      have h5 : s ^ 2 * (c ⬝ᵥ c) ≤ y ⬝ᵥ y := small (hQ.add hR) y c (by rw [hCA, Matrix.add_mulVec]; exact hc')
      have h6 : a ⬝ᵥ a ≤ y ⬝ᵥ y / s ^ 2 := by rw [le_div_iff₀ (by positivity)]; linarith
      have h7 : c ⬝ᵥ c ≤ y ⬝ᵥ y / s ^ 2 := by rw [le_div_iff₀ (by positivity)]; linarith
      have h8 : 0 ≤ y ⬝ᵥ y := dot_self_nonneg y
      refine le_of_sq_le_sq ?_ (by positivity) |>.trans_eq rfl
      refine h1.trans ?_
      have h9 : 0 ≤ c ⬝ᵥ R *ᵥ c := by simpa using hR.dotProduct_mulVec_nonneg c
      calc _ ≤ (R.trace * (a ⬝ᵥ a)) * (R.trace * (c ⬝ᵥ c)) := mul_le_mul h2 h3 h9 (mul_nonneg hT (dot_self_nonneg a))
        _ ≤ (R.trace * (y ⬝ᵥ y / s ^ 2)) * (R.trace * (y ⬝ᵥ y / s ^ 2)) := by gcongr; exact mul_nonneg hT (dot_self_nonneg c)
        _ = (R.trace / s ^ 2 * (y ⬝ᵥ y)) ^ 2 := by ring
  -- the determinants
  have hdet : 0 ≤ Real.log (A + R).det - Real.log A.det ∧ Real.log (A + R).det - Real.log A.det ≤ R.trace / s := by
    obtain ⟨V, l, h1, h2, h3⟩ := exists_spectral A hA.isHermitian
    have hl : ∀ i, s ≤ l i := by
      have h4 : (Matrix.diagonal fun i => l i - s).PosSemidef := by
        have h5 := hQ.conjTranspose_mul_mul_same V
        rw [Matrix.conjTranspose_eq_transpose_of_trivial] at h5
        have : V.transpose * Q * V = Matrix.diagonal fun i => l i - s := by
          have h6 : Q = A - s • (1 : Mat n n) := by rw [hAd]; abel
          rw [h6, Matrix.mul_sub, Matrix.sub_mul, h3, Matrix.mul_smul, Matrix.mul_one, Matrix.smul_mul, h1]
          ext i j
          simp only [Matrix.sub_apply, Matrix.diagonal_apply, Matrix.smul_apply, Matrix.one_apply, smul_eq_mul]
          split_ifs <;> ring
        rwa [this] at h5
      exact fun i => by have := Matrix.posSemidef_diagonal_iff.1 h4 i; linarith
    have hl0 : ∀ i, 0 < l i := fun i => hs.trans_le (hl i)
    obtain ⟨Dm, hDm⟩ : ∃ Dm : Mat n n, Dm = Matrix.diagonal fun i => (Real.sqrt (l i))⁻¹ := ⟨_, rfl⟩
    obtain ⟨W, hW⟩ : ∃ W, W = V * Dm := ⟨_, rfl⟩
    have hWA : W.transpose * A * W = 1 := by
      rw [hW, Matrix.transpose_mul, hDm, Matrix.diagonal_transpose]
      calc _ = Matrix.diagonal (fun i => (Real.sqrt (l i))⁻¹) * (V.transpose * A * V) *
          Matrix.diagonal (fun i => (Real.sqrt (l i))⁻¹) := by simp only [Matrix.mul_assoc]
        _ = 1 := by
          rw [h3, Matrix.diagonal_mul_diagonal, Matrix.diagonal_mul_diagonal, ← Matrix.diagonal_one]
          congr 1
          funext i
          have h4 := Real.mul_self_sqrt (hl0 i).le
          have h5 := (Real.sqrt_pos.2 (hl0 i)).ne'
          field_simp
          rw [← sq] at h4
          linarith
    have hWR : (W.transpose * R * W).PosSemidef := by
      have := hR.conjTranspose_mul_mul_same W
      rwa [Matrix.conjTranspose_eq_transpose_of_trivial] at this
    have hdetW : W.det ^ 2 * A.det = 1 := by
      have := congrArg Matrix.det hWA
      rw [Matrix.det_mul, Matrix.det_mul, Matrix.det_transpose, Matrix.det_one] at this
      linarith
    have hsum : W.transpose * R * W + (1 : ℝ) • (1 : Mat n n) = W.transpose * (A + R) * W := by
      rw [one_smul, ← hWA, Matrix.mul_add, Matrix.add_mul, add_comm]
    have hratio : Real.log (W.transpose * R * W + (1 : ℝ) • (1 : Mat n n)).det = Real.log (A + R).det - Real.log A.det := by
      rw [hsum, Matrix.det_mul, Matrix.det_mul, Matrix.det_transpose]
      have hd : W.det * (A + R).det * W.det = (A + R).det / A.det := by
        rw [eq_div_iff hA.det_pos.ne']
        linear_combination (A + R).det * hdetW
      rw [hd, Real.log_div hC.det_pos.ne' hA.det_pos.ne']
    have htr : (W.transpose * R * W).trace ≤ R.trace / s := by
      have h4 : (W.transpose * R * W).trace = (V.transpose * R * V * Matrix.diagonal fun i => (l i)⁻¹).trace := by
        have : W.transpose * R * W = Dm * (V.transpose * R * V) * Dm := by
          rw [hW, Matrix.transpose_mul, hDm, Matrix.diagonal_transpose]
          simp only [Matrix.mul_assoc]
        rw [this, Matrix.mul_assoc, Matrix.trace_mul_comm, Matrix.mul_assoc, hDm, Matrix.diagonal_mul_diagonal]
        congr 3
        funext i
        rw [← mul_inv, Real.mul_self_sqrt (hl0 i).le]
      have h5 : (V.transpose * R * V).PosSemidef := by
        have := hR.conjTranspose_mul_mul_same V
        rwa [Matrix.conjTranspose_eq_transpose_of_trivial] at this
      have h6 : (V.transpose * R * V).trace = R.trace := by
        rw [Matrix.trace_mul_comm, ← Matrix.mul_assoc, h2, Matrix.one_mul]
      rw [h4, ← h6, Matrix.trace, Matrix.trace, Finset.sum_div]
      refine Finset.sum_le_sum fun i _ => ?_
      rw [Matrix.diag_apply, Matrix.diag_apply, Matrix.mul_diagonal, div_eq_mul_inv]
      exact mul_le_mul_of_nonneg_left (inv_anti₀ hs (hl i)) h5.diag_nonneg
    rw [← hratio]
    constructor
    · have := pow_le_det_shift hWR one_pos
      rw [one_pow] at this
      exact Real.log_nonneg this
    · refine (log_det_shift_le hWR one_pos hn).trans ?_
      have h7 := hWR.trace_nonneg
      have h8 := Real.log_le_sub_one_of_pos (by positivity : 0 < (W.transpose * R * W).trace / n + 1)
      calc _ ≤ n * ((W.transpose * R * W).trace / n + 1 - 1) := mul_le_mul_of_nonneg_left h8 hn'.le
        _ = (W.transpose * R * W).trace := by field_simp; ring
        _ ≤ _ := htr
  -- together
  have hsumq : ∀ P : Mat n n, ∑ a, ∑ i, ∑ j, z i a * P i j * z j a = ∑ a, (fun i => z i a) ⬝ᵥ P *ᵥ fun i => z i a := fun P =>
    Finset.sum_congr rfl fun a _ => by simp only [dotProduct, Matrix.mulVec, Finset.mul_sum, mul_assoc]
  have l1 := lmlTail_eq hA ex z
  have l2 := lmlTail_eq hC ex z
  rw [hsumq] at l1 l2
  have q0 : 0 ≤ ∑ a, (fun i => z i a) ⬝ᵥ A⁻¹ *ᵥ (fun i => z i a) - ∑ a, (fun i => z i a) ⬝ᵥ (A + R)⁻¹ *ᵥ fun i => z i a := by
    rw [← Finset.sum_sub_distrib]
    exact Finset.sum_nonneg fun a _ => (quad _).1
  have q1 : ∑ a, (fun i => z i a) ⬝ᵥ A⁻¹ *ᵥ (fun i => z i a) - ∑ a, (fun i => z i a) ⬝ᵥ (A + R)⁻¹ *ᵥ (fun i => z i a) ≤
      R.trace / s ^ 2 * ∑ i, ∑ a, z i a ^ 2 := by
    rw [← Finset.sum_sub_distrib, Finset.sum_comm, Finset.mul_sum]
    refine Finset.sum_le_sum fun a _ => ?_
    have := (quad fun i => z i a).2
    rwa [dot_sq] at this
  have e1 : (n : ℝ) * (-(R.trace / (2 * n * s ^ 2)) * ∑ i, ∑ a, z i a ^ 2) =
      -(1 / 2) * (R.trace / s ^ 2 * ∑ i, ∑ a, z i a ^ 2) := by field_simp
  have e2 : (n : ℝ) * (R.trace / (2 * n * s)) = 1 / 2 * (R.trace / s) := by field_simp
  constructor
  · refine le_of_mul_le_mul_left ?_ hn'
    rw [mul_sub, l1, l2, e1]
    linarith [hdet.1]
  · refine le_of_mul_le_mul_left ?_ hn'
    rw [mul_sub, l1, l2, e2]
    linarith [hdet.2]

/-- **C163**, likelihood. With `T` the variance of the training inputs left unexplained and `s = sigma² + 1e-10`, the log marginal
likelihoods per sample of SGPR and GPR differ by at most `T / (2 n s)` upwards and `T |y - mu|² / (2 n s²)` downwards. -/
theorem C163_likelihood (ex : la.Exact) (e : KExpr d) (θ : GPParams) (h : Admissible e θ.kernelParams)
    (mf : MeanFun) (xl : Batch m d) (x : Batch n d) (y : Mat n o) (hn : 0 < n) :
    let T := ∑ i, unexplained e.obj θ.kernelParams (1 / 10 ^ 10) xl x i
    let s := θ.sigma ^ 2 + 1 / 10 ^ 10
    sgprLmlDense la θ e.obj mf xl x y - lmlDense la θ e.obj mf x y ≤ T / (2 * n * s) ∧
      lmlDense la θ e.obj mf x y - sgprLmlDense la θ e.obj mf xl x y ≤ T / (2 * n * s ^ 2) * ∑ i, ∑ a, (y i a - mf y) ^ 2 := by
  intro T s
  have hk := posDef_add_smul_one (C22_gram_posSemidef e θ.kernelParams h xl) (by positivity : (0 : ℝ) < 1 / 10 ^ 10)
  obtain ⟨B, hB⟩ : ∃ B : Mat m n, B = Matrix.of (e.obj.k θ.kernelParams xl x) := ⟨_, rfl⟩
  obtain ⟨Q, hQ⟩ : ∃ Q : Mat n n, Q = B.transpose * (Matrix.of (e.obj.k θ.kernelParams xl xl) +
    (1 / 10 ^ 10 : ℝ) • (1 : Mat m m))⁻¹ * B := ⟨_, rfl⟩
  obtain ⟨R, hR⟩ : ∃ R : Mat n n, R = Matrix.of (e.obj.k θ.kernelParams x x) - Q := ⟨_, rfl⟩
  have hQp : Q.PosSemidef := by
    have := psd_sandwich hk.inv.posSemidef B
    rwa [← hQ] at this
  have hRp : R.PosSemidef := by
    rw [hR, hQ, hB]
    exact schur_psd hk _ _ (blocks_noise (by positivity) (joint_psd e θ.kernelParams h xl x))
  have e1 : sgprLmlDense la θ e.obj mf xl x y = lmlTail la (Q + s • (1 : Mat n n)) (centerBy y (mf y)) := by
    unfold sgprLmlDense
    simp only
    rw [ex.gram (show (Matrix.of (e.obj.k θ.kernelParams xl xl) + noiseJitter • (1 : Mat m m)).PosDef from hk), add_assoc,
      ← add_smul, hQ, hB]
    rfl
  have e2 : lmlDense la θ e.obj mf x y = lmlTail la (Q + R + s • (1 : Mat n n)) (centerBy y (mf y)) := by
    rw [hR, add_sub_cancel]
    rfl
  have hT : R.trace = T := by
    rw [hR, hQ]
    refine Finset.sum_congr rfl fun i _ => ?_
    rw [Matrix.diag_apply, Matrix.sub_apply, quad_entry, hB]
    rfl
  have key := lml_close ex hQp hRp (noise_pos θ) hn (centerBy y (mf y))
  rw [hT] at key
  rw [e1, e2]
  refine ⟨key.2, ?_⟩
  have := key.1
  have h1 : ∑ i, ∑ a, centerBy y (mf y) i a ^ 2 = ∑ i, ∑ a, (y i a - mf y) ^ 2 := rfl
  rw [h1, neg_mul] at this
  exact (neg_le_neg_iff.1 (by rw [neg_sub]; exact this))

/-! ## What the inducing points leave unexplained -/

theorem unexplained_eq (κ : KernelObj d) (p : KPar) (c : ℝ) (xl : Batch m d) (x : Batch n d) (j : Fin n) :
    unexplained κ p c xl x j = κ.k p x x j j - (fun a => κ.k p xl x a j) ⬝ᵥ
      ((Matrix.of (κ.k p xl xl) : Mat m m) + c • (1 : Mat m m))⁻¹ *ᵥ fun a => κ.k p xl x a j := by
  unfold unexplained
  simp only [dotProduct, Matrix.mulVec, Finset.mul_sum, mul_assoc]

/-- The best approximation is at least as good as any other. -/
theorem schur_le {S : Mat m m} (hS : S.PosDef) (b w : Fin m → ℝ) (κ : ℝ) :
    κ - b ⬝ᵥ S⁻¹ *ᵥ b ≤ κ - 2 * (w ⬝ᵥ b) + w ⬝ᵥ S *ᵥ w := by
  obtain ⟨r, hr⟩ : ∃ r, r = S⁻¹ *ᵥ b := ⟨_, rfl⟩
  have hb : S *ᵥ r = b := by rw [hr, Matrix.mulVec_mulVec, Matrix.mul_nonsing_inv _ (posDef_isUnit hS), Matrix.one_mulVec]
  have h := hS.posSemidef.dotProduct_mulVec_nonneg (w - r)
  have hsym : r ⬝ᵥ S *ᵥ w = w ⬝ᵥ b := by
    have h1 := hS.isHermitian
    rw [Matrix.IsHermitian, Matrix.conjTranspose_eq_transpose_of_trivial] at h1
    rw [Matrix.dotProduct_mulVec, ← Matrix.mulVec_transpose, h1, hb, dotProduct_comm]
  rw [star_trivial, Matrix.mulVec_sub, hb, dotProduct_sub, sub_dotProduct, sub_dotProduct, hsym, dotProduct_comm r b] at h
  rw [← hr]
  linarith

theorem schur_attained {S : Mat m m} (hS : S.PosDef) (b : Fin m → ℝ) (κ : ℝ) :
    κ - b ⬝ᵥ S⁻¹ *ᵥ b = κ - 2 * ((S⁻¹ *ᵥ b) ⬝ᵥ b) + (S⁻¹ *ᵥ b) ⬝ᵥ S *ᵥ (S⁻¹ *ᵥ b) := by
  rw [Matrix.mulVec_mulVec, Matrix.mul_nonsing_inv _ (posDef_isUnit hS), Matrix.one_mulVec, dotProduct_comm b]
  ring

/-- **C163**, the unexplained variance is a part of the prior variance, at an inducing point it is at most the regularisation, and
more inducing points leave less unexplained. -/
theorem C163_unexplained (e : KExpr d) (p : KPar) (h : Admissible e p) {c : ℝ} (hc : 0 < c) (xl : Batch m d) (x : Batch n d)
    (j : Fin n) :
    0 ≤ unexplained e.obj p c xl x j ∧ unexplained e.obj p c xl x j ≤ e.obj.k p x x j j ∧
    (∀ a, xl a = x j → unexplained e.obj p c xl x j ≤ c) ∧
    ∀ {l : ℕ} (f : Fin l → Fin m), Function.Injective f →
      unexplained e.obj p c xl x j ≤ unexplained e.obj p c (fun s => xl (f s)) x j := by
  have hS := posDef_add_smul_one (C22_gram_posSemidef e p h xl) hc
  obtain ⟨L, hL, hk⟩ := e.psd p h
  refine ⟨?_, ?_, fun a ha => ?_, fun {l} f hf => ?_⟩
  · have := (schur_psd hS _ _ (blocks_noise hc.le (joint_psd e p h xl x))).diag_nonneg (i := j)
    rwa [Matrix.sub_apply, quad_entry] at this
  · rw [unexplained_eq, sub_le_self_iff]
    simpa using hS.inv.posSemidef.dotProduct_mulVec_nonneg (fun a => e.obj.k p xl x a j)
  · rw [unexplained_eq]
    refine (schur_le hS _ (Pi.single a 1) _).trans (le_of_eq ?_)
    simp only [single_one_dotProduct, Matrix.mulVec_single_one, Matrix.col_apply, Matrix.add_apply, Matrix.of_apply,
      Matrix.smul_apply, Matrix.one_apply_eq, smul_eq_mul, mul_one, hk, ha]
    ring
  · have hSf := posDef_add_smul_one (C22_gram_posSemidef e p h fun s => xl (f s)) hc
    rw [unexplained_eq, unexplained_eq, schur_attained hSf]
    obtain ⟨w, hw⟩ : ∃ w, w = ((Matrix.of (e.obj.k p (fun s => xl (f s)) fun s => xl (f s)) : Mat l l) + c • (1 : Mat l l))⁻¹ *ᵥ
      fun a => e.obj.k p (fun s => xl (f s)) x a j := ⟨_, rfl⟩
    rw [← hw]
    refine (schur_le hS _ (fun a => ∑ s, if f s = a then w s else 0) _).trans (le_of_eq ?_)
    have hsum : ∀ g : Fin m → ℝ, ∑ a, (∑ s, if f s = a then w s else 0) * g a = ∑ s, w s * g (f s) := fun g => by
      simp only [Finset.sum_mul, ite_mul, zero_mul]
      rw [Finset.sum_comm]
      simp
    have e1 : (fun a => ∑ s, if f s = a then w s else 0) ⬝ᵥ (fun a => e.obj.k p xl x a j) =
        w ⬝ᵥ fun a => e.obj.k p (fun s => xl (f s)) x a j := by
      rw [dotProduct, hsum]
      simp only [dotProduct, hk]
    have e2 : (fun a => ∑ s, if f s = a then w s else 0) ⬝ᵥ ((Matrix.of (e.obj.k p xl xl) : Mat m m) + c • (1 : Mat m m)) *ᵥ
        (fun a => ∑ s, if f s = a then w s else 0) = w ⬝ᵥ ((Matrix.of (e.obj.k p (fun s => xl (f s)) fun s => xl (f s)) : Mat l l) +
          c • (1 : Mat l l)) *ᵥ w := by
      have h1 : ∀ a, (((Matrix.of (e.obj.k p xl xl) : Mat m m) + c • (1 : Mat m m)) *ᵥ
          (fun a => ∑ s, if f s = a then w s else 0)) a =
          ∑ t, w t * ((Matrix.of (e.obj.k p xl xl) : Mat m m) + c • (1 : Mat m m)) a (f t) := fun a => by
        rw [← hsum fun b => ((Matrix.of (e.obj.k p xl xl) : Mat m m) + c • (1 : Mat m m)) a b]
        rw [Matrix.mulVec, dotProduct]
        exact Finset.sum_congr rfl fun b _ => mul_comm (_ : ℝ) _
      rw [dotProduct, hsum]
      refine Finset.sum_congr rfl fun s _ => ?_
      rw [h1]
      congr 1
      refine Finset.sum_congr rfl fun t _ => ?_
      rw [mul_comm]
      congr 1
      simp only [Matrix.add_apply, Matrix.of_apply, Matrix.smul_apply, Matrix.one_apply, hk, hf.eq_iff]
    rw [e1, e2]

/-! ## Non-vacuity -/

example : ∃ (e : KExpr 1) (θ : GPParams), Admissible e θ.kernelParams ∧ θ.sigma ≠ 0 ∧
    0 < unexplained e.obj θ.kernelParams (1 / 10 ^ 10 / θ.sigma ^ 2) (fun _ _ => 0 : Batch 1 1) (fun _ _ => 3 : Batch 1 1) 0 := by
  refine ⟨.prod (.linear none) (.constant none), ⟨fun _ => 1, 1⟩, ⟨trivial, ?_⟩, one_ne_zero, ?_⟩
  · norm_num [Admissible, KPar.val, KPar.sub]
  · simp [unexplained, KExpr.obj, KernelObj.prod, prodKernels, Arr2.mul, KernelObj.linear, KernelObj.constant, linearK, constantK,
      KPar.val, KPar.sub, matmulT, Dims.takeCols, Dims.resolve]
    norm_num [Dims.take, Dims.all]

end GPX.Props
