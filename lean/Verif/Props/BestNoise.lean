import Verif.Props.Objective
import Verif.Props.Continuity
import Verif.Props.Strict

/-!
# C162: the best noise

The log marginal likelihood as a function of the noise, the rest of the model fixed.
-/

namespace GPX.Props
open GPX GPX.Spec

variable {d n m o v : ℕ} {la : LinAlg}

/-! ## The likelihood in the eigenbasis -/

/-- One orthogonal change of coordinates of the targets writes the likelihood of `S + c` for every `c` as a sum of one term per
eigenvalue of `S`. -/
theorem lmlTail_spectral (ex : la.Exact) {S : Mat n n} (hS : S.PosSemidef) (y : Mat n o) :
    ∃ (l q : Fin n → ℝ), (∀ k, 0 ≤ l k) ∧ (∀ k, 0 ≤ q k) ∧ ∑ k, q k = ∑ i, ∑ a, y i a ^ 2 ∧
      ∀ c, 0 < c → n * lmlTail la (S + c • (1 : Mat n n)) y =
        -(1 / 2) * (∑ k, (q k / (l k + c) + Real.log (l k + c))) - n * (1 / 2) * Real.log (2 * Real.pi) := by
  obtain ⟨V, l, h1, h2, h3⟩ := exists_spectral S hS.isHermitian
  have hS' : S = V * Matrix.diagonal l * V.transpose := by
    rw [← h3, ← Matrix.mul_assoc, ← Matrix.mul_assoc, h2, Matrix.one_mul, Matrix.mul_assoc, h2, Matrix.mul_one]
  have hl : ∀ k, 0 ≤ l k := by
    have h4 := hS.conjTranspose_mul_mul_same V
    rw [Matrix.conjTranspose_eq_transpose_of_trivial, h3] at h4
    exact Matrix.posSemidef_diagonal_iff.1 h4
  refine ⟨l, fun k => ∑ a, (V.transpose * y) k a ^ 2, hl, fun k => Finset.sum_nonneg fun a _ => sq_nonneg _, ?_, ?_⟩
  · have e : ∀ {p : ℕ} (A : Mat p o), ∑ i, ∑ a, A i a ^ 2 = (A.transpose * A).trace := by
      intro p A
      rw [Finset.sum_comm, Matrix.trace]
      refine Finset.sum_congr rfl fun a _ => ?_
      rw [Matrix.diag_apply, Matrix.mul_apply]
      exact Finset.sum_congr rfl fun i _ => sq _
    rw [e, e, Matrix.transpose_mul, Matrix.transpose_transpose, Matrix.mul_assoc, ← Matrix.mul_assoc V, h2, Matrix.one_mul]
  · intro c hc
    have hp := posDef_add_smul_one hS hc
    have hpos : ∀ k, 0 < l k + c := fun k => by linarith [hl k]
    have hSc : S + c • (1 : Mat n n) = V * Matrix.diagonal (fun k => l k + c) * V.transpose := by
      have : Matrix.diagonal (fun k => l k + c) = Matrix.diagonal l + c • (1 : Mat n n) := by
        ext i j
        simp only [Matrix.diagonal_apply, Matrix.add_apply, Matrix.smul_apply, Matrix.one_apply, smul_eq_mul]
        split_ifs <;> ring
      rw [this, Matrix.mul_add, Matrix.add_mul, ← hS', Matrix.mul_smul, Matrix.mul_one, Matrix.smul_mul, h2]
    have hinv : (S + c • (1 : Mat n n))⁻¹ = V * Matrix.diagonal (fun k => (l k + c)⁻¹) * V.transpose := by
      refine Matrix.inv_eq_right_inv ?_
      have hd : Matrix.diagonal (fun k => l k + c) * Matrix.diagonal (fun k => (l k + c)⁻¹) = (1 : Mat n n) := by
        rw [Matrix.diagonal_mul_diagonal]
        have : (fun k => (l k + c) * (l k + c)⁻¹) = fun _ => (1 : ℝ) := funext fun k => mul_inv_cancel₀ (hpos k).ne'
        rw [this, Matrix.diagonal_one]
      rw [hSc]
      calc V * Matrix.diagonal (fun k => l k + c) * V.transpose * (V * Matrix.diagonal (fun k => (l k + c)⁻¹) * V.transpose)
          = V * (Matrix.diagonal (fun k => l k + c) * (V.transpose * V) * Matrix.diagonal (fun k => (l k + c)⁻¹)) *
              V.transpose := by simp only [Matrix.mul_assoc]
        _ = 1 := by rw [h1, Matrix.mul_one, hd, Matrix.mul_one, h2]
    have hdet : Real.log (S + c • (1 : Mat n n)).det = ∑ k, Real.log (l k + c) := by
      have hVV : V.det * V.transpose.det = 1 := by rw [← Matrix.det_mul, h2, Matrix.det_one]
      rw [hSc, Matrix.det_mul, Matrix.det_mul, Matrix.det_diagonal, mul_right_comm, hVV, one_mul,
        Real.log_prod fun k _ => (hpos k).ne']
    have hquad : ∑ a, ∑ i, ∑ j, y i a * (S + c • (1 : Mat n n))⁻¹ i j * y j a =
        ∑ k, (∑ a, (V.transpose * y) k a ^ 2) / (l k + c) := by
      have e1 : ∑ a, ∑ i, ∑ j, y i a * (S + c • (1 : Mat n n))⁻¹ i j * y j a =
          (y.transpose * (S + c • (1 : Mat n n))⁻¹ * y).trace := by
        rw [Matrix.trace]
        refine Finset.sum_congr rfl fun a _ => ?_
        rw [Matrix.diag_apply, Matrix.mul_apply, Finset.sum_comm]
        refine Finset.sum_congr rfl fun j _ => ?_
        rw [Matrix.mul_apply, Finset.sum_mul]
        rfl
      have e2 : y.transpose * (S + c • (1 : Mat n n))⁻¹ * y =
          (V.transpose * y).transpose * (Matrix.diagonal (fun k => (l k + c)⁻¹) * (V.transpose * y)) := by
        rw [hinv, Matrix.transpose_mul, Matrix.transpose_transpose]
        simp only [Matrix.mul_assoc]
      rw [e1, e2, Matrix.trace]
      simp only [Matrix.diag_apply, Matrix.mul_apply (M := (V.transpose * y).transpose), Matrix.diagonal_mul,
        Matrix.transpose_apply (M := V.transpose * y)]
      rw [Finset.sum_comm]
      refine Finset.sum_congr rfl fun k _ => ?_
      rw [Finset.sum_div]
      refine Finset.sum_congr rfl fun a _ => ?_
      rw [div_eq_mul_inv]
      ring
    rw [lmlTail_eq hp ex, hquad, hdet, Finset.sum_add_distrib]
    ring

/-- One term: past the squared target, more noise costs more than it explains. -/
theorem term_lt {q a b : ℝ} (ha : 0 < a) (hab : a < b) (hq : q ≤ a) :
    q / a + Real.log a < q / b + Real.log b := by
  have hb : 0 < b := ha.trans hab
  have h1 : Real.log (a / b) < a / b - 1 := Real.log_lt_sub_one_of_pos (by positivity) (by
    rw [Ne, div_eq_one_iff_eq hb.ne']; exact hab.ne)
  rw [Real.log_div ha.ne' hb.ne'] at h1
  have h2 : q / a - q / b ≤ 1 - a / b := by
    have e : q / a - q / b = q / a * (1 - a / b) := by field_simp
    have h3 : q / a ≤ 1 := (div_le_one ha).2 hq
    have h4 : 0 ≤ 1 - a / b := by rw [sub_nonneg, div_le_one hb]; exact hab.le
    rw [e]
    nlinarith
  linarith

theorem lmlTail_lt (ex : la.Exact) {S : Mat n n} (hS : S.PosSemidef) (hn : 0 < n) (y : Mat n o) {a b : ℝ} (ha : 0 < a)
    (hab : a < b) (hq : ∑ i, ∑ c, y i c ^ 2 ≤ a) :
    lmlTail la (S + b • (1 : Mat n n)) y < lmlTail la (S + a • (1 : Mat n n)) y := by
  obtain ⟨l, q, hl, hq0, hsum, h⟩ := lmlTail_spectral ex hS y
  have hn' : (0 : ℝ) < n := by exact_mod_cast hn
  refine lt_of_mul_lt_mul_left ?_ hn'.le
  rw [h a ha, h b (ha.trans hab)]
  have : Nonempty (Fin n) := ⟨⟨0, hn⟩⟩
  have : ∑ k, (q k / (l k + a) + Real.log (l k + a)) < ∑ k, (q k / (l k + b) + Real.log (l k + b)) := by
    refine Finset.sum_lt_sum_of_nonempty Finset.univ_nonempty fun k _ =>
      term_lt (by linarith [hl k]) (by linarith) ?_
    have h1 : q k ≤ ∑ k, q k := Finset.single_le_sum (fun k _ => hq0 k) (Finset.mem_univ k)
    linarith [hl k]
  linarith

/-- Existence and location of the best noise for a positive semidefinite matrix. -/
theorem lmlTail_best (ex : la.Exact) {S : Mat n n} (hS : S.PosSemidef) (hn : 0 < n) (y : Mat n o) {j : ℝ} (hj : 0 < j) :
    (∃ s : ℝ, ∀ t : ℝ, lmlTail la (S + (t ^ 2 + j) • (1 : Mat n n)) y ≤ lmlTail la (S + (s ^ 2 + j) • (1 : Mat n n)) y) ∧
    ∀ s : ℝ, (∀ t : ℝ, lmlTail la (S + (t ^ 2 + j) • (1 : Mat n n)) y ≤ lmlTail la (S + (s ^ 2 + j) • (1 : Mat n n)) y) →
      s ^ 2 + j ≤ max (∑ i, ∑ a, y i a ^ 2) j := by
  obtain ⟨Q, hQ⟩ : ∃ Q, Q = ∑ i, ∑ a, y i a ^ 2 := ⟨_, rfl⟩
  rw [← hQ]
  obtain ⟨r, hr⟩ : ∃ r, r = Real.sqrt (max Q j - j) := ⟨_, rfl⟩
  have hr2 : r ^ 2 + j = max Q j := by
    rw [hr, Real.sq_sqrt (sub_nonneg.2 (le_max_right _ _))]; ring
  have hr0 : 0 ≤ r := hr ▸ Real.sqrt_nonneg _
  have hout : ∀ t : ℝ, max Q j < t ^ 2 + j →
      lmlTail la (S + (t ^ 2 + j) • (1 : Mat n n)) y < lmlTail la (S + (r ^ 2 + j) • (1 : Mat n n)) y := fun t ht =>
    lmlTail_lt ex hS hn y (by positivity) (hr2 ▸ ht) (by rw [hr2, ← hQ]; exact le_max_left _ _)
  refine ⟨?_, fun s hs => ?_⟩
  · have hc : Continuous fun t : ℝ => lmlTail la (S + (t ^ 2 + j) • (1 : Mat n n)) y := by
      refine cont_lmlTail ex ?_ (fun t => posDef_add_smul_one hS (by positivity)) continuous_const
      fun_prop
    obtain ⟨s, -, hs⟩ := isCompact_Icc.exists_isMaxOn (Set.nonempty_Icc.2 hr0) (hc.continuousOn (s := Set.Icc 0 r))
    refine ⟨s, fun t => ?_⟩
    by_cases ht : t ^ 2 + j ≤ max Q j
    · have h1 : |t| ∈ Set.Icc 0 r := ⟨abs_nonneg _, by
        rw [← hr2] at ht
        exact abs_le_of_sq_le_sq (by linarith) hr0⟩
      have h2 := hs h1
      simp only [Set.mem_ofPred_eq, sq_abs] at h2
      exact h2
    · exact (hout t (not_le.1 ht)).le.trans (hs ⟨hr0, le_rfl⟩)
  · by_contra h
    exact absurd (hs r) (not_le.2 (hout s (not_le.1 h)))

/-! ## GPR and SGPR -/

theorem sgprLml_shift (la : LinAlg) (e : KExpr d) (p : KPar) (mf : MeanFun)
    (xl : Batch m d) (x : Batch n d) (y : Mat n o) : ∃ S : Mat n n, S.PosSemidef ∧ ∀ s : ℝ,
      sgprLmlDense la ⟨p, s⟩ e.obj mf xl x y = lmlTail la (S + (s ^ 2 + 1 / 10 ^ 10) • (1 : Mat n n)) (centerBy y (mf y)) := by
  refine ⟨_, gram_posSemidef (la.solveLower (la.cholesky
    (Matrix.of (e.obj.k p xl xl) + noiseJitter • (1 : Mat m m))) (Matrix.of (e.obj.k p xl x))), fun s => ?_⟩
  rw [add_smul, ← add_assoc]
  rfl

/-- **C162**, more noise. Once the noise variance is at least the sum of the squared deviations of the targets from the mean,
more noise strictly lowers the log marginal likelihood of GPR and SGPR. -/
theorem C162_more_noise (ex : la.Exact) (e : KExpr d) (p : KPar) (h : Admissible e p) (mf : MeanFun)
    (xl : Batch m d) (x : Batch n d) (y : Mat n o) (hn : 0 < n) (s t : ℝ) (hst : |s| < |t|)
    (hy : ∑ i, ∑ a, (y i a - mf y) ^ 2 ≤ s ^ 2 + 1 / 10 ^ 10) :
    lmlDense la ⟨p, t⟩ e.obj mf x y < lmlDense la ⟨p, s⟩ e.obj mf x y ∧
    sgprLmlDense la ⟨p, t⟩ e.obj mf xl x y < sgprLmlDense la ⟨p, s⟩ e.obj mf xl x y := by
  have hab : s ^ 2 + 1 / 10 ^ 10 < t ^ 2 + 1 / 10 ^ 10 := by
    have := sq_lt_sq.2 hst
    linarith
  obtain ⟨S, hS, hl⟩ := sgprLml_shift la e p mf xl x y
  refine ⟨lmlTail_lt ex (C22_gram_posSemidef e p h x) hn (centerBy y (mf y)) (a := s ^ 2 + 1 / 10 ^ 10) (by positivity) hab hy, ?_⟩
  rw [hl, hl]
  exact lmlTail_lt ex hS hn (centerBy y (mf y)) (a := s ^ 2 + 1 / 10 ^ 10) (by positivity) hab hy

/-- **C162.** A noise that maximises the log marginal likelihood exists, and the variance of every such noise (with the
jitter) is at most the sum of the squared deviations of the targets from the mean, or the jitter. -/
theorem C162_best_noise (ex : la.Exact) (e : KExpr d) (p : KPar) (h : Admissible e p) (mf : MeanFun)
    (x : Batch n d) (y : Mat n o) (hn : 0 < n) :
    (∃ s : ℝ, ∀ t : ℝ, lmlDense la ⟨p, t⟩ e.obj mf x y ≤ lmlDense la ⟨p, s⟩ e.obj mf x y) ∧
    ∀ s : ℝ, (∀ t : ℝ, lmlDense la ⟨p, t⟩ e.obj mf x y ≤ lmlDense la ⟨p, s⟩ e.obj mf x y) →
      s ^ 2 + 1 / 10 ^ 10 ≤ max (∑ i, ∑ a, (y i a - mf y) ^ 2) (1 / 10 ^ 10) :=
  lmlTail_best ex (C22_gram_posSemidef e p h x) hn (centerBy y (mf y)) (j := 1 / 10 ^ 10) (by positivity)

/-- **C162**, SGPR. -/
theorem C162_best_noise_sgpr (ex : la.Exact) (e : KExpr d) (p : KPar) (mf : MeanFun)
    (xl : Batch m d) (x : Batch n d) (y : Mat n o) (hn : 0 < n) :
    (∃ s : ℝ, ∀ t : ℝ, sgprLmlDense la ⟨p, t⟩ e.obj mf xl x y ≤ sgprLmlDense la ⟨p, s⟩ e.obj mf xl x y) ∧
    ∀ s : ℝ, (∀ t : ℝ, sgprLmlDense la ⟨p, t⟩ e.obj mf xl x y ≤ sgprLmlDense la ⟨p, s⟩ e.obj mf xl x y) →
      s ^ 2 + 1 / 10 ^ 10 ≤ max (∑ i, ∑ a, (y i a - mf y) ^ 2) (1 / 10 ^ 10) := by
  obtain ⟨S, hS, hl⟩ := sgprLml_shift la e p mf xl x y
  simp only [hl]
  exact lmlTail_best ex hS hn (centerBy y (mf y)) (j := 1 / 10 ^ 10) (by positivity)

/-- **C162**, GPR trained on derivatives. -/
theorem C162_best_noise_derivs (ex : la.Exact) (e : KExpr d) (p : KPar) (h : DerivSmooth e p) (mf : MeanFun)
    (x : Batch n d) (J : Jac n d v) (y : Mat n v) (hn : 0 < n * v) :
    (∃ s : ℝ, ∀ t : ℝ, lmlDerivsDense la ⟨p, t⟩ e.obj mf x J y ≤ lmlDerivsDense la ⟨p, s⟩ e.obj mf x J y) ∧
    ∀ s : ℝ, (∀ t : ℝ, lmlDerivsDense la ⟨p, t⟩ e.obj mf x J y ≤ lmlDerivsDense la ⟨p, s⟩ e.obj mf x J y) →
      s ^ 2 + 1 / 10 ^ 10 ≤ max (∑ i, ∑ u, (y i u - mf (flatCol y)) ^ 2) (1 / 10 ^ 10) := by
  have h1 := lmlTail_best ex (C65_gram_partial e p h x J) hn (centerBy (flatCol y) (mf (flatCol y)))
    (j := 1 / 10 ^ 10) (by positivity)
  have e1 : ∑ r, ∑ a, centerBy (flatCol y) (mf (flatCol y)) r a ^ 2 = ∑ i, ∑ u, (y i u - mf (flatCol y)) ^ 2 := by
    rw [← finProdFinEquiv.sum_comp, Fintype.sum_prod_type]
    refine Finset.sum_congr rfl fun i _ => Finset.sum_congr rfl fun u _ => ?_
    rw [Fin.sum_univ_one, prod_flat]
    simp [centerBy, flatCol]
  rw [e1] at h1
  exact h1

/-- **C162**, targets without signal. When all targets equal the mean, zero is the only best noise. -/
theorem C162_flat (ex : la.Exact) (e : KExpr d) (p : KPar) (h : Admissible e p) (mf : MeanFun)
    (x : Batch n d) (y : Mat n o) (hn : 0 < n) (hy : ∀ i a, y i a = mf y) (s : ℝ) :
    (∀ t : ℝ, lmlDense la ⟨p, t⟩ e.obj mf x y ≤ lmlDense la ⟨p, s⟩ e.obj mf x y) ↔ s = 0 := by
  have h0 : ∑ i, ∑ a, (y i a - mf y) ^ 2 = 0 := by simp [hy]
  obtain ⟨⟨r, hr⟩, hb⟩ := C162_best_noise ex e p h mf x y hn
  have hz : ∀ s : ℝ, (∀ t : ℝ, lmlDense la ⟨p, t⟩ e.obj mf x y ≤ lmlDense la ⟨p, s⟩ e.obj mf x y) → s = 0 := fun s hs => by
    have := hb s hs
    rw [h0, max_eq_right (by positivity)] at this
    exact pow_eq_zero_iff (two_ne_zero) |>.1 (le_antisymm (by linarith) (sq_nonneg s))
  refine ⟨hz s, ?_⟩
  rintro rfl
  rwa [hz r hr] at hr

/-! ## The variance and the noise together -/

/-- **C162**, variance and noise. With a variance in front of a kernel that tells the training inputs apart, a variance and a
noise that together maximise the log marginal likelihood exist: training does not push them to infinity. -/
theorem C162_best_variance (ex : la.Exact) (e : KExpr d) (q : KPar) (x : Batch n d) (hx : TellsApart e q x) (hn : 0 < n)
    (b : Option (Dims d)) (mf : MeanFun) (y : Mat n o) :
    ∃ v s : ℝ, 0 ≤ v ∧ ∀ p : KPar, (p.sub "kernel1").val "variance" = v → p.sub "kernel2" = q →
      ∀ (p' : KPar) (s' : ℝ), 0 ≤ (p'.sub "kernel1").val "variance" → p'.sub "kernel2" = q →
        lmlDense la ⟨p', s'⟩ (KExpr.prod (.constant b) e).obj mf x y ≤
          lmlDense la ⟨p, s⟩ (KExpr.prod (.constant b) e).obj mf x y := by
  have hK := C161_gram e q x hx
  obtain ⟨K, hKd⟩ : ∃ K : Mat n n, K = Matrix.of (e.obj.k q x x) := ⟨_, rfl⟩
  obtain ⟨z, hz⟩ : ∃ z, z = centerBy y (mf y) := ⟨_, rfl⟩
  rw [← hKd] at hK
  obtain ⟨κ, hκ, hlow⟩ := posDef_lower hK
  have hKκ : (K - κ • (1 : Mat n n)).PosSemidef := by
    refine Matrix.posSemidef_iff_dotProduct_mulVec.2 ⟨hK.isHermitian.sub (by
      simp [Matrix.IsHermitian]), fun c => ?_⟩
    rw [star_trivial, Matrix.sub_mulVec, dotProduct_sub, Matrix.smul_mulVec, Matrix.one_mulVec, dotProduct_smul, smul_eq_mul]
    have e1 : c ⬝ᵥ K.mulVec c = ∑ i, ∑ j, c i * K i j * c j := by
      simp only [dotProduct, Matrix.mulVec, Finset.mul_sum, mul_assoc]
    have e2 : c ⬝ᵥ c = ∑ i, c i ^ 2 := Finset.sum_congr rfl fun i _ => (sq _).symm
    rw [e1, e2]
    linarith [hlow c]
  have hl : ∀ (p : KPar) (s : ℝ), p.sub "kernel2" = q → lmlDense la ⟨p, s⟩ (KExpr.prod (.constant b) e).obj mf x y =
      lmlTail la ((p.sub "kernel1").val "variance" • K + (s ^ 2 + 1 / 10 ^ 10) • (1 : Mat n n)) z := by
    intro p s hp
    have e1 : aLhsNoise ⟨p, s⟩ (KExpr.prod (.constant b) e).obj x x =
        (p.sub "kernel1").val "variance" • K + (s ^ 2 + 1 / 10 ^ 10) • (1 : Mat n n) := by
      have hc := (closed_constant b (p.sub "kernel1")).k x x
      have : (Matrix.of ((KExpr.prod (.constant b) e).obj.k p x x) : Mat n n) = (p.sub "kernel1").val "variance" • K := by
        ext i j
        simp [KExpr.obj, KernelObj.prod, prodKernels, Arr2.mul, hc, Core.constant, hKd, hp]
      rw [← this]
      rfl
    rw [hz, ← e1]
    rfl
  obtain ⟨f, hf⟩ : ∃ f : ℝ × ℝ → ℝ, f = fun t => lmlTail la (t.1 • K + (t.2 ^ 2 + 1 / 10 ^ 10) • (1 : Mat n n)) z := ⟨_, rfl⟩
  have hup : ∀ v s : ℝ, 0 ≤ v → f (v, s) ≤ -(1 / 2) * Real.log (2 * Real.pi * (v * κ + (s ^ 2 + 1 / 10 ^ 10))) := by
    intro v s hv
    have h1 := lmlTail_le ex (hKκ.smul hv) (c := v * κ + (s ^ 2 + 1 / 10 ^ 10)) (by positivity) hn z
    have e1 : v • (K - κ • (1 : Mat n n)) + (v * κ + (s ^ 2 + 1 / 10 ^ 10)) • (1 : Mat n n) =
        v • K + (s ^ 2 + 1 / 10 ^ 10) • (1 : Mat n n) := by
      rw [smul_sub, smul_smul, add_smul]; abel
    rw [e1] at h1
    rw [hf]
    exact h1
  obtain ⟨B, hB⟩ : ∃ B, B = Real.exp (2 * -f (0, 0)) / (2 * Real.pi) := ⟨_, rfl⟩
  have hcoer : ∀ v s : ℝ, 0 ≤ v → f (0, 0) ≤ f (v, s) → v * κ + (s ^ 2 + 1 / 10 ^ 10) ≤ B := by
    intro v s hv h
    rw [hB]
    exact le_of_loss (by positivity) (hup v s hv) (by linarith)
  have hB0 : 0 ≤ B := by rw [hB]; positivity
  have hcont : ContinuousOn f (Set.Ici 0 ×ˢ Set.univ) := by
    rw [hf, continuousOn_iff_continuous_domRestrict]
    refine cont_lmlTail ex (C := fun t : ↥(Set.Ici (0 : ℝ) ×ˢ (Set.univ : Set ℝ)) =>
      t.1.1 • K + (t.1.2 ^ 2 + 1 / 10 ^ 10) • (1 : Mat n n)) ?_ (fun t => ?_) continuous_const
    · fun_prop
    · exact posDef_add_smul_one (hK.posSemidef.smul t.2.1) (by positivity)
  have hcpt : IsCompact (Set.Icc 0 (B / κ) ×ˢ Set.Icc (-(B + 1)) (B + 1)) := isCompact_Icc.prod isCompact_Icc
  have hmem0 : ((0 : ℝ), (0 : ℝ)) ∈ Set.Icc 0 (B / κ) ×ˢ Set.Icc (-(B + 1)) (B + 1) :=
    ⟨⟨le_rfl, by positivity⟩, ⟨by linarith, by linarith⟩⟩
  obtain ⟨⟨v, s⟩, hvs, hmax⟩ := hcpt.exists_isMaxOn ⟨_, hmem0⟩ (hcont.mono fun t ht => ⟨ht.1.1, trivial⟩)
  refine ⟨v, s, hvs.1.1, fun p hv hp p' s' hv' hp' => ?_⟩
  obtain ⟨v', hv'd⟩ : ∃ v', v' = (p'.sub "kernel1").val "variance" := ⟨_, rfl⟩
  rw [hl p s hp, hl p' s' hp', hv, ← hv'd]
  rw [← hv'd] at hv'
  have goal : f (v', s') ≤ f (v, s) := by
    by_cases hge : f (0, 0) ≤ f (v', s')
    · have hc := hcoer v' s' hv' hge
      refine hmax ⟨⟨hv', ?_⟩, ?_⟩
      · rw [le_div_iff₀ hκ]
        linarith [sq_nonneg s']
      · have h0 : 0 ≤ v' * κ := by positivity
        rw [Set.mem_Icc]
        constructor <;> nlinarith [sq_nonneg (s' - 1), sq_nonneg (s' + 1)]
    · exact (not_le.1 hge).le.trans (hmax hmem0)
  rw [hf] at goal
  exact goal

/-! ## Non-vacuity -/

/-- Targets `0` and `1`: a noise of 5 is worse than a noise of 1. -/
example : Admissible (.matern12 none : KExpr 1) (fun _ => 1) ∧
    lmlDense LinAlg.ideal ⟨fun _ => 1, 5⟩ (.matern12 none : KExpr 1).obj dataMean
        (fun i _ => (i : ℕ) : Batch 2 1) (fun i _ => (i : ℕ) : Mat 2 1) <
      lmlDense LinAlg.ideal ⟨fun _ => 1, 1⟩ (.matern12 none : KExpr 1).obj dataMean
        (fun i _ => (i : ℕ) : Batch 2 1) (fun i _ => (i : ℕ) : Mat 2 1) := by
  have h : Admissible (.matern12 none : KExpr 1) (fun _ => 1) := one_pos
  refine ⟨h, (C162_more_noise (m := 1) LinAlg.ideal_exact _ _ h dataMean (fun _ _ => 0) _ _ (by norm_num) 1 5
    (by norm_num) ?_).1⟩
  simp [dataMean, Fin.sum_univ_two]
  norm_num

example : ∃ v s : ℝ, 0 ≤ v ∧ ∀ p : KPar, (p.sub "kernel1").val "variance" = v → p.sub "kernel2" = (fun _ => 1) →
    ∀ (p' : KPar) (s' : ℝ), 0 ≤ (p'.sub "kernel1").val "variance" → p'.sub "kernel2" = (fun _ => 1) →
      lmlDense LinAlg.ideal ⟨p', s'⟩ (KExpr.prod (.constant none) (.squaredExponential none) : KExpr 1).obj dataMean
          (fun i _ => (i : ℕ) : Batch 3 1) (fun i a => (i : ℕ) * (a : ℕ) : Mat 3 2) ≤
        lmlDense LinAlg.ideal ⟨p, s⟩ (KExpr.prod (.constant none) (.squaredExponential none) : KExpr 1).obj dataMean
          (fun i _ => (i : ℕ) : Batch 3 1) (fun i a => (i : ℕ) * (a : ℕ) : Mat 3 2) :=
  C162_best_variance LinAlg.ideal_exact _ _ _ (tellsApart_se _ (by norm_num [KPar.val]) _ fun i j h => by
    have := congrFun h (0 : Fin 1)
    exact Fin.ext (by exact_mod_cast this)) (by norm_num) _ _ _

end GPX.Props
