import Verif.Spec.Slope
import Verif.Props.Bounded

/-! # How fast the kernels change -/

namespace GPX.Props
open GPX GPX.Spec Matrix

variable {d n : ℕ}

/-- Cauchy-Schwarz for a positive semidefinite matrix. -/
theorem psd_cauchy {I : Type} [Fintype I] {M : Matrix I I ℝ} (h : M.PosSemidef) (u v : I → ℝ) :
    (u ⬝ᵥ M *ᵥ v) ^ 2 ≤ (u ⬝ᵥ M *ᵥ u) * (v ⬝ᵥ M *ᵥ v) := by
  have hsym : v ⬝ᵥ M *ᵥ u = u ⬝ᵥ M *ᵥ v := by
    have hT : M.transpose = M := by simpa [Matrix.IsHermitian, Matrix.conjTranspose_eq_transpose_of_trivial] using h.1
    rw [Matrix.dotProduct_mulVec, ← Matrix.mulVec_transpose, hT, dotProduct_comm]
  have hq : ∀ t : ℝ, 0 ≤ (u ⬝ᵥ M *ᵥ u) * (t * t) + 2 * (u ⬝ᵥ M *ᵥ v) * t + v ⬝ᵥ M *ᵥ v := fun t => by
    have := h.dotProduct_mulVec_nonneg (t • u + v)
    simp only [star_trivial, Matrix.mulVec_add, Matrix.mulVec_smul, dotProduct_add, add_dotProduct, smul_dotProduct, dotProduct_smul,
      smul_eq_mul, hsym] at this
    linarith
  have := discrim_le_zero hq
  unfold discrim at this
  linarith

/-- The quadratic form at the difference of two unit vectors. -/
theorem quad_diff {I : Type} [Fintype I] [DecidableEq I] (M : Matrix I I ℝ) (i j : I) :
    (Pi.single i (1 : ℝ) - Pi.single j 1) ⬝ᵥ M *ᵥ (Pi.single i (1 : ℝ) - Pi.single j 1) = M i i - M i j - M j i + M j j := by
  simp only [Matrix.mulVec_sub, Matrix.mulVec_single_one, sub_dotProduct, single_one_dotProduct, Pi.sub_apply, Matrix.col_apply]
  ring

/-- Two entries of the columns of a block. -/
theorem block_cauchy_diff {I I' : Type} [Fintype I] [Fintype I'] [DecidableEq I'] {K : Matrix I I ℝ} {B : Matrix I I' ℝ} {D : Matrix I' I' ℝ}
    (h : (Matrix.fromBlocks K B B.transpose D).PosSemidef) (e : I → ℝ) (j j' : I') :
    (∑ i, B i j * e i - ∑ i, B i j' * e i) ^ 2 ≤ (D j j - D j j' - D j' j + D j' j') * ∑ i, ∑ i', e i * K i i' * e i' := by
  have key := psd_cauchy h (Sum.elim e 0) (Sum.elim 0 (Pi.single j (1 : ℝ) - Pi.single j' 1))
  rw [← quad_diff D j j']
  simp only [Matrix.fromBlocks_mulVec, dotProduct, Fintype.sum_sum_type, Sum.elim_inl, Sum.elim_inr, Function.comp_def, Pi.add_apply,
    Pi.zero_apply, zero_mul, Finset.sum_const_zero, add_zero, zero_add] at key ⊢
  simp only [Matrix.mulVec, dotProduct, Pi.sub_apply, Pi.zero_apply, mul_zero, Finset.sum_const_zero, add_zero, zero_add] at key ⊢
  have a1 : ∑ i, e i * ∑ l, B i l * ((Pi.single j (1 : ℝ) : I' → ℝ) l - (Pi.single j' (1 : ℝ) : I' → ℝ) l) = ∑ i, B i j * e i - ∑ i, B i j' * e i := by
    rw [← Finset.sum_sub_distrib]
    refine Finset.sum_congr rfl fun i _ => ?_
    simp only [mul_sub, Finset.sum_sub_distrib, Pi.single_apply, mul_ite, mul_one, mul_zero, Finset.sum_ite_eq', Finset.mem_univ, if_true]
    ring
  have a2 : ∑ i, e i * ∑ i', K i i' * e i' = ∑ i, ∑ i', e i * K i i' * e i' :=
    Finset.sum_congr rfl fun i _ => by rw [Finset.mul_sum]; exact Finset.sum_congr rfl fun i' _ => by ring
  rw [a1, a2] at key
  linarith

/-- `Σ` over the named features is the weighted sum over all features. -/
theorem sum_uses (a : Option (Dims d)) (g : Fin d → ℝ) : ∑ b, g ((Dims.resolve a).idx b) = ∑ f, uses a f * g f := by
  have : ∀ b, g ((Dims.resolve a).idx b) = ∑ f, if (Dims.resolve a).idx b = f then g f else 0 := fun b => by simp
  simp only [this]
  rw [Finset.sum_comm]
  refine Finset.sum_congr rfl fun f _ => ?_
  rw [← Finset.sum_filter, Finset.sum_const, nsmul_eq_mul]
  rfl

theorem sqd_uses (a : Option (Dims d)) (l : ℝ) (x y : Fin d → ℝ) :
    sqd l ((Dims.resolve a).take x) ((Dims.resolve a).take y) = ∑ f, uses a f / l ^ 2 * (x f - y f) ^ 2 := by
  have := sum_uses a (fun f => (x f / l - y f / l) ^ 2)
  unfold sqd
  refine this.trans (Finset.sum_congr rfl fun f _ => ?_)
  rw [← sub_div, div_pow]; ring

/-- A profile whose derivative is at least `-c r`. -/
theorem profile_sq {f f' : ℝ → ℝ} {c : ℝ} (hf : ∀ r, 0 ≤ r → HasDerivAt f (f' r) r) (h1 : ∀ r, 0 ≤ r → -(c * r) ≤ f' r) {s t : ℝ}
    (hs : 0 ≤ s) (hst : s ≤ t) : f s - f t ≤ c / 2 * (t ^ 2 - s ^ 2) := by
  have hg : ∀ r, 0 ≤ r → HasDerivAt (fun r => f r + c / 2 * r ^ 2) (f' r + c * r) r := fun r hr => by
    refine ((hf r hr).add ((hasDerivAt_pow 2 r).const_mul (c / 2))).congr_deriv ?_
    norm_num
    ring
  have hd : ∀ r ∈ interior (Set.Ici (0 : ℝ)), 0 ≤ r := fun r hr => interior_subset hr
  have a1 : MonotoneOn (fun r => f r + c / 2 * r ^ 2) (Set.Ici 0) := by
    refine monotoneOn_of_deriv_nonneg (convex_Ici 0) (fun r hr => (hg r hr).continuousAt.continuousWithinAt)
      (fun r hr => (hg r (hd r hr)).differentiableAt.differentiableWithinAt) (fun r hr => ?_)
    rw [(hg r (hd r hr)).deriv]
    linarith [h1 r (hd r hr)]
  have := a1 (Set.mem_Ici.2 hs) (Set.mem_Ici.2 (hs.trans hst)) hst
  simp only at this
  linarith

theorem clamp_sq_sub {s : ℝ} (hs : 0 ≤ s) : Real.sqrt (max (s + sqDistJitter) maternFloor) ^ 2 -
    Real.sqrt (max (0 + sqDistJitter) maternFloor) ^ 2 ≤ s := by
  have hj : (0 : ℝ) ≤ sqDistJitter := by unfold sqDistJitter; positivity
  rw [Real.sq_sqrt (le_max_of_le_left (by linarith)), Real.sq_sqrt (le_max_of_le_left (by linarith))]
  rcases max_choice (s + sqDistJitter) maternFloor with h | h <;> rw [h]
  · linarith [le_max_left (0 + sqDistJitter) maternFloor]
  · linarith [le_max_right (0 + sqDistJitter) maternFloor]

theorem exp_neg_sub_le {s t : ℝ} (hs : 0 ≤ s) (hst : s ≤ t) : Real.exp (-s) - Real.exp (-t) ≤ t - s := by
  have h1 : Real.exp (-t) = Real.exp (-s) * Real.exp (-(t - s)) := by rw [← Real.exp_add]; ring_nf
  have h2 : 1 - (t - s) ≤ Real.exp (-(t - s)) := by linarith [Real.add_one_le_exp (-(t - s))]
  have h3 : Real.exp (-s) ≤ 1 := Real.exp_le_one_iff.2 (by linarith)
  have h4 := Real.exp_pos (-s)
  rw [h1]
  nlinarith


theorem sqd_comm (l : ℝ) {k : ℕ} (x y : Fin k → ℝ) : sqd l x y = sqd l y x :=
  Finset.sum_congr rfl fun a _ => by ring

/-- A function of the squared distance that drops by at most `q s`. -/
theorem radial_dist {κ : KernelObj d} {p : KPar} {a : Option (Dims d)} {c : Core} (h : ClosedJ κ p (Dims.resolve a) c) (l : ℝ) (φ : ℝ → ℝ)
    (hK : ∀ {k : ℕ} (x y : Fin k → ℝ), c.K x y = φ (sqd l x y)) {q : ℝ} (hq : ∀ s, 0 ≤ s → φ 0 - φ s ≤ q * s) (x : Batch n d)
    (i j : Fin n) : kernelDist κ p x i j ≤ ∑ f, 2 * q * uses a f / l ^ 2 * (x i f - x j f) ^ 2 := by
  have h0 : ∀ {k : ℕ} (x : Fin k → ℝ), sqd l x x = 0 := fun x => by simp [sqd]
  have e : ∑ f, 2 * q * uses a f / l ^ 2 * (x i f - x j f) ^ 2 = 2 * (q * sqd l ((Dims.resolve a).take (x i)) ((Dims.resolve a).take (x j))) := by
    rw [sqd_uses, Finset.mul_sum, Finset.mul_sum]
    exact Finset.sum_congr rfl fun f _ => by ring
  have := hq _ (sqd_nonneg l ((Dims.resolve a).take (x i)) ((Dims.resolve a).take (x j)))
  rw [e]
  simp only [kernelDist, h.k, hK, h0, sqd_comm l ((Dims.resolve a).take (x j))]
  linarith

/-- Kernels made of constants and stationary kernels: the largest value is the one at equal inputs, and it is at most `peak`. -/
theorem bounded_top (e : KExpr d) (p : KPar) (h : Admissible e p) (hb : BoundedExpr e) :
    ∃ c : ℝ, 0 ≤ c ∧ c ≤ peak e p ∧ ∀ {n : ℕ} (x : Batch n d) (i j : Fin n),
      e.obj.k p x x i i = c ∧ 0 ≤ e.obj.k p x x i j ∧ e.obj.k p x x i j ≤ c := by
  have leaf : ∀ (a : Option (Dims d)) (p : KPar), 0 < p.val "lengthscale" →
      ∀ κ ∈ [KernelObj.squaredExponential a, KernelObj.matern12 a, KernelObj.matern32 a, KernelObj.matern52 a, KernelObj.expSinSquared a],
      ∃ c : ℝ, 0 ≤ c ∧ c ≤ 1 ∧ ∀ {n : ℕ} (x : Batch n d) (i j : Fin n), κ.k p x x i i = c ∧ 0 ≤ κ.k p x x i j ∧ κ.k p x x i j ≤ c := by
    intro a p hl κ hκ
    obtain ⟨c, hc, hc1, hall⟩ := C23_stationary a p hl κ hκ
    exact ⟨c, hc.le, hc1, fun x i j => ⟨(hall x x i i).1 fun _ => rfl, (hall x x i j).2.1.le, (hall x x i j).2.2.1⟩⟩
  induction e generalizing p with
  | constant a =>
    refine ⟨p.val "variance", h, le_rfl, fun x i j => ?_⟩
    change (KernelObj.constant a).k p x x i i = _ ∧ 0 ≤ (KernelObj.constant a).k p x x i j ∧ (KernelObj.constant a).k p x x i j ≤ _
    simp only [(closed_constant a p).k]
    exact ⟨rfl, h, le_rfl⟩
  | linear a => exact hb.elim
  | polynomial a b => exact hb.elim
  | squaredExponential a => exact leaf a p h (KernelObj.squaredExponential a) (by simp)
  | matern12 a => exact leaf a p h (KernelObj.matern12 a) (by simp)
  | matern32 a => exact leaf a p h (KernelObj.matern32 a) (by simp)
  | matern52 a => exact leaf a p h (KernelObj.matern52 a) (by simp)
  | expSinSquared a => exact leaf a p h.1 (KernelObj.expSinSquared a) (by simp)
  | sum e1 e2 ih1 ih2 =>
    obtain ⟨c1, p1, t1, h1⟩ := ih1 _ h.1 hb.1
    obtain ⟨c2, p2, t2, h2⟩ := ih2 _ h.2 hb.2
    refine ⟨c1 + c2, add_nonneg p1 p2, add_le_add t1 t2, fun x i j => ?_⟩
    obtain ⟨a1, b1, b1'⟩ := h1 x i j
    obtain ⟨a2, b2, b2'⟩ := h2 x i j
    exact ⟨congrArg₂ (· + ·) a1 a2, add_nonneg b1 b2, add_le_add b1' b2'⟩
  | prod e1 e2 ih1 ih2 =>
    obtain ⟨c1, p1, t1, h1⟩ := ih1 _ h.1 hb.1
    obtain ⟨c2, p2, t2, h2⟩ := ih2 _ h.2 hb.2
    refine ⟨c1 * c2, mul_nonneg p1 p2, mul_le_mul t1 t2 p2 (p1.trans t1), fun x i j => ?_⟩
    obtain ⟨a1, b1, b1'⟩ := h1 x i j
    obtain ⟨a2, b2, b2'⟩ := h2 x i j
    exact ⟨congrArg₂ (· * ·) a1 a2, mul_nonneg b1 b2, mul_le_mul b1' b2' b2 p1⟩

theorem slope_nonneg (e : KExpr d) (p : KPar) (h : Admissible e p) (hs : SlopedExpr e) (f : Fin d) : 0 ≤ kslope e p f := by
  induction e generalizing p with
  | constant a => exact le_rfl
  | linear a => exact Nat.cast_nonneg _
  | polynomial a b => exact hs.elim
  | matern12 a => exact hs.elim
  | squaredExponential a => simp only [kslope]; positivity
  | matern32 a => simp only [kslope]; positivity
  | matern52 a => simp only [kslope]; positivity
  | expSinSquared a =>
    have := h.1
    simp only [kslope]; positivity
  | sum e1 e2 ih1 ih2 => exact add_nonneg (ih1 _ h.1 hs.1) (ih2 _ h.2 hs.2)
  | prod e1 e2 ih1 ih2 =>
    obtain ⟨c1, p1, t1, -⟩ := bounded_top e1 _ h.1 hs.2.1
    obtain ⟨c2, p2, t2, -⟩ := bounded_top e2 _ h.2 hs.2.2
    exact add_nonneg (mul_nonneg (p1.trans t1) (ih2 _ h.2 hs.1.2)) (mul_nonneg (p2.trans t2) (ih1 _ h.1 hs.1.1))

/-- The slope bounds the squared distance. -/
theorem kernelDist_slope (e : KExpr d) (p : KPar) (h : Admissible e p) (hs : SlopedExpr e) (x : Batch n d) (i j : Fin n) :
    kernelDist e.obj p x i j ≤ ∑ f, kslope e p f * (x i f - x j f) ^ 2 := by
  have hj : (0 : ℝ) < sqDistJitter := by unfold sqDistJitter; positivity
  induction e generalizing p with
  | constant a =>
    change kernelDist (KernelObj.constant a) p x i j ≤ _
    simp only [kernelDist, (closed_constant a p).k, Core.constant, kslope, zero_mul, Finset.sum_const_zero]
    linarith
  | linear a =>
    change kernelDist (KernelObj.linear a) p x i j ≤ _
    simp only [kernelDist, (closedJ_linear a p).k, Core.linear, kslope, Dims.take]
    rw [← sum_uses a (fun f => (x i f - x j f) ^ 2), ← Finset.sum_sub_distrib, ← Finset.sum_sub_distrib, ← Finset.sum_add_distrib]
    exact Finset.sum_le_sum fun b _ => le_of_eq (by ring)
  | polynomial a b => exact hs.elim
  | matern12 a => exact hs.elim
  | squaredExponential a =>
    refine (radial_dist (closedJ_se a p) (p.val "lengthscale") (fun s => Real.exp (-(s + sqDistJitter))) (fun x y => rfl) (q := 1)
      (fun s hs => ?_) x i j).trans (le_of_eq (by simp only [kslope, mul_one]))
    have := exp_neg_sub_le (s := 0 + sqDistJitter) (t := s + sqDistJitter) (by linarith) (by linarith)
    linarith
  | matern32 a =>
    refine (radial_dist (closedJ_m32 a p) (p.val "lengthscale") (fun s => (1 + Real.sqrt 3 * Real.sqrt (max (s + sqDistJitter) maternFloor)) *
        Real.exp (-(Real.sqrt 3 * Real.sqrt (max (s + sqDistJitter) maternFloor)))) (fun x y => rfl) (q := 3 / 2)
      (fun s hs => ?_) x i j).trans (le_of_eq (by simp only [kslope]; norm_num))
    have h1 := profile_sq (f := fun r => (1 + r) * Real.exp (-r)) (c := 1) (fun r _ => e32 r) (fun r hr => by
      have := Real.exp_le_one_iff.2 (by linarith : -r ≤ 0)
      nlinarith) (s := Real.sqrt 3 * Real.sqrt (max (0 + sqDistJitter) maternFloor)) (by positivity)
      (mul_le_mul_of_nonneg_left (sqrt_clamp_mono hs) (Real.sqrt_nonneg 3))
    simp only [mul_pow, Real.sq_sqrt (by norm_num : (0 : ℝ) ≤ 3)] at h1
    have := clamp_sq_sub hs
    linarith
  | matern52 a =>
    refine (radial_dist (closedJ_m52 a p) (p.val "lengthscale") (fun s => (1 + m52Dist s + m52Dist s ^ 2 / 3) * Real.exp (-m52Dist s))
      (fun x y => rfl) (q := 5 / 6) (fun s hs => ?_) x i j).trans (le_of_eq (by simp only [kslope]; norm_num))
    have h1 := profile_sq (f := fun r => (1 + r + r ^ 2 / 3) * Real.exp (-r)) (c := 1 / 3) (fun r _ => e52 r) (fun r hr => by
      have := mul_exp_neg_le (r := r) (q := 1 + r) (by linarith [Real.add_one_le_exp r])
      nlinarith) (s := m52Dist 0) (by unfold m52Dist; positivity)
      (mul_le_mul_of_nonneg_left (sqrt_clamp_mono hs) (Real.sqrt_nonneg 5))
    have := clamp_sq_sub hs
    unfold m52Dist at *
    simp only [mul_pow, Real.sq_sqrt (by norm_num : (0 : ℝ) ≤ 5)] at h1 ⊢
    linarith
  | expSinSquared a =>
    have hl := h.1
    have hp := h.2
    obtain ⟨l, hl'⟩ : ∃ l, l = p.val "lengthscale" := ⟨_, rfl⟩
    obtain ⟨per, hper⟩ : ∃ per, per = p.val "periodicity" := ⟨_, rfl⟩
    rw [← hl'] at hl
    rw [← hper] at hp
    change kernelDist (KernelObj.expSinSquared a) p x i j ≤ _
    simp only [kernelDist, (closedJ_ess a p).k, Core.ess, kslope, ← hl', ← hper]
    set u := (Dims.resolve a).take (x i)
    set v := (Dims.resolve a).take (x j)
    have z : ∀ {k : ℕ} (w : Fin k → ℝ), essS l per w w = 0 := fun w => by simp [essS]
    have c : essS l per v u = essS l per u v := Finset.sum_congr rfl fun b _ => by
      rw [← neg_sub (u b) (v b), mul_neg, neg_div, Real.sin_neg, neg_sq]
    have b1 : essS l per u v ≤ ∑ f, Real.pi ^ 2 * uses a f / (l * per ^ 2) * (x i f - x j f) ^ 2 := by
      have := sum_uses a (fun f => Real.pi ^ 2 / (l * per ^ 2) * (x i f - x j f) ^ 2)
      refine le_trans ?_ (this.trans (Finset.sum_congr rfl fun f _ => by ring)).le
      refine Finset.sum_le_sum fun b _ => ?_
      have h1 : Real.sin (Real.pi * (u b - v b) / per) ^ 2 ≤ (Real.pi * (u b - v b) / per) ^ 2 := sq_le_sq.2 Real.abs_sin_le_abs
      refine (div_le_div_of_nonneg_right h1 hl.le).trans_eq ?_
      change (Real.pi * (x i _ - x j _) / per) ^ 2 / l = _
      field_simp
    have b2 := Real.add_one_le_exp (-4 * essS l per u v)
    have e1 : ∑ f, 8 * Real.pi ^ 2 * uses a f / (l * per ^ 2) * (x i f - x j f) ^ 2 =
        8 * ∑ f, Real.pi ^ 2 * uses a f / (l * per ^ 2) * (x i f - x j f) ^ 2 := by
      rw [Finset.mul_sum]; exact Finset.sum_congr rfl fun f _ => by ring
    rw [e1, z, z, c, mul_zero, Real.exp_zero]
    linarith
  | sum e1 e2 ih1 ih2 =>
    have h1 := ih1 _ h.1 hs.1
    have h2 := ih2 _ h.2 hs.2
    simp only [kslope, add_mul, Finset.sum_add_distrib]
    refine le_trans (le_of_eq ?_) (add_le_add h1 h2)
    simp only [kernelDist]
    change e1.obj.k _ x x i i + e2.obj.k _ x x i i - (e1.obj.k _ x x i j + e2.obj.k _ x x i j) -
      (e1.obj.k _ x x j i + e2.obj.k _ x x j i) + (e1.obj.k _ x x j j + e2.obj.k _ x x j j) = _
    ring
  | prod e1 e2 ih1 ih2 =>
    have h1 := ih1 _ h.1 hs.1.1
    have h2 := ih2 _ h.2 hs.1.2
    obtain ⟨c1, p1, t1, g1⟩ := bounded_top e1 _ h.1 hs.2.1
    obtain ⟨c2, p2, t2, g2⟩ := bounded_top e2 _ h.2 hs.2.2
    have d1 : 0 ≤ kernelDist e1.obj (p.sub "kernel1") x i j := by
      simp only [kernelDist]; linarith [(g1 x i j).1, (g1 x j i).1, (g1 x i j).2.2, (g1 x j i).2.2]
    have d2 : 0 ≤ kernelDist e2.obj (p.sub "kernel2") x i j := by
      simp only [kernelDist]; linarith [(g2 x i j).1, (g2 x j i).1, (g2 x i j).2.2, (g2 x j i).2.2]
    simp only [kslope, add_mul, mul_assoc, Finset.sum_add_distrib, ← Finset.mul_sum]
    refine le_trans ?_ (add_le_add (mul_le_mul t1 h2 d2 (p1.trans t1)) (mul_le_mul t2 h1 d1 (p2.trans t2)))
    simp only [kernelDist]
    change e1.obj.k _ x x i i * e2.obj.k _ x x i i - e1.obj.k _ x x i j * e2.obj.k _ x x i j -
      e1.obj.k _ x x j i * e2.obj.k _ x x j i + e1.obj.k _ x x j j * e2.obj.k _ x x j j ≤ _
    obtain ⟨a1, b1, b1'⟩ := g1 x i j
    obtain ⟨a2, b2, b2'⟩ := g2 x i j
    obtain ⟨a1', b3, b3'⟩ := g1 x j i
    obtain ⟨a2', b4, b4'⟩ := g2 x j i
    rw [a1, a2, a1', a2']
    have q1 := mul_le_mul_of_nonneg_left b2' (sub_nonneg.2 b1')
    have q2 := mul_le_mul_of_nonneg_left b4' (sub_nonneg.2 b3')
    nlinarith

end GPX.Props
