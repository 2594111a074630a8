import Verif.Lemmas.KernelClosedJ
import Verif.Lemmas.KernelDerivs
import Mathlib.Analysis.Calculus.MeanValue
import Mathlib.Analysis.InnerProductSpace.PiL2
import Mathlib.Analysis.Complex.ExponentialBounds

/-!
# C23, C55, C62: values of the stationary kernels, distances, documented formulas
-/

namespace GPX.Props
open GPX GPX.Spec

variable {d : ℕ}

/-! ## C55 -/

/-- **C55.** `euclidean_distance` is the norm of the difference in Euclidean space, it is zero exactly for
equal points, and `squared_distances` is its square plus `1e-12`. -/
theorem C55_distances {k n m : ℕ} (x1 : Batch n k) (x2 : Batch m k) (i : Fin n) (j : Fin m) :
    euclideanDistance (x1 i) (x2 j) = ‖(WithLp.toLp 2 (x1 i - x2 j) : EuclideanSpace ℝ (Fin k))‖ ∧
    (euclideanDistance (x1 i) (x2 j) = 0 ↔ x1 i = x2 j) ∧
    squaredDistances x1 x2 i j = euclideanDistance (x1 i) (x2 j) ^ 2 + 1 / 10 ^ 12 := by
  have h1 : ∀ x y : Fin k → ℝ, euclideanDistance x y = Real.sqrt (∑ a, (x a - y a) ^ 2) := by
    intro x y
    unfold euclideanDistance
    by_cases h : ∑ a, (x a - y a) ^ 2 = 0
    · have h' := (Finset.sum_eq_zero_iff_of_nonneg fun a _ => sq_nonneg (x a - y a)).mp h
      simp only [h, if_true, Real.sqrt_zero]
      refine Finset.sum_eq_zero fun a ha => ?_
      rw [pow_eq_zero_iff two_ne_zero |>.mp (h' a ha), abs_zero]
    · simp only [h, if_false]
  refine ⟨?_, ?_, ?_⟩
  · rw [h1, EuclideanSpace.norm_eq]
    simp
  · rw [h1, Real.sqrt_eq_zero (Finset.sum_nonneg fun a _ => sq_nonneg _),
      Finset.sum_eq_zero_iff_of_nonneg fun a _ => sq_nonneg _]
    constructor
    · intro h
      funext a
      exact sub_eq_zero.mp (pow_eq_zero_iff two_ne_zero |>.mp (h a (Finset.mem_univ a)))
    · intro h a _
      rw [h, sub_self]; norm_num
  · rw [squaredDistances_eq, h1, Real.sq_sqrt (Finset.sum_nonneg fun a _ => sq_nonneg _)]
    rfl

/-! ## Profiles -/

theorem m12_antitone {s t : ℝ} (hst : s ≤ t) : Real.exp (-t) ≤ Real.exp (-s) :=
  Real.exp_le_exp.mpr (by linarith)

/-- Mean value theorem for a profile with derivative in `[-1, 0]`. -/
theorem profile_lipschitz {f f' : ℝ → ℝ} (hf : ∀ r, 0 ≤ r → HasDerivAt f (f' r) r)
    (h0 : ∀ r, 0 ≤ r → f' r ≤ 0) (h1 : ∀ r, 0 ≤ r → -1 ≤ f' r) {s t : ℝ} (hs : 0 ≤ s)
    (hst : s ≤ t) : 0 ≤ f s - f t ∧ f s - f t ≤ t - s := by
  have hc : ContinuousOn f (Set.Ici 0) := fun r hr => (hf r hr).continuousAt.continuousWithinAt
  have hd : ∀ r ∈ interior (Set.Ici (0 : ℝ)), 0 ≤ r := fun r hr => interior_subset hr
  have a1 : AntitoneOn f (Set.Ici 0) := by
    refine antitoneOn_of_deriv_nonpos (convex_Ici 0) hc
      (fun r hr => (hf r (hd r hr)).differentiableAt.differentiableWithinAt) fun r hr => ?_
    rw [(hf r (hd r hr)).deriv]; exact h0 r (hd r hr)
  have a2 : MonotoneOn (fun r => f r + r) (Set.Ici 0) := by
    refine monotoneOn_of_deriv_nonneg (convex_Ici 0) (hc.add continuousOn_id)
      (fun r hr => ((hf r (hd r hr)).add
        (hasDerivAt_id' r)).differentiableAt.differentiableWithinAt) fun r hr => ?_
    have := ((hf r (hd r hr)).add (hasDerivAt_id' r)).deriv
    have e : deriv (fun r => f r + r) r = f' r + 1 := this
    rw [e]; linarith [h1 r (hd r hr)]
  have b1 := a1 hs (le_trans hs hst : (0 : ℝ) ≤ t) hst
  have b2 := a2 hs (le_trans hs hst : (0 : ℝ) ≤ t) hst
  constructor
  · linarith
  · simp only at b2; linarith

theorem e12 (r : ℝ) : HasDerivAt (fun r => Real.exp (-r)) (-Real.exp (-r)) r :=
  ((hasDerivAt_id' r).neg.exp).congr_deriv (by simp)

theorem e32 (r : ℝ) : HasDerivAt (fun r => (1 + r) * Real.exp (-r)) (-(r * Real.exp (-r))) r :=
  (((hasDerivAt_id' r).const_add 1).mul (e12 r)).congr_deriv (by ring)

theorem e52 (r : ℝ) : HasDerivAt (fun r => (1 + r + r ^ 2 / 3) * Real.exp (-r))
    (-(r * (1 + r) / 3 * Real.exp (-r))) r := by
  have h := (((hasDerivAt_id' r).const_add 1).add ((hasDerivAt_pow 2 r).div_const 3)).mul (e12 r)
  refine h.congr_deriv ?_
  simp only [Pi.add_apply]
  norm_num
  ring

theorem exp_neg_le_one {r : ℝ} (hr : 0 ≤ r) : Real.exp (-r) ≤ 1 := by
  rw [Real.exp_le_one_iff]; linarith

theorem mul_exp_neg_le {r q : ℝ} (h : q ≤ Real.exp r) : q * Real.exp (-r) ≤ 1 := by
  rw [Real.exp_neg, ← div_eq_mul_inv, div_le_one (Real.exp_pos r)]; exact h

theorem p12 {s t : ℝ} (hs : 0 ≤ s) (hst : s ≤ t) :
    0 ≤ Real.exp (-s) - Real.exp (-t) ∧ Real.exp (-s) - Real.exp (-t) ≤ t - s :=
  profile_lipschitz (f := fun r => Real.exp (-r)) (fun r _ => e12 r)
    (fun r _ => by have := Real.exp_pos (-r); linarith)
    (fun r hr => by have := exp_neg_le_one hr; linarith) hs hst

theorem p32 {s t : ℝ} (hs : 0 ≤ s) (hst : s ≤ t) :
    0 ≤ (1 + s) * Real.exp (-s) - (1 + t) * Real.exp (-t) ∧
      (1 + s) * Real.exp (-s) - (1 + t) * Real.exp (-t) ≤ t - s :=
  profile_lipschitz (f := fun r => (1 + r) * Real.exp (-r)) (fun r _ => e32 r)
    (fun r hr => by have := mul_nonneg hr (Real.exp_pos (-r)).le; linarith)
    (fun r _ => by
      have := mul_exp_neg_le (r := r) (q := r) (by linarith [Real.add_one_le_exp r])
      linarith) hs hst

theorem p52 {s t : ℝ} (hs : 0 ≤ s) (hst : s ≤ t) :
    0 ≤ (1 + s + s ^ 2 / 3) * Real.exp (-s) - (1 + t + t ^ 2 / 3) * Real.exp (-t) ∧
      (1 + s + s ^ 2 / 3) * Real.exp (-s) - (1 + t + t ^ 2 / 3) * Real.exp (-t) ≤ t - s :=
  profile_lipschitz (f := fun r => (1 + r + r ^ 2 / 3) * Real.exp (-r)) (fun r _ => e52 r)
    (fun r hr => by
      have := mul_nonneg (show 0 ≤ r * (1 + r) / 3 by positivity) (Real.exp_pos (-r)).le; linarith)
    (fun r hr => by
      have := mul_exp_neg_le (r := r) (q := r * (1 + r) / 3)
        (by nlinarith [Real.quadratic_le_exp_of_nonneg hr])
      linarith) hs hst

/-! ## C23 -/

theorem sqd_shift (l : ℝ) {k : ℕ} (x y c : Fin k → ℝ) :
    sqd l (fun a => x a + c a) (fun a => y a + c a) = sqd l x y := by
  unfold sqd
  exact Finset.sum_congr rfl fun a _ => by rw [add_div, add_div]; ring

/-- A decreasing positive function of the squared distance gives a stationary kernel. -/
theorem stationary_radial {κ : KernelObj d} {p : KPar} {ad : Dims d} {c : Core}
    (h : ClosedJ κ p ad c) (l : ℝ) (φ : ℝ → ℝ)
    (hK : ∀ {k : ℕ} (x y : Fin k → ℝ), c.K x y = φ (sqd l x y))
    (hpos : ∀ s, 0 ≤ s → 0 < φ s) (hle : ∀ s, 0 ≤ s → φ s ≤ φ 0) (h1 : φ 0 ≤ 1) :
    Stationary κ ad p := by
  refine ⟨φ 0, hpos 0 le_rfl, h1, fun x1 x2 i j => ⟨fun hx => ?_, ?_, ?_, fun t => ?_⟩⟩
  · rw [h.k, hK]
    have : ad.take (x1 i) = ad.take (x2 j) := funext hx
    rw [this]; simp [sqd]
  · rw [h.k, hK]; exact hpos _ (sqd_nonneg _ _ _)
  · rw [h.k, hK]; exact hle _ (sqd_nonneg _ _ _)
  · rw [h.k, h.k, hK, hK]
    exact congrArg φ (sqd_shift l (ad.take (x1 i)) (ad.take (x2 j)) (ad.take t))

theorem sqrt_clamp_mono {s t : ℝ} (h : s ≤ t) :
    Real.sqrt (max (s + sqDistJitter) maternFloor) ≤
      Real.sqrt (max (t + sqDistJitter) maternFloor) :=
  Real.sqrt_le_sqrt (max_le_max (by linarith) le_rfl)

/-- **C23.** `SquaredExponential`, `Matern12`, `Matern32`, `Matern52` and `ExpSinSquared` take values in
`(0, 1]`, attain their diagonal value as a maximum, and are translation invariant; for all inputs and
positive hyperparameters, with or without `active_dims`, repetitions
included. -/
theorem C23_stationary (a : Option (Dims d)) (p : KPar)
    (hl : 0 < p.val "lengthscale") :
    ∀ κ ∈ [KernelObj.squaredExponential a, KernelObj.matern12 a, KernelObj.matern32 a,
      KernelObj.matern52 a, KernelObj.expSinSquared a], Stationary κ (Dims.resolve a) p := by
  have hj : (0 : ℝ) < sqDistJitter := by unfold sqDistJitter; positivity
  intro κ hκ
  simp only [List.mem_cons, List.not_mem_nil, or_false] at hκ
  rcases hκ with rfl | rfl | rfl | rfl | rfl
  · refine stationary_radial (closedJ_se a p) (p.val "lengthscale")
      (fun s => Real.exp (-(s + sqDistJitter))) (fun x y => rfl) (fun s _ => Real.exp_pos _)
      (fun s hs => Real.exp_le_exp.mpr (by linarith)) (Real.exp_le_one_iff.mpr (by linarith))
  · refine stationary_radial (closedJ_m12 a p) (p.val "lengthscale")
      (fun s => Real.exp (-Real.sqrt (max (s + sqDistJitter) maternFloor))) (fun x y => rfl)
      (fun s _ => Real.exp_pos _) (fun s hs => ?_) (exp_neg_le_one (Real.sqrt_nonneg _))
    exact Real.exp_le_exp.mpr (neg_le_neg (sqrt_clamp_mono hs))
  · refine stationary_radial (closedJ_m32 a p) (p.val "lengthscale")
      (fun s => (1 + Real.sqrt 3 * Real.sqrt (max (s + sqDistJitter) maternFloor)) *
        Real.exp (-(Real.sqrt 3 * Real.sqrt (max (s + sqDistJitter) maternFloor))))
      (fun x y => rfl) (fun s _ => by positivity) (fun s hs => ?_) ?_
    · have := (p32 (s := Real.sqrt 3 * Real.sqrt (max (0 + sqDistJitter) maternFloor))
        (by positivity) (mul_le_mul_of_nonneg_left (sqrt_clamp_mono hs) (Real.sqrt_nonneg 3))).1
      linarith
    · have := (p32 (s := 0) le_rfl (t := Real.sqrt 3 *
        Real.sqrt (max (0 + sqDistJitter) maternFloor)) (by positivity)).1
      simp only [neg_zero, Real.exp_zero] at this
      linarith
  · refine stationary_radial (closedJ_m52 a p) (p.val "lengthscale")
      (fun s => (1 + m52Dist s + m52Dist s ^ 2 / 3) * Real.exp (-m52Dist s))
      (fun x y => rfl) (fun s _ => ?_) (fun s hs => ?_) ?_
    · unfold m52Dist; positivity
    · have := (p52 (s := m52Dist 0) (by unfold m52Dist; positivity)
        (mul_le_mul_of_nonneg_left (sqrt_clamp_mono hs) (Real.sqrt_nonneg 5))).1
      unfold m52Dist at *
      linarith
    · have := (p52 (s := 0) le_rfl (t := m52Dist 0) (by unfold m52Dist; positivity)).1
      simp only [neg_zero, Real.exp_zero] at this
      linarith
  · have hc := closedJ_ess a p
    have nn : ∀ {k : ℕ} (x y : Fin k → ℝ), 0 ≤ essS (p.val "lengthscale") (p.val "periodicity") x y :=
      fun x y => Finset.sum_nonneg fun _ _ => div_nonneg (sq_nonneg _) hl.le
    refine ⟨1, one_pos, le_rfl, fun x1 x2 i j => ⟨fun hx => ?_, ?_, ?_, fun t => ?_⟩⟩
    · rw [hc.k]
      have : (Dims.resolve a).take (x1 i) = (Dims.resolve a).take (x2 j) := funext hx
      rw [this]; simp [Core.ess, essS]
    · rw [hc.k]; exact Real.exp_pos _
    · rw [hc.k]
      refine Real.exp_le_one_iff.mpr ?_
      have := nn ((Dims.resolve a).take (x1 i)) ((Dims.resolve a).take (x2 j))
      linarith
    · rw [hc.k, hc.k]
      simp only [Core.ess, essS, Dims.take, add_sub_add_right_eq_sub]

/-- Non-vacuity. -/
example : 0 < KPar.val (fun _ => 1 / 2) "lengthscale" := by norm_num [KPar.val]

/-! ## C62 -/

theorem sqd_eq_scaledDist (ad : Dims d) (l : ℝ) (x y : Fin d → ℝ) :
    sqd l (ad.take x) (ad.take y) = scaledDist ad l x y ^ 2 := by
  unfold sqd scaledDist
  rw [Real.sq_sqrt (Finset.sum_nonneg fun a _ => sq_nonneg _)]
  exact Finset.sum_congr rfl fun a _ => by rw [sub_div]; rfl

theorem clamp_sqrt_bounds {z : ℝ} (hz : 0 ≤ z) :
    z ≤ Real.sqrt (max (z ^ 2 + sqDistJitter) maternFloor) ∧
      Real.sqrt (max (z ^ 2 + sqDistJitter) maternFloor) - z ≤ 1 / 10 ^ 6 := by
  have hm : max (z ^ 2 + sqDistJitter) maternFloor = z ^ 2 + sqDistJitter := by
    refine max_eq_left ?_
    unfold maternFloor sqDistJitter
    nlinarith [sq_nonneg z]
  rw [hm]
  have hj : sqDistJitter = (1 / 10 ^ 6) ^ 2 := by unfold sqDistJitter; norm_num
  constructor
  · exact Real.le_sqrt_of_sq_le (by unfold sqDistJitter; linarith [show (0:ℝ) < 1 / 10 ^ 12 by positivity])
  · rw [sub_le_iff_le_add, Real.sqrt_le_iff]
    constructor
    · positivity
    · rw [hj]; nlinarith

/-- **C62.** The kernel functions agree with the formulas of the class documentation, up to the effect of
the jitter `1e-12` added to squared distances: `1e-12` for `SquaredExponential`, `1e-6` for `Matern12`,
`√3 1e-6` for `Matern32`, `√5 1e-6` for `Matern52`; `ExpSinSquared` agrees exactly.
(The documentation of `SquaredExponential` writes `exp(-‖x - x'‖²/l)`; the code divides by `l²`, which is what
is stated here.) -/
theorem C62_documented_formulas (a : Option (Dims d)) (p : KPar) {n m : ℕ}
    (x1 : Batch n d) (x2 : Batch m d) (i : Fin n) (j : Fin m) :
    let z := scaledDist (Dims.resolve a) (p.val "lengthscale") (x1 i) (x2 j)
    |(KernelObj.squaredExponential a).k p x1 x2 i j - Real.exp (-z ^ 2)| ≤ 1 / 10 ^ 12 ∧
    |(KernelObj.matern12 a).k p x1 x2 i j - Real.exp (-z)| ≤ 1 / 10 ^ 6 ∧
    |(KernelObj.matern32 a).k p x1 x2 i j - (1 + Real.sqrt 3 * z) * Real.exp (-(Real.sqrt 3 * z))| ≤
      Real.sqrt 3 / 10 ^ 6 ∧
    |(KernelObj.matern52 a).k p x1 x2 i j -
        (1 + Real.sqrt 5 * z + 5 / 3 * z ^ 2) * Real.exp (-(Real.sqrt 5 * z))| ≤
      Real.sqrt 5 / 10 ^ 6 ∧
    (KernelObj.expSinSquared a).k p x1 x2 i j =
      Real.exp (-4 * ∑ b, Real.sin (Real.pi * |x1 i ((Dims.resolve a).idx b) -
        x2 j ((Dims.resolve a).idx b)| / p.val "periodicity") ^ 2 / p.val "lengthscale") := by
  intro z
  have hz : 0 ≤ z := Real.sqrt_nonneg _
  obtain ⟨b1, b2⟩ := clamp_sqrt_bounds hz
  have hs : sqd (p.val "lengthscale") ((Dims.resolve a).take (x1 i)) ((Dims.resolve a).take (x2 j)) =
      z ^ 2 := sqd_eq_scaledDist _ _ _ _
  have hj : (0 : ℝ) ≤ sqDistJitter := by unfold sqDistJitter; positivity
  refine ⟨?_, ?_, ?_, ?_, ?_⟩
  · rw [(closedJ_se a p).k]
    simp only [Core.se, hs]
    obtain ⟨q1, q2⟩ := p12 (s := z ^ 2) (t := z ^ 2 + sqDistJitter) (sq_nonneg z) (by linarith)
    rw [abs_sub_comm, abs_of_nonneg q1]
    refine q2.trans ?_
    unfold sqDistJitter; linarith
  · rw [(closed_m12 a p).k]
    simp only [Core.m12, hs]
    obtain ⟨q1, q2⟩ := p12 hz b1
    rw [abs_sub_comm, abs_of_nonneg q1]
    exact q2.trans b2
  · rw [(closed_m32 a p).k]
    simp only [Core.m32, hs]
    obtain ⟨q1, q2⟩ := p32 (s := Real.sqrt 3 * z) (by positivity)
      (mul_le_mul_of_nonneg_left b1 (Real.sqrt_nonneg 3))
    rw [abs_sub_comm, abs_of_nonneg q1]
    refine q2.trans ?_
    rw [← mul_sub, div_eq_mul_one_div]
    exact mul_le_mul_of_nonneg_left b2 (Real.sqrt_nonneg 3)
  · rw [(closedJ_m52 a p).k]
    simp only [Core.m52, hs, m52Dist]
    have e : 5 / 3 * z ^ 2 = (Real.sqrt 5 * z) ^ 2 / 3 := by
      rw [mul_pow, Real.sq_sqrt (by norm_num)]; ring
    rw [e]
    obtain ⟨q1, q2⟩ := p52 (s := Real.sqrt 5 * z) (by positivity)
      (mul_le_mul_of_nonneg_left b1 (Real.sqrt_nonneg 5))
    rw [abs_sub_comm, abs_of_nonneg q1]
    refine q2.trans ?_
    rw [← mul_sub, div_eq_mul_one_div]
    exact mul_le_mul_of_nonneg_left b2 (Real.sqrt_nonneg 5)
  · rw [(closed_ess a p).k]
    simp only [Core.ess, essS]
    congr 2
    refine Finset.sum_congr rfl fun b _ => ?_
    have := sin_abs_sq (p.val "periodicity") (x1 i ((Dims.resolve a).idx b) - x2 j ((Dims.resolve a).idx b))
    simp only [Dims.take]
    rw [← this, div_eq_mul_inv _ (p.val "periodicity")]
    ring

end GPX.Props
