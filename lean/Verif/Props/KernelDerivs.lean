import Verif.Lemmas.KernelDerivs
import Verif.Props.KernelAlgebra
import Mathlib.Analysis.Complex.ExponentialBounds

/-!
# C24: hand-written derivative kernels; C20 for `Matern52`
-/

namespace GPX.Props
open GPX GPX.Spec

variable {d : ℕ}

/-- **C24**, `Constant`. -/
theorem C24_constant (a : Option (Dims d)) (h : NoRepeat a) (p : KPar) :
    TrueD0 (KernelObj.constant a) p ∧ TrueD1 (KernelObj.constant a) p ∧
      TrueD01 (KernelObj.constant a) p := by
  have hc := closed_constant a p
  have hi := resolve_injective a h
  refine ⟨fun n m x1 x2 i f j => trueD0At_of_closed hc hi _ _ _ _ _ fun a => ?_,
    fun n m x1 x2 i j e => trueD1At_of_closed hc hi _ _ _ _ _ fun a => ?_,
    fun n m x1 x2 i f j e => trueD01At_of_closed hc hi _ _ _ _ _ _ fun a b => ?_⟩
  · exact hasDerivAt_const _ _
  · exact hasDerivAt_const _ _
  · simp only [Core.constant, deriv_const]
    exact hasDerivAt_const _ _

/-- **C24**, `Linear`. -/
theorem C24_linear (a : Option (Dims d)) (h : NoRepeat a) (p : KPar) :
    TrueD0 (KernelObj.linear a) p ∧ TrueD1 (KernelObj.linear a) p ∧
      TrueD01 (KernelObj.linear a) p := by
  have hc := closed_linear a h p
  have hi := resolve_injective a h
  refine ⟨fun n m x1 x2 i f j => trueD0At_of_closed hc hi _ _ _ _ _ fun a => ?_,
    fun n m x1 x2 i j e => trueD1At_of_closed hc hi _ _ _ _ _ fun a => ?_,
    fun n m x1 x2 i f j e => trueD01At_of_closed hc hi _ _ _ _ _ _ fun a b => ?_⟩
  · exact dot_deriv_left _ _ _ _
  · exact dot_deriv_right _ _ _ _
  · simp only [Core.linear, (dot_deriv_left _ _ _ _).deriv]
    by_cases hab : a = b
    · subst hab
      simp only [Function.update_self, if_true]
      exact hasDerivAt_id' _
    · simp only [Function.update_of_ne hab, hab, if_false]
      exact hasDerivAt_const _ _

/-- The points where `base ** degree`, its derivative and its second derivative are all finite numbers in the
code: a positive base, or a natural degree with a non-zero base or degree at least two. -/
def GoodPower (base degree : ℝ) : Prop :=
  0 < base ∨ ∃ q : ℕ, degree = q ∧ (base ≠ 0 ∨ 2 ≤ q)

theorem GoodPower.first {u deg : ℝ} (h : GoodPower u deg) : u ≠ 0 ∨ 1 ≤ deg := by
  rcases h with h | ⟨q, rfl, h | h⟩
  · exact .inl h.ne'
  · exact .inl h
  · right; exact_mod_cast (show 1 ≤ q by omega)

theorem GoodPower.second {u deg : ℝ} (h : GoodPower u deg) : u ≠ 0 ∨ 1 ≤ deg - 1 := by
  rcases h with h | ⟨q, rfl, h | h⟩
  · exact .inl h.ne'
  · exact .inl h
  · right
    have : (2 : ℝ) ≤ q := by exact_mod_cast h
    linarith

theorem poly_mixed (deg off cst : ℝ) {k : ℕ} (x y : Fin k → ℝ) (a b : Fin k)
    (h : GoodPower (off + ∑ c, x c * y c) deg) :
    HasDerivAt (fun t => deriv (fun s =>
        (off + ∑ c, Function.update x a s c * Function.update y b t c) ^ deg - cst) (x a))
      (deg * (off + ∑ c, x c * y c) ^ (deg - 1) * (if a = b then 1 else 0) +
        x b * (deg * (deg - 1) * (off + ∑ c, x c * y c) ^ (deg - 2)) * y a) (y b) := by
  have hd := (dot_deriv_right x y b (y b)).const_add off
  have ev : ∀ᶠ t in nhds (y b), (off + ∑ c, x c * Function.update y b t c) ≠ 0 ∨ 1 ≤ deg := by
    rcases h.first with h0 | h1
    · have : (off + ∑ c, x c * Function.update y b (y b) c) ≠ 0 := by
        rw [Function.update_eq_self]; exact h0
      exact (hd.continuousAt.eventually_ne this).mono fun t ht => .inl ht
    · exact Filter.Eventually.of_forall fun _ => .inr h1
  have inner : (fun t => deriv (fun s =>
        (off + ∑ c, Function.update x a s c * Function.update y b t c) ^ deg - cst) (x a)) =ᶠ[nhds (y b)]
      fun t => Function.update y b t a *
        (deg * (off + ∑ c, x c * Function.update y b t c) ^ (deg - 1)) := by
    filter_upwards [ev] with t ht
    have h1 := (dot_deriv_left x (Function.update y b t) a (x a)).const_add off
    have h2 : HasDerivAt (fun u : ℝ => u ^ deg)
        (deg * (off + ∑ c, x c * Function.update y b t c) ^ (deg - 1))
        (off + ∑ c, Function.update x a (x a) c * Function.update y b t c) := by
      rw [Function.update_eq_self]
      exact Real.hasDerivAt_rpow_const ht
    exact ((h2.comp (x a) h1).sub_const cst).deriv.trans (mul_comm _ _)
  refine HasDerivAt.congr_of_eventuallyEq ?_ inner
  have h3 : HasDerivAt (fun u : ℝ => deg * u ^ (deg - 1))
      (deg * ((deg - 1) * (off + ∑ c, x c * y c) ^ (deg - 1 - 1)))
      (off + ∑ c, x c * Function.update y b (y b) c) := by
    rw [Function.update_eq_self]
    exact (Real.hasDerivAt_rpow_const h.second).const_mul deg
  have h4 := h3.comp (y b) hd
  have h5 : HasDerivAt (fun t => Function.update y b t a) (if a = b then 1 else 0) (y b) := by
    by_cases hab : a = b
    · subst hab; simp only [Function.update_self, if_true]; exact hasDerivAt_id' _
    · simp only [Function.update_of_ne hab, hab, if_false]; exact hasDerivAt_const _ _
  refine (h5.mul h4).congr_deriv ?_
  simp only [Function.update_eq_self, Function.comp_apply]
  have e : deg - 1 - 1 = deg - 2 := by ring
  rw [e]
  ring

/-- **C24**, `Polynomial` and `NoInterceptPolynomial`: at every pair of samples where the power and its
derivatives are finite. -/
theorem C24_polynomial (a : Option (Dims d)) (h : NoRepeat a) (noIntercept : Bool) (p : KPar)
    {n m : ℕ} (x1 : Batch n d) (x2 : Batch m d) (i : Fin n) (f : Fin d) (j : Fin m) (e : Fin d)
    (hg : GoodPower (p.val "offset" + ∑ c, x1 i ((Dims.resolve a).idx c) * x2 j ((Dims.resolve a).idx c))
      (p.val "degree")) :
    TrueD0At (KernelObj.polynomial a noIntercept) p x1 x2 i f j ∧
    TrueD1At (KernelObj.polynomial a noIntercept) p x1 x2 i j e ∧
    TrueD01At (KernelObj.polynomial a noIntercept) p x1 x2 i f j e := by
  have hc := closed_polynomial a h noIntercept p
  have hi := resolve_injective a h
  refine ⟨trueD0At_of_closed hc hi _ _ _ _ _ fun a => ?_,
    trueD1At_of_closed hc hi _ _ _ _ _ fun a => ?_,
    trueD01At_of_closed hc hi _ _ _ _ _ _ fun a b => ?_⟩
  · have h2 : HasDerivAt (fun u : ℝ => u ^ (p.val "degree")) _ _ :=
      Real.hasDerivAt_rpow_const hg.first
    have h1 := (dot_deriv_left ((Dims.resolve _).take (x1 i)) ((Dims.resolve _).take (x2 j)) a
      ((Dims.resolve _).take (x1 i) a)).const_add (p.val "offset")
    have h3 := HasDerivAt.comp (h₂ := fun u : ℝ => u ^ (p.val "degree")) _
      (by rw [Function.update_eq_self]; exact h2) h1
    exact (h3.sub_const _).congr_deriv rfl
  · have h2 : HasDerivAt (fun u : ℝ => u ^ (p.val "degree")) _ _ :=
      Real.hasDerivAt_rpow_const hg.first
    have h1 := (dot_deriv_right ((Dims.resolve _).take (x1 i)) ((Dims.resolve _).take (x2 j)) a
      ((Dims.resolve _).take (x2 j) a)).const_add (p.val "offset")
    have h3 := HasDerivAt.comp (h₂ := fun u : ℝ => u ^ (p.val "degree")) _
      (by rw [Function.update_eq_self]; exact h2) h1
    exact (h3.sub_const _).congr_deriv rfl
  · exact poly_mixed _ _ _ _ _ _ _ hg

/-- Non-vacuity: degree 2 at the origin (base 0), degree 1 at a negative base, degree 1/2 at base 1. -/
example : GoodPower 0 2 ∧ GoodPower (-1) 1 ∧ GoodPower 1 (1 / 2) :=
  ⟨.inr ⟨2, by norm_num, .inr le_rfl⟩, .inr ⟨1, by norm_num, .inl (by norm_num)⟩, .inl one_pos⟩

/-- **C24**, `SquaredExponential`: the hand-written `d01k` is the mixed second derivative of `k`. -/
theorem C24_squared_exponential (a : Option (Dims d)) (h : NoRepeat a) (p : KPar) :
    TrueD01 (KernelObj.squaredExponential a) p := by
  have hc := closed_se a h p
  have hi := resolve_injective a h
  intro n m x1 x2 i f j e
  refine trueD01At_of_closed hc hi _ _ _ _ _ _ fun a b => ?_
  have h1 : ∀ s : ℝ, HasDerivAt (fun s => Real.exp (-(s + sqDistJitter)))
      (-Real.exp (-(s + sqDistJitter))) s := fun s =>
    (((hasDerivAt_id' s).add_const sqDistJitter).neg.exp).congr_deriv (by simp)
  have h2 : ∀ s : ℝ, HasDerivAt (fun s => -Real.exp (-(s + sqDistJitter)))
      (Real.exp (-(s + sqDistJitter))) s := fun s => ((h1 s).neg).congr_deriv (by simp)
  refine (radial_deriv_mixed (p.val "lengthscale") _ _ a b (fun s _ => h1 s)
    (h2 _)).congr_deriv ?_
  simp only [Core.se]
  split_ifs <;> ring

/-- The first derivatives of `SquaredExponential` come from differentiating the base kernel, which has no
jitter: they are `exp(1e-12)` times the derivatives of `k`. -/
theorem C24_squared_exponential_first (a : Option (Dims d)) (h : NoRepeat a) (p : KPar)
    {n m : ℕ} (x1 : Batch n d) (x2 : Batch m d) (i : Fin n) (f : Fin d) (j : Fin m) :
    HasDerivAt (fun s => (KernelObj.squaredExponential a).k p (setFeature x1 i f s) x2 i j)
      (Real.exp (-(1 / 10 ^ 12)) * (KernelObj.squaredExponential a).d0k p x1 x2 (flat i f) j)
      (x1 i f) := by
  have hc := closed_se a h p
  have hi := resolve_injective a h
  have h1 : ∀ s : ℝ, HasDerivAt (fun s => Real.exp (-(s + sqDistJitter)))
      (-Real.exp (-(s + sqDistJitter))) s := fun s =>
    (((hasDerivAt_id' s).add_const sqDistJitter).neg.exp).congr_deriv (by simp)
  have hj : Real.exp (-(1 / 10 ^ 12)) = Real.exp (-sqDistJitter) := rfl
  simp only [hc.k, hc.d0k, setFeature_row, hj]
  rcases (Dims.resolve a).cases_idx f with ⟨b, rfl⟩ | hf
  · simp only [Dims.take_update _ hi, Dims.spread_idx _ hi]
    refine (radial_deriv_left (p.val "lengthscale") _ _ b (h1 _)).congr_deriv ?_
    simp only [Core.se, neg_add, Real.exp_add]
    ring
  · simp only [Dims.take_update_not _ _ f hf, Dims.spread_not _ _ f hf, mul_zero]
    exact hasDerivAt_const _ _

theorem jitter_pos : (0 : ℝ) < sqDistJitter := by unfold sqDistJitter; positivity

theorem floor_lt_jitter : maternFloor < sqDistJitter := by
  unfold maternFloor sqDistJitter; norm_num

theorem m52Dist_eq {s : ℝ} (hs : 0 ≤ s) : m52Dist s = Real.sqrt (5 * (s + sqDistJitter)) := by
  unfold m52Dist
  rw [max_eq_left (by linarith [floor_lt_jitter]), ← Real.sqrt_mul (by norm_num)]

theorem m52Dist_eventually {s : ℝ} (hs : 0 ≤ s) :
    ∀ᶠ t in nhds s, m52Dist t = Real.sqrt (5 * (t + sqDistJitter)) := by
  have : maternFloor - sqDistJitter < s := by linarith [floor_lt_jitter]
  filter_upwards [lt_mem_nhds this] with t ht
  unfold m52Dist
  rw [max_eq_left (by linarith), ← Real.sqrt_mul (by norm_num)]

theorem m52_fast_first {s : ℝ} (hs : 0 ≤ s) :
    HasDerivAt (fun s => (1 + m52Dist s + m52Dist s ^ 2 / 3) * Real.exp (-m52Dist s))
      (-(5 / 6) * (1 + m52Dist s) * Real.exp (-m52Dist s)) s := by
  have h := m52_profile (s := s + sqDistJitter) (by linarith [jitter_pos])
  have h' := h.comp_add_const s sqDistJitter
  rw [m52Dist_eq hs]
  refine h'.congr_of_eventuallyEq ?_
  filter_upwards [m52Dist_eventually hs, lt_mem_nhds (show -sqDistJitter < s by
    linarith [jitter_pos])] with t ht ht'
  simp only [ht]
  rw [Real.sq_sqrt (by linarith)]

theorem m52_fast_second {s : ℝ} (hs : 0 ≤ s) :
    HasDerivAt (fun s => -(5 / 6) * (1 + m52Dist s) * Real.exp (-m52Dist s))
      (25 / 12 * Real.exp (-m52Dist s)) s := by
  have h := m52_profile' (s := s + sqDistJitter) (by linarith [jitter_pos])
  have h' := h.comp_add_const s sqDistJitter
  rw [m52Dist_eq hs]
  refine h'.congr_of_eventuallyEq ?_
  filter_upwards [m52Dist_eventually hs] with t ht
  simp only [ht]

theorem sqrt5_mul : Real.sqrt 5 * Real.sqrt 5 = 5 := Real.mul_self_sqrt (by norm_num)

/-- **C24**, `Matern52`: `d0k`, `d1k`, `d01k` are the derivatives of `k`, at every pair of samples,
coincident ones included. -/
theorem C24_matern52 (a : Option (Dims d)) (h : NoRepeat a) (p : KPar) :
    TrueD0 (KernelObj.matern52 a) p ∧ TrueD1 (KernelObj.matern52 a) p ∧
      TrueD01 (KernelObj.matern52 a) p := by
  have hc := closed_m52 a h p
  have hi := resolve_injective a h
  refine ⟨fun n m x1 x2 i f j => trueD0At_of_closed hc hi _ _ _ _ _ fun a => ?_,
    fun n m x1 x2 i j e => trueD1At_of_closed hc hi _ _ _ _ _ fun a => ?_,
    fun n m x1 x2 i f j e => trueD01At_of_closed hc hi _ _ _ _ _ _ fun a b => ?_⟩
  · refine (radial_deriv_left (p.val "lengthscale") _ _ a
      (m52_fast_first (sqd_nonneg _ _ _))).congr_deriv ?_
    simp only [Core.m52, div_eq_mul_inv, mul_inv]
    linear_combination ((3 : ℝ)⁻¹ * (p.val "lengthscale")⁻¹ *
      (1 + m52Dist (sqd (p.val "lengthscale") ((Dims.resolve _).take (x1 i))
        ((Dims.resolve _).take (x2 j)))) *
      Real.exp (-m52Dist (sqd (p.val "lengthscale") ((Dims.resolve _).take (x1 i))
        ((Dims.resolve _).take (x2 j)))) *
      ((Dims.resolve _).take (x1 i) a * (p.val "lengthscale")⁻¹ -
        (Dims.resolve _).take (x2 j) a * (p.val "lengthscale")⁻¹)) * sqrt5_mul
  · refine (radial_deriv_right (p.val "lengthscale") _ _ a
      (m52_fast_first (sqd_nonneg _ _ _))).congr_deriv ?_
    simp only [Core.m52, div_eq_mul_inv, mul_inv]
    linear_combination (-(3 : ℝ)⁻¹ * (p.val "lengthscale")⁻¹ *
      (1 + m52Dist (sqd (p.val "lengthscale") ((Dims.resolve _).take (x1 i))
        ((Dims.resolve _).take (x2 j)))) *
      Real.exp (-m52Dist (sqd (p.val "lengthscale") ((Dims.resolve _).take (x1 i))
        ((Dims.resolve _).take (x2 j)))) *
      ((Dims.resolve _).take (x1 i) a * (p.val "lengthscale")⁻¹ -
        (Dims.resolve _).take (x2 j) a * (p.val "lengthscale")⁻¹)) * sqrt5_mul
  · refine (radial_deriv_mixed (p.val "lengthscale") _ _ a b (fun s hs => m52_fast_first hs)
      (m52_fast_second (sqd_nonneg _ _ _))).congr_deriv ?_
    simp only [Core.m52]
    generalize Real.exp (-m52Dist (sqd (p.val "lengthscale") ((Dims.resolve _).take (x1 i))
        ((Dims.resolve _).take (x2 j)))) = E
    generalize m52Dist (sqd (p.val "lengthscale") ((Dims.resolve _).take (x1 i))
        ((Dims.resolve _).take (x2 j))) = r
    generalize (Dims.resolve _).take (x1 i) a / p.val "lengthscale" -
      (Dims.resolve _).take (x2 j) a / p.val "lengthscale" = u
    generalize (Dims.resolve _).take (x1 i) b / p.val "lengthscale" -
      (Dims.resolve _).take (x2 j) b / p.val "lengthscale" = w
    generalize p.val "lengthscale" = l
    have e1 : -(5 / (3 * l ^ 2) * E) * (Real.sqrt 5 * u) * (Real.sqrt 5 * w) =
        -(25 / 12 * E * (2 / l * w)) * (2 / l * u) := by
      have : -(5 / (3 * l ^ 2) * E) * (Real.sqrt 5 * u) * (Real.sqrt 5 * w) =
        -(5 / (3 * l ^ 2) * E) * (Real.sqrt 5 * Real.sqrt 5) * u * w := by ring
      rw [this, sqrt5_mul]
      by_cases hl : l = 0
      · simp [hl]
      · field_simp; ring
    rw [e1]
    split_ifs
    · by_cases hl : l = 0
      · simp [hl]
      · field_simp; ring
    · ring

theorem essS_deriv_left (l per : ℝ) {k : ℕ} (x y : Fin k → ℝ) (a : Fin k) (t : ℝ) :
    HasDerivAt (fun t => essS l per (Function.update x a t) y) (essQ l per (t - y a)) t := by
  unfold essS
  have hs : ∀ b ∈ Finset.univ, HasDerivAt
      (fun t => Real.sin (Real.pi * (Function.update x a t b - y b) / per) ^ 2 / l)
      (if b = a then essQ l per (t - y a) else 0) t := by
    intro b _
    by_cases hb : b = a
    · subst hb
      simp only [Function.update_self, if_true]
      refine ((((((hasDerivAt_id' t).sub_const (y b)).const_mul Real.pi).div_const per).sin.pow 2).div_const
        l).congr_deriv ?_
      simp only [essQ]
      ring
    · simp only [Function.update_of_ne hb, hb, if_false]
      exact hasDerivAt_const _ _
  have := HasDerivAt.fun_sum hs
  simpa using this

theorem essS_deriv_right (l per : ℝ) {k : ℕ} (x y : Fin k → ℝ) (a : Fin k) (t : ℝ) :
    HasDerivAt (fun t => essS l per x (Function.update y a t)) (-essQ l per (x a - t)) t := by
  unfold essS
  have hs : ∀ b ∈ Finset.univ, HasDerivAt
      (fun t => Real.sin (Real.pi * (x b - Function.update y a t b) / per) ^ 2 / l)
      (if b = a then -essQ l per (x a - t) else 0) t := by
    intro b _
    by_cases hb : b = a
    · subst hb
      simp only [Function.update_self, if_true]
      refine ((((((hasDerivAt_id' t).const_sub (x b)).const_mul Real.pi).div_const per).sin.pow 2).div_const
        l).congr_deriv ?_
      simp only [essQ]
      ring
    · simp only [Function.update_of_ne hb, hb, if_false]
      exact hasDerivAt_const _ _
  have := HasDerivAt.fun_sum hs
  simpa using this

theorem essQ_deriv (l per t : ℝ) : HasDerivAt (essQ l per) (essR l per t) t := by
  unfold essQ essR
  have h := ((hasDerivAt_id' t).const_mul Real.pi).div_const per
  refine (((((h.sin).const_mul 2).mul h.cos).mul_const (Real.pi / per)).div_const l).congr_deriv ?_
  ring

/-- **C24**, `ExpSinSquared`: the derivative kernels obtained from the base kernel (whose program contains an
absolute value) are the derivatives of `k`, at every pair of samples, coincident ones included. -/
theorem C24_exp_sin_squared (a : Option (Dims d)) (h : NoRepeat a) (p : KPar) :
    TrueD0 (KernelObj.expSinSquared a) p ∧ TrueD1 (KernelObj.expSinSquared a) p ∧
      TrueD01 (KernelObj.expSinSquared a) p := by
  have hc := closed_ess a p
  have hi := resolve_injective a h
  refine ⟨fun n m x1 x2 i f j => trueD0At_of_closed hc hi _ _ _ _ _ fun a => ?_,
    fun n m x1 x2 i j e => trueD1At_of_closed hc hi _ _ _ _ _ fun a => ?_,
    fun n m x1 x2 i f j e => trueD01At_of_closed hc hi _ _ _ _ _ _ fun a b => ?_⟩
  · refine ((essS_deriv_left _ _ _ _ a _).const_mul (-4)).exp.congr_deriv ?_
    simp only [Core.ess, Function.update_eq_self]
    ring
  · refine ((essS_deriv_right _ _ _ _ a _).const_mul (-4)).exp.congr_deriv ?_
    simp only [Core.ess, Function.update_eq_self]
    ring
  · generalize (Dims.resolve _).take (x1 i) = x
    generalize (Dims.resolve _).take (x2 j) = y
    generalize p.val "lengthscale" = l
    generalize p.val "periodicity" = per
    have e : ∀ t, deriv (fun s => (Core.ess l per).K (Function.update x a s) (Function.update y b t)) (x a) =
        -4 * essQ l per (x a - Function.update y b t a) *
          Real.exp (-4 * essS l per x (Function.update y b t)) := fun t => by
      refine ((essS_deriv_left l per x (Function.update y b t) a (x a)).const_mul (-4)).exp.deriv.trans ?_
      simp only [Function.update_eq_self]
      ring
    simp only [e]
    have g : HasDerivAt (fun t => essQ l per (x a - Function.update y b t a))
        (if a = b then -essR l per (x a - y a) else 0) (y b) := by
      by_cases hab : a = b
      · subst hab
        simp only [Function.update_self, if_true]
        have := HasDerivAt.comp (h₂ := essQ l per) (y a) (essQ_deriv l per (x a - y a))
          ((hasDerivAt_id' (y a)).const_sub (x a))
        exact this.congr_deriv (by ring)
      · simp only [Function.update_of_ne hab, hab, if_false]
        exact hasDerivAt_const _ _
    refine ((g.const_mul (-4)).mul ((essS_deriv_right l per x y b (y b)).const_mul (-4)).exp).congr_deriv ?_
    simp only [Core.ess, Function.update_eq_self]
    split_ifs <;> ring

/-! ## The `custom_jvp` rules of `Matern32` and `Matern52` -/

/-- The rules shipped with a base kernel `base` (as a function of the lengthscale and the samples) are its
partial derivatives at `(l, x, y)`: `t0`, `t1` for the active features of the two samples, `t2` for the
lengthscale. -/
structure RulesCorrect (ad : Dims d) (base : ℝ → Ex (KVar d)) (t0 t1 : ℝ → Fin ad.k → Ex (KVar d))
    (t2 : ℝ → ℝ) (l : ℝ) (x y : Sample d) : Prop where
  first : ∀ a, HasDerivAt
    (fun t => (base l).eval (Sum.elim (Function.update x (ad.idx a) t) y))
    ((t0 l a).eval (Sum.elim x y)) (x (ad.idx a))
  second : ∀ a, HasDerivAt
    (fun t => (base l).eval (Sum.elim x (Function.update y (ad.idx a) t)))
    ((t1 l a).eval (Sum.elim x y)) (y (ad.idx a))
  lengthscale : HasDerivAt (fun l => (base l).eval (Sum.elim x y)) (t2 l) l

/-- The full claim of C24 about the rules: correct at every point. -/
def C24_rules_full : Prop :=
  ∀ (d : ℕ) (ad : Dims d), Function.Injective ad.idx → ∀ (l : ℝ), 0 < l → ∀ x y : Sample d,
    RulesCorrect ad (matern32BaseEx ad) (matern32T0 ad) (matern32T1 ad)
      (fun l => matern32T2 l (ad.take x) (ad.take y)) l x y ∧
    RulesCorrect ad (matern52BaseEx ad) (matern52T0 ad) (matern52T1 ad)
      (fun l => matern52T2 l (ad.take x) (ad.take y)) l x y

theorem eval_m32Base (ad : Dims d) (l : ℝ) (x y : Sample d) :
    (matern32BaseEx ad l).eval (Sum.elim x y) =
      (1 + Real.sqrt (max (3 * sqd l (ad.take x) (ad.take y)) maternFloor)) *
        Real.exp (-Real.sqrt (max (3 * sqd l (ad.take x) (ad.take y)) maternFloor)) := by
  have : (exSqDist ad l).eval (Sum.elim x y) = sqd l (ad.take x) (ad.take y) := by
    rw [exSqDist_rename, Ex.eval_rename, ← eval_sqDistEx]
    congr 1
    funext v
    cases v <;> rfl
  simp only [matern32BaseEx, exMaternDist, Ex.eval, this]

theorem eval_m52Base (ad : Dims d) (l : ℝ) (x y : Sample d) :
    (matern52BaseEx ad l).eval (Sum.elim x y) =
      (1 + Real.sqrt (max (5 * sqd l (ad.take x) (ad.take y)) maternFloor) +
        5 * sqd l (ad.take x) (ad.take y) / 3) *
        Real.exp (-Real.sqrt (max (5 * sqd l (ad.take x) (ad.take y)) maternFloor)) := by
  have : (exSqDist ad l).eval (Sum.elim x y) = sqd l (ad.take x) (ad.take y) := by
    rw [exSqDist_rename, Ex.eval_rename, ← eval_sqDistEx]
    congr 1
    funext v
    cases v <;> rfl
  simp only [matern52BaseEx, exMaternDist, Ex.eval, this, div_eq_mul_inv]

theorem eval_distDiff {c : ℝ} (hc : 0 ≤ c) (ad : Dims d) (l : ℝ) (x y : Sample d) :
    (exMaternDistDiff c ad l).eval (Sum.elim x y) =
      Real.sqrt (max (c * sqd l (ad.take x) (ad.take y)) maternFloor) := by
  have : exMaternDistDiff c ad l = (mDistDiffEx c l ad.k).rename (Sum.map ad.idx ad.idx) := rfl
  rw [this, Ex.eval_rename, ← eval_mDistDiffEx hc]
  congr 1
  funext v
  cases v <;> rfl

theorem eval_diffAt (c : ℝ) (ad : Dims d) (l : ℝ) (x y : Sample d) (a : Fin ad.k) :
    (exMaternDiff c ad l a).eval (Sum.elim x y) =
      Real.sqrt c * (x (ad.idx a) / l - y (ad.idx a) / l) := by
  have : exMaternDiff c ad l a = (mDiffEx c l ad.k a).rename (Sum.map ad.idx ad.idx) := rfl
  rw [this, Ex.eval_rename]
  have e : (Sum.elim x y : KVar d → ℝ) ∘ Sum.map ad.idx ad.idx =
      Sum.elim (ad.take x) (ad.take y) := by funext v; cases v <;> rfl
  rw [e, eval_mDiffEx]
  rfl

/-- A profile that is a smooth function of `c * s` above the floor. -/
theorem clamp_profile {F : ℝ → ℝ → ℝ} {F' c s : ℝ} (hs : maternFloor < c * s)
    (h : HasDerivAt (fun s => F (c * s) s) F' s) :
    HasDerivAt (fun s => F (max (c * s) maternFloor) s) F' s := by
  refine h.congr_of_eventuallyEq ?_
  have hc : Continuous fun s : ℝ => c * s := continuous_const.mul continuous_id
  filter_upwards [(hc.tendsto s).eventually (lt_mem_nhds hs)] with t ht
  rw [max_eq_left ht.le]

theorem clamp_flat {F : ℝ → ℝ → ℝ} {F' c : ℝ}
    (h : HasDerivAt (fun s => F maternFloor s) F' 0) :
    HasDerivAt (fun s => F (max (c * s) maternFloor) s) F' 0 := by
  refine h.congr_of_eventuallyEq ?_
  have hc : Continuous fun s : ℝ => c * s := continuous_const.mul continuous_id
  have h0 : c * 0 < maternFloor := by rw [mul_zero]; unfold maternFloor; positivity
  filter_upwards [(hc.tendsto 0).eventually (gt_mem_nhds h0)] with t ht
  rw [max_eq_right ht.le]

theorem m32_base_profile {s : ℝ} (hs : maternFloor < 3 * s) :
    HasDerivAt (fun s => (1 + Real.sqrt (max (3 * s) maternFloor)) *
        Real.exp (-Real.sqrt (max (3 * s) maternFloor)))
      (-(3 / 2) * Real.exp (-Real.sqrt (max (3 * s) maternFloor))) s := by
  have hpos : 0 < s := by have : 0 < maternFloor := by unfold maternFloor; positivity
                          linarith
  rw [max_eq_left hs.le]
  exact clamp_profile (F := fun u _ => (1 + Real.sqrt u) * Real.exp (-Real.sqrt u)) hs
    (m32_profile hpos)

theorem m52_base_profile {s : ℝ} (hs : maternFloor < 5 * s) :
    HasDerivAt (fun s => (1 + Real.sqrt (max (5 * s) maternFloor) + 5 * s / 3) *
        Real.exp (-Real.sqrt (max (5 * s) maternFloor)))
      (-(5 / 6) * (1 + Real.sqrt (max (5 * s) maternFloor)) *
        Real.exp (-Real.sqrt (max (5 * s) maternFloor))) s := by
  have hpos : 0 < s := by have : 0 < maternFloor := by unfold maternFloor; positivity
                          linarith
  rw [max_eq_left hs.le]
  exact clamp_profile (F := fun u s => (1 + Real.sqrt u + 5 * s / 3) * Real.exp (-Real.sqrt u)) hs
    (m52_profile hpos)

theorem sqd_deriv_lengthscale {k : ℕ} (x y : Fin k → ℝ) {l : ℝ} (hl : 0 < l) :
    HasDerivAt (fun l => sqd l x y) (-(2 * sqd l x y / l)) l := by
  have e : ∀ l, sqd l x y = (∑ a, (x a - y a) ^ 2) / l ^ 2 := by
    intro l
    unfold sqd
    rw [Finset.sum_div]
    exact Finset.sum_congr rfl fun a _ => by rw [← sub_div, div_pow]
  simp only [e]
  have h := (hasDerivAt_const l (∑ a, (x a - y a) ^ 2)).div (hasDerivAt_pow 2 l)
    (pow_ne_zero 2 hl.ne')
  refine h.congr_deriv ?_
  field_simp
  norm_num
  ring

/-- What the point must satisfy: the squared scaled distance of the active features, times `c`, exceeds the
literal `1e-36` of the code. -/
def AboveFloor (c : ℝ) (ad : Dims d) (l : ℝ) (x y : Sample d) : Prop :=
  1 / 10 ^ 36 < c * ∑ a, (x (ad.idx a) / l - y (ad.idx a) / l) ^ 2

theorem sqrt3_mul : Real.sqrt 3 * Real.sqrt 3 = 3 := Real.mul_self_sqrt (by norm_num)

/-- **C24**, rules of `Matern32` and `Matern52`, at every pair of samples whose distance is above the code's
`1e-36` floor. -/
theorem C24_rules_partial (ad : Dims d) (hi : Function.Injective ad.idx) (l : ℝ) (hl : 0 < l)
    (x y : Sample d) :
    (AboveFloor 3 ad l x y → RulesCorrect ad (matern32BaseEx ad) (matern32T0 ad) (matern32T1 ad)
      (fun l => matern32T2 l (ad.take x) (ad.take y)) l x y) ∧
    (AboveFloor 5 ad l x y → RulesCorrect ad (matern52BaseEx ad) (matern52T0 ad) (matern52T1 ad)
      (fun l => matern52T2 l (ad.take x) (ad.take y)) l x y) := by
  have sumsq : ∀ (c : ℝ), 0 ≤ c → ∑ a, (Real.sqrt c * (ad.take x a / l - ad.take y a / l)) ^ 2 =
      c * sqd l (ad.take x) (ad.take y) := by
    intro c hc
    unfold sqd
    rw [Finset.mul_sum]
    exact Finset.sum_congr rfl fun a _ => by rw [mul_pow, Real.sq_sqrt hc]
  refine ⟨fun hf => ?_, fun hf => ?_⟩
  · have hf' : maternFloor < 3 * sqd l (ad.take x) (ad.take y) := hf
    have hp := m32_base_profile hf'
    constructor
    · intro a
      simp only [eval_m32Base, ad.take_update hi]
      refine (radial_deriv_left l (ad.take x) (ad.take y) a hp).congr_deriv ?_
      simp only [matern32T0, Ex.eval, eval_distDiff (show (0 : ℝ) ≤ 3 by norm_num), eval_diffAt,
        Dims.take]
      have : ∀ E u : ℝ, -Real.sqrt 3 / l * E * (Real.sqrt 3 * u) =
          -(Real.sqrt 3 * Real.sqrt 3) / l * E * u := by intro E u; ring
      rw [this, sqrt3_mul]
      ring
    · intro a
      simp only [eval_m32Base, ad.take_update hi]
      refine (radial_deriv_right l (ad.take x) (ad.take y) a hp).congr_deriv ?_
      simp only [matern32T1, matern32T0, Ex.eval, eval_distDiff (show (0 : ℝ) ≤ 3 by norm_num),
        eval_diffAt, Dims.take]
      have : ∀ E u : ℝ, -Real.sqrt 3 / l * E * (Real.sqrt 3 * u) =
          -(Real.sqrt 3 * Real.sqrt 3) / l * E * u := by intro E u; ring
      rw [this, sqrt3_mul]
      ring
    · simp only [eval_m32Base]
      refine (hp.comp l (sqd_deriv_lengthscale (ad.take x) (ad.take y) hl)).congr_deriv ?_
      simp only [matern32T2, sumsq 3 (by norm_num)]
      rw [Real.sq_sqrt (le_max_of_le_left
        (by have := sqd_nonneg l (ad.take x) (ad.take y); positivity)), max_eq_left hf'.le]
      ring
  · have hf' : maternFloor < 5 * sqd l (ad.take x) (ad.take y) := hf
    have hp := m52_base_profile hf'
    have key : ∀ E u : ℝ, -(Real.sqrt 5 / (3 * l)) * E * (Real.sqrt 5 * u) =
          -(5 / 6) * E * (2 / l * u) := by
      intro E u
      have : -(Real.sqrt 5 / (3 * l)) * E * (Real.sqrt 5 * u) =
        -(Real.sqrt 5 * Real.sqrt 5) / (3 * l) * E * u := by ring
      rw [this, sqrt5_mul]
      field_simp
      ring
    constructor
    · intro a
      simp only [eval_m52Base, ad.take_update hi]
      refine (radial_deriv_left l (ad.take x) (ad.take y) a hp).congr_deriv ?_
      simp only [matern52T0, Ex.eval, eval_distDiff (show (0 : ℝ) ≤ 5 by norm_num), eval_diffAt]
      rw [mul_assoc (-(Real.sqrt 5 / (3 * l))), key]
      simp only [Dims.take]
      ring
    · intro a
      simp only [eval_m52Base, ad.take_update hi]
      refine (radial_deriv_right l (ad.take x) (ad.take y) a hp).congr_deriv ?_
      simp only [matern52T1, matern52T0, Ex.eval, eval_distDiff (show (0 : ℝ) ≤ 5 by norm_num),
        eval_diffAt]
      rw [mul_assoc (-(Real.sqrt 5 / (3 * l))), key]
      simp only [Dims.take]
      ring
    · simp only [eval_m52Base]
      refine (hp.comp l (sqd_deriv_lengthscale (ad.take x) (ad.take y) hl)).congr_deriv ?_
      simp only [matern52T2, sumsq 5 (by norm_num)]
      rw [Real.sq_sqrt (le_max_of_le_left
        (by have := sqd_nonneg l (ad.take x) (ad.take y); positivity)), max_eq_left hf'.le]
      field_simp
      ring

/-- Non-vacuity: two different points on a line. -/
example : AboveFloor 3 (⟨1, ![0]⟩ : Dims 1) 1 ![1] ![0] := by
  unfold AboveFloor; norm_num

theorem sqd_coincident (l : ℝ) (ad : Dims d) (x y : Sample d) (h : ad.take x = ad.take y) :
    sqd l (ad.take x) (ad.take y) = 0 := by
  unfold sqd; rw [h]; simp

/-- **C24**, rules at coincident samples: `t0` and `t1` are the true derivatives (zero); the true derivative
with respect to the lengthscale is zero as well, but the rules return `1e-36 * exp(-1e-18) / l` (for
`Matern52` times `(1 + 1e-18) / 3`). -/
theorem C24_rules_coincident_partial (ad : Dims d) (hi : Function.Injective ad.idx) (l : ℝ)
    (x y : Sample d) (h : ad.take x = ad.take y) :
    (∀ a, HasDerivAt (fun t => (matern32BaseEx ad l).eval (Sum.elim (Function.update x (ad.idx a) t) y))
      ((matern32T0 ad l a).eval (Sum.elim x y)) (x (ad.idx a))) ∧
    (∀ a, HasDerivAt (fun t => (matern52BaseEx ad l).eval (Sum.elim (Function.update x (ad.idx a) t) y))
      ((matern52T0 ad l a).eval (Sum.elim x y)) (x (ad.idx a))) ∧
    HasDerivAt (fun l => (matern32BaseEx ad l).eval (Sum.elim x y)) 0 l ∧
    HasDerivAt (fun l => (matern52BaseEx ad l).eval (Sum.elim x y)) 0 l ∧
    matern32T2 l (ad.take x) (ad.take y) = 1 / l * Real.exp (-(1 / 10 ^ 18)) * (1 / 10 ^ 36) ∧
    matern52T2 l (ad.take x) (ad.take y) =
      1 / (3 * l) * Real.exp (-(1 / 10 ^ 18)) * (1 / 10 ^ 36) * (1 + 1 / 10 ^ 18) := by
  have h0 := fun l => sqd_coincident l ad x y h
  have hr : Real.sqrt maternFloor = 1 / 10 ^ 18 := by
    rw [Real.sqrt_eq_iff_mul_self_eq (by unfold maternFloor; positivity) (by positivity)]
    unfold maternFloor; norm_num
  have fl : (0 : ℝ) ≤ maternFloor := by unfold maternFloor; positivity
  have hx : ∀ a, x (ad.idx a) = y (ad.idx a) := fun a => congrFun h a
  refine ⟨fun a => ?_, fun a => ?_, ?_, ?_, ?_, ?_⟩
  · simp only [eval_m32Base, ad.take_update hi]
    have hp : HasDerivAt (fun s => (1 + Real.sqrt (max (3 * s) maternFloor)) *
        Real.exp (-Real.sqrt (max (3 * s) maternFloor))) 0 (sqd l (ad.take x) (ad.take y)) := by
      rw [h0]
      exact clamp_flat (F := fun u _ => (1 + Real.sqrt u) * Real.exp (-Real.sqrt u))
        (hasDerivAt_const _ _)
    refine (radial_deriv_left l (ad.take x) (ad.take y) a hp).congr_deriv ?_
    simp only [matern32T0, Ex.eval, eval_diffAt, hx, sub_self, mul_zero, zero_mul]
  · simp only [eval_m52Base, ad.take_update hi]
    have hp : HasDerivAt (fun s => (1 + Real.sqrt (max (5 * s) maternFloor) + 5 * s / 3) *
        Real.exp (-Real.sqrt (max (5 * s) maternFloor)))
        (5 * 1 / 3 * Real.exp (-Real.sqrt maternFloor)) (sqd l (ad.take x) (ad.take y)) := by
      rw [h0]
      exact clamp_flat (F := fun u s => (1 + Real.sqrt u + 5 * s / 3) * Real.exp (-Real.sqrt u))
        (((((hasDerivAt_id' (0 : ℝ)).const_mul 5).div_const 3).const_add _).mul_const _)
    refine (radial_deriv_left l (ad.take x) (ad.take y) a hp).congr_deriv ?_
    simp only [matern52T0, Ex.eval, eval_diffAt, Dims.take, hx, sub_self, mul_zero]
  · simp only [eval_m32Base, h0]
    exact hasDerivAt_const _ _
  · simp only [eval_m52Base, h0]
    exact hasDerivAt_const _ _
  · simp only [matern32T2, h, sub_self, mul_zero]
    rw [show (∑ a : Fin ad.k, (0 : ℝ) ^ 2) = 0 by simp, max_eq_right fl, hr]
    norm_num
  · simp only [matern52T2, h, sub_self, mul_zero]
    rw [show (∑ a : Fin ad.k, (0 : ℝ) ^ 2) = 0 by simp, max_eq_right fl, hr]
    norm_num

/-- The full claim is false: at coincident samples the rule of `Matern32` for the lengthscale is not zero. -/
theorem C24_rules_false : ¬ C24_rules_full := by
  intro h
  have hi : Function.Injective (⟨1, ![0]⟩ : Dims 1).idx := by
    intro a b _; exact Subsingleton.elim _ _
  have h1 := (h 1 ⟨1, ![0]⟩ hi 1 one_pos ![0] ![0]).1.lengthscale
  obtain ⟨-, -, h2, -, h3, -⟩ := C24_rules_coincident_partial (⟨1, ![0]⟩ : Dims 1) hi 1
    ![0] ![0] rfl
  have := h1.unique h2
  rw [h3] at this
  have pos : 0 < 1 / (1 : ℝ) * Real.exp (-(1 / 10 ^ 18)) * (1 / 10 ^ 36) := by positivity
  linarith

/-- **C24**, `Matern32` and `Matern52`, second derivative at coincident samples: differentiating the rule
`t0` gives exactly the documented Hessian `c / l²` (up to the factor `exp(-1e-18)` left by the floor). -/
theorem C24_matern32_curvature (a : Option (Dims d)) (h : NoRepeat a) (p : KPar)
    {n m : ℕ} (x1 : Batch n d) (x2 : Batch m d) (i : Fin n) (j : Fin m) (hx : x1 i = x2 j)
    (f e : Fin (Dims.resolve a).k) :
    (KernelObj.matern32 a).d01k p x1 x2 (flat i ((Dims.resolve a).idx f))
        (flat j ((Dims.resolve a).idx e)) =
      if f = e then 3 / p.val "lengthscale" ^ 2 * Real.exp (-(1 / 10 ^ 18)) else 0 := by
  have hc := closed_m32 a p
  have hi := resolve_injective a h
  rw [hc.d01k, Dims.spread2_idx _ hi, hx]
  have hr : Real.sqrt maternFloor = 1 / 10 ^ 18 := by
    rw [Real.sqrt_eq_iff_mul_self_eq (by unfold maternFloor; positivity) (by positivity)]
    unfold maternFloor; norm_num
  have fl : (0 : ℝ) ≤ maternFloor := by unfold maternFloor; positivity
  have s0 : sqd (p.val "lengthscale") ((Dims.resolve a).take (x2 j))
      ((Dims.resolve a).take (x2 j)) = 0 := by unfold sqd; simp
  simp only [Core.m32, Core.customJvp, m32T0Ex, Ex.D, Ex.eval,
    eval_mDistDiffEx (show (0 : ℝ) ≤ 3 by norm_num), eval_mDiffEx, eval_D_mDiffEx,
    eval_D_mDistDiffEx (show (0 : ℝ) ≤ 3 by norm_num), s0, mul_zero, max_eq_right fl, hr, sub_self,
    zero_mul, zero_add]
  split_ifs
  · have : ∀ E l : ℝ, -Real.sqrt 3 / l * E * (-(Real.sqrt 3 / l)) =
      (Real.sqrt 3 * Real.sqrt 3) / l ^ 2 * E := by
      intro E l
      by_cases hl : l = 0
      · simp [hl]
      · field_simp
    rw [this, sqrt3_mul]
  · simp

/-! ## C20 for `Matern52` -/

/-- The full claim of C20 for the library: every kernel expression. -/
def C20_full : Prop :=
  ∀ (d : ℕ) (e : KExpr d) (p : KPar), CoefficientSums e.obj p

theorem m52_decreasing {s t : ℝ} (hs : 0 < s) (hst : s < t) :
    (1 + t) * Real.exp (-t) < (1 + s) * Real.exp (-s) := by
  have h := Real.add_one_lt_exp (sub_ne_zero.mpr hst.ne')
  have e1 : Real.exp (-s) = Real.exp (-t) * Real.exp (t - s) := by rw [← Real.exp_add]; ring_nf
  rw [e1]
  have hp := Real.exp_pos (-t)
  nlinarith [mul_lt_mul_of_pos_left h (mul_pos (show 0 < 1 + s by linarith) hp), mul_pos hs hp,
    mul_pos (mul_pos hs hp) (sub_pos.mpr hst)]

/-- `Matern52` computes `d0kj` from the hand-written formula, with the jitter `1e-12` of `squared_distances`,
but `d0kjc` by differentiating the base kernel, which has no jitter. One sample each, one feature,
lengthscale 1. -/
theorem matern52_coef_ne : (KernelObj.matern52 (none : Option (Dims 1))).d0kjc (fun _ => 1)
      (fun _ _ => 1 : Batch 1 1) (fun _ _ => 0 : Batch 1 1) (jaccoef (v := 1) (fun _ _ => 1) fun _ _ _ => 1 : Batch 1 1) 0 0 ≠
    (KernelObj.matern52 (none : Option (Dims 1))).d0kj (fun _ => 1) (fun _ _ => 1 : Batch 1 1)
      (fun _ _ => 0 : Batch 1 1) (fun _ _ _ => 1 : Jac 1 1 1) (flat 0 0) 0 := by
  intro h1
  have hc := closed_m52 (none : Option (Dims 1)) trivial (fun _ => 1)
  rw [hc.d0kjc, hc.d0kj] at h1
  have e5 : (0 : ℝ) ≤ 5 := by norm_num
  simp only [Core.m52, m52T0Ex, Ex.eval, eval_mDistDiffEx e5, eval_mDiffEx, jaccoef, Dims.take,
    KPar.val] at h1
  have hs : ∀ x y : Fin 1 → ℝ, sqd 1 x y = (x 0 - y 0) ^ 2 := by
    intro x y; simp [sqd]
  simp [Dims.resolve, Dims.all, hs] at h1
  rcases h1 with h1 | h1
  · have v1 : (⟨1, id⟩ : Dims 1).take (fun _ => (1 : ℝ)) 0 = 1 := rfl
    have v0 : (⟨1, id⟩ : Dims 1).take (fun _ => (0 : ℝ)) 0 = 0 := rfl
    have hm : max (5 * ((1 : ℝ) - 0) ^ 2) maternFloor = 5 := by
      rw [max_eq_left (by unfold maternFloor; norm_num)]; norm_num
    rw [v1, v0, hm, m52Dist_eq (by norm_num), mul_assoc, mul_assoc] at h1
    have h2 := mul_left_cancel₀ (show Real.sqrt 5 / 3 ≠ 0 by positivity) h1
    have lt : Real.sqrt 5 < Real.sqrt (5 * ((1 - 0) ^ 2 + sqDistJitter)) :=
      Real.sqrt_lt_sqrt (by norm_num) (by linarith [jitter_pos])
    exact (m52_decreasing (by positivity) lt).ne' h2
  · exact Finset.univ_nonempty.ne_empty h1

/-- The full claim is false, because of `Matern52` (`matern52_coef_ne`). -/
theorem C20_false : ¬ C20_full := by
  intro h
  have h1 := (h 1 (.matern52 none) (fun _ => 1)).1 1 1 1 (fun _ _ => 1) (fun _ _ => 0)
    (fun _ _ _ => 1) (fun _ _ => 1) 0
  simp only [KExpr.obj, Finset.univ_unique, Finset.sum_singleton, one_mul] at h1
  exact matern52_coef_ne h1

end GPX.Props
