import Mathlib.Analysis.Matrix.Order
import Mathlib.Analysis.SpecialFunctions.Trigonometric.ArctanDeriv
import Mathlib.Analysis.SpecialFunctions.Sqrt
import Mathlib.Analysis.SpecialFunctions.ExpDeriv
import Mathlib.Analysis.SpecialFunctions.Exponential
import Mathlib.MeasureTheory.Integral.IntervalIntegral.FundThmCalculus

/-! # Positive semidefinite kernels

Closure properties, the Gaussian kernel, and the passage from `exp(-t s)` to `exp(-√s)`,
`(1 + √s) exp(-√s)` and `(1 + √s + s/3) exp(-√s)`. -/

namespace GPX

open Filter Topology

/-- Every Gram matrix of `K` is positive semidefinite. -/
def PSDK {X : Type*} (K : X → X → ℝ) : Prop :=
  ∀ (n : ℕ) (x : Fin n → X), (Matrix.of fun i j => K (x i) (x j)).PosSemidef

variable {X Y : Type*}

theorem psdk_iff {K : X → X → ℝ} : PSDK K ↔ ∀ (n : ℕ) (x : Fin n → X),
    (∀ i j, K (x j) (x i) = K (x i) (x j)) ∧
      ∀ c : Fin n → ℝ, 0 ≤ ∑ i, ∑ j, c i * K (x i) (x j) * c j := by
  refine forall_congr' fun n => forall_congr' fun x => ?_
  rw [Matrix.posSemidef_iff_dotProduct_mulVec]
  refine and_congr ?_ (forall_congr' fun c => ?_)
  · rw [Matrix.IsHermitian.ext_iff]
    simp
  · simp only [dotProduct, Matrix.mulVec, Matrix.of_apply, Finset.mul_sum, Pi.star_apply,
      star_trivial, mul_assoc]

theorem PSDK.symm {K : X → X → ℝ} (h : PSDK K) (x y : X) : K x y = K y x := by
  have := (psdk_iff.mp h 2 ![x, y]).1 1 0
  simpa using this

theorem PSDK.add {K L : X → X → ℝ} (hK : PSDK K) (hL : PSDK L) :
    PSDK fun x y => K x y + L x y := fun n x => (hK n x).add (hL n x)

theorem PSDK.mul {K L : X → X → ℝ} (hK : PSDK K) (hL : PSDK L) :
    PSDK fun x y => K x y * L x y := fun n x => (hK n x).hadamard (hL n x)

theorem PSDK.comp {K : X → X → ℝ} (hK : PSDK K) (f : Y → X) : PSDK fun x y => K (f x) (f y) :=
  fun n x => hK n (f ∘ x)

theorem PSDK.rankOne (f : X → ℝ) : PSDK fun x y => f x * f y := by
  rw [psdk_iff]
  refine fun n x => ⟨fun i j => mul_comm _ _, fun c => ?_⟩
  have : ∑ i, ∑ j, c i * (f (x i) * f (x j)) * c j = (∑ i, c i * f (x i)) ^ 2 := by
    rw [sq, Finset.sum_mul_sum]
    exact Finset.sum_congr rfl fun i _ => Finset.sum_congr rfl fun j _ => by ring
  rw [this]
  exact sq_nonneg _

theorem PSDK.const {r : ℝ} (hr : 0 ≤ r) : PSDK fun _ _ : X => r := by
  have := PSDK.rankOne fun _ : X => Real.sqrt r
  simpa only [Real.mul_self_sqrt hr] using this

theorem PSDK.smul {K : X → X → ℝ} (hK : PSDK K) {r : ℝ} (hr : 0 ≤ r) :
    PSDK fun x y => r * K x y := (PSDK.const hr).mul hK

theorem PSDK.zero : PSDK fun _ _ : X => 0 := PSDK.const le_rfl

theorem PSDK.sum {ι : Type*} (s : Finset ι) {K : ι → X → X → ℝ} (h : ∀ i ∈ s, PSDK (K i)) :
    PSDK fun x y => ∑ i ∈ s, K i x y := by
  classical
  induction s using Finset.induction_on with
  | empty => simpa using PSDK.zero
  | insert a s ha ih =>
    simp only [Finset.sum_insert ha]
    exact (h a (Finset.mem_insert_self a s)).add (ih fun i hi => h i (Finset.mem_insert_of_mem hi))

theorem PSDK.pow {K : X → X → ℝ} (hK : PSDK K) (q : ℕ) : PSDK fun x y => K x y ^ q := by
  induction q with
  | zero => simpa using PSDK.const (X := X) zero_le_one
  | succ q ih => simpa only [pow_succ] using ih.mul hK

/-- Limits of positive semidefinite kernels. -/
theorem PSDK.limit {ι : Type*} {l : Filter ι} [l.NeBot] {K : ι → X → X → ℝ} {L : X → X → ℝ}
    (h : ∀ i, PSDK (K i)) (hl : ∀ x y, Tendsto (fun i => K i x y) l (𝓝 (L x y))) : PSDK L := by
  rw [psdk_iff]
  refine fun n x => ⟨fun a b => ?_, fun c => ?_⟩
  · refine tendsto_nhds_unique ?_ (hl (x a) (x b))
    simpa only [fun i => (h i).symm (x b) (x a)] using hl (x b) (x a)
  · refine ge_of_tendsto (b := 0) (x := l) (f := fun i => ∑ a, ∑ b, c a * K i (x a) (x b) * c b) ?_
      (Eventually.of_forall fun i => (psdk_iff.mp (h i) n x).2 c)
    exact tendsto_finsetSum _ fun a _ => tendsto_finsetSum _ fun b _ =>
      ((hl _ _).const_mul _).mul_const _

theorem PSDK.exp {K : X → X → ℝ} (hK : PSDK K) : PSDK fun x y => Real.exp (K x y) := by
  refine PSDK.limit (l := atTop)
    (K := fun N x y => ∑ q ∈ Finset.range N, (1 / (q.factorial : ℝ)) * K x y ^ q)
    (fun N => PSDK.sum _ fun q _ => (hK.pow q).smul (by positivity)) fun x y => ?_
  have h := (NormedSpace.expSeries_div_hasSum_exp (K x y)).tendsto_sum_nat
  rw [← Real.exp_eq_exp_ℝ] at h
  refine h.congr fun N => Finset.sum_congr rfl fun q _ => ?_
  ring

/-- Integrals over a bounded interval of positive semidefinite kernels. -/
theorem PSDK.integral {K : ℝ → X → X → ℝ} {R : ℝ} (hR : 0 ≤ R) (h : ∀ v, 0 ≤ v → PSDK (K v))
    (hc : ∀ x y, ContinuousOn (fun v => K v x y) (Set.Icc 0 R)) :
    PSDK fun x y => ∫ v in (0 : ℝ)..R, K v x y := by
  rw [psdk_iff]
  refine fun n x => ⟨fun i j => ?_, fun c => ?_⟩
  · refine intervalIntegral.integral_congr fun v hv => ?_
    rw [Set.uIcc_of_le hR] at hv
    exact (h v hv.1).symm _ _
  · have hi : ∀ i j, IntervalIntegrable (fun v => c i * K v (x i) (x j) * c j)
        MeasureTheory.volume 0 R := by
      intro i j
      refine ContinuousOn.intervalIntegrable ?_
      rw [Set.uIcc_of_le hR]
      exact (continuousOn_const.mul (hc _ _)).mul continuousOn_const
    have e : ∑ i, ∑ j, c i * (∫ v in (0 : ℝ)..R, K v (x i) (x j)) * c j =
        ∫ v in (0 : ℝ)..R, ∑ i, ∑ j, c i * K v (x i) (x j) * c j := by
      rw [intervalIntegral.integral_finsetSum fun i _ => ?_]
      · refine Finset.sum_congr rfl fun i _ => ?_
        rw [intervalIntegral.integral_finsetSum fun j _ => hi i j]
        refine Finset.sum_congr rfl fun j _ => ?_
        rw [intervalIntegral.integral_mul_const, intervalIntegral.integral_const_mul]
      · have := IntervalIntegrable.sum Finset.univ (f := fun j v => c i * K v (x i) (x j) * c j)
          fun j _ => hi i j
        simpa only [Finset.sum_fn] using this
    rw [e]
    exact intervalIntegral.integral_nonneg hR fun v hv => (psdk_iff.mp (h v hv.1) n x).2 c

/-- Dot product. -/
theorem PSDK.dot (k : ℕ) : PSDK fun x y : Fin k → ℝ => ∑ a, x a * y a :=
  PSDK.sum _ fun a _ => PSDK.rankOne fun x : Fin k → ℝ => x a

/-- The Gaussian kernel of any scale. -/
theorem PSDK.gaussian (k : ℕ) {t : ℝ} (ht : 0 ≤ t) :
    PSDK fun x y : Fin k → ℝ => Real.exp (-(t * ∑ a, (x a - y a) ^ 2)) := by
  have h1 := ((PSDK.dot k).smul (r := 2 * t) (by positivity)).exp
  have h2 := PSDK.rankOne fun x : Fin k → ℝ => Real.exp (-(t * ∑ a, x a ^ 2))
  have h := h2.mul h1
  have e : (fun x y : Fin k → ℝ => Real.exp (-(t * ∑ a, (x a - y a) ^ 2))) =
      fun x y => Real.exp (-(t * ∑ a, x a ^ 2)) * Real.exp (-(t * ∑ a, y a ^ 2)) *
        Real.exp (2 * t * ∑ a, x a * y a) := by
    funext x y
    rw [← Real.exp_add, ← Real.exp_add]
    congr 1
    have : ∑ a, (x a - y a) ^ 2 = ∑ a, x a ^ 2 - 2 * ∑ a, x a * y a + ∑ a, y a ^ 2 := by
      rw [Finset.mul_sum, ← Finset.sum_sub_distrib, ← Finset.sum_add_distrib]
      exact Finset.sum_congr rfl fun a _ => by ring
    rw [this]; ring
  rw [e]
  exact h

/-! ## From `exp(-t s)` to functions of `√s` -/

/-- `s` is positive and `exp(-t s)` is positive semidefinite for every `t ≥ 0`. -/
structure NegType (s : X → X → ℝ) : Prop where
  pos : ∀ x y, 0 < s x y
  psd : ∀ t, 0 ≤ t → PSDK fun x y => Real.exp (-(t * s x y))

theorem NegType.shift {s : X → X → ℝ} (h : NegType s) {a : ℝ} (ha : 0 ≤ a) :
    NegType fun x y => s x y + a where
  pos x y := by have := h.pos x y; linarith
  psd t ht := by
    have := (h.psd t ht).smul (Real.exp_pos (-(t * a))).le
    refine (congrArg PSDK ?_).mp this
    funext x y
    rw [← Real.exp_add]; ring_nf

theorem NegType.recip {s : X → X → ℝ} (h : NegType s) : PSDK fun x y => (s x y)⁻¹ := by
  have hint : ∀ x y (T : ℝ), ∫ u in (0 : ℝ)..T, Real.exp (-(u * s x y)) =
      (1 - Real.exp (-(T * s x y))) * (s x y)⁻¹ := by
    intro x y T
    have hs := (h.pos x y).ne'
    have hd : ∀ u ∈ Set.uIcc 0 T, HasDerivAt (fun u => -(Real.exp (-(u * s x y)) * (s x y)⁻¹))
        (Real.exp (-(u * s x y))) u := by
      intro u _
      refine ((((hasDerivAt_id' u).mul_const (s x y)).neg.exp).mul_const _).neg.congr_deriv ?_
      simp only [Pi.neg_apply]
      field_simp
    rw [intervalIntegral.integral_eq_sub_of_hasDerivAt hd
      (Continuous.intervalIntegrable (by fun_prop) _ _)]
    simp only [zero_mul, neg_zero, Real.exp_zero]
    ring
  refine PSDK.limit (l := atTop) (ι := ℕ)
    (K := fun T x y => ∫ u in (0 : ℝ)..(T : ℝ), Real.exp (-(u * s x y)))
    (fun T => PSDK.integral (Nat.cast_nonneg T) (fun v hv => h.psd v hv)
      fun x y => Continuous.continuousOn (by fun_prop)) fun x y => ?_
  simp only [hint]
  have h1 : Tendsto (fun T : ℕ => Real.exp (-((T : ℝ) * s x y))) atTop (𝓝 0) :=
    Real.tendsto_exp_neg_atTop_nhds_zero.comp
      (tendsto_natCast_atTop_atTop.atTop_mul_const (h.pos x y))
  have := ((h1.const_sub 1).mul_const (s x y)⁻¹)
  simpa using this

theorem NegType.expSqrt {s : X → X → ℝ} (h : NegType s) {u : ℝ} (hu : 0 ≤ u) :
    PSDK fun x y => Real.exp (-(u * Real.sqrt (s x y))) := by
  have hint : ∀ x y (R : ℝ), ∫ v in (0 : ℝ)..R, v ^ 2 * (s x y + v ^ 2)⁻¹ =
      R - Real.sqrt (s x y) * Real.arctan (R / Real.sqrt (s x y)) := by
    intro x y R
    have hs := h.pos x y
    have hr := Real.sqrt_pos.mpr hs
    have hq : Real.sqrt (s x y) ^ 2 = s x y := Real.sq_sqrt hs.le
    have hd : ∀ v ∈ Set.uIcc 0 R, HasDerivAt
        (fun v => v - Real.sqrt (s x y) * Real.arctan (v / Real.sqrt (s x y)))
        (v ^ 2 * (s x y + v ^ 2)⁻¹) v := by
      intro v _
      refine ((hasDerivAt_id' v).sub ((((hasDerivAt_id' v).div_const
        (Real.sqrt (s x y))).arctan).const_mul (Real.sqrt (s x y)))).congr_deriv ?_
      have : 0 < s x y + v ^ 2 := by positivity
      have h2 : 1 + (v / Real.sqrt (s x y)) ^ 2 = (s x y + v ^ 2) / s x y := by
        rw [div_pow, hq]; field_simp
      rw [h2]
      field_simp
      ring
    rw [intervalIntegral.integral_eq_sub_of_hasDerivAt hd ?_]
    · simp
    · refine Continuous.intervalIntegrable ?_ _ _
      exact (continuous_pow 2).mul ((continuous_const.add (continuous_pow 2)).inv₀
        fun v => (add_pos_of_pos_of_nonneg hs (sq_nonneg v)).ne')
  have hP : ∀ R : ℕ, PSDK fun x y =>
      (R : ℝ) - Real.sqrt (s x y) * Real.arctan ((R : ℝ) / Real.sqrt (s x y)) := by
    intro R
    simp only [← hint]
    refine PSDK.integral (Nat.cast_nonneg R) (fun v _ => ?_) fun x y => Continuous.continuousOn ?_
    · exact ((h.shift (sq_nonneg v)).recip).smul (sq_nonneg v)
    · have hs := h.pos x y
      exact (continuous_pow 2).mul ((continuous_const.add (continuous_pow 2)).inv₀
        fun v => (add_pos_of_pos_of_nonneg hs (sq_nonneg v)).ne')
  have hpi : 0 ≤ u * (2 / Real.pi) := by positivity
  refine PSDK.limit (l := atTop) (ι := ℕ) (K := fun R x y =>
      Real.exp (-(u * (2 / Real.pi) * R)) * Real.exp (u * (2 / Real.pi) *
        ((R : ℝ) - Real.sqrt (s x y) * Real.arctan ((R : ℝ) / Real.sqrt (s x y)))))
    (fun R => (((hP R).smul hpi).exp).smul (Real.exp_pos _).le) fun x y => ?_
  have hr := Real.sqrt_pos.mpr (h.pos x y)
  have h1 : Tendsto (fun R : ℕ => Real.arctan ((R : ℝ) / Real.sqrt (s x y))) atTop
      (𝓝 (Real.pi / 2)) :=
    (tendsto_nhds_of_tendsto_nhdsWithin Real.tendsto_arctan_atTop).comp
      (tendsto_natCast_atTop_atTop.atTop_div_const hr)
  have h2 := ((h1.const_mul (Real.sqrt (s x y))).const_mul (-(u * (2 / Real.pi)))).rexp
  have e : -(u * (2 / Real.pi)) * (Real.sqrt (s x y) * (Real.pi / 2)) = -(u * Real.sqrt (s x y)) := by
    have := Real.pi_pos.ne'
    field_simp
  rw [e] at h2
  refine h2.congr fun R => ?_
  rw [← Real.exp_add]
  congr 1
  ring

/-- The square root of a kernel of negative type is of negative type. -/
theorem NegType.sqrt {s : X → X → ℝ} (h : NegType s) : NegType fun x y => Real.sqrt (s x y) where
  pos x y := Real.sqrt_pos.mpr (h.pos x y)
  psd _ ht := h.expSqrt ht

theorem sqrt_shift_deriv {s a : ℝ} (h : 0 < s + a) :
    HasDerivAt (fun a => Real.sqrt (s + a)) (1 / (2 * Real.sqrt (s + a))) a :=
  ((hasDerivAt_id' a).const_add s).sqrt h.ne'

/-- Mixture step: if `g(√s)` has derivative `-c w(√s)` along `s` and vanishes at infinity, and `w(√(s+a))` is
positive semidefinite for all shifts, then `g(√s)` is. -/
theorem NegType.mixture {s : X → X → ℝ} (h : NegType s) {g w : ℝ → ℝ} {c : ℝ} (hc : 0 < c)
    (hg : ∀ r, 0 < r → HasDerivAt g (-(2 * r * c * w r)) r) (hw : Continuous w)
    (hlim : Tendsto g atTop (𝓝 0))
    (hpsd : ∀ a, 0 ≤ a → PSDK fun x y => w (Real.sqrt (s x y + a))) :
    PSDK fun x y => g (Real.sqrt (s x y)) := by
  have hint : ∀ x y (R : ℝ), 0 ≤ R → ∫ a in (0 : ℝ)..R, c * w (Real.sqrt (s x y + a)) =
      g (Real.sqrt (s x y)) - g (Real.sqrt (s x y + R)) := by
    intro x y R hR
    have hs := h.pos x y
    have hd : ∀ a ∈ Set.uIcc 0 R, HasDerivAt (fun a => -g (Real.sqrt (s x y + a)))
        (c * w (Real.sqrt (s x y + a))) a := by
      intro a ha
      rw [Set.uIcc_of_le hR] at ha
      have hsa : 0 < s x y + a := by linarith [ha.1]
      have hr := Real.sqrt_pos.mpr hsa
      refine ((hg _ hr).comp a (sqrt_shift_deriv hsa)).neg.congr_deriv ?_
      field_simp
    rw [intervalIntegral.integral_eq_sub_of_hasDerivAt hd ?_]
    · rw [add_zero]; ring
    · refine Continuous.intervalIntegrable ?_ _ _
      exact continuous_const.mul (hw.comp (Real.continuous_sqrt.comp
        (continuous_const.add continuous_id)))
  refine PSDK.limit (l := atTop) (ι := ℕ)
    (K := fun R x y => ∫ a in (0 : ℝ)..(R : ℝ), c * w (Real.sqrt (s x y + a)))
    (fun R => PSDK.integral (Nat.cast_nonneg R) (fun a ha => (hpsd a ha).smul hc.le)
      fun x y => Continuous.continuousOn (continuous_const.mul (hw.comp (Real.continuous_sqrt.comp
        (continuous_const.add continuous_id))))) fun x y => ?_
  simp only [fun R : ℕ => hint x y R (Nat.cast_nonneg R)]
  have h1 : Tendsto (fun R : ℕ => Real.sqrt (s x y + (R : ℝ))) atTop atTop :=
    Real.tendsto_sqrt_atTop.comp (tendsto_atTop_add_const_left _ _ tendsto_natCast_atTop_atTop)
  have := (hlim.comp h1).const_sub (g (Real.sqrt (s x y)))
  simpa using this

theorem NegType.matern32 {s : X → X → ℝ} (h : NegType s) :
    PSDK fun x y => (1 + Real.sqrt (s x y)) * Real.exp (-Real.sqrt (s x y)) := by
  refine h.mixture (g := fun r => (1 + r) * Real.exp (-r)) (w := fun r => Real.exp (-r))
    (c := 1 / 2) (by norm_num) (fun r _ => ?_) (by fun_prop) ?_ fun a ha => ?_
  · refine (((hasDerivAt_id' r).const_add 1).mul (hasDerivAt_id' r).neg.exp).congr_deriv ?_
    simp only [Pi.neg_apply]; ring
  · have h0 := Real.tendsto_pow_mul_exp_neg_atTop_nhds_zero 0
    have h1 := Real.tendsto_pow_mul_exp_neg_atTop_nhds_zero 1
    simpa [add_mul] using h0.add h1
  · simpa using (h.shift ha).expSqrt zero_le_one

theorem NegType.matern52 {s : X → X → ℝ} (h : NegType s) :
    PSDK fun x y => (1 + Real.sqrt (s x y) + Real.sqrt (s x y) ^ 2 / 3) *
      Real.exp (-Real.sqrt (s x y)) := by
  refine h.mixture (g := fun r => (1 + r + r ^ 2 / 3) * Real.exp (-r))
    (w := fun r => (1 + r) * Real.exp (-r))
    (c := 1 / 6) (by norm_num) (fun r _ => ?_) (by fun_prop) ?_ fun a ha => ?_
  · refine ((((hasDerivAt_id' r).const_add 1).add ((hasDerivAt_pow 2 r).div_const 3)).mul
      (hasDerivAt_id' r).neg.exp).congr_deriv ?_
    simp only [Pi.neg_apply, Pi.add_apply]; norm_num; ring
  · have h0 := Real.tendsto_pow_mul_exp_neg_atTop_nhds_zero 0
    have h1 := Real.tendsto_pow_mul_exp_neg_atTop_nhds_zero 1
    have h2 := (Real.tendsto_pow_mul_exp_neg_atTop_nhds_zero 2).const_mul (1 / 3)
    have := (h0.add h1).add h2
    simp only [mul_zero, add_zero] at this
    refine this.congr fun r => ?_
    ring
  · exact (h.shift ha).matern32

end GPX
