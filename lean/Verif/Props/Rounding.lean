import Verif.Lemmas.Rounding
import Mathlib.Analysis.SpecialFunctions.Exp
import Mathlib.Analysis.Complex.ExponentialBounds

/-!
# C127-C129: squared distances, `SquaredExponential` and predictions in floating-point arithmetic
-/

namespace GPX.Props
open GPX GPX.Spec

variable {n m k o : ℕ} {rd fexp : ℝ → ℝ} {u : ℝ}

/-! ## C127 -/

/-- **C127**, error: whatever the order of the sums and the use of fused multiply-adds, the computed squared distance of two
samples with `k` features differs from the exact one (plus the documented `1e-12`) by at most `(1 + u)^(k + 4) - 1` times
`|x|² + 2 Σ |x y| + |y|² + 1e-12`. The error is relative to the size of the inputs, not to their distance. -/
theorem C127_error_partial (hr : RelErr rd u) (x1 : Batch n k) (x2 : Batch m k) (D : Arr2 n m) (h : FSquaredDistances rd x1 x2 D)
    (i : Fin n) (j : Fin m) :
    |D i j - ((∑ c, (x1 i c - x2 j c) ^ 2) + 1 / 10 ^ 12)| ≤ ((1 + u) ^ (k + 4) - 1) *
      ((∑ c, x1 i c ^ 2) + 2 * (∑ c, |x1 i c * x2 j c|) + (∑ c, x2 j c ^ 2) + 1 / 10 ^ 12) := by
  have := (h.near hr (j := 0) (fun i c => Near.exact (x1 i c)) (fun i c => Near.exact (x2 i c)) i j).2
  simpa using this

theorem cross_le (a b : Fin k → ℝ) : 2 * (∑ c, |a c * b c|) ≤ (∑ c, a c ^ 2) + ∑ c, b c ^ 2 := by
  rw [Finset.mul_sum, ← Finset.sum_add_distrib]
  refine Finset.sum_le_sum fun c _ => ?_
  rw [abs_mul]
  nlinarith [sq_nonneg (|a c| - |b c|), sq_abs (a c), sq_abs (b c)]

/-- The full claim of C127: computed squared distances are never negative. -/
def C127_full : Prop :=
  ∀ (rd : ℝ → ℝ), Nearest rd → ∀ (n m k : ℕ) (x1 : Batch n k) (x2 : Batch m k) (D : Arr2 n m),
    FSquaredDistances rd x1 x2 D → ∀ i j, 0 ≤ D i j

/-- **C127**, sign: the `1e-12` makes up for the rounding errors when the inputs are small enough. -/
theorem C127_nonneg_partial (hr : RelErr rd u) (x1 : Batch n k) (x2 : Batch m k) (D : Arr2 n m)
    (h : FSquaredDistances rd x1 x2 D) (i : Fin n) (j : Fin m)
    (hs : ((1 + u) ^ (k + 4) - 1) * (2 * ((∑ c, x1 i c ^ 2) + ∑ c, x2 j c ^ 2) + 1 / 10 ^ 12) ≤ 1 / 10 ^ 12) :
    0 ≤ D i j := by
  have h1 := C127_error_partial hr x1 x2 D h i j
  have h2 := cross_le (x1 i) (x2 j)
  have h3 : 0 ≤ (1 + u) ^ (k + 4) - 1 := sub_nonneg.mpr (one_le_pow_u hr.1 _)
  have h4 := mul_le_mul_of_nonneg_left (by linarith : (∑ c, x1 i c ^ 2) + 2 * (∑ c, |x1 i c * x2 j c|) +
    (∑ c, x2 j c ^ 2) + 1 / 10 ^ 12 ≤ 2 * ((∑ c, x1 i c ^ 2) + ∑ c, x2 j c ^ 2) + 1 / 10 ^ 12) h3
  have h5 : 0 ≤ ∑ c, (x1 i c - x2 j c) ^ 2 := Finset.sum_nonneg fun _ _ => sq_nonneg _
  have h6 := (abs_le.mp h1).1
  linarith

/-- **C127** in double precision: up to 100 features, with squared norms up to 10. -/
theorem C127_double_partial (hr : Nearest rd) (hk : k ≤ 100) (x1 : Batch n k) (x2 : Batch m k) (D : Arr2 n m)
    (h : FSquaredDistances rd x1 x2 D) (i : Fin n) (j : Fin m) (h1 : ∑ c, x1 i c ^ 2 ≤ 10) (h2 : ∑ c, x2 j c ^ 2 ≤ 10) :
    0 ≤ D i j := by
  refine C127_nonneg_partial hr.relErr x1 x2 D h i j ?_
  have p : ((1 : ℝ) + 1 / 2 ^ 53) ^ (k + 4) ≤ (1 + 1 / 2 ^ 53) ^ 104 :=
    pow_le_pow_right₀ (by norm_num) (by omega)
  have q : ((1 : ℝ) + 1 / 2 ^ 53) ^ 104 - 1 ≤ 2 / 10 ^ 14 := by norm_num
  have s : 2 * ((∑ c, x1 i c ^ 2) + ∑ c, x2 j c ^ 2) + 1 / 10 ^ 12 ≤ (40 : ℝ) + 1 / 10 ^ 12 := by linarith
  have s0 : 0 ≤ 2 * ((∑ c, x1 i c ^ 2) + ∑ c, x2 j c ^ 2) + (1 : ℝ) / 10 ^ 12 := by positivity
  calc _ ≤ 2 / 10 ^ 14 * ((40 : ℝ) + 1 / 10 ^ 12) :=
        mul_le_mul (by linarith) s s0 (by norm_num)
    _ ≤ 1 / 10 ^ 12 := by norm_num

/-- One feature: there is one possible result. -/
theorem one_feature {x1 : Batch n 1} {x2 : Batch m 1} {D : Arr2 n m} (h : FSquaredDistances rd x1 x2 D) (i : Fin n)
    (j : Fin m) : D i j = rd (rd (rd (rd (x1 i 0 * x1 i 0) - rd (2 * rd (x1 i 0 * x2 j 0))) + rd (x2 j 0 * x2 j 0)) +
      rd sqDistJitter) := by
  obtain ⟨a, b, c, ha, hb, hc, hD⟩ := h
  rw [hD, (ha i).one, (hb j).one, (hc i j).one]

/-- Every computation has a result. -/
theorem one_feature_exists (rd : ℝ → ℝ) (x1 : Batch n 1) (x2 : Batch m 1) : ∃ D, FSquaredDistances rd x1 x2 D :=
  ⟨_, _, _, _, fun _ => FDot.single (0 : Fin 1), fun _ => FDot.single (0 : Fin 1), fun _ _ => FDot.single (0 : Fin 1),
    fun _ _ => rfl⟩

theorem far_steps (hr : Nearest rd) :
    rd (rd (rd ((2 ^ 29 + 5) * (2 ^ 29 + 5)) - rd (2 * rd ((2 ^ 29 + 5) * (2 ^ 29 + 7)))) +
      rd ((2 ^ 29 + 7) * (2 ^ 29 + 7))) = -64 := by
  have a : rd ((2 ^ 29 + 5) * (2 ^ 29 + 5)) = ((2 ^ 52 + 5 * 2 ^ 24 : ℤ) : ℝ) * (2 : ℝ) ^ (6 : ℤ) := by
    refine hr.eq _ 6 ?_ (by norm_num) ?_
    · rw [abs_of_pos (by norm_num)]; norm_num
    · norm_num [abs_lt]
  have b : rd ((2 ^ 29 + 7) * (2 ^ 29 + 7)) = ((2 ^ 52 + 7 * 2 ^ 24 + 1 : ℤ) : ℝ) * (2 : ℝ) ^ (6 : ℤ) := by
    refine hr.eq _ 6 ?_ (by norm_num) ?_
    · rw [abs_of_pos (by norm_num)]; norm_num
    · norm_num [abs_lt]
  have c : rd ((2 ^ 29 + 5) * (2 ^ 29 + 7)) = ((2 ^ 52 + 6 * 2 ^ 24 + 1 : ℤ) : ℝ) * (2 : ℝ) ^ (6 : ℤ) := by
    refine hr.eq _ 6 ?_ (by norm_num) ?_
    · rw [abs_of_pos (by norm_num)]; norm_num
    · norm_num [abs_lt]
  have c2 : rd (2 * (((2 ^ 52 + 6 * 2 ^ 24 + 1 : ℤ) : ℝ) * (2 : ℝ) ^ (6 : ℤ))) =
      2 * (((2 ^ 52 + 6 * 2 ^ 24 + 1 : ℤ) : ℝ) * (2 : ℝ) ^ (6 : ℤ)) :=
    hr.of_float ⟨2 ^ 52 + 6 * 2 ^ 24 + 1, 7, by norm_num, by norm_num⟩
  have d : rd (((2 ^ 52 + 5 * 2 ^ 24 : ℤ) : ℝ) * (2 : ℝ) ^ (6 : ℤ) -
      2 * (((2 ^ 52 + 6 * 2 ^ 24 + 1 : ℤ) : ℝ) * (2 : ℝ) ^ (6 : ℤ))) =
      ((2 ^ 52 + 5 * 2 ^ 24 : ℤ) : ℝ) * (2 : ℝ) ^ (6 : ℤ) -
      2 * (((2 ^ 52 + 6 * 2 ^ 24 + 1 : ℤ) : ℝ) * (2 : ℝ) ^ (6 : ℤ)) :=
    hr.of_float ⟨-(2 ^ 52 + 7 * 2 ^ 24 + 2), 6, by norm_num, by norm_num⟩
  rw [a, b, c, c2, d]
  have : ((2 ^ 52 + 5 * 2 ^ 24 : ℤ) : ℝ) * (2 : ℝ) ^ (6 : ℤ) -
      2 * (((2 ^ 52 + 6 * 2 ^ 24 + 1 : ℤ) : ℝ) * (2 : ℝ) ^ (6 : ℤ)) +
      ((2 ^ 52 + 7 * 2 ^ 24 + 1 : ℤ) : ℝ) * (2 : ℝ) ^ (6 : ℤ) = -64 := by norm_num
  rw [this]
  exact hr.of_float ⟨-64, 0, by norm_num, by norm_num⟩

theorem jitter_rd (hr : Nearest rd) : 0 ≤ rd sqDistJitter ∧ rd sqDistJitter ≤ 1 / 10 ^ 11 := by
  have h := abs_le.mp (hr.relErr.2 sqDistJitter)
  have e : |sqDistJitter| = 1 / 10 ^ 12 := by norm_num [sqDistJitter]
  rw [e] at h
  have e' : sqDistJitter = 1 / 10 ^ 12 := by norm_num [sqDistJitter]
  rw [e'] at h ⊢
  constructor
  · have := h.1; norm_num at this ⊢; linarith
  · have := h.2; norm_num at this ⊢; linarith

/-- The samples `2^29 + 5` and `2^29 + 7` (about `5e8`) are at squared distance 4; in double precision the result is below
`-63`, for every way of breaking ties. -/
theorem C127_negative (hr : Nearest rd) (D : Arr2 1 1)
    (h : FSquaredDistances rd (fun _ _ => 2 ^ 29 + 5 : Batch 1 1) (fun _ _ => 2 ^ 29 + 7) D) : D 0 0 < -63 := by
  rw [one_feature h, far_steps hr]
  obtain ⟨j0, j1⟩ := jitter_rd hr
  have h1 := abs_le.mp (hr.relErr.2 (-64 + rd sqDistJitter))
  have h2 : |-64 + rd sqDistJitter| ≤ 64 := abs_le.mpr ⟨by linarith, by norm_num at j1 ⊢; linarith⟩
  have h3 := mul_le_mul_of_nonneg_left h2 (by norm_num : (0 : ℝ) ≤ 1 / 2 ^ 53)
  have h4 := h1.2
  norm_num at h3 h4 j1 ⊢
  linarith

theorem C127_false : ¬ C127_full := by
  intro hf
  obtain ⟨rd, hr⟩ := exists_nearest
  obtain ⟨D, hD⟩ := one_feature_exists rd (fun _ _ => 2 ^ 29 + 5 : Batch 1 1) (fun _ _ => 2 ^ 29 + 7 : Batch 1 1)
  have h1 := hf rd hr 1 1 1 _ _ D hD 0 0
  have h2 := C127_negative hr D hD
  linarith

/-- The computed matrix of squared distances of a set of samples need not be symmetric: `2^29 + 1` and `2^22 + 5`. -/
theorem C127_not_symmetric (hr : Nearest rd) (D : Arr2 2 2)
    (h : FSquaredDistances rd (fun i _ => if i = 0 then 2 ^ 29 + 1 else 2 ^ 22 + 5 : Batch 2 1)
      (fun i _ => if i = 0 then 2 ^ 29 + 1 else 2 ^ 22 + 5) D) : D 0 1 ≠ D 1 0 := by
  have a : rd ((2 ^ 29 + 1) * (2 ^ 29 + 1)) = 288230377225453568 := by
    rw [hr.eq (x := (2 ^ 29 + 1) * (2 ^ 29 + 1)) 4503599644147712 6 (by rw [abs_of_pos (by norm_num)]; norm_num)
      (by norm_num) (by norm_num [abs_lt])]
    norm_num
  have b : rd ((2 ^ 22 + 5) * (2 ^ 22 + 5)) = 17592227987481 :=
    (hr.of_float ⟨17592227987481, 0, by norm_num, by norm_num⟩).trans (by norm_num)
  have c : rd ((2 ^ 29 + 1) * (2 ^ 22 + 5)) = 2251802502234117 :=
    (hr.of_float ⟨2251802502234117, 0, by norm_num, by norm_num⟩).trans (by norm_num)
  have c' : rd ((2 ^ 22 + 5) * (2 ^ 29 + 1)) = 2251802502234117 := by rw [mul_comm]; exact c
  have c2 : rd (2 * 2251802502234117) = 4503605004468234 :=
    (hr.of_float ⟨4503605004468234, 0, by norm_num, by norm_num⟩).trans (by norm_num)
  have d1 : rd (288230377225453568 - 4503605004468234) = 8866461631905792 * 32 := by
    rw [hr.eq (x := 288230377225453568 - 4503605004468234) 8866461631905792 5
      (by rw [abs_of_pos (by norm_num)]; norm_num) (by norm_num) (by norm_num [abs_lt])]
    norm_num
  have d2 : rd (17592227987481 - 4503605004468234) = -4486012776480753 :=
    (hr.of_float ⟨-4486012776480753, 0, by norm_num, by norm_num⟩).trans (by norm_num)
  have e1 : rd (8866461631905792 * 32 + 17592227987481) = 8867011389030401 * 32 := by
    rw [hr.eq (x := 8866461631905792 * 32 + 17592227987481) 8867011389030401 5
      (by rw [abs_of_pos (by norm_num)]; norm_num) (by norm_num) (by norm_num [abs_lt])]
    norm_num
  have e2 : rd (-4486012776480753 + 288230377225453568) = 8867011389030400 * 32 := by
    rw [hr.eq (x := -4486012776480753 + 288230377225453568) 8867011389030400 5
      (by rw [abs_of_pos (by norm_num)]; norm_num) (by norm_num) (by norm_num [abs_lt])]
    norm_num
  obtain ⟨j0, j1⟩ := jitter_rd hr
  have f : ∀ q : ℤ, 2 ^ 52 ≤ q → q < 2 ^ 53 → rd (q * 32 + rd sqDistJitter) = q * 32 := fun q h1 h2 => by
    have g1 : (2 ^ 52 : ℝ) ≤ q := by exact_mod_cast h1
    have h5 : (2 : ℝ) ^ (5 : ℤ) = 32 := by norm_num
    rw [hr.eq (x := q * 32 + rd sqDistJitter) q 5 ?_ (by rw [abs_of_pos (by linarith)]; exact h2.le) ?_, h5]
    · rw [abs_of_pos (by nlinarith)]
      norm_num at g1 ⊢
      linarith
    · rw [h5]
      have : (q : ℝ) - (q * 32 + rd sqDistJitter) / 32 = -(rd sqDistJitter / 32) := by ring
      rw [this, abs_neg, abs_of_nonneg (by positivity)]
      norm_num at j1 ⊢
      linarith
  have f1 := f 8867011389030401 (by norm_num) (by norm_num)
  have f2 := f 8867011389030400 (by norm_num) (by norm_num)
  rw [one_feature h, one_feature h]
  simp only [if_true, one_ne_zero, if_false]
  rw [a, b, c, c', c2, d1, d2, e1, e2]
  push_cast at f1 f2
  rw [f1, f2]
  norm_num

/-- Non-vacuity: rounding to nearest exists, and so do the results of a computation. -/
example : ∃ rd D, Nearest rd ∧ FSquaredDistances rd (fun i _ => (i : ℕ) : Batch 2 1) (fun i _ => (i : ℕ) : Batch 2 1) D := by
  obtain ⟨rd, h⟩ := exists_nearest
  obtain ⟨D, hD⟩ := one_feature_exists rd (fun i _ => (i : ℕ) : Batch 2 1) (fun i _ => (i : ℕ) : Batch 2 1)
  exact ⟨rd, D, h, hD⟩

/-! ## C128 -/

/-- **C128**, error: with `t = x / lengthscale` and `B = ((1 + u)^(k + 6) - 1) (|t|² + 2 Σ |t s| + |s|² + 1e-12)`, the computed
value of `SquaredExponential` is the exact one (`exp(-(|t - s|² + 1e-12))`) up to a factor between `(1 - w) exp(-B)` and
`(1 + w) exp(B)`, where `w` is the relative error of the exponential. -/
theorem C128_error_partial {w : ℝ} (hr : RelErr rd u) (hw : ExpErr fexp w) (hw1 : w ≤ 1) (l : ℝ) (x1 : Batch n k) (x2 : Batch m k)
    (K : Arr2 n m) (h : FSquaredExponential rd fexp l x1 x2 K) (i : Fin n) (j : Fin m) :
    let B := ((1 + u) ^ (k + 6) - 1) * ((∑ c, (x1 i c / l) ^ 2) + 2 * (∑ c, |x1 i c / l * (x2 j c / l)|) +
      (∑ c, (x2 j c / l) ^ 2) + 1 / 10 ^ 12)
    let exact := Real.exp (-((∑ c, (x1 i c / l - x2 j c / l) ^ 2) + 1 / 10 ^ 12))
    (1 - w) * Real.exp (-B) * exact ≤ K i j ∧ K i j ≤ (1 + w) * Real.exp B * exact := by
  intro B exact
  obtain ⟨D, hD, hK⟩ := h
  have hn := (hD.near hr (j := 1) (t1 := fun i c => x1 i c / l) (t2 := fun i c => x2 i c / l)
    (fun i c => by have := (Near.exact (u := u) (x1 i c / l)).round hr; rwa [zero_add] at this)
    (fun i c => by have := (Near.exact (u := u) (x2 i c / l)).round hr; rwa [zero_add] at this) i j).2
  have e : 2 * 1 + k + 4 = k + 6 := by omega
  rw [e] at hn
  have hB := abs_le.mp hn
  have hx := abs_le.mp (hw (-D i j))
  have hw0 : 0 ≤ 1 - w := by linarith
  have hw2 : -1 ≤ w := by
    have h1 := (abs_nonneg _).trans (hw 0)
    rw [Real.exp_zero, mul_one] at h1
    linarith
  have lo : Real.exp (-B) * exact ≤ Real.exp (-D i j) := by
    rw [← Real.exp_add]
    refine Real.exp_le_exp.mpr ?_
    have := hB.2
    change D i j - _ ≤ B at this
    linarith
  have hi : Real.exp (-D i j) ≤ Real.exp B * exact := by
    rw [← Real.exp_add]
    refine Real.exp_le_exp.mpr ?_
    have := hB.1
    change -B ≤ _ at this
    linarith
  rw [hK]
  constructor
  · have := mul_le_mul_of_nonneg_left lo hw0
    rw [← mul_assoc] at this
    linarith [hx.1]
  · have := mul_le_mul_of_nonneg_left hi (by linarith : 0 ≤ 1 + w)
    rw [← mul_assoc] at this
    linarith [hx.2]

/-- The full claim of C128: the computed Gram matrix of `SquaredExponential` is positive semidefinite up to a small multiple
of the identity (here `1e-3`), so that it can be factorised for any noise above that. -/
def C128_full : Prop :=
  ∀ (rd fexp : ℝ → ℝ), Nearest rd → ExpErr fexp (1 / 2 ^ 52) → ∀ (l : ℝ), 0 < l → ∀ (n k : ℕ) (x : Batch n k)
    (K : Arr2 n n), FSquaredExponential rd fexp l x x K → ∀ v : Fin n → ℝ,
      0 ≤ (∑ i, ∑ j, v i * K i j * v j) + 1 / 10 ^ 3 * ∑ i, v i ^ 2

theorem diag_nonneg (hr : Nearest rd) {x : Batch n 1} {D : Arr2 n n} (h : FSquaredDistances rd x x D) (i : Fin n) :
    0 ≤ D i i := by
  rw [one_feature h]
  obtain ⟨q, e, hq, hA⟩ := (hr (x i 0 * x i 0)).1
  generalize rd (x i 0 * x i 0) = A at hA
  have f2 : IsFloat (2 * A) := ⟨q, e + 1, hq, by rw [hA, zpow_add_one₀ two_ne_zero]; ring⟩
  have f3 : IsFloat (A - 2 * A) := ⟨-q, e, by rwa [abs_neg], by rw [hA]; push_cast; ring⟩
  have z : A - 2 * A + A = 0 := by ring
  have f0 : IsFloat 0 := ⟨0, 0, by norm_num, by simp⟩
  rw [hr.of_float f2, hr.of_float f3, z, hr.of_float f0, zero_add]
  have j0 := (jitter_rd hr).1
  have := abs_le.mp (hr.relErr.2 (rd sqDistJitter))
  rw [abs_of_nonneg j0] at this
  have t := this.1
  norm_num at t
  linarith

/-- The samples `2^29 + 5` and `2^29 + 7` with lengthscale 1: the computed kernel is above `2^60`, it should be about
`exp(-4)`; the diagonal is at most 2. -/
theorem C128_above_one (hr : Nearest rd) (hw : ExpErr fexp (1 / 2 ^ 52)) (K : Arr2 2 2)
    (h : FSquaredExponential rd fexp 1 (fun i _ => if i = 0 then 2 ^ 29 + 5 else 2 ^ 29 + 7 : Batch 2 1)
      (fun i _ => if i = 0 then 2 ^ 29 + 5 else 2 ^ 29 + 7) K) :
    2 ^ 60 < K 0 1 ∧ 0 ≤ K 1 0 ∧ K 0 0 ≤ 2 ∧ K 1 1 ≤ 2 := by
  obtain ⟨D, hD, hK⟩ := h
  have i5 : rd ((2 ^ 29 + 5) / 1) = 2 ^ 29 + 5 :=
    (hr.of_float ⟨2 ^ 29 + 5, 0, by norm_num, by norm_num⟩).trans (by norm_num)
  have i7 : rd ((2 ^ 29 + 7) / 1) = 2 ^ 29 + 7 :=
    (hr.of_float ⟨2 ^ 29 + 7, 0, by norm_num, by norm_num⟩).trans (by norm_num)
  obtain ⟨j0, j1⟩ := jitter_rd hr
  have d01 : D 0 1 < -63 := by
    have hs : FSquaredDistances rd (fun _ _ => 2 ^ 29 + 5 : Batch 1 1) (fun _ _ => 2 ^ 29 + 7 : Batch 1 1)
        (fun _ _ => D 0 1) := by
      obtain ⟨a, b, c, ha, hb, hc, hd⟩ := hD
      refine ⟨fun _ => a 0, fun _ => b 1, fun _ _ => c 0 1, fun _ => ?_, fun _ => ?_, fun _ _ => ?_, fun _ _ => hd 0 1⟩
      · have := ha 0; simp only [if_true, i5] at this; exact this
      · have := hb 1; simp only [one_ne_zero, if_false, i7] at this; exact this
      · have := hc 0 1; simp only [if_true, one_ne_zero, if_false, i5, i7] at this; exact this
    exact C127_negative hr _ hs
  have d00 := diag_nonneg hr hD 0
  have d11 := diag_nonneg hr hD 1
  have small : ∀ t : ℝ, 0 ≤ t → fexp (-t) ≤ 2 := fun t ht => by
    have h1 := (abs_le.mp (hw (-t))).2
    have h2 : Real.exp (-t) ≤ 1 := by
      rw [← Real.exp_zero]
      exact Real.exp_le_exp.mpr (by linarith)
    norm_num at h1 ⊢
    linarith
  have x10 := (abs_le.mp (hw (-D 1 0))).1
  have p10 := Real.exp_pos (-D 1 0)
  rw [hK, hK, hK, hK]
  refine ⟨?_, by norm_num at x10 ⊢; linarith, small _ d00, small _ d11⟩
  have x01 := abs_le.mp (hw (-D 0 1))
  have big : (2 : ℝ) ^ 63 ≤ Real.exp (-D 0 1) := by
    have h1 : Real.exp 1 ^ 63 ≤ Real.exp (-D 0 1) := by
      rw [← Real.exp_nat_mul]
      refine Real.exp_le_exp.mpr ?_
      push_cast; linarith
    refine le_trans ?_ h1
    exact pow_le_pow_left₀ (by norm_num) (by linarith [Real.exp_one_gt_d9]) 63
  have p0 := Real.exp_pos (-D 0 1)
  have := x01.1
  norm_num at this big ⊢
  linarith

theorem C128_false : ¬ C128_full := by
  intro hf
  obtain ⟨rd, hr⟩ := exists_nearest
  let x : Batch 2 1 := fun i _ => if i = 0 then 2 ^ 29 + 5 else 2 ^ 29 + 7
  obtain ⟨D, hD⟩ := one_feature_exists rd (fun i a => rd (x i a / 1)) (fun i a => rd (x i a / 1))
  have he : ExpErr Real.exp (1 / 2 ^ 52) := fun t => by
    rw [sub_self, abs_zero]
    exact mul_nonneg (by norm_num) (Real.exp_pos t).le
  have hK : FSquaredExponential rd Real.exp 1 x x (fun i j => Real.exp (-D i j)) := ⟨D, hD, fun _ _ => rfl⟩
  obtain ⟨h1, h2, h3, h4⟩ := C128_above_one hr he _ hK
  have := hf rd Real.exp hr he 1 one_pos 2 1 x _ hK ![1, -1]
  simp only [Fin.sum_univ_two, Matrix.cons_val_zero, Matrix.cons_val_one] at this
  norm_num at this h1
  linarith

/-! ## C129 -/

/-- **C129.** Predictions from a computed kernel matrix, for every order of the sums and every use of fused multiply-adds:
if the computed entries are right up to a relative error `r`, the computed prediction differs from the exact one by at most
`(1 + r) (1 + u)^(m + 1) - 1` times `|mu| + Σ |k c|`, with `m` the number of training samples. -/
theorem C129_predict (hr : RelErr rd u) {d : ℕ} (κ : KernelObj d) (θ : GPParams) (xt : Batch m d) (x : Batch n d)
    (c : Mat m o) (mu : ℝ) (K : Arr2 m n) (r : ℝ) (hr0 : 0 ≤ r)
    (hK : ∀ i j, |K i j - κ.k θ.kernelParams xt x i j| ≤ r * |κ.k θ.kernelParams xt x i j|)
    (out : Mat n o) (h : FPredict rd K c mu out) (j : Fin n) (a : Fin o) :
    |out j a - predictDense θ κ xt x c mu j a| ≤
      ((1 + r) * (1 + u) ^ (m + 1) - 1) * (|mu| + ∑ i, |κ.k θ.kernelParams xt x i j * c i a|) := by
  obtain ⟨s, hs, ho⟩ := h j a
  have h1 := FDot.near_univ hr (j := 0) (fun i => Near.exact (u := u) (K i j * c i a)) hs
  rw [zero_add] at h1
  have h2 := ((((Near.exact (u := u) mu).mono hr.1 (Nat.zero_le m)).add h1).round hr).2
  rw [← ho] at h2
  set k := κ.k θ.kernelParams xt x
  have hp : predictDense θ κ xt x c mu j a = mu + ∑ i, k i j * c i a := by
    simp [predictDense, addScalar, Matrix.mul_apply, aLhs, k]
  rw [hp]
  have e1 : |(∑ i, K i j * c i a) - ∑ i, k i j * c i a| ≤ r * ∑ i, |k i j * c i a| := by
    rw [← Finset.sum_sub_distrib, Finset.mul_sum]
    refine (Finset.abs_sum_le_sum_abs _ _).trans (Finset.sum_le_sum fun i _ => ?_)
    rw [← sub_mul, abs_mul, abs_mul, ← mul_assoc]
    exact mul_le_mul_of_nonneg_right (hK i j) (abs_nonneg _)
  have e2 : ∑ i, |K i j * c i a| ≤ (1 + r) * ∑ i, |k i j * c i a| := by
    rw [Finset.mul_sum]
    refine Finset.sum_le_sum fun i _ => ?_
    rw [abs_mul, abs_mul, ← mul_assoc]
    refine mul_le_mul_of_nonneg_right ?_ (abs_nonneg _)
    have : K i j = (K i j - k i j) + k i j := by ring
    rw [this]
    refine (abs_add_le _ _).trans ?_
    have := hK i j
    linarith
  have g : 0 ≤ (1 + u) ^ (m + 1) - 1 := sub_nonneg.mpr (one_le_pow_u hr.1 _)
  have q := mul_le_mul_of_nonneg_left e2 g
  have w0 : 0 ≤ r * (1 + u) ^ (m + 1) * |mu| :=
    mul_nonneg (mul_nonneg hr0 (by linarith)) (abs_nonneg mu)
  have e3 : out j a - (mu + ∑ i, k i j * c i a) =
      (out j a - (mu + ∑ i, K i j * c i a)) + ((∑ i, K i j * c i a) - ∑ i, k i j * c i a) := by ring
  rw [e3]
  refine (abs_add_le _ _).trans ?_
  nlinarith

/-- **C129**, reproducibility: two computations of a prediction from the same computed kernel matrix, on different hardware or
with different batch sizes, differ by at most `2 ((1 + u)^(m + 1) - 1) (|mu| + Σ |k c|)`. -/
theorem C129_reproducible (hr : RelErr rd u) (K : Arr2 m n) (c : Mat m o) (mu : ℝ) (out out' : Mat n o)
    (h : FPredict rd K c mu out) (h' : FPredict rd K c mu out') (j : Fin n) (a : Fin o) :
    |out j a - out' j a| ≤ 2 * ((1 + u) ^ (m + 1) - 1) * (|mu| + ∑ i, |K i j * c i a|) := by
  have key : ∀ {q : Mat n o}, FPredict rd K c mu q →
      |q j a - (mu + ∑ i, K i j * c i a)| ≤ ((1 + u) ^ (m + 1) - 1) * (|mu| + ∑ i, |K i j * c i a|) := fun {q} hq => by
    obtain ⟨s, hs, ho⟩ := hq j a
    have h1 := FDot.near_univ hr (j := 0) (fun i => Near.exact (u := u) (K i j * c i a)) hs
    rw [zero_add] at h1
    have h2 := ((((Near.exact (u := u) mu).mono hr.1 (Nat.zero_le m)).add h1).round hr).2
    rwa [← ho] at h2
  have h1 := key h
  have h2 := key h'
  have e : out j a - out' j a = (out j a - (mu + ∑ i, K i j * c i a)) - (out' j a - (mu + ∑ i, K i j * c i a)) := by ring
  rw [e]
  refine (abs_sub _ _).trans ?_
  linarith

/-- Non-vacuity: a sum of three products has more than one possible result form; here the one from left to right with fused
multiply-adds and the one by halves. -/
example (rd : ℝ → ℝ) (f g : Fin 3 → ℝ) :
    FDot rd f g Finset.univ.val (rd (rd (rd (f 2 * g 2) + f 1 * g 1) + f 0 * g 0)) ∧
    FDot rd f g Finset.univ.val (rd (rd (f 0 * g 0) + rd (rd (f 1 * g 1) + rd (f 2 * g 2)))) := by
  have hs : (Finset.univ : Finset (Fin 3)).val = 0 ::ₘ 1 ::ₘ {2} := rfl
  rw [hs]
  refine ⟨.fma 0 (by simp) (.fma 1 (by simp) (.single 2)), ?_⟩
  exact .add (s := {0}) (t := {1} + {2}) (by simp) (by simp) (.single 0) (.add (by simp) (by simp) (.single 1) (.single 2))

end GPX.Props
