import Verif.Model.BijectorsNum
import Verif.Spec.Params
import Verif.Props.Bijectors
import Verif.Props.Params

/-!
# C02, C03: where `backward` returns a number
-/

namespace GPX.Props
open GPX GPX.Spec

theorem inverseSoftplusNum_pos {x : ℝ} (h : 0 < x) : inverseSoftplusNum x = some (inverseSoftplus x) := by
  have : 0 < -expm1 (-x) := by
    have := Real.exp_lt_one_iff.mpr (neg_lt_zero.mpr h)
    simp only [expm1]
    linarith
  simp [inverseSoftplusNum, logNum, this, inverseSoftplus]

theorem inverseSoftplusNum_nonpos {x : ℝ} (h : x ≤ 0) : inverseSoftplusNum x = none := by
  have : ¬ 0 < -expm1 (-x) := by
    have := Real.one_le_exp (neg_nonneg.mpr h)
    simp only [expm1]
    linarith
  simp [inverseSoftplusNum, logNum, this]

/-- C02, the full statement: inside the range of a bijector `backward` returns a number, and `forward` maps it back to
the value up to the jitter. -/
def C02_full : Prop :=
  ∀ (b : Bijector), sensible b → ∀ v ∈ range b, ∃ u, b.backwardNum v = some u ∧ |b.forward u - v| ≤ tol b

/-- **C02**: inside the range, for `SoftMinMax` except for the lowest sliver of relative width
`1e-300 / softplus(width)`, `backward` returns a number, and `forward` maps it back to the value up to the jitter. -/
theorem C02_defined_partial (b : Bijector) (v : ℝ) (h : invertibleAt b v) :
    b.backwardNum v = some (b.backward v) ∧ |b.forward (b.backward v) - v| ≤ tol b := by
  refine ⟨?_, C13_entry_roundtrip b v h⟩
  cases b with
  | softplus => exact inverseSoftplusNum_pos h
  | softMin m =>
    have h' : 0 < v - m := sub_pos.mpr h
    simp [Bijector.backwardNum, inverseSoftplusNum_pos h', Bijector.backward, inverseSoftmin]
  | softMax M =>
    have h' : 0 < M - v := sub_pos.mpr h
    simp [Bijector.backwardNum, inverseSoftplusNum_pos h', Bijector.backward, inverseSoftmax]
  | softMinMax m M =>
    obtain ⟨hm, hM, hv⟩ := h
    have hw : 0 < M - m := by linarith
    have hu : 0 < softplus (M - m) * ((M - v) / (M - m)) :=
      mul_pos (softplus_pos _) (div_pos (by linarith) hw)
    have hiu : inverseSoftplus (softplus (M - m) * ((M - v) / (M - m))) < M - m := by
      have h1 : Real.exp (inverseSoftplus (softplus (M - m) * ((M - v) / (M - m)))) < Real.exp (M - m) := by
        rw [exp_inverseSoftplus hu]
        have h2 : softplus (M - m) * ((M - v) / (M - m)) < softplus (M - m) - spJitter := by
          have hs := softplus_pos (M - m)
          have h1 : spJitter * (M - m) / softplus (M - m) < v - m := by linarith
          rw [div_lt_iff₀ hs] at h1
          rw [← mul_div_assoc, div_lt_iff₀ hw]
          nlinarith
        have h3 := Real.exp_lt_exp.mpr h2
        have h4 : Real.exp (softplus (M - m) - spJitter) = Real.exp (M - m) + 1 := by
          rw [softplus_eq, add_sub_cancel_right, Real.exp_log (by linarith [Real.exp_pos (M - m)])]
        linarith
      exact Real.exp_lt_exp.mp h1
    simp [Bijector.backwardNum, inverseSoftplusNum_pos hu, inverseSoftplusNum_pos (sub_pos.mpr hiu),
      Bijector.backward, inverseSoftminmax]
  | identity => rfl

/-- The excluded sliver: `SoftMinMax.backward` returns no number there. -/
theorem C02_sliver (m M v : ℝ) (hlo : m < v) (hlt : v < M)
    (hlow : v ≤ m + spJitter * (M - m) / softplus (M - m)) : (Bijector.softMinMax m M).backwardNum v = none := by
  have hu : 0 < softplus (M - m) * ((M - v) / (M - m)) :=
    mul_pos (softplus_pos _) (div_pos (by linarith) (by linarith))
  simp [Bijector.backwardNum, inverseSoftplusNum_pos hu,
    inverseSoftplusNum_nonpos (C02_softminmax_sliver_undefined m M v hlo hlt hlow)]

/-- The full statement is false of the code: half of the lowest sliver of `SoftMinMax(0, 1)`. -/
theorem C02_false : ¬ C02_full := by
  intro h
  have hs := softplus_pos (1 - 0)
  have hj := spJitter_pos
  have hp : 0 < spJitter * (1 - 0) / softplus (1 - 0) := by positivity
  set v : ℝ := min (1 / 2) (spJitter * (1 - 0) / softplus (1 - 0)) with hv
  have h0 : 0 < v := lt_min (by norm_num) hp
  have h1 : v < 1 := lt_of_le_of_lt (min_le_left _ _) (by norm_num)
  obtain ⟨u, hu, _⟩ := h (.softMinMax 0 1) (show (0 : ℝ) < 1 by norm_num) v ⟨h0, h1⟩
  rw [C02_sliver 0 1 v h0 h1 (by rw [zero_add]; exact min_le_right _ _)] at hu
  exact absurd hu (by simp)

/-- `backward` after `forward` returns a number for every real argument of `Softplus`, `SoftMin` and `SoftMax`. -/
theorem C03_defined (b : Bijector) (hb : ∀ m M, b ≠ .softMinMax m M) (u : ℝ) :
    b.backwardNum (b.forward u) = some (b.backward (b.forward u)) := by
  refine (C02_defined_partial b _ ?_).1
  have := C01_forward_in_range b (by cases b <;> simp_all [sensible]) u
  cases b with
  | softMinMax m M => exact absurd rfl (hb m M)
  | _ => exact this

/-- **C03** for `SoftMinMax`: with `q = e^jitter - 1` and `w = max - min`, `backward (forward u)` is a number exactly when
`q e^{-w} (1 + e^{min-u}) < 1`, and then its error is the explicit expression below, which is zero when the jitter is
zero. -/
theorem C03_softminmax_backward_forward (m M u : ℝ) (h : m < M) :
    let b := Bijector.softMinMax m M
    let q := Real.exp spJitter - 1
    let low := q * Real.exp (-(M - m)) * (1 + Real.exp (m - u))
    (1 ≤ low → b.backwardNum (b.forward u) = none) ∧
    (low < 1 → b.backwardNum (b.forward u) = some (u + (spJitter + Real.log (1 - low) -
      Real.log (1 + q * (1 + Real.exp (spJitter - (M - m)) * (1 + Real.exp (u - m))))))) := by
  intro b q low
  have hw : 0 < M - m := by linarith
  have hj := spJitter_pos
  have hq : 0 < q := by have := Real.one_lt_exp_iff.mpr hj; simp only [q]; linarith
  have hE := Real.exp_pos (u - m)
  have hs := exp_softplus (u - m)
  set s := softplus (u - m) with hsdef
  have hin : softplus (M - m) * ((M - b.forward u) / (M - m)) = softplus (M - m - s) := by
    simp only [b, Bijector.forward, softminmax, ← hsdef]
    have := (softplus_pos (M - m)).ne'
    field_simp
    ring
  have hew : Real.exp (-(M - m - s)) = Real.exp (spJitter - (M - m)) * (1 + Real.exp (u - m)) := by
    rw [show -(M - m - s) = s + -(M - m) by ring, Real.exp_add, hs, show spJitter - (M - m) = spJitter + -(M - m) by ring,
      Real.exp_add]
    ring
  set D := 1 + q * (1 + Real.exp (spJitter - (M - m)) * (1 + Real.exp (u - m))) with hD
  have hD1 : 0 < D := by have := Real.exp_pos (spJitter - (M - m)); positivity
  have hinv : inverseSoftplusNum (softplus (M - m) * ((M - b.forward u) / (M - m))) =
      some (M - m - s + Real.log D) := by
    rw [hin, inverseSoftplusNum_pos (softplus_pos _), inverseSoftplus_softplus, hew]
  have hlow : Real.exp s - D = Real.exp (u - m) * Real.exp spJitter * (1 - low) := by
    have e1 : Real.exp (m - u) * Real.exp (u - m) = 1 := by rw [← Real.exp_add]; simp
    have e2 : Real.exp (spJitter - (M - m)) = Real.exp spJitter * Real.exp (-(M - m)) := by
      rw [← Real.exp_add]; rfl
    rw [hs, hD, e2]
    simp only [low, q]
    linear_combination Real.exp (-(M - m)) * Real.exp spJitter * (Real.exp spJitter - 1) * e1
  have hX : M - m - (M - m - s + Real.log D) = s - Real.log D := by ring
  have heX : Real.exp (s - Real.log D) = Real.exp s / D := by rw [Real.exp_sub, Real.exp_log hD1]
  have hb : b.backwardNum (b.forward u) = (inverseSoftplusNum (s - Real.log D)).map fun u' => m + u' := by
    rw [← hX]
    simp only [b] at hinv ⊢
    rw [Bijector.backwardNum]
    simp only [hinv, Option.bind_some]
  refine ⟨fun hl => ?_, fun hl => ?_⟩
  · rw [hb, inverseSoftplusNum_nonpos, Option.map_none]
    have : Real.exp s ≤ D := by
      have : Real.exp (u - m) * Real.exp spJitter * (1 - low) ≤ 0 :=
        mul_nonpos_of_nonneg_of_nonpos (by positivity) (by linarith)
      linarith
    rw [sub_nonpos]
    exact (Real.le_log_iff_exp_le hD1).mpr this
  · have hpos : 0 < Real.exp (u - m) * Real.exp spJitter * (1 - low) := by
      have : 0 < 1 - low := by linarith
      positivity
    have hlt : 0 < s - Real.log D := by
      rw [sub_pos]
      exact (Real.log_lt_iff_lt_exp hD1).mpr (by linarith)
    rw [hb, inverseSoftplusNum_pos hlt, inverseSoftplus_eq hlt, heX, Option.map_some,
      show Real.exp s / D - 1 = Real.exp (u - m) * Real.exp spJitter * (1 - low) / D by
        rw [← hlow]; field_simp,
      Real.log_div hpos.ne' hD1.ne', Real.log_mul (by positivity) (by linarith), Real.log_mul (by positivity)
        (by positivity), Real.log_exp, Real.log_exp]
    congr 1
    ring

/-- Both cases occur, for every interval. -/
example (m M : ℝ) : ∃ u u' : ℝ, (Real.exp spJitter - 1) * Real.exp (-(M - m)) * (1 + Real.exp (m - u)) ≥ 1 ∧
    (m < M → (Real.exp spJitter - 1) * Real.exp (-(M - m)) * (1 + Real.exp (m - u')) < 1) := by
  have hj := spJitter_pos
  have hq : 0 < Real.exp spJitter - 1 := by have := Real.one_lt_exp_iff.mpr hj; linarith
  have hc : 0 < (Real.exp spJitter - 1) * Real.exp (-(M - m)) := mul_pos hq (Real.exp_pos _)
  refine ⟨m + Real.log ((Real.exp spJitter - 1) * Real.exp (-(M - m))), m, ?_, fun h => ?_⟩
  · rw [show m - (m + Real.log ((Real.exp spJitter - 1) * Real.exp (-(M - m)))) =
      -Real.log ((Real.exp spJitter - 1) * Real.exp (-(M - m))) by ring, Real.exp_neg (Real.log _), Real.exp_log hc, mul_add,
      mul_inv_cancel₀ hc.ne']
    linarith
  · have h1 : Real.exp (-(M - m)) < 1 := Real.exp_lt_one_iff.mpr (by linarith)
    have h2 : Real.exp spJitter - 1 ≤ 1 / 2 := by
      have h3 : spJitter ≤ 1 / 4 := by
        unfold spJitter
        rw [div_le_div_iff₀ (by positivity) (by norm_num)]
        calc (1 : ℝ) * 4 ≤ 10 ^ 1 := by norm_num
          _ ≤ 1 * 10 ^ 300 := by rw [one_mul]; exact pow_le_pow_right₀ (by norm_num) (by norm_num)
      have h4 := Real.exp_bound_div_one_sub_of_interval hj.le (show spJitter < 1 by linarith)
      have h5 : 1 / (1 - spJitter) ≤ 3 / 2 := by
        rw [div_le_div_iff₀ (by linarith) (by norm_num)]
        linarith
      linarith
    rw [sub_self, Real.exp_zero]
    nlinarith [Real.exp_pos (-(M - m))]

/-- Non-vacuity: the midpoint of `SoftMinMax(-1, 1)`, and `Softplus`. -/
example : invertibleAt .softplus 3 ∧ ∀ m M, Bijector.softplus ≠ .softMinMax m M :=
  ⟨show (0 : ℝ) < 3 by norm_num, fun _ _ h => by cases h⟩

end GPX.Props
