import Verif.Lemmas.Bijectors

/-!
# C01–C04: bijectors
-/

namespace GPX.Props
open GPX

/-- C01. `forward` lands in the documented open range, for every real argument. -/
theorem C01_forward_in_range (b : Bijector) (hb : Spec.sensible b) (x : ℝ) :
    b.forward x ∈ Spec.range b := by
  cases b with
  | softplus => exact softplus_pos x
  | softMin m =>
    have := softplus_pos (x - m)
    simp only [Bijector.forward, softmin, Spec.range, Set.mem_ofPred_eq]; linarith
  | softMax M =>
    have := softplus_pos (M - x)
    simp only [Bijector.forward, softmax, Spec.range, Set.mem_ofPred_eq]; linarith
  | softMinMax m M =>
    have hw : 0 < M - m := by simp only [Spec.sensible] at hb; linarith
    have h1 := softplus_pos (x - m)
    have h2 := softplus_pos (M - m - softplus (x - m))
    have h3 := softplus_pos (M - m)
    have h4 : softplus (M - m - softplus (x - m)) < softplus (M - m) :=
      softplus_strictMono (by linarith)
    simp only [Bijector.forward, softminmax, Spec.range, Set.mem_ofPred_eq]
    constructor
    · have : softplus (M - m - softplus (x - m)) * (M - m) / softplus (M - m) < M - m := by
        rw [div_lt_iff₀ h3, mul_comm (M - m)]
        exact mul_lt_mul_of_pos_right h4 hw
      have e : -softplus (M - m - softplus (x - m)) * (M - m) / softplus (M - m) =
        -(softplus (M - m - softplus (x - m)) * (M - m) / softplus (M - m)) := by ring
      rw [e]; linarith
    · have : 0 < softplus (M - m - softplus (x - m)) * (M - m) / softplus (M - m) := by positivity
      have e : -softplus (M - m - softplus (x - m)) * (M - m) / softplus (M - m) =
        -(softplus (M - m - softplus (x - m)) * (M - m) / softplus (M - m)) := by ring
      rw [e]; linarith
  | identity => trivial

/-- Non-vacuity of C01: a genuinely bounded bijector is sensible. -/
example : Spec.sensible (.softMinMax (-3) 5) := by simp only [Spec.sensible]; norm_num

/-- C02. `forward (backward v) = v + 1e-300` on the range of `Softplus`. -/
theorem C02_softplus_roundtrip (v : ℝ) (hv : v ∈ Spec.range .softplus) :
    Bijector.softplus.forward (Bijector.softplus.backward v) = v + spJitter :=
  softplus_inverseSoftplus hv

/-- C02 for `SoftMin`. -/
theorem C02_softmin_roundtrip (m v : ℝ) (hv : v ∈ Spec.range (.softMin m)) :
    (Bijector.softMin m).forward ((Bijector.softMin m).backward v) = v + spJitter := by
  have hv' : 0 < v - m := by simp only [Spec.range, Set.mem_ofPred_eq] at hv; linarith
  simp only [Bijector.forward, Bijector.backward, softmin, inverseSoftmin, add_sub_cancel_right]
  rw [softplus_inverseSoftplus hv']; ring

/-- C02 for `SoftMax`. -/
theorem C02_softmax_roundtrip (M v : ℝ) (hv : v ∈ Spec.range (.softMax M)) :
    (Bijector.softMax M).forward ((Bijector.softMax M).backward v) = v - spJitter := by
  have hv' : 0 < M - v := by simp only [Spec.range, Set.mem_ofPred_eq] at hv; linarith
  have e : M - (-inverseSoftplus (M - v) + M) = inverseSoftplus (M - v) := by ring
  simp only [Bijector.forward, Bijector.backward, softmax, inverseSoftmax, e]
  rw [softplus_inverseSoftplus hv']; ring

/-- C02 for `SoftMinMax`: the value comes back up to twice the jitter. The lowest sliver of the
interval, of relative width `1e-300 / softplus(width)`, is excluded: there `backward` takes the
logarithm of a non-positive number and the code returns `nan`. -/
theorem C02_softminmax_roundtrip_partial (m M v : ℝ) (hmM : m < M) (hlt : v < M)
    (hlow : m + spJitter * (M - m) / softplus (M - m) < v) :
    let b := Bijector.softMinMax m M
    |b.forward (b.backward v) - v| ≤ 2 * spJitter * (M - m) / softplus (M - m) := by
  have hw : 0 < M - m := by linarith
  set w := M - m with hwdef
  have hs := softplus_pos w
  have hj := spJitter_pos
  set u := softplus w * ((M - v) / w) with hu
  have hu0 : 0 < u := by have : 0 < M - v := by linarith
                         positivity
  have huw : u < softplus w - spJitter := by
    have h1 : spJitter * w / softplus w < v - m := by linarith
    rw [div_lt_iff₀ hs] at h1
    have h2 : u = softplus w * (w - (v - m)) / w := by rw [hu, hwdef]; ring
    rw [h2, div_lt_iff₀ hw]
    nlinarith
  have hiu : inverseSoftplus u < w := by
    have h1 : Real.exp (inverseSoftplus u) < Real.exp w := by
      rw [exp_inverseSoftplus hu0]
      have h3 : Real.exp u < Real.exp (softplus w - spJitter) := Real.exp_lt_exp.mpr huw
      have h4 : Real.exp (softplus w - spJitter) = Real.exp w + 1 := by
        rw [softplus_eq, add_sub_cancel_right, Real.exp_log (by linarith [Real.exp_pos w])]
      linarith
    exact Real.exp_lt_exp.mp h1
  have hd : 0 < w - inverseSoftplus u := by linarith
  have key : softplus (w - softplus (inverseSoftplus (w - inverseSoftplus u))) =
      u + Real.log (1 + (Real.exp spJitter - 1) * Real.exp (-u)) := by
    rw [softplus_inverseSoftplus hd]
    have e : w - (w - inverseSoftplus u + spJitter) = inverseSoftplus u - spJitter := by ring
    rw [e, softplus_eq, Real.exp_sub, exp_inverseSoftplus hu0]
    have hE := Real.exp_pos spJitter
    have hE1 : 1 < Real.exp spJitter := Real.one_lt_exp_iff.mpr hj
    have hU := Real.exp_pos u
    have hpos : 0 < 1 + (Real.exp spJitter - 1) * Real.exp (-u) := by
      have := mul_pos (sub_pos.mpr hE1) (Real.exp_pos (-u)); linarith
    have h5 : (Real.exp u - 1) / Real.exp spJitter + 1 =
        Real.exp u * (1 + (Real.exp spJitter - 1) * Real.exp (-u)) / Real.exp spJitter := by
      have : Real.exp u * Real.exp (-u) = 1 := by rw [← Real.exp_add]; simp
      field_simp
      linear_combination (1 - Real.exp spJitter) * this
    rw [h5, Real.log_div (by positivity) hE.ne', Real.log_mul hU.ne' hpos.ne', Real.log_exp,
      Real.log_exp]
    ring
  have hE1 : 1 < Real.exp spJitter := Real.one_lt_exp_iff.mpr hj
  have hE2 : Real.exp spJitter - 1 ≤ 2 * spJitter := by
    have h1 := Real.add_one_le_exp (-spJitter)
    have h2 : Real.exp (-spJitter) * Real.exp spJitter = 1 := by rw [← Real.exp_add]; simp
    have h3 := spJitter_lt
    have h4 := Real.exp_pos spJitter
    nlinarith
  have hlog0 : 0 ≤ Real.log (1 + (Real.exp spJitter - 1) * Real.exp (-u)) :=
    Real.log_nonneg (by have := mul_pos (sub_pos.mpr hE1) (Real.exp_pos (-u)); linarith)
  have hlog1 : Real.log (1 + (Real.exp spJitter - 1) * Real.exp (-u)) ≤ 2 * spJitter := by
    have hpos : 0 < 1 + (Real.exp spJitter - 1) * Real.exp (-u) := by
      have := mul_pos (sub_pos.mpr hE1) (Real.exp_pos (-u)); linarith
    have h1 := Real.log_le_sub_one_of_pos hpos
    have h2 : Real.exp (-u) ≤ 1 := Real.exp_le_one_iff.mpr (by linarith)
    nlinarith
  intro b
  have hval : b.forward (b.backward v) - v =
      -(Real.log (1 + (Real.exp spJitter - 1) * Real.exp (-u)) * w / softplus w) := by
    have e : m + inverseSoftplus (w - inverseSoftplus u) - m =
      inverseSoftplus (w - inverseSoftplus u) := by ring
    simp only [b, Bijector.forward, Bijector.backward, softminmax, inverseSoftminmax, ← hwdef,
      ← hu, e, key]
    have : u * w / softplus w = M - v := by
      rw [hu]; field_simp
    linear_combination -this
  rw [hval, abs_neg, abs_of_nonneg (by positivity)]
  gcongr

/-- Non-vacuity of `C02_softminmax_roundtrip_partial`: the midpoint of `[0, 2]`. -/
example : (0:ℝ) < 2 ∧ (1:ℝ) < 2 ∧ (0:ℝ) + spJitter * (2 - 0) / softplus (2 - 0) < 1 := by
  refine ⟨by norm_num, by norm_num, ?_⟩
  have h := softplus_eq (2 - 0)
  have hj := spJitter_lt
  have hj0 := spJitter_pos
  have h1 : (1:ℝ) < Real.log (Real.exp (2 - 0) + 1) := by
    rw [Real.lt_log_iff_exp_lt (by positivity)]
    have : Real.exp 1 < Real.exp (2 - 0) := Real.exp_lt_exp.mpr (by norm_num)
    linarith
  rw [zero_add, div_lt_one (softplus_pos _)]; linarith

/-- C02, the excluded sliver: below the bound of the previous theorem the argument that
`SoftMinMax.backward` passes to its outer `inverse_softplus` is not positive, so the code evaluates
`log` of a non-positive number (`-inf`/`nan`). The restriction of the theorem is therefore one of the code. -/
theorem C02_softminmax_sliver_undefined (m M v : ℝ) (hlo : m < v) (hlt : v < M)
    (hlow : v ≤ m + spJitter * (M - m) / softplus (M - m)) :
    (M - m) - inverseSoftplus (softplus (M - m) * ((M - v) / (M - m))) ≤ 0 := by
  have hw : 0 < M - m := by linarith
  set w := M - m with hwdef
  have hs := softplus_pos w
  set u := softplus w * ((M - v) / w) with hu
  have hu0 : 0 < u := by have : 0 < M - v := by linarith
                         positivity
  have huw : softplus w - spJitter ≤ u := by
    have h1 : v - m ≤ spJitter * w / softplus w := by linarith
    rw [le_div_iff₀ hs] at h1
    have h2 : u = softplus w * (w - (v - m)) / w := by rw [hu, hwdef]; ring
    rw [h2, le_div_iff₀ hw]
    nlinarith
  have h1 : Real.exp w ≤ Real.exp (inverseSoftplus u) := by
    rw [exp_inverseSoftplus hu0]
    have h3 : Real.exp (softplus w - spJitter) ≤ Real.exp u := Real.exp_le_exp.mpr huw
    have h4 : Real.exp (softplus w - spJitter) = Real.exp w + 1 := by
      rw [softplus_eq, add_sub_cancel_right, Real.exp_log (by linarith [Real.exp_pos w])]
    linarith
  linarith [Real.exp_le_exp.mp h1]

/-- Non-vacuity: the sliver is not empty. -/
example : ∃ v : ℝ, 0 < v ∧ v < 1 ∧ v ≤ 0 + spJitter * (1 - 0) / softplus (1 - 0) := by
  have hs := softplus_pos (1 - 0)
  refine ⟨min (1/2) (spJitter * (1 - 0) / softplus (1 - 0)), lt_min (by norm_num) ?_, ?_, ?_⟩
  · have := spJitter_pos; positivity
  · exact lt_of_le_of_lt (min_le_left _ _) (by norm_num)
  · rw [zero_add]; exact min_le_right _ _

/-- C03. `backward (forward u)` is `u` plus an error in `[0, (e^jitter - 1)(1 + e^-u)]`. -/
theorem C03_softplus_backward_forward (u : ℝ) :
    let e := Bijector.softplus.backward (Bijector.softplus.forward u) - u
    0 ≤ e ∧ e ≤ (Real.exp spJitter - 1) * (1 + Real.exp (-u)) := by
  have he : 1 < Real.exp spJitter := Real.one_lt_exp_iff.mpr spJitter_pos
  have hp : 0 < (Real.exp spJitter - 1) * (1 + Real.exp (-u)) := by
    have := Real.exp_pos (-u); apply mul_pos <;> linarith
  simp only [Bijector.forward, Bijector.backward, inverseSoftplus_softplus, add_sub_cancel_left]
  refine ⟨Real.log_nonneg (by linarith), ?_⟩
  have := Real.log_le_sub_one_of_pos (show 0 < 1 + (Real.exp spJitter - 1) * (1 + Real.exp (-u)) by linarith)
  linarith

/-- C03 for `SoftMin`. -/
theorem C03_softmin_backward_forward (m u : ℝ) :
    let e := (Bijector.softMin m).backward ((Bijector.softMin m).forward u) - u
    0 ≤ e ∧ e ≤ (Real.exp spJitter - 1) * (1 + Real.exp (m - u)) := by
  have h := C03_softplus_backward_forward (u - m)
  simp only [Bijector.forward, Bijector.backward, softmin, inverseSoftmin, neg_sub,
    add_sub_cancel_right] at h ⊢
  constructor <;> linarith [h.1, h.2]

/-- C03 for `SoftMax` (the error has the opposite sign). -/
theorem C03_softmax_backward_forward (M u : ℝ) :
    let e := u - (Bijector.softMax M).backward ((Bijector.softMax M).forward u)
    0 ≤ e ∧ e ≤ (Real.exp spJitter - 1) * (1 + Real.exp (u - M)) := by
  have h := C03_softplus_backward_forward (M - u)
  have e : M - (-softplus (M - u) + M) = softplus (M - u) := by ring
  simp only [Bijector.forward, Bijector.backward, softmax, inverseSoftmax, neg_sub, e] at h ⊢
  constructor <;> linarith [h.1, h.2]

/-- C04. `forward` is strictly increasing. -/
theorem C04_forward_strictMono (b : Bijector) (hb : Spec.sensible b) : StrictMono b.forward := by
  cases b with
  | softplus => exact softplus_strictMono
  | softMin m =>
    intro x y h
    have := softplus_strictMono (show x - m < y - m by linarith)
    simp only [Bijector.forward, softmin]; linarith
  | softMax M =>
    intro x y h
    have := softplus_strictMono (show M - y < M - x by linarith)
    simp only [Bijector.forward, softmax]; linarith
  | softMinMax m M =>
    intro x y h
    have hw : 0 < M - m := by simp only [Spec.sensible] at hb; linarith
    have h3 := softplus_pos (M - m)
    have h1 := softplus_strictMono (show x - m < y - m by linarith)
    have h2 := softplus_strictMono
      (show M - m - softplus (y - m) < M - m - softplus (x - m) by linarith)
    simp only [Bijector.forward, softminmax]
    have : -softplus (M - m - softplus (x - m)) * (M - m) / softplus (M - m)
        < -softplus (M - m - softplus (y - m)) * (M - m) / softplus (M - m) := by
      apply div_lt_div_of_pos_right _ h3
      apply mul_lt_mul_of_pos_right _ hw
      linarith
    linarith
  | identity => exact strictMono_id

end GPX.Props
