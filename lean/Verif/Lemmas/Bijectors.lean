import Verif.Spec.Bijectors
import Mathlib.Tactic.Linarith
import Mathlib.Tactic.FieldSimp
import Mathlib.Tactic.Positivity
import Mathlib.Tactic.Ring
import Mathlib.Tactic.NormNum

namespace GPX

lemma spJitter_pos : 0 < spJitter := by unfold spJitter; positivity

lemma spJitter_lt : spJitter < 1 / 2 := by
  unfold spJitter
  rw [div_lt_div_iff₀ (by positivity) (by norm_num)]
  calc (1:ℝ) * 2 < 10 ^ 1 := by norm_num
    _ ≤ 10 ^ 300 := by apply pow_le_pow_right₀ <;> norm_num
    _ = 1 * 10 ^ 300 := (one_mul _).symm

lemma softplus_eq (x : ℝ) : softplus x = Real.log (Real.exp x + 1) + spJitter := by
  simp [softplus, logaddexp]

lemma logsp_pos (x : ℝ) : 0 < Real.log (Real.exp x + 1) :=
  Real.log_pos (by linarith [Real.exp_pos x])

lemma softplus_gt_jitter (x : ℝ) : spJitter < softplus x := by
  rw [softplus_eq]; linarith [logsp_pos x]

lemma softplus_pos (x : ℝ) : 0 < softplus x := spJitter_pos.trans (softplus_gt_jitter x)

lemma softplus_strictMono : StrictMono softplus := by
  intro a b hab
  rw [softplus_eq, softplus_eq]
  have := Real.exp_lt_exp.mpr hab
  have h := Real.log_lt_log (by linarith [Real.exp_pos a]) (show Real.exp a + 1 < Real.exp b + 1 by linarith)
  linarith

/-- `inverse_softplus` is `log(exp x - 1)` for positive `x`. -/
lemma inverseSoftplus_eq {x : ℝ} (hx : 0 < x) :
    inverseSoftplus x = Real.log (Real.exp x - 1) := by
  have h1 : 0 < 1 - Real.exp (-x) := by
    have : Real.exp (-x) < 1 := by rw [Real.exp_lt_one_iff]; linarith
    linarith
  have h2 : Real.exp x - 1 = Real.exp x * (1 - Real.exp (-x)) := by
    rw [mul_sub, ← Real.exp_add]; simp
  rw [h2, Real.log_mul (Real.exp_ne_zero x) h1.ne', Real.log_exp]
  simp [inverseSoftplus, expm1]

lemma exp_inverseSoftplus {x : ℝ} (hx : 0 < x) :
    Real.exp (inverseSoftplus x) = Real.exp x - 1 := by
  rw [inverseSoftplus_eq hx, Real.exp_log]
  have := Real.one_lt_exp_iff.mpr hx
  linarith

lemma softplus_inverseSoftplus {v : ℝ} (hv : 0 < v) :
    softplus (inverseSoftplus v) = v + spJitter := by
  rw [softplus_eq, exp_inverseSoftplus hv]; simp

lemma exp_softplus (x : ℝ) : Real.exp (softplus x) = (Real.exp x + 1) * Real.exp spJitter := by
  rw [softplus_eq, Real.exp_add, Real.exp_log (by linarith [Real.exp_pos x])]

lemma inverseSoftplus_softplus (x : ℝ) :
    inverseSoftplus (softplus x) =
      x + Real.log (1 + (Real.exp spJitter - 1) * (1 + Real.exp (-x))) := by
  have he : 1 < Real.exp spJitter := Real.one_lt_exp_iff.mpr spJitter_pos
  have hp : 0 < 1 + (Real.exp spJitter - 1) * (1 + Real.exp (-x)) := by
    have := Real.exp_pos (-x)
    have : 0 < (Real.exp spJitter - 1) * (1 + Real.exp (-x)) := by
      apply mul_pos <;> linarith
    linarith
  rw [inverseSoftplus_eq (softplus_pos x), exp_softplus]
  have h2 : (Real.exp x + 1) * Real.exp spJitter - 1 =
      Real.exp x * (1 + (Real.exp spJitter - 1) * (1 + Real.exp (-x))) := by
    have : Real.exp x * Real.exp (-x) = 1 := by rw [← Real.exp_add]; simp
    linear_combination (1 - Real.exp spJitter) * this
  rw [h2, Real.log_mul (Real.exp_ne_zero x) hp.ne', Real.log_exp]

lemma inverseSoftplus_strictMonoOn : StrictMonoOn inverseSoftplus (Set.Ioi 0) := by
  intro a ha b hb hab
  rw [inverseSoftplus_eq ha, inverseSoftplus_eq hb]
  have ha' := Real.one_lt_exp_iff.mpr (show (0:ℝ) < a from ha)
  exact Real.log_lt_log (by linarith) (by linarith [Real.exp_lt_exp.mpr hab])

end GPX
