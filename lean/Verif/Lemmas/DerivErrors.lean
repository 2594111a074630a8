import Verif.Props.BaseKernels
import Verif.Spec.DerivErrors

/-! # Error of the derivatives of Matern52 caused by the jitter -/

namespace GPX
open GPX.Spec GPX.Props

variable {d : ℕ}

theorem mulError_bound {a a' b b' ea eb : ℝ} (ha : |a - a'| ≤ ea) (hb : |b - b'| ≤ eb) :
    |a * b - a' * b'| ≤ mulError a' ea b' eb := by
  have he : 0 ≤ ea := (abs_nonneg _).trans ha
  rw [show a * b - a' * b' = (a - a') * b' + a' * (b - b') + (a - a') * (b - b') by ring]
  refine (abs_add_le _ _).trans (add_le_add ((abs_add_le _ _).trans (add_le_add ?_ ?_)) ?_)
  · rw [abs_mul]; exact mul_le_mul_of_nonneg_right ha (abs_nonneg _)
  · rw [abs_mul]; exact mul_le_mul_of_nonneg_left hb (abs_nonneg _)
  · rw [abs_mul]; exact mul_le_mul ha hb (abs_nonneg _) he

/-- The profile `(1 + t) e^{-t}` moves by at most half the change of `t²`. -/
theorem profile_sq {t u : ℝ} (ht : 0 ≤ t) (htu : t ≤ u) :
    0 ≤ (1 + t) * Real.exp (-t) - (1 + u) * Real.exp (-u) ∧
      (1 + t) * Real.exp (-t) - (1 + u) * Real.exp (-u) ≤ (u ^ 2 - t ^ 2) / 2 := by
  refine ⟨(p32 ht htu).1, ?_⟩
  have hm : MonotoneOn (fun r : ℝ => (1 + r) * Real.exp (-r) + r ^ 2 / 2) (Set.Ici 0) := by
    have hd : ∀ r : ℝ, HasDerivAt (fun r : ℝ => (1 + r) * Real.exp (-r) + r ^ 2 / 2)
        (-(r * Real.exp (-r)) + r) r := fun r =>
      ((e32 r).add ((hasDerivAt_pow 2 r).div_const 2)).congr_deriv (by norm_num)
    refine monotoneOn_of_deriv_nonneg (convex_Ici 0) (fun r _ => (hd r).continuousAt.continuousWithinAt)
      (fun r _ => (hd r).differentiableAt.differentiableWithinAt) fun r hr => ?_
    rw [interior_Ici] at hr
    rw [(hd r).deriv]
    have hr' : (0 : ℝ) ≤ r := le_of_lt hr
    have h1 : Real.exp (-r) ≤ 1 := exp_neg_le_one hr'
    nlinarith
  have h := hm (Set.mem_Ici.mpr ht) (Set.mem_Ici.mpr (ht.trans htu)) htu
  simp only at h
  linarith

/-- `t² (e^{-t} - e^{-u})` is at most half the change of `t²`. -/
theorem exp_sq {t u : ℝ} (ht : 0 ≤ t) (htu : t ≤ u) :
    0 ≤ Real.exp (-t) - Real.exp (-u) ∧ t ^ 2 * (Real.exp (-t) - Real.exp (-u)) ≤ (u ^ 2 - t ^ 2) / 2 := by
  refine ⟨(p12 ht htu).1, ?_⟩
  have h1 : Real.exp (-t) - Real.exp (-u) ≤ Real.exp (-t) * (u - t) := by
    have h2 := Real.add_one_le_exp (t - u)
    have h3 : Real.exp (-u) = Real.exp (-t) * Real.exp (t - u) := by rw [← Real.exp_add]; ring_nf
    rw [h3]
    nlinarith [Real.exp_pos (-t)]
  have h4 : t * Real.exp (-t) ≤ 1 := by
    have h5 := Real.add_one_le_exp t
    have h6 : Real.exp t * Real.exp (-t) = 1 := by rw [← Real.exp_add]; simp
    nlinarith [Real.exp_pos (-t)]
  calc t ^ 2 * (Real.exp (-t) - Real.exp (-u)) ≤ t ^ 2 * (Real.exp (-t) * (u - t)) :=
        mul_le_mul_of_nonneg_left h1 (sq_nonneg _)
    _ = (t * Real.exp (-t)) * (t * (u - t)) := by ring
    _ ≤ 1 * (t * (u - t)) := mul_le_mul_of_nonneg_right h4 (mul_nonneg ht (by linarith))
    _ ≤ _ := by nlinarith [sq_nonneg (u - t)]

/-- The two distances of Matern52, with the jitter and from the base function. -/
theorem m52_distances {s : ℝ} (hs : 0 ≤ s) :
    0 ≤ Real.sqrt (max (5 * s) maternFloor) ∧ Real.sqrt (max (5 * s) maternFloor) ≤ m52Dist s ∧
      m52Dist s ^ 2 - Real.sqrt (max (5 * s) maternFloor) ^ 2 ≤ 5 / 10 ^ 12 := by
  refine ⟨Real.sqrt_nonneg _, (clamp_shift 5 (by norm_num) hs).1, ?_⟩
  have hm : max (s + sqDistJitter) maternFloor = s + sqDistJitter :=
    max_eq_left (by unfold maternFloor sqDistJitter; linarith)
  rw [m52Dist, hm, mul_pow, Real.sq_sqrt (by norm_num), Real.sq_sqrt (by unfold sqDistJitter; linarith),
    Real.sq_sqrt (le_max_of_le_left (by linarith))]
  have := le_max_left (5 * s) maternFloor
  unfold sqDistJitter
  linarith

theorem m52_base_G0 (l : ℝ) {k : ℕ} (x y : Fin k → ℝ) (a : Fin k) :
    (m52T0Ex l k a).eval (Sum.elim x y) = -(5 / (3 * l ^ 2) * (x a - y a)) *
      ((1 + Real.sqrt (max (5 * sqd l x y) maternFloor)) * Real.exp (-Real.sqrt (max (5 * sqd l x y) maternFloor))) := by
  simp only [m52T0Ex, Ex.eval, eval_mDiffEx, eval_mDistDiffEx (by norm_num : (0 : ℝ) ≤ 5)]
  have h5 := Real.mul_self_sqrt (show (0 : ℝ) ≤ 5 by norm_num)
  linear_combination -(1 / (3 * l ^ 2)) * (1 + Real.sqrt (max (5 * sqd l x y) maternFloor)) *
    Real.exp (-Real.sqrt (max (5 * sqd l x y) maternFloor)) * (x a - y a) * h5

theorem m52_G0 (l : ℝ) {k : ℕ} (x y : Fin k → ℝ) (a : Fin k) :
    (Core.m52 l).G0 x y a = -(5 / (3 * l ^ 2) * (x a - y a)) *
      ((1 + m52Dist (sqd l x y)) * Real.exp (-m52Dist (sqd l x y))) := by
  simp only [Core.m52]
  have h5 := Real.mul_self_sqrt (show (0 : ℝ) ≤ 5 by norm_num)
  linear_combination -(1 / (3 * l ^ 2)) * (1 + m52Dist (sqd l x y)) * Real.exp (-m52Dist (sqd l x y)) *
    (x a - y a) * h5

theorem m52_G1 (l : ℝ) {k : ℕ} (x y : Fin k → ℝ) (a : Fin k) :
    (Core.m52 l).G1 x y a = -(Core.m52 l).G0 x y a := by
  simp only [Core.m52]
  ring

theorem m52_error0 (l : ℝ) {k : ℕ} (x y : Fin k → ℝ) (a : Fin k) :
    |(Core.m52 l).G0 x y a - (m52T0Ex l k a).eval (Sum.elim x y)| ≤
      5 / (3 * l ^ 2) * (5 / 2 / 10 ^ 12) * |x a - y a| := by
  obtain ⟨h0, h1, h2⟩ := m52_distances (sqd_nonneg l x y)
  obtain ⟨q1, q2⟩ := profile_sq h0 h1
  rw [m52_G0, m52_base_G0, ← mul_sub, abs_mul, abs_neg, abs_mul, abs_of_nonneg (by positivity : 0 ≤ 5 / (3 * l ^ 2)),
    abs_sub_comm (_ * _), abs_of_nonneg q1, mul_right_comm]
  gcongr
  linarith

theorem m52_base_H (l : ℝ) {k : ℕ} (x y : Fin k → ℝ) (a b : Fin k) :
    ((m52T0Ex l k a).D (.inr b)).eval (Sum.elim x y) =
      -(5 / (3 * l ^ 2)) * (5 * ((x a / l - y a / l) * (x b / l - y b / l))) *
          ((if maternFloor < 5 * sqd l x y then 1 else if 5 * sqd l x y = maternFloor then 1 / 2 else 0) *
            Real.exp (-Real.sqrt (max (5 * sqd l x y) maternFloor))) +
        if a = b then 5 / (3 * l ^ 2) * ((1 + Real.sqrt (max (5 * sqd l x y) maternFloor)) *
          Real.exp (-Real.sqrt (max (5 * sqd l x y) maternFloor))) else 0 := by
  simp only [m52T0Ex, Ex.D, Ex.eval, eval_mDiffEx, eval_D_mDiffEx, eval_mDistDiffEx (by norm_num : (0 : ℝ) ≤ 5),
    eval_D_mDistDiffEx (by norm_num : (0 : ℝ) ≤ 5)]
  have hD : 0 < Real.sqrt (max (5 * sqd l x y) maternFloor) :=
    Real.sqrt_pos.mpr (lt_max_of_lt_right (by unfold maternFloor; positivity))
  have h5 := Real.mul_self_sqrt (show (0 : ℝ) ≤ 5 by norm_num)
  generalize Real.sqrt (max (5 * sqd l x y) maternFloor) = D at *
  generalize (if maternFloor < 5 * sqd l x y then (1 : ℝ) else if 5 * sqd l x y = maternFloor then 1 / 2 else 0) = I
  generalize Real.exp (-D) = X
  have hDi : D * D⁻¹ = 1 := mul_inv_cancel₀ hD.ne'
  by_cases hab : a = b
  · simp only [hab, if_true]
    linear_combination (-(5 / (3 * l ^ 2)) * (x b / l - y b / l) ^ 2 * I * X * D * D⁻¹ +
      1 / (3 * l ^ 2) * (1 + D) * X) * h5 - 5 * (5 / (3 * l ^ 2)) * (x b / l - y b / l) ^ 2 * I * X * hDi
  · simp only [hab, if_false]
    linear_combination (-(5 / (3 * l ^ 2)) * (x b / l - y b / l) * (x a / l - y a / l) * I * X * D * D⁻¹) * h5 -
      5 * (5 / (3 * l ^ 2)) * (x b / l - y b / l) * (x a / l - y a / l) * I * X * hDi

theorem sq_le_sqd (l : ℝ) {k : ℕ} (x y : Fin k → ℝ) (a : Fin k) : (x a / l - y a / l) ^ 2 ≤ sqd l x y :=
  Finset.single_le_sum (f := fun a => (x a / l - y a / l) ^ 2) (fun _ _ => sq_nonneg _) (Finset.mem_univ a)

theorem m52_error01 (l : ℝ) {k : ℕ} (x y : Fin k → ℝ) (a b : Fin k) :
    |(Core.m52 l).H x y a b - ((m52T0Ex l k a).D (.inr b)).eval (Sum.elim x y)| ≤
      5 / (3 * l ^ 2) * (5 / 10 ^ 12) := by
  have hs := sqd_nonneg l x y
  obtain ⟨h0, h1, h2⟩ := m52_distances hs
  obtain ⟨q1, q2⟩ := profile_sq h0 h1
  obtain ⟨r1, r2⟩ := exp_sq h0 h1
  have hprod : |5 * ((x a / l - y a / l) * (x b / l - y b / l))| ≤ 5 * sqd l x y := by
    rw [abs_mul, abs_of_pos (by norm_num : (0 : ℝ) < 5)]
    refine mul_le_mul_of_nonneg_left (abs_le.mpr ⟨?_, ?_⟩) (by norm_num) <;>
    nlinarith [sq_le_sqd l x y a, sq_le_sqd l x y b, sq_nonneg ((x a / l - y a / l) + (x b / l - y b / l)),
      sq_nonneg ((x a / l - y a / l) - (x b / l - y b / l))]
  set D0 := Real.sqrt (max (5 * sqd l x y) maternFloor) with hD0
  set D := m52Dist (sqd l x y) with hD
  set I : ℝ := if maternFloor < 5 * sqd l x y then 1 else if 5 * sqd l x y = maternFloor then 1 / 2 else 0 with hI
  have hsecond : |5 * ((x a / l - y a / l) * (x b / l - y b / l)) * (I * Real.exp (-D0) - Real.exp (-D))| ≤
      5 / 2 / 10 ^ 12 := by
    rw [abs_mul]
    refine (mul_le_mul_of_nonneg_right hprod (abs_nonneg _)).trans ?_
    by_cases hf : maternFloor < 5 * sqd l x y
    · have hI1 : I = 1 := by rw [hI, if_pos hf]
      have hsq : D0 ^ 2 = 5 * sqd l x y := by
        rw [hD0, Real.sq_sqrt (le_max_of_le_left (by linarith)), max_eq_left hf.le]
      rw [hI1, one_mul, abs_of_nonneg r1, ← hsq]
      linarith
    · have hle : 5 * sqd l x y ≤ 1 / 10 ^ 36 := by
        have := not_lt.mp hf
        unfold maternFloor at this
        linarith
      have hI2 : 0 ≤ I ∧ I ≤ 1 := by
        rw [hI, if_neg hf]
        split_ifs <;> norm_num
      have e1 : Real.exp (-D0) ≤ 1 := exp_neg_le_one h0
      have e2 : Real.exp (-D) ≤ 1 := exp_neg_le_one (h0.trans h1)
      have e3 := Real.exp_pos (-D0)
      have e4 := Real.exp_pos (-D)
      have : |I * Real.exp (-D0) - Real.exp (-D)| ≤ 1 := by
        rw [abs_le]
        constructor <;> nlinarith [hI2.1, hI2.2]
      calc 5 * sqd l x y * |I * Real.exp (-D0) - Real.exp (-D)| ≤ 1 / 10 ^ 36 * 1 :=
            mul_le_mul hle this (abs_nonneg _) (by positivity)
        _ ≤ _ := by norm_num
  have hfirst : |(if a = b then (1 + D) * Real.exp (-D) else 0) - (if a = b then (1 + D0) * Real.exp (-D0) else 0)| ≤
      5 / 2 / 10 ^ 12 := by
    by_cases hab : a = b
    · rw [if_pos hab, if_pos hab, abs_sub_comm, abs_of_nonneg q1]
      linarith
    · rw [if_neg hab, if_neg hab, sub_self, abs_zero]
      norm_num
  have h5 := Real.mul_self_sqrt (show (0 : ℝ) ≤ 5 by norm_num)
  have hsplit : (Core.m52 l).H x y a b - ((m52T0Ex l k a).D (.inr b)).eval (Sum.elim x y) =
      5 / (3 * l ^ 2) * (5 * ((x a / l - y a / l) * (x b / l - y b / l)) * (I * Real.exp (-D0) - Real.exp (-D)) +
        ((if a = b then (1 + D) * Real.exp (-D) else 0) - (if a = b then (1 + D0) * Real.exp (-D0) else 0))) := by
    rw [m52_base_H]
    simp only [Core.m52, ← hD0, ← hD, ← hI]
    by_cases hab : a = b
    · simp only [hab, if_true]
      linear_combination -(5 / (3 * l ^ 2)) * Real.exp (-D) * (x b / l - y b / l) ^ 2 * h5
    · simp only [hab, if_false]
      linear_combination -(5 / (3 * l ^ 2)) * Real.exp (-D) * (x a / l - y a / l) * (x b / l - y b / l) * h5
  rw [hsplit, abs_mul, abs_of_nonneg (by positivity : 0 ≤ 5 / (3 * l ^ 2))]
  refine mul_le_mul_of_nonneg_left ?_ (by positivity)
  refine (abs_add_le _ _).trans ((add_le_add hsecond hfirst).trans (by norm_num))

end GPX
