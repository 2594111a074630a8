import Verif.Lemmas.NearJoint
import Verif.Lemmas.Transfer

/-! # The Matern32 kernel without jitter and floor, jointly with its derivatives -/

namespace GPX
open GPX.Spec Filter Topology

variable {d : ℕ}

/-- Matern32 with `e` added to the squared distance, and its derivatives. -/
noncomputable def m32K (l e : ℝ) {k : ℕ} (x y : Fin k → ℝ) : ℝ :=
  (1 + Real.sqrt (3 * (sqd l x y + e))) * Real.exp (-Real.sqrt (3 * (sqd l x y + e)))

noncomputable def m32G (l e : ℝ) {k : ℕ} (x y : Fin k → ℝ) (a : Fin k) : ℝ :=
  -(3 / l) * (x a / l - y a / l) * Real.exp (-Real.sqrt (3 * (sqd l x y + e)))

noncomputable def m32H (l e : ℝ) {k : ℕ} (x y : Fin k → ℝ) (a b : Fin k) : ℝ :=
  (if a = b then 3 / l ^ 2 else 0) * Real.exp (-Real.sqrt (3 * (sqd l x y + e))) -
    9 / l ^ 2 * (x a / l - y a / l) * (x b / l - y b / l) * (Real.sqrt (3 * (sqd l x y + e)))⁻¹ *
      Real.exp (-Real.sqrt (3 * (sqd l x y + e)))

theorem sqd_nonneg' (l : ℝ) {k : ℕ} (x y : Fin k → ℝ) : 0 ≤ sqd l x y :=
  Finset.sum_nonneg fun _ _ => sq_nonneg _

theorem m32_coord (l : ℝ) {e : ℝ} (he : 0 < e) (k : ℕ) :
    PSDK (dirKernel (d := k) (m32K l e) (m32G l e) (fun x y a => m32G l e y x a) (m32H l e)) := by
  have h0 : ∀ (x y : Fin k → ℝ) a, HasDerivAt (fun t => m32K l e (Function.update x a t) y) (m32G l e x y a) (x a) := by
    intro x y a
    have hs : 0 < sqd l (Function.update x a (x a)) y + e := by
      have := sqd_nonneg' l (Function.update x a (x a)) y
      linarith
    have h := HasDerivAt.comp (x a) (m32_profile hs) ((sqd_deriv_left l x y a (x a)).add_const e)
    refine h.congr_deriv ?_
    rw [m32G, Function.update_eq_self]
    ring
  refine PSDK.dir (PSDK.coord ?_ h0 (fun x y b => ?_) (fun x y a b => ?_) fun a b => ?_)
  · exact (negType_sqd l k (c := 3) (by norm_num) he).matern32
  · have h := h0 y x b
    refine h.congr_of_eventuallyEq (Eventually.of_forall fun t => ?_)
    simp only [m32K, sqd_comm l x]
  · have hs : 0 < sqd l x (Function.update y b (y b)) + e := by
      have := sqd_nonneg' l x (Function.update y b (y b))
      linarith
    have hr : 0 < Real.sqrt (3 * (sqd l x y + e)) := by
      rw [Function.update_eq_self] at hs
      exact Real.sqrt_pos.2 (by linarith)
    have hq := HasDerivAt.comp (y b) (hasDerivAt_sqrt_mul (c := 3) (by norm_num) hs)
      ((sqd_deriv_right l x y b (y b)).add_const e)
    have hdiff : HasDerivAt (fun t => x a / l - Function.update y b t a / l) (if a = b then -(1 / l) else 0) (y b) := by
      by_cases hab : a = b
      · subst hab
        simp only [Function.update_self, if_true]
        exact (((hasDerivAt_id' (y a)).div_const l).const_sub _).congr_deriv (by ring)
      · simp only [Function.update_of_ne hab, if_neg hab]
        exact hasDerivAt_const _ _
    refine ((hdiff.const_mul (-(3 / l))).mul hq.neg.exp).congr_deriv ?_
    simp only [Function.comp_apply, Pi.neg_apply, Function.update_eq_self, m32H]
    by_cases hab : a = b
    · subst hab
      simp only [if_true]
      field_simp
      ring
    · simp only [if_neg hab]
      field_simp
      ring
  · have hne : ∀ q : (Fin k → ℝ) × (Fin k → ℝ), Real.sqrt (3 * (sqd l q.1 q.2 + e)) ≠ 0 := fun q => by
      have := sqd_nonneg' l q.1 q.2
      exact (Real.sqrt_pos.2 (by linarith)).ne'
    have hs : Continuous fun q : (Fin k → ℝ) × (Fin k → ℝ) => Real.sqrt (3 * (sqd l q.1 q.2 + e)) := by
      unfold sqd
      fun_prop
    have hi := hs.inv₀ hne
    unfold m32H
    refine Continuous.sub (continuous_const.mul hs.neg.rexp) (Continuous.mul (Continuous.mul ?_ hi) hs.neg.rexp)
    fun_prop

/-- The kernel without jitter. -/
theorem m32_jet (l : ℝ) (k : ℕ) :
    PSDK (dirKernel (d := k) (m32K l 0) (m32G l 0) (fun x y a => m32G l 0 y x a) (m32H l 0)) := by
  have hlim : Tendsto (fun n : ℕ => 1 / ((n : ℝ) + 1)) atTop (𝓝 0) := tendsto_one_div_add_atTop_nhds_zero_nat
  have hr : ∀ x y : Fin k → ℝ, Tendsto (fun n : ℕ => Real.sqrt (3 * (sqd l x y + 1 / ((n : ℝ) + 1)))) atTop
      (𝓝 (Real.sqrt (3 * (sqd l x y + 0)))) := fun x y =>
    ((hlim.const_add _).const_mul 3).sqrt
  have hE : ∀ x y : Fin k → ℝ, Tendsto (fun n : ℕ => Real.exp (-Real.sqrt (3 * (sqd l x y + 1 / ((n : ℝ) + 1))))) atTop
      (𝓝 (Real.exp (-Real.sqrt (3 * (sqd l x y + 0))))) := fun x y => (hr x y).neg.rexp
  have hK : ∀ x y : Fin k → ℝ, Tendsto (fun n : ℕ => m32K l (1 / ((n : ℝ) + 1)) x y) atTop (𝓝 (m32K l 0 x y)) :=
    fun x y => ((hr x y).const_add 1).mul (hE x y)
  have hG : ∀ (x y : Fin k → ℝ) a, Tendsto (fun n : ℕ => m32G l (1 / ((n : ℝ) + 1)) x y a) atTop
      (𝓝 (m32G l 0 x y a)) := fun x y a => (hE x y).const_mul _
  have hH : ∀ (x y : Fin k → ℝ) a b, Tendsto (fun n : ℕ => m32H l (1 / ((n : ℝ) + 1)) x y a b) atTop
      (𝓝 (m32H l 0 x y a b)) := by
    intro x y a b
    refine ((hE x y).const_mul _).sub (Tendsto.mul ?_ (hE x y))
    rcases (sqd_nonneg' l x y).eq_or_lt with h | h
    · have : ∀ c, x c / l - y c / l = 0 := fun c => by
        have := (Finset.sum_eq_zero_iff_of_nonneg fun c _ => sq_nonneg _).1 h.symm c (Finset.mem_univ c)
        exact pow_eq_zero_iff (by norm_num) |>.1 this
      simp only [this, mul_zero, zero_mul]
      exact tendsto_const_nhds
    · refine ((hr x y).inv₀ ?_).const_mul _
      exact (Real.sqrt_pos.2 (by linarith)).ne'
  refine PSDK.limit (l := atTop) (ι := ℕ) (fun n => m32_coord l (e := 1 / ((n : ℝ) + 1)) (by positivity) k) ?_
  rintro ⟨x, _ | t⟩ ⟨y, _ | s⟩
  · exact hK x y
  · exact tendsto_finsetSum _ fun a _ => (hG y x a).mul_const _
  · exact tendsto_finsetSum _ fun a _ => (hG x y a).const_mul _
  · exact tendsto_finsetSum _ fun a _ => tendsto_finsetSum _ fun b _ => ((hH x y a b).const_mul _).mul_const _

/-- Adding to the squared distance takes away something positive semidefinite. -/
theorem m32_shift {l : ℝ} {j : ℝ} (hj : 0 ≤ j) (k : ℕ) :
    PSDK fun x y : Fin k → ℝ => m32K l 0 x y - m32K l j x y := by
  have hlim : Tendsto (fun n : ℕ => 1 / ((n : ℝ) + 1)) atTop (𝓝 0) := tendsto_one_div_add_atTop_nhds_zero_nat
  have hK : ∀ (i : ℝ) (x y : Fin k → ℝ), Tendsto (fun n : ℕ => m32K l (1 / ((n : ℝ) + 1) + i) x y) atTop
      (𝓝 (m32K l i x y)) := fun i x y => by
    have hr : Tendsto (fun n : ℕ => Real.sqrt (3 * (sqd l x y + (1 / ((n : ℝ) + 1) + i)))) atTop
      (𝓝 (Real.sqrt (3 * (sqd l x y + (0 + i))))) := (((hlim.add_const i).const_add _).const_mul 3).sqrt
    have := (hr.const_add 1).mul hr.neg.rexp
    rw [zero_add] at this
    exact this
  refine PSDK.limit (l := atTop) (ι := ℕ)
    (K := fun n x y => m32K l (1 / ((n : ℝ) + 1)) x y - m32K l (1 / ((n : ℝ) + 1) + j) x y) (fun n => ?_) fun x y => ?_
  · have he : (0 : ℝ) < 1 / ((n : ℝ) + 1) := by positivity
    generalize 1 / ((n : ℝ) + 1) = e at he
    have hint : ∀ x y : Fin k → ℝ, ∫ a in (0 : ℝ)..j, 3 / 2 * Real.exp (-Real.sqrt (3 * (sqd l x y + (e + a)))) =
        m32K l e x y - m32K l (e + j) x y := by
      intro x y
      have hs := sqd_nonneg' l x y
      have hd : ∀ a ∈ Set.uIcc 0 j, HasDerivAt (fun a => -m32K l (e + a) x y)
          (3 / 2 * Real.exp (-Real.sqrt (3 * (sqd l x y + (e + a))))) a := by
        intro a ha
        rw [Set.uIcc_of_le hj] at ha
        have hp : 0 < sqd l x y + (e + a) := by linarith [ha.1]
        refine (HasDerivAt.comp a (m32_profile hp) (((hasDerivAt_id' a).const_add e).const_add _)).neg.congr_deriv ?_
        ring
      rw [intervalIntegral.integral_eq_sub_of_hasDerivAt hd (Continuous.intervalIntegrable (by fun_prop) _ _), add_zero]
      ring
    simp only [← hint]
    refine PSDK.integral hj (fun a ha => ?_) fun x y => Continuous.continuousOn (by fun_prop)
    have := ((negType_sqd l k (c := 3) (by norm_num) (show 0 < e + a by linarith)).expSqrt zero_le_one).smul
      (r := 3 / 2) (by norm_num)
    simpa only [one_mul] using this
  · have h0 := hK 0 x y
    simp only [add_zero] at h0
    exact h0.sub (hK j x y)

/-- What the code computes. -/
theorem m32_core {l : ℝ} {k : ℕ} (x y : Fin k → ℝ) :
    (Core.m32 l).K x y = m32K l sqDistJitter x y ∧
    (∀ a, (Core.m32 l).G0 x y a =
      -(3 / l) * (x a / l - y a / l) * Real.exp (-Real.sqrt (max (3 * sqd l x y) maternFloor))) ∧
    (∀ a, (Core.m32 l).G1 x y a =
      -(3 / l) * (y a / l - x a / l) * Real.exp (-Real.sqrt (max (3 * sqd l x y) maternFloor))) ∧
    ∀ a b, (Core.m32 l).H x y a b =
      (if a = b then 3 / l ^ 2 else 0) * Real.exp (-Real.sqrt (max (3 * sqd l x y) maternFloor)) -
        9 / l ^ 2 * (x a / l - y a / l) * (x b / l - y b / l) *
          (clampInd (3 * sqd l x y) * (Real.sqrt (max (3 * sqd l x y) maternFloor))⁻¹) *
          Real.exp (-Real.sqrt (max (3 * sqd l x y) maternFloor)) := by
  have h3 : Real.sqrt 3 * Real.sqrt 3 = 3 := Real.mul_self_sqrt (by norm_num)
  refine ⟨?_, fun a => ?_, fun a => ?_, fun a b => ?_⟩
  · rw [m32K, Real.sqrt_mul (by norm_num), Core.m32]
    simp only [sqrt_max_jitter]
  all_goals
    simp only [Core.m32, Core.customJvp, m32T0Ex, Ex.D, Ex.eval, eval_mDiffEx, eval_D_mDiffEx,
      eval_mDistDiffEx (by norm_num : (0 : ℝ) ≤ 3), eval_D_mDistDiffEx (by norm_num : (0 : ℝ) ≤ 3), clampInd_eq]
  · linear_combination (-(1 / l) * (x a / l - y a / l) *
      Real.exp (-Real.sqrt (max (3 * sqd l x y) maternFloor))) * h3
  · linear_combination (-(1 / l) * (y a / l - x a / l) *
      Real.exp (-Real.sqrt (max (3 * sqd l x y) maternFloor))) * h3
  · by_cases hab : a = b
    · rw [if_pos hab, if_pos hab]
      linear_combination (Real.exp (-Real.sqrt (max (3 * sqd l x y) maternFloor)) / l ^ 2 -
        3 / l ^ 2 * (x a / l - y a / l) * (x b / l - y b / l) *
          (clampInd (3 * sqd l x y) * (Real.sqrt (max (3 * sqd l x y) maternFloor))⁻¹) *
          Real.exp (-Real.sqrt (max (3 * sqd l x y) maternFloor))) * h3
    · rw [if_neg hab, if_neg hab]
      linear_combination (-(3 / l ^ 2 * (x a / l - y a / l) * (x b / l - y b / l) *
          (clampInd (3 * sqd l x y) * (Real.sqrt (max (3 * sqd l x y) maternFloor))⁻¹) *
          Real.exp (-Real.sqrt (max (3 * sqd l x y) maternFloor)))) * h3

end GPX
