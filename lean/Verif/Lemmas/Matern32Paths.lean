import Verif.Lemmas.DerivNear
import Verif.Lemmas.Matern32Jet
import Verif.Lemmas.KernelClosedJ

/-! # `Matern32` along paths of samples -/

namespace GPX
open GPX.Spec

variable {d : ℕ}

/-- Squared distance along a path of the first point. -/
theorem sqd_path_left (l : ℝ) {k : ℕ} {γ : ℝ → Fin k → ℝ} {γ' y : Fin k → ℝ} {t : ℝ}
    (h : ∀ a, HasDerivAt (fun s => γ s a) (γ' a) t) :
    HasDerivAt (fun s => sqd l (γ s) y) (∑ a, 2 * (γ t a / l - y a / l) * (γ' a / l)) t := by
  unfold sqd
  refine HasDerivAt.fun_sum fun a _ => ?_
  refine ((((h a).div_const l).sub_const (y a / l)).pow 2).congr_deriv ?_
  simp

/-- Squared distance along a path of the second point. -/
theorem sqd_path_right (l : ℝ) {k : ℕ} {γ : ℝ → Fin k → ℝ} {γ' x : Fin k → ℝ} {t : ℝ}
    (h : ∀ a, HasDerivAt (fun s => γ s a) (γ' a) t) :
    HasDerivAt (fun s => sqd l x (γ s)) (∑ a, 2 * (γ t a / l - x a / l) * (γ' a / l)) t := by
  have := sqd_path_left l (y := x) h
  refine this.congr_of_eventuallyEq (Filter.Eventually.of_forall fun s => ?_)
  unfold sqd
  exact Finset.sum_congr rfl fun a _ => by ring

/-- By how much the jitter shrinks the slope of `Matern32` at squared distance `z`. -/
noncomputable def m32Ratio (z : ℝ) : ℝ :=
  Real.exp (-(Real.sqrt (3 * (z + sqDistJitter)) - Real.sqrt (max (3 * z) maternFloor)))

theorem m32Ratio_near {z : ℝ} (hz : 0 ≤ z) : |m32Ratio z - 1| ≤ 2 / 10 ^ 6 := by
  have hle : max (3 * z) maternFloor ≤ 3 * (z + sqDistJitter) := by
    refine max_le (by unfold sqDistJitter; norm_num) ?_
    unfold maternFloor sqDistJitter
    norm_num
    linarith
  have h0 : 0 ≤ Real.sqrt (3 * (z + sqDistJitter)) - Real.sqrt (max (3 * z) maternFloor) :=
    sub_nonneg.2 (Real.sqrt_le_sqrt hle)
  have h1 : Real.sqrt (3 * (z + sqDistJitter)) ≤ Real.sqrt (3 * z) + 2 / 10 ^ 6 := by
    refine (Real.sqrt_le_left (by positivity)).2 ?_
    have := Real.sq_sqrt (show 0 ≤ 3 * z by linarith)
    have hs := Real.sqrt_nonneg (3 * z)
    unfold sqDistJitter
    nlinarith
  have h2 : Real.sqrt (3 * z) ≤ Real.sqrt (max (3 * z) maternFloor) := Real.sqrt_le_sqrt (le_max_left _ _)
  rw [m32Ratio]
  have h3 := Real.add_one_le_exp (-(Real.sqrt (3 * (z + sqDistJitter)) - Real.sqrt (max (3 * z) maternFloor)))
  have h4 : Real.exp (-(Real.sqrt (3 * (z + sqDistJitter)) - Real.sqrt (max (3 * z) maternFloor))) ≤ 1 :=
    Real.exp_le_one_iff.2 (by linarith)
  rw [abs_le]
  constructor <;> linarith

theorem m32_slope (z : ℝ) : -(3 / 2) * Real.exp (-Real.sqrt (3 * (z + sqDistJitter))) =
    m32Ratio z * (-(3 / 2) * Real.exp (-Real.sqrt (max (3 * z) maternFloor))) := by
  rw [m32Ratio, mul_left_comm, ← Real.exp_add]
  congr 2
  ring

theorem m32_near0 (a : Option (Dims d)) (p : KPar) {n m v : ℕ} (x1 : ℝ → Batch n d) (x2 : Batch m d) (t : ℝ)
    (J : Jac n d v) (u : Fin v) (hm : Moves x1 t J u) (i : Fin n) (j : Fin m) :
    DerivNear (fun s => (KernelObj.matern32 a).k p (x1 s) x2 i j)
      ((KernelObj.matern32 a).d0kj p (x1 t) x2 J (flat i u) j)
      (2 / 10 ^ 6 * |(KernelObj.matern32 a).d0kj p (x1 t) x2 J (flat i u) j|) t := by
  have hc := closedJ_m32 a p
  set ad := Dims.resolve a
  set l := p.val "lengthscale"
  set z := sqd l (ad.take (x1 t i)) (ad.take (x2 j)) with hz
  have hz0 : 0 ≤ z := sqd_nonneg' _ _ _
  have hq := sqd_path_left l (γ := fun s => ad.take (x1 s i)) (γ' := fun b => J i (ad.idx b) u)
    (y := ad.take (x2 j)) (t := t) fun b => hm i (ad.idx b)
  have hk := (m32_profile (s := z + sqDistJitter) (by unfold sqDistJitter; norm_num; linarith)).comp t
    (hq.add_const sqDistJitter)
  refine DerivNear.scaled (ε := m32Ratio z) ?_ (m32Ratio_near hz0)
  refine (hk.congr_of_eventuallyEq (Filter.Eventually.of_forall fun s => ?_)).congr_deriv ?_
  · rw [hc.k, (m32_core _ _).1]; rfl
  · rw [m32_slope, hc.d0kj, mul_assoc, Finset.mul_sum]
    congr 1
    refine Finset.sum_congr rfl fun b _ => ?_
    rw [(m32_core _ _).2.1]
    simp only [Dims.take, ← hz]
    ring

theorem m32_near1 (a : Option (Dims d)) (p : KPar) {n m v : ℕ} (x1 : Batch n d) (x2 : ℝ → Batch m d) (t : ℝ)
    (J : Jac m d v) (u : Fin v) (hm : Moves x2 t J u) (i : Fin n) (j : Fin m) :
    DerivNear (fun s => (KernelObj.matern32 a).k p x1 (x2 s) i j)
      ((KernelObj.matern32 a).d1kj p x1 (x2 t) J i (flat j u))
      (2 / 10 ^ 6 * |(KernelObj.matern32 a).d1kj p x1 (x2 t) J i (flat j u)|) t := by
  have hc := closedJ_m32 a p
  set ad := Dims.resolve a
  set l := p.val "lengthscale"
  set z := sqd l (ad.take (x1 i)) (ad.take (x2 t j)) with hz
  have hz0 : 0 ≤ z := sqd_nonneg' _ _ _
  have hq := sqd_path_right l (γ := fun s => ad.take (x2 s j)) (γ' := fun b => J j (ad.idx b) u)
    (x := ad.take (x1 i)) (t := t) fun b => hm j (ad.idx b)
  have hk := (m32_profile (s := z + sqDistJitter) (by unfold sqDistJitter; norm_num; linarith)).comp t
    (hq.add_const sqDistJitter)
  refine DerivNear.scaled (ε := m32Ratio z) ?_ (m32Ratio_near hz0)
  refine (hk.congr_of_eventuallyEq (Filter.Eventually.of_forall fun s => ?_)).congr_deriv ?_
  · rw [hc.k, (m32_core _ _).1]; rfl
  · rw [m32_slope, hc.d1kj, mul_assoc, Finset.mul_sum]
    congr 1
    refine Finset.sum_congr rfl fun b _ => ?_
    rw [(m32_core _ _).2.2.1]
    simp only [Dims.take, ← hz]
    ring

/-- `exp(-√(max(3 z, floor)))` off the floor. -/
theorem m32_floor {z : ℝ} (h : 3 * z ≠ maternFloor) :
    HasDerivAt (fun z => Real.exp (-Real.sqrt (max (3 * z) maternFloor)))
      (-(3 / 2) * (clampInd (3 * z) * (Real.sqrt (max (3 * z) maternFloor))⁻¹) *
        Real.exp (-Real.sqrt (max (3 * z) maternFloor))) z := by
  have hcont : Continuous fun z : ℝ => 3 * z := continuous_const.mul continuous_id
  rcases lt_or_gt_of_ne h with hlt | hgt
  · have hc : clampInd (3 * z) = 0 := by rw [clampInd, if_neg hlt.le.not_gt, if_neg hlt.ne]
    rw [hc]
    have := hasDerivAt_const z (Real.exp (-Real.sqrt maternFloor))
    refine (this.congr_of_eventuallyEq ?_).congr_deriv (by ring)
    filter_upwards [(hcont.tendsto z).eventually (gt_mem_nhds hlt)] with s hs
    rw [max_eq_right hs.le]
  · have hc : clampInd (3 * z) = 1 := by rw [clampInd, if_pos hgt]
    have hz : 0 < z := by
      have : 0 < maternFloor := by unfold maternFloor; positivity
      linarith
    have hr := hasDerivAt_sqrt_mul (c := 3) (by norm_num) hz
    refine (hr.neg.exp.congr_of_eventuallyEq ?_).congr_deriv ?_
    · filter_upwards [(hcont.tendsto z).eventually (lt_mem_nhds hgt)] with s hs
      rw [max_eq_left hs.le]; rfl
    · rw [hc, max_eq_left hgt.le]
      simp only [Pi.neg_apply]
      have hpos : 0 < Real.sqrt (3 * z) := Real.sqrt_pos.mpr (by positivity)
      field_simp

theorem m32_near01 (a : Option (Dims d)) (p : KPar) {n m v w : ℕ} (x1 : Batch n d) (J1 : Jac n d v) (x2 : ℝ → Batch m d)
    (t : ℝ) (J : Jac m d w) (u : Fin w) (hm : Moves x2 t J u) (i : Fin n) (q : Fin v) (j : Fin m)
    (ho : 3 * activeDist a p (x1 i) (x2 t j) ≠ 1 / 10 ^ 36) :
    HasDerivAt (fun s => (KernelObj.matern32 a).d0kj p x1 (x2 s) J1 (flat i q) j)
      ((KernelObj.matern32 a).d01kj p x1 (x2 t) J1 J (flat i q) (flat j u)) t := by
  have hc := closedJ_m32 a p
  have hd : activeDist a p (x1 i) (x2 t j) =
    sqd (p.val "lengthscale") ((Dims.resolve a).take (x1 i)) ((Dims.resolve a).take (x2 t j)) := rfl
  rw [hd] at ho
  set ad := Dims.resolve a
  set l := p.val "lengthscale"
  set z := sqd l (ad.take (x1 i)) (ad.take (x2 t j)) with hz
  have hq := sqd_path_right l (γ := fun s => ad.take (x2 s j)) (γ' := fun b => J j (ad.idx b) u)
    (x := ad.take (x1 i)) (t := t) fun b => hm j (ad.idx b)
  have hg := (m32_floor (z := z) ho).comp t hq
  have hs := HasDerivAt.fun_sum (u := Finset.univ) fun b (_ : b ∈ Finset.univ) =>
    ((((hm j (ad.idx b)).div_const l).const_sub (x1 i (ad.idx b) / l)).const_mul (-(3 / l))).mul hg |>.const_mul
      (J1 i (ad.idx b) q)
  refine (hs.congr_of_eventuallyEq (Filter.Eventually.of_forall fun s => ?_)).congr_deriv ?_
  · simp only [hc.d0kj, (m32_core _ _).2.1]
    rfl
  · rw [hc.d01kj]
    refine Finset.sum_congr rfl fun b _ => ?_
    simp only [(m32_core _ _).2.2.2, Function.comp, ← hz]
    have hsplit : ∀ c, J1 i (ad.idx b) q * ((if b = c then 3 / l ^ 2 else 0) *
        Real.exp (-Real.sqrt (max (3 * z) maternFloor)) - 9 / l ^ 2 * (ad.take (x1 i) b / l - ad.take (x2 t j) b / l) *
          (ad.take (x1 i) c / l - ad.take (x2 t j) c / l) *
          (clampInd (3 * z) * (Real.sqrt (max (3 * z) maternFloor))⁻¹) *
          Real.exp (-Real.sqrt (max (3 * z) maternFloor))) * J j (ad.idx c) u =
        (if b = c then J1 i (ad.idx b) q * (3 / l ^ 2) * Real.exp (-Real.sqrt (max (3 * z) maternFloor)) *
          J j (ad.idx c) u else 0) +
        J1 i (ad.idx b) q * (-(3 / l) * (x1 i (ad.idx b) / l - x2 t j (ad.idx b) / l)) *
          (-(3 / 2) * (clampInd (3 * z) * (Real.sqrt (max (3 * z) maternFloor))⁻¹) *
            Real.exp (-Real.sqrt (max (3 * z) maternFloor)) *
            (2 * (ad.take (x2 t j) c / l - ad.take (x1 i) c / l) * (J j (ad.idx c) u / l))) := fun c => by
      simp only [Dims.take]
      split_ifs <;> ring
    simp only [hsplit]
    rw [Finset.sum_add_distrib, Finset.sum_ite_eq, if_pos (Finset.mem_univ b), ← Finset.mul_sum, ← Finset.mul_sum]
    simp only [Dims.take]
    ring

end GPX
