import Mathlib.Analysis.Normed.Module.Basic
import Mathlib.Analysis.Normed.Group.Constructions
import Mathlib.Topology.Algebra.Order.Field
import Mathlib.LinearAlgebra.Matrix.NonsingularInverse
import Mathlib.Analysis.Real.Sqrt

/-! # Unknowns with a large diagonal entry drop out of a linear system -/

namespace GPX
open Matrix Filter

variable {I I' : Type} [Fintype I] [Fintype I'] [DecidableEq I]

theorem mulVec_bound (S : Matrix I' I' ℝ) (c : I' → ℝ) : ‖S *ᵥ c‖ ≤ (∑ i, ∑ j, |S i j|) * ‖c‖ := by
  have h0 : 0 ≤ ∑ i, ∑ j, |S i j| := Finset.sum_nonneg fun i _ => Finset.sum_nonneg fun j _ => abs_nonneg _
  refine (pi_norm_le_iff_of_nonneg (mul_nonneg h0 (norm_nonneg _))).2 fun i => ?_
  have h1 : ‖(S *ᵥ c) i‖ ≤ ∑ j, |S i j| * ‖c‖ := by
    refine (norm_sum_le _ _).trans (Finset.sum_le_sum fun j _ => ?_)
    rw [norm_mul, Real.norm_eq_abs]
    exact mul_le_mul_of_nonneg_left (norm_le_pi_norm c j) (abs_nonneg _)
  rw [← Finset.sum_mul] at h1
  refine h1.trans (mul_le_mul_of_nonneg_right ?_ (norm_nonneg _))
  exact Finset.single_le_sum (f := fun i => ∑ j, |S i j|)
    (fun i _ => Finset.sum_nonneg fun j _ => abs_nonneg _) (Finset.mem_univ i)

theorem dot_bound (g c : I' → ℝ) : |g ⬝ᵥ c| ≤ (∑ j, |g j|) * ‖c‖ := by
  rw [Finset.sum_mul]
  refine (Finset.abs_sum_le_sum_abs _ _).trans (Finset.sum_le_sum fun j _ => ?_)
  rw [abs_mul]
  exact mul_le_mul_of_nonneg_left (norm_le_pi_norm c j) (abs_nonneg _)

/-- What remains of the second block of unknowns. -/
theorem second_block {A : Matrix I I ℝ} (hA : IsUnit A.det) (C : Matrix I I' ℝ) (B : Matrix I' I ℝ) (D : Matrix I' I' ℝ)
    {b : ℝ} (r1 : I → ℝ) (r2 : I' → ℝ) (c0 : I → ℝ) (h0 : A *ᵥ c0 = r1) (c1 : I → ℝ) (c2 : I' → ℝ)
    (h1 : A *ᵥ c1 + C *ᵥ c2 = r1) (h2 : B *ᵥ c1 + D *ᵥ c2 + b • c2 = r2) :
    c1 = c0 - (A⁻¹ * C) *ᵥ c2 ∧
    (b - ∑ i, ∑ j, |(D - B * (A⁻¹ * C)) i j|) * ‖c2‖ ≤ ‖r2 - B *ᵥ c0‖ := by
  have e1 : c1 = c0 - (A⁻¹ * C) *ᵥ c2 := by
    have : A *ᵥ c1 = A *ᵥ c0 - C *ᵥ c2 := by rw [h0, ← h1]; abel
    calc c1 = A⁻¹ *ᵥ (A *ᵥ c1) := by rw [Matrix.mulVec_mulVec, Matrix.nonsing_inv_mul _ hA, Matrix.one_mulVec]
      _ = _ := by
        rw [this, Matrix.mulVec_sub, Matrix.mulVec_mulVec, Matrix.mulVec_mulVec, Matrix.nonsing_inv_mul _ hA,
          Matrix.one_mulVec]
  refine ⟨e1, ?_⟩
  have e2 : b • c2 = (r2 - B *ᵥ c0) - (D - B * (A⁻¹ * C)) *ᵥ c2 := by
    rw [← h2, e1, Matrix.sub_mulVec, Matrix.mulVec_sub, Matrix.mulVec_mulVec]
    abel
  have e3 : b * ‖c2‖ ≤ ‖b • c2‖ := by
    rw [norm_smul]
    exact mul_le_mul_of_nonneg_right (le_abs_self b) (norm_nonneg _)
  have e4 := norm_sub_le (r2 - B *ᵥ c0) ((D - B * (A⁻¹ * C)) *ᵥ c2)
  rw [← e2] at e4
  have e5 := mulVec_bound (D - B * (A⁻¹ * C)) c2
  rw [sub_mul]
  linarith

/-- With a large enough `b` the system has no solution but zero when the right-hand side is zero. -/
theorem system_injective {A : Matrix I I ℝ} (hA : IsUnit A.det) (C : Matrix I I' ℝ) (B : Matrix I' I ℝ)
    (D : Matrix I' I' ℝ) {b : ℝ} (hb : ∑ i, ∑ j, |(D - B * (A⁻¹ * C)) i j| < b) (c1 : I → ℝ) (c2 : I' → ℝ)
    (h1 : A *ᵥ c1 + C *ᵥ c2 = 0) (h2 : B *ᵥ c1 + D *ᵥ c2 + b • c2 = 0) : c1 = 0 ∧ c2 = 0 := by
  obtain ⟨e1, e2⟩ := second_block hA C B D 0 0 0 (Matrix.mulVec_zero A) c1 c2 h1 h2
  have hz : c2 = 0 := by
    rw [Matrix.mulVec_zero, sub_zero, norm_zero] at e2
    have : ‖c2‖ ≤ 0 := by
      by_contra hc
      have := mul_pos (sub_pos.2 hb) (not_le.1 hc)
      linarith
    exact norm_eq_zero.1 (le_antisymm this (norm_nonneg _))
  refine ⟨?_, hz⟩
  rw [e1, hz, Matrix.mulVec_zero, sub_zero]

/-- A linear function of the solution tends to its value for the first block alone. -/
theorem ignored_limit {A : Matrix I I ℝ} (hA : IsUnit A.det) (C : Matrix I I' ℝ) (B : Matrix I' I ℝ) (D : Matrix I' I' ℝ)
    (r1 : I → ℝ) (r2 : I' → ℝ) (c0 : I → ℝ) (h0 : A *ᵥ c0 = r1) (k1 : I → ℝ) (k2 : I' → ℝ) {b : ℝ → ℝ}
    (hb : Tendsto b atTop atTop) (c1 : ℝ → I → ℝ) (c2 : ℝ → I' → ℝ)
    (h1 : ∀ᶠ s in atTop, A *ᵥ c1 s + C *ᵥ c2 s = r1)
    (h2 : ∀ᶠ s in atTop, B *ᵥ c1 s + D *ᵥ c2 s + b s • c2 s = r2) :
    Tendsto (fun s => k1 ⬝ᵥ c1 s + k2 ⬝ᵥ c2 s) atTop (nhds (k1 ⬝ᵥ c0)) := by
  set β := ∑ i, ∑ j, |(D - B * (A⁻¹ * C)) i j| with hβ
  set g := k2 - k1 ᵥ* (A⁻¹ * C) with hg
  set R := ‖r2 - B *ᵥ c0‖ with hR
  have hlim : Tendsto (fun s => ((∑ j, |g j|) * R) / (b s - β)) atTop (nhds 0) :=
    (tendsto_atTop_add_const_right _ (-β) hb).const_div_atTop _
  refine tendsto_iff_norm_sub_tendsto_zero.2 (squeeze_zero' (Eventually.of_forall fun s => norm_nonneg _) ?_ hlim)
  filter_upwards [h1, h2, hb.eventually_gt_atTop β] with s e1 e2 hs
  obtain ⟨f1, f2⟩ := second_block hA C B D r1 r2 c0 h0 (c1 s) (c2 s) e1 e2
  have hd : k1 ⬝ᵥ c1 s + k2 ⬝ᵥ c2 s - k1 ⬝ᵥ c0 = g ⬝ᵥ c2 s := by
    rw [f1, hg, dotProduct_sub, sub_dotProduct, Matrix.dotProduct_mulVec]
    ring
  rw [hd, Real.norm_eq_abs]
  have hpos : 0 < b s - β := sub_pos.2 hs
  have f3 : ‖c2 s‖ ≤ R / (b s - β) := by
    rw [le_div_iff₀ hpos, mul_comm]
    exact f2
  refine (dot_bound g (c2 s)).trans ?_
  rw [mul_div_assoc]
  exact mul_le_mul_of_nonneg_left f3 (Finset.sum_nonneg fun j _ => abs_nonneg _)

end GPX
