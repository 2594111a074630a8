import Verif.Spec.ConsistencyNear
import Mathlib.Analysis.Calculus.Deriv.Add
import Mathlib.Analysis.Calculus.Deriv.Mul

/-! # Rules for derivatives known up to an error -/

namespace GPX.Spec

theorem DerivNear.add {f g : ℝ → ℝ} {D E r s t : ℝ} (hf : DerivNear f D r t) (hg : DerivNear g E s t) :
    DerivNear (fun x => f x + g x) (D + E) (r + s) t := by
  obtain ⟨D', h1, h2⟩ := hf
  obtain ⟨E', h3, h4⟩ := hg
  refine ⟨D' + E', h1.add h3, ?_⟩
  rw [show D' + E' - (D + E) = (D' - D) + (E' - E) by ring]
  exact (abs_add_le _ _).trans (add_le_add h2 h4)

theorem DerivNear.mul {f g : ℝ → ℝ} {D E r s t : ℝ} (hf : DerivNear f D r t) (hg : DerivNear g E s t) :
    DerivNear (fun x => f x * g x) (D * g t + f t * E) (r * |g t| + |f t| * s) t := by
  obtain ⟨D', h1, h2⟩ := hf
  obtain ⟨E', h3, h4⟩ := hg
  refine ⟨D' * g t + f t * E', h1.mul h3, ?_⟩
  rw [show D' * g t + f t * E' - (D * g t + f t * E) = (D' - D) * g t + f t * (E' - E) by ring]
  refine (abs_add_le _ _).trans ?_
  rw [abs_mul, abs_mul]
  exact add_le_add (mul_le_mul_of_nonneg_right h2 (abs_nonneg _)) (mul_le_mul_of_nonneg_left h4 (abs_nonneg _))

theorem DerivNear.mul_const {f : ℝ → ℝ} {D r t : ℝ} (hf : DerivNear f D r t) (c : ℝ) :
    DerivNear (fun x => f x * c) (D * c) (r * |c|) t := by
  obtain ⟨D', h1, h2⟩ := hf
  refine ⟨D' * c, h1.mul_const c, ?_⟩
  rw [← sub_mul, abs_mul]
  exact mul_le_mul_of_nonneg_right h2 (abs_nonneg _)

theorem DerivNear.const_add {f : ℝ → ℝ} {D r t : ℝ} (hf : DerivNear f D r t) (c : ℝ) :
    DerivNear (fun x => c + f x) D r t := by
  obtain ⟨D', h1, h2⟩ := hf
  exact ⟨D', h1.const_add c, h2⟩

theorem DerivNear.sum {I : Type} [Fintype I] {f : I → ℝ → ℝ} {D r : I → ℝ} {t : ℝ}
    (h : ∀ a, DerivNear (f a) (D a) (r a) t) : DerivNear (fun x => ∑ a, f a x) (∑ a, D a) (∑ a, r a) t := by
  choose D' h1 h2 using h
  refine ⟨∑ a, D' a, HasDerivAt.fun_sum fun a _ => h1 a, ?_⟩
  rw [← Finset.sum_sub_distrib]
  exact (Finset.abs_sum_le_sum_abs _ _).trans (Finset.sum_le_sum fun a _ => h2 a)

theorem DerivNear.of_eq {f g : ℝ → ℝ} {D E r s t : ℝ} (hf : DerivNear f D r t) (h1 : ∀ x, g x = f x) (h2 : D = E)
    (h3 : r = s) : DerivNear g E s t := by
  obtain ⟨D', h4, h5⟩ := hf
  exact ⟨D', h4.congr_of_eventuallyEq (Filter.Eventually.of_forall h1), h2 ▸ h3 ▸ h5⟩

theorem DerivNear.exact {f : ℝ → ℝ} {D t : ℝ} (h : HasDerivAt f D t) : DerivNear f D 0 t :=
  ⟨D, h, by simp⟩

theorem DerivNear.scaled {f : ℝ → ℝ} {ε η D t : ℝ} (h : HasDerivAt f (ε * D) t) (he : |ε - 1| ≤ η) :
    DerivNear f D (η * |D|) t :=
  ⟨_, h, by
    rw [← sub_one_mul, abs_mul]
    exact mul_le_mul_of_nonneg_right he (abs_nonneg _)⟩

end GPX.Spec
