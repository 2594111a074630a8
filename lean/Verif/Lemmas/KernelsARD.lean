import Verif.Model.KernelsARD
import Verif.Lemmas.KernelDerivs
import Verif.Lemmas.KernelLeaves2

/-!
# Helper lemmas: one lengthscale per feature
-/

namespace GPX

open GPX.Spec

variable {d n m v v1 v2 : ℕ}

/-- Squared distance with one lengthscale per entry. -/
noncomputable def sqdV {k : ℕ} (ls x y : Fin k → ℝ) : ℝ := ∑ a, (x a / ls a - y a / ls a) ^ 2

theorem sqdV_nonneg {k : ℕ} (ls x y : Fin k → ℝ) : 0 ≤ sqdV ls x y :=
  Finset.sum_nonneg fun _ _ => sq_nonneg _

theorem sqdV_comm {k : ℕ} (ls x y : Fin k → ℝ) : sqdV ls x y = sqdV ls y x :=
  Finset.sum_congr rfl fun a _ => by ring

theorem squaredDistances_scaledARD (ad : Dims d) (ls : Fin ad.k → ℝ) (x1 : Batch n d)
    (x2 : Batch m d) (i : Fin n) (j : Fin m) :
    squaredDistances (scaledARD ad ls x1) (scaledARD ad ls x2) i j =
      sqdV ls (ad.take (x1 i)) (ad.take (x2 j)) + sqDistJitter := by
  rw [squaredDistances_eq]
  rfl

theorem sqdV_deriv_left {k : ℕ} (ls x y : Fin k → ℝ) (a : Fin k) (t : ℝ) :
    HasDerivAt (fun t => sqdV ls (Function.update x a t) y)
      (2 / ls a * (t / ls a - y a / ls a)) t := by
  unfold sqdV
  have hs : ∀ b ∈ Finset.univ, HasDerivAt
      (fun t => (Function.update x a t b / ls b - y b / ls b) ^ 2)
      (if b = a then 2 / ls a * (t / ls a - y a / ls a) else 0) t := by
    intro b _
    by_cases hb : b = a
    · subst hb
      simp only [Function.update_self, if_true]
      refine ((((hasDerivAt_id' t).div_const (ls b)).sub_const (y b / ls b)).pow 2).congr_deriv ?_
      simp; ring
    · simp only [Function.update_of_ne hb, hb, if_false]
      exact hasDerivAt_const _ _
  refine (HasDerivAt.fun_sum hs).congr_deriv ?_
  simp

theorem sqdV_deriv_right {k : ℕ} (ls x y : Fin k → ℝ) (b : Fin k) (t : ℝ) :
    HasDerivAt (fun t => sqdV ls x (Function.update y b t))
      (-(2 / ls b * (x b / ls b - t / ls b))) t := by
  have := sqdV_deriv_left ls y x b t
  simp only [fun u => sqdV_comm ls x (Function.update y b u)]
  exact this.congr_deriv (by ring)

theorem radialV_deriv_left {φ : ℝ → ℝ} {φ' : ℝ} {k : ℕ} (ls x y : Fin k → ℝ) (a : Fin k)
    (h : HasDerivAt φ φ' (sqdV ls x y)) :
    HasDerivAt (fun t => φ (sqdV ls (Function.update x a t) y))
      (φ' * (2 / ls a * (x a / ls a - y a / ls a))) (x a) := by
  have h1 := sqdV_deriv_left ls x y a (x a)
  refine HasDerivAt.comp (x a) (h₂ := φ) ?_ h1
  rw [Function.update_eq_self]; exact h

theorem radialV_deriv_right {φ : ℝ → ℝ} {φ' : ℝ} {k : ℕ} (ls x y : Fin k → ℝ) (a : Fin k)
    (h : HasDerivAt φ φ' (sqdV ls x y)) :
    HasDerivAt (fun t => φ (sqdV ls x (Function.update y a t)))
      (-(φ' * (2 / ls a * (x a / ls a - y a / ls a)))) (y a) := by
  have h1 := sqdV_deriv_right ls x y a (y a)
  refine (HasDerivAt.comp (y a) (h₂ := φ) (h₂' := φ') ?_ h1).congr_deriv (by ring)
  rw [Function.update_eq_self]; exact h

theorem radialV_deriv_mixed {φ ψ : ℝ → ℝ} {χ : ℝ} {k : ℕ} (ls x y : Fin k → ℝ) (a b : Fin k)
    (h1 : ∀ s, 0 ≤ s → HasDerivAt φ (ψ s) s) (h2 : HasDerivAt ψ χ (sqdV ls x y)) :
    HasDerivAt (fun t => deriv (fun s => φ (sqdV ls (Function.update x a s) (Function.update y b t)))
        (x a))
      (-(χ * (2 / ls b * (x b / ls b - y b / ls b))) * (2 / ls a * (x a / ls a - y a / ls a)) +
        ψ (sqdV ls x y) * (if a = b then -(2 / ls a ^ 2) else 0)) (y b) := by
  have e : ∀ t, deriv (fun s => φ (sqdV ls (Function.update x a s) (Function.update y b t))) (x a) =
      ψ (sqdV ls x (Function.update y b t)) *
        (2 / ls a * (x a / ls a - Function.update y b t a / ls a)) :=
    fun t => (radialV_deriv_left ls x (Function.update y b t) a (h1 _ (sqdV_nonneg _ _ _))).deriv
  simp only [e]
  have g : HasDerivAt (fun t => 2 / ls a * (x a / ls a - Function.update y b t a / ls a))
      (if a = b then -(2 / ls a ^ 2) else 0) (y b) := by
    by_cases hab : a = b
    · subst hab
      simp only [Function.update_self, if_true]
      refine ((((hasDerivAt_id' (y a)).div_const (ls a)).const_sub (x a / ls a)).const_mul
        (2 / ls a)).congr_deriv ?_
      by_cases hl : ls a = 0
      · simp [hl]
      · field_simp
    · simp only [Function.update_of_ne hab, hab, if_false]
      exact hasDerivAt_const _ _
  refine ((radialV_deriv_right ls x y b h2).mul g).congr_deriv ?_
  simp only [Function.update_eq_self]

/-- Derivative with respect to one of the lengthscales. -/
theorem sqdV_deriv_ls {k : ℕ} (ls x y : Fin k → ℝ) (a : Fin k) (hl : 0 < ls a) :
    HasDerivAt (fun t => sqdV (Function.update ls a t) x y)
      (-(2 * (x a / ls a - y a / ls a) ^ 2 / ls a)) (ls a) := by
  unfold sqdV
  have hs : ∀ b ∈ Finset.univ, HasDerivAt
      (fun t => (x b / Function.update ls a t b - y b / Function.update ls a t b) ^ 2)
      (if b = a then -(2 * (x a / ls a - y a / ls a) ^ 2 / ls a) else 0) (ls a) := by
    intro b _
    by_cases hb : b = a
    · subst hb
      simp only [Function.update_self, if_true]
      have h := ((hasDerivAt_const (ls b) (x b - y b)).div (hasDerivAt_id' (ls b)) hl.ne').pow 2
      have e : (fun t => (x b / t - y b / t) ^ 2) = fun t => ((x b - y b) / t) ^ 2 := by
        funext t; rw [sub_div]
      rw [e]
      refine h.congr_deriv ?_
      simp
      field_simp
      try ring
    · simp only [Function.update_of_ne hb, hb, if_false]
      exact hasDerivAt_const _ _
  refine (HasDerivAt.fun_sum hs).congr_deriv ?_
  simp

theorem seKARD_apply (ad : Dims d) (ls : Fin ad.k → ℝ) (x1 : Batch n d) (x2 : Batch m d)
    (i : Fin n) (j : Fin m) :
    seKARD ad ls x1 x2 i j =
      Real.exp (-(sqdV ls (ad.take (x1 i)) (ad.take (x2 j)) + sqDistJitter)) := by
  simp only [seKARD, squaredDistances_scaledARD]

theorem matern52DistARD_apply (ad : Dims d) (ls : Fin ad.k → ℝ) (x1 : Batch n d) (x2 : Batch m d)
    (i : Fin n) (j : Fin m) :
    matern52DistARD ad ls x1 x2 i j = m52Dist (sqdV ls (ad.take (x1 i)) (ad.take (x2 j))) := by
  simp only [matern52DistARD, squaredDistances_scaledARD, m52Dist]

theorem matern52KARD_apply (ad : Dims d) (ls : Fin ad.k → ℝ) (x1 : Batch n d) (x2 : Batch m d)
    (i : Fin n) (j : Fin m) :
    matern52KARD ad ls x1 x2 i j =
      (1 + m52Dist (sqdV ls (ad.take (x1 i)) (ad.take (x2 j))) +
        m52Dist (sqdV ls (ad.take (x1 i)) (ad.take (x2 j))) ^ 2 / 3) *
        Real.exp (-m52Dist (sqdV ls (ad.take (x1 i)) (ad.take (x2 j)))) := by
  simp only [matern52KARD, matern52DistARD_apply]

theorem bcastSamples_isOk {k : ℕ} (m : ℕ) (c : Fin k → ℝ) :
    (∃ r, bcastSamples m c = .ok r) ↔ k = m ∨ k = 1 := by
  unfold bcastSamples
  by_cases h : k = m
  · simp [h]
  · by_cases h1 : k = 1
    · simp [h1]
      by_cases h2 : 1 = m <;> simp [h2]
    · simp [h, h1]

theorem bcastSamples_const {k : ℕ} (m : ℕ) (c : ℝ) (h : k = m ∨ k = 1) :
    bcastSamples (k := k) m (fun _ => c) = .ok (fun _ => c) := by
  unfold bcastSamples
  by_cases h' : k = m
  · simp [h']
  · have h1 : k = 1 := h.resolve_left h'
    rw [dif_neg h', dif_pos h1]

theorem bcastSamples_eq {k : ℕ} (c : Fin k → ℝ) : bcastSamples k c = .ok c := by
  unfold bcastSamples
  rw [dif_pos rfl]
  rfl

end GPX
