import Verif.Lemmas.KernelLeaves2
import Mathlib.Analysis.Calculus.Deriv.Mul
import Mathlib.Analysis.Calculus.Deriv.Add
import Mathlib.Analysis.Calculus.Deriv.Pow
import Mathlib.Analysis.SpecialFunctions.Sqrt
import Mathlib.Analysis.SpecialFunctions.ExpDeriv
import Mathlib.Analysis.SpecialFunctions.Pow.Deriv
import Mathlib.Analysis.SpecialFunctions.Trigonometric.Deriv

/-! # Derivatives of the closed forms -/

namespace GPX
open GPX.Spec

variable {d : ℕ}

theorem Dims.take_update (ad : Dims d) (h : Function.Injective ad.idx) (x : Fin d → ℝ)
    (a : Fin ad.k) (t : ℝ) :
    ad.take (Function.update x (ad.idx a) t) = Function.update (ad.take x) a t := by
  funext b
  by_cases hb : b = a
  · subst hb; simp [Dims.take]
  · have : ad.idx b ≠ ad.idx a := fun e => hb (h e)
    simp [Dims.take, hb, this]

theorem Dims.take_update_not (ad : Dims d) (x : Fin d → ℝ) (f : Fin d) (hf : ∀ a, ad.idx a ≠ f)
    (t : ℝ) : ad.take (Function.update x f t) = ad.take x := by
  funext b
  simp [Dims.take, hf b]

theorem setFeature_row {n : ℕ} (x : Batch n d) (i : Fin n) (f : Fin d) (t : ℝ) :
    setFeature x i f t i = Function.update (x i) f t := by simp [setFeature]

theorem trueD0At_of_closed {κ : KernelObj d} {p : KPar} {ad : Dims d} {c : Core}
    (h : ClosedForm κ p ad c) (hinj : Function.Injective ad.idx) {n m : ℕ} (x1 : Batch n d)
    (x2 : Batch m d) (i : Fin n) (f : Fin d) (j : Fin m)
    (hc : ∀ a, HasDerivAt (fun t => c.K (Function.update (ad.take (x1 i)) a t) (ad.take (x2 j)))
      (c.G0 (ad.take (x1 i)) (ad.take (x2 j)) a) (ad.take (x1 i) a)) :
    TrueD0At κ p x1 x2 i f j := by
  unfold TrueD0At
  simp only [h.k, h.d0k, setFeature_row]
  rcases ad.cases_idx f with ⟨a, rfl⟩ | hf
  · simp only [ad.take_update hinj, ad.spread_idx hinj]
    exact hc a
  · simp only [ad.take_update_not _ f hf, ad.spread_not _ f hf]
    exact hasDerivAt_const _ _

theorem trueD1At_of_closed {κ : KernelObj d} {p : KPar} {ad : Dims d} {c : Core}
    (h : ClosedForm κ p ad c) (hinj : Function.Injective ad.idx) {n m : ℕ} (x1 : Batch n d)
    (x2 : Batch m d) (i : Fin n) (j : Fin m) (e : Fin d)
    (hc : ∀ b, HasDerivAt (fun t => c.K (ad.take (x1 i)) (Function.update (ad.take (x2 j)) b t))
      (c.G1 (ad.take (x1 i)) (ad.take (x2 j)) b) (ad.take (x2 j) b)) :
    TrueD1At κ p x1 x2 i j e := by
  unfold TrueD1At
  simp only [h.k, h.d1k, setFeature_row]
  rcases ad.cases_idx e with ⟨a, rfl⟩ | hf
  · simp only [ad.take_update hinj, ad.spread_idx hinj]
    exact hc a
  · simp only [ad.take_update_not _ e hf, ad.spread_not _ e hf]
    exact hasDerivAt_const _ _

theorem trueD01At_of_closed {κ : KernelObj d} {p : KPar} {ad : Dims d} {c : Core}
    (h : ClosedForm κ p ad c) (hinj : Function.Injective ad.idx) {n m : ℕ} (x1 : Batch n d)
    (x2 : Batch m d) (i : Fin n) (f : Fin d) (j : Fin m) (e : Fin d)
    (hc : ∀ a b, HasDerivAt (fun t => deriv (fun s =>
        c.K (Function.update (ad.take (x1 i)) a s) (Function.update (ad.take (x2 j)) b t))
        (ad.take (x1 i) a))
      (c.H (ad.take (x1 i)) (ad.take (x2 j)) a b) (ad.take (x2 j) b)) :
    TrueD01At κ p x1 x2 i f j e := by
  unfold TrueD01At
  simp only [h.k, h.d01k, setFeature_row]
  rcases ad.cases_idx f with ⟨a, rfl⟩ | hf
  · rcases ad.cases_idx e with ⟨b, rfl⟩ | he
    · simp only [ad.take_update hinj, ad.spread2_idx hinj]
      exact hc a b
    · simp only [ad.take_update_not _ e he, ad.spread2_not_right _ _ e he]
      exact hasDerivAt_const _ _
  · simp only [ad.take_update_not _ f hf, ad.spread2_not_left _ f _ hf, deriv_const]
    exact hasDerivAt_const _ _

/-! ## Inner derivatives -/

theorem sqd_deriv_left (l : ℝ) {k : ℕ} (x y : Fin k → ℝ) (a : Fin k) (t : ℝ) :
    HasDerivAt (fun t => sqd l (Function.update x a t) y) (2 / l * (t / l - y a / l)) t := by
  unfold sqd
  have hs : ∀ b ∈ Finset.univ, HasDerivAt
      (fun t => (Function.update x a t b / l - y b / l) ^ 2)
      (if b = a then 2 / l * (t / l - y a / l) else 0) t := by
    intro b _
    by_cases hb : b = a
    · subst hb
      simp only [Function.update_self, if_true]
      refine ((((hasDerivAt_id' t).div_const l).sub_const (y b / l)).pow 2).congr_deriv ?_
      simp; ring
    · simp only [Function.update_of_ne hb, hb, if_false]
      exact hasDerivAt_const _ _
  refine (HasDerivAt.fun_sum hs).congr_deriv ?_
  simp

theorem sqd_deriv_right (l : ℝ) {k : ℕ} (x y : Fin k → ℝ) (b : Fin k) (t : ℝ) :
    HasDerivAt (fun t => sqd l x (Function.update y b t)) (-(2 / l * (x b / l - t / l))) t := by
  have := sqd_deriv_left l y x b t
  simp only [fun u => sqd_comm l x (Function.update y b u)]
  exact this.congr_deriv (by ring)

theorem sqd_nonneg (l : ℝ) {k : ℕ} (x y : Fin k → ℝ) : 0 ≤ sqd l x y :=
  Finset.sum_nonneg fun _ _ => sq_nonneg _

/-- A radial kernel `φ(sqd)`, first derivative. -/
theorem radial_deriv_left (l : ℝ) {φ : ℝ → ℝ} {φ' : ℝ} {k : ℕ} (x y : Fin k → ℝ) (a : Fin k)
    (h : HasDerivAt φ φ' (sqd l x y)) :
    HasDerivAt (fun t => φ (sqd l (Function.update x a t) y))
      (φ' * (2 / l * (x a / l - y a / l))) (x a) := by
  have h1 := sqd_deriv_left l x y a (x a)
  refine HasDerivAt.comp (x a) (h₂ := φ) ?_ h1
  rw [Function.update_eq_self]; exact h

theorem radial_deriv_right (l : ℝ) {φ : ℝ → ℝ} {φ' : ℝ} {k : ℕ} (x y : Fin k → ℝ) (a : Fin k)
    (h : HasDerivAt φ φ' (sqd l x y)) :
    HasDerivAt (fun t => φ (sqd l x (Function.update y a t)))
      (-(φ' * (2 / l * (x a / l - y a / l)))) (y a) := by
  have h1 := sqd_deriv_right l x y a (y a)
  refine (HasDerivAt.comp (y a) (h₂ := φ) (h₂' := φ') ?_ h1).congr_deriv (by ring)
  rw [Function.update_eq_self]; exact h

/-- A radial kernel, mixed second derivative. -/
theorem radial_deriv_mixed (l : ℝ) {φ ψ : ℝ → ℝ} {χ : ℝ} {k : ℕ} (x y : Fin k → ℝ) (a b : Fin k)
    (h1 : ∀ s, 0 ≤ s → HasDerivAt φ (ψ s) s) (h2 : HasDerivAt ψ χ (sqd l x y)) :
    HasDerivAt (fun t => deriv (fun s => φ (sqd l (Function.update x a s) (Function.update y b t)))
        (x a))
      (-(χ * (2 / l * (x b / l - y b / l))) * (2 / l * (x a / l - y a / l)) +
        ψ (sqd l x y) * (if a = b then -(2 / l ^ 2) else 0)) (y b) := by
  have e : ∀ t, deriv (fun s => φ (sqd l (Function.update x a s) (Function.update y b t))) (x a) =
      ψ (sqd l x (Function.update y b t)) * (2 / l * (x a / l - Function.update y b t a / l)) :=
    fun t => (radial_deriv_left l x (Function.update y b t) a (h1 _ (sqd_nonneg _ _ _))).deriv
  simp only [e]
  have g : HasDerivAt (fun t => 2 / l * (x a / l - Function.update y b t a / l))
      (if a = b then -(2 / l ^ 2) else 0) (y b) := by
    by_cases hab : a = b
    · subst hab
      simp only [Function.update_self, if_true]
      refine ((((hasDerivAt_id' (y a)).div_const l).const_sub (x a / l)).const_mul
        (2 / l)).congr_deriv ?_
      by_cases hl : l = 0
      · simp [hl]
      · field_simp
    · simp only [Function.update_of_ne hab, hab, if_false]
      exact hasDerivAt_const _ _
  refine ((radial_deriv_right l x y b h2).mul g).congr_deriv ?_
  simp only [Function.update_eq_self]

theorem dot_deriv_left {k : ℕ} (x y : Fin k → ℝ) (a : Fin k) (t : ℝ) :
    HasDerivAt (fun t => ∑ b, Function.update x a t b * y b) (y a) t := by
  have hs : ∀ b ∈ Finset.univ, HasDerivAt (fun t => Function.update x a t b * y b)
      (if b = a then y a else 0) t := by
    intro b _
    by_cases hb : b = a
    · subst hb
      simp only [Function.update_self, if_true]
      exact ((hasDerivAt_id' t).mul_const (y b)).congr_deriv (one_mul _)
    · simp only [Function.update_of_ne hb, hb, if_false]
      exact hasDerivAt_const _ _
  refine (HasDerivAt.fun_sum hs).congr_deriv ?_
  simp

theorem dot_deriv_right {k : ℕ} (x y : Fin k → ℝ) (a : Fin k) (t : ℝ) :
    HasDerivAt (fun t => ∑ b, x b * Function.update y a t b) (x a) t := by
  simp only [fun u => dot_comm x (Function.update y a u)]
  exact dot_deriv_left y x a t

/-! ## The Matern profile functions -/

theorem hasDerivAt_sqrt_mul {c s : ℝ} (hc : 0 < c) (hs : 0 < s) :
    HasDerivAt (fun s => Real.sqrt (c * s)) (c / (2 * Real.sqrt (c * s))) s := by
  have h := ((hasDerivAt_id' s).const_mul c).sqrt (mul_pos hc hs).ne'
  exact h.congr_deriv (by rw [mul_one])

theorem m32_profile {s : ℝ} (hs : 0 < s) :
    HasDerivAt (fun s => (1 + Real.sqrt (3 * s)) * Real.exp (-Real.sqrt (3 * s)))
      (-(3 / 2) * Real.exp (-Real.sqrt (3 * s))) s := by
  have hr := hasDerivAt_sqrt_mul (c := 3) (by norm_num) hs
  have hpos : 0 < Real.sqrt (3 * s) := Real.sqrt_pos.mpr (by positivity)
  refine ((hr.const_add 1).mul hr.neg.exp).congr_deriv ?_
  simp only [Pi.neg_apply]
  field_simp
  ring

theorem m52_profile {s : ℝ} (hs : 0 < s) :
    HasDerivAt (fun s => (1 + Real.sqrt (5 * s) + 5 * s / 3) * Real.exp (-Real.sqrt (5 * s)))
      (-(5 / 6) * (1 + Real.sqrt (5 * s)) * Real.exp (-Real.sqrt (5 * s))) s := by
  have hr := hasDerivAt_sqrt_mul (c := 5) (by norm_num) hs
  have hpos : 0 < Real.sqrt (5 * s) := Real.sqrt_pos.mpr (by positivity)
  have hsq : Real.sqrt (5 * s) ^ 2 = 5 * s := Real.sq_sqrt (by positivity)
  have h5 := ((hasDerivAt_id' s).const_mul 5).div_const 3
  refine (((hr.const_add 1).add h5).mul hr.neg.exp).congr_deriv ?_
  simp only [Pi.neg_apply, Pi.add_apply]
  field_simp
  linear_combination 6 * hsq

theorem m52_profile' {s : ℝ} (hs : 0 < s) :
    HasDerivAt (fun s => -(5 / 6) * (1 + Real.sqrt (5 * s)) * Real.exp (-Real.sqrt (5 * s)))
      (25 / 12 * Real.exp (-Real.sqrt (5 * s))) s := by
  have hr := hasDerivAt_sqrt_mul (c := 5) (by norm_num) hs
  have hpos : 0 < Real.sqrt (5 * s) := Real.sqrt_pos.mpr (by positivity)
  refine (((hr.const_add 1).const_mul (-(5 / 6))).mul hr.neg.exp).congr_deriv ?_
  simp only [Pi.neg_apply]
  field_simp
  ring

end GPX
