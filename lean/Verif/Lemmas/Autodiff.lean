import Verif.Spec.Autodiff
import Mathlib.Analysis.SpecialFunctions.Pow.Deriv
import Mathlib.Analysis.SpecialFunctions.Pow.Continuity
import Mathlib.Analysis.SpecialFunctions.Sqrt
import Mathlib.Analysis.SpecialFunctions.Trigonometric.Deriv
import Mathlib.Analysis.SpecialFunctions.ExpDeriv
import Mathlib.Analysis.Calculus.Deriv.Abs
import Mathlib.Analysis.Calculus.Deriv.Pow
import Mathlib.Analysis.Calculus.Deriv.Inv
import Mathlib.Analysis.Calculus.Deriv.Add
import Mathlib.Analysis.Calculus.Deriv.Mul

/-! # Soundness of the derivative transformation `Ex.D` -/

namespace GPX.Ex

variable {V : Type}

theorem pow_exp_rule (x : ℝ) (n : ℕ) :
    ((n : ℝ)) * x ^ (if (n : ℝ) = 0 then (1 : ℝ) else (n : ℝ) - 1) = n * x ^ (n - 1) := by
  cases n with
  | zero => simp
  | succ n =>
    have h : ((n + 1 : ℕ) : ℝ) ≠ 0 := by positivity
    rw [if_neg h]
    have h2 : ((n + 1 : ℕ) : ℝ) - 1 = (n : ℕ) := by push_cast; ring
    rw [h2, Real.rpow_natCast]
    simp

/-- Evaluation is continuous at a smooth point, and smoothness is an open condition. -/
theorem Smooth.continuousAt [Finite V] {env : V → ℝ} (e : Ex V) (h : e.Smooth env) :
    ContinuousAt (fun env => e.eval env) env ∧ ∀ᶠ env' in nhds env, e.Smooth env' := by
  induction e with
  | var v => exact ⟨(continuous_apply v).continuousAt, by simp [Smooth]⟩
  | const r => exact ⟨continuousAt_const, by simp [Smooth]⟩
  | add a b iha ihb =>
    exact ⟨(iha h.1).1.add (ihb h.2).1, (iha h.1).2.and (ihb h.2).2⟩
  | mul a b iha ihb =>
    exact ⟨(iha h.1).1.mul (ihb h.2).1, (iha h.1).2.and (ihb h.2).2⟩
  | neg a iha => exact ⟨(iha h).1.neg, (iha h).2⟩
  | inv a iha =>
    exact ⟨(iha h.1).1.inv₀ h.2, (iha h.1).2.and ((iha h.1).1.eventually_ne h.2)⟩
  | exp a iha => exact ⟨(iha h).1.rexp, (iha h).2⟩
  | sin a iha => exact ⟨Real.continuous_sin.continuousAt.comp (iha h).1, (iha h).2⟩
  | cos a iha => exact ⟨Real.continuous_cos.continuousAt.comp (iha h).1, (iha h).2⟩
  | abs a iha =>
    exact ⟨(iha h.1).1.abs, (iha h.1).2.and ((iha h.1).1.eventually_ne h.2)⟩
  | absSign a iha =>
    refine ⟨?_, (iha h.1).2.and ((iha h.1).1.eventually_ne h.2)⟩
    rcases lt_or_gt_of_ne h.2 with hn | hp
    · refine (continuousAt_const (y := (-1 : ℝ))).congr ?_
      filter_upwards [(iha h.1).1.eventually_lt continuousAt_const hn] with env' h'
      simp [eval, not_le.mpr h']
    · refine (continuousAt_const (y := (1 : ℝ))).congr ?_
      filter_upwards [continuousAt_const.eventually_lt (iha h.1).1 hp] with env' h'
      simp [eval, le_of_lt h']
  | sqrt a iha =>
    exact ⟨(iha h.1).1.sqrt, (iha h.1).2.and (continuousAt_const.eventually_lt (iha h.1).1 h.2)⟩
  | maxc a c iha =>
    exact ⟨(iha h.1).1.max continuousAt_const, (iha h.1).2.and ((iha h.1).1.eventually_ne h.2)⟩
  | maxMask a c iha =>
    refine ⟨?_, (iha h.1).2.and ((iha h.1).1.eventually_ne h.2)⟩
    rcases lt_or_gt_of_ne h.2 with hn | hp
    · refine (continuousAt_const (y := (0 : ℝ))).congr ?_
      filter_upwards [(iha h.1).1.eventually_lt continuousAt_const hn] with env' h'
      simp [eval, not_lt.mpr (le_of_lt h'), h'.ne]
    · refine (continuousAt_const (y := (1 : ℝ))).congr ?_
      filter_upwards [continuousAt_const.eventually_lt (iha h.1).1 hp] with env' h'
      simp [eval, h']
  | powc a p iha =>
    rcases h.2 with h0 | ⟨n, rfl⟩
    · refine ⟨(iha h.1).1.rpow_const (Or.inl h0), ?_⟩
      filter_upwards [(iha h.1).2, (iha h.1).1.eventually_ne h0] with env' h1 h2
      exact ⟨h1, Or.inl h2⟩
    · refine ⟨(iha h.1).1.rpow_const (Or.inr (Nat.cast_nonneg n)), ?_⟩
      filter_upwards [(iha h.1).2] with env' h1
      exact ⟨h1, Or.inr ⟨n, rfl⟩⟩
  | sum a iha =>
    exact ⟨tendsto_finsetSum _ fun i _ => (iha i (h i)).1,
      Filter.eventually_all.mpr fun i => (iha i (h i)).2⟩

variable [DecidableEq V]

/-- The derivative program evaluates to the true partial derivative. -/
theorem Smooth.hasDerivAt {env : V → ℝ} (v : V) (e : Ex V) (h : e.Smooth env) :
    HasDerivAt (fun t => e.eval (Function.update env v t)) ((e.D v).eval env) (env v) := by
  have hup : ∀ a : Ex V, a.eval (Function.update env v (env v)) = a.eval env := by
    intro a; rw [Function.update_eq_self]
  induction e with
  | var w =>
    by_cases hw : w = v
    · subst hw
      simpa [eval, D] using hasDerivAt_id' (env w)
    · simpa [eval, D, hw] using hasDerivAt_const (env v) (env w)
  | const r => simpa [eval, D] using hasDerivAt_const (env v) r
  | add a b iha ihb => exact (iha h.1).add (ihb h.2)
  | mul a b iha ihb =>
    refine ((iha h.1).mul (ihb h.2)).congr_deriv ?_
    simp only [eval, D, hup]
  | neg a iha => exact (iha h).neg
  | inv a iha =>
    have h0 : a.eval (Function.update env v (env v)) ≠ 0 := by rw [hup]; exact h.2
    have := (iha h.1).inv h0
    refine this.congr_deriv ?_
    simp only [eval, D, hup]
    rw [div_eq_mul_inv, sq, mul_inv]
    ring
  | exp a iha =>
    refine (iha h).exp.congr_deriv ?_
    simp only [eval, D, hup]; ring
  | sin a iha =>
    refine (iha h).sin.congr_deriv ?_
    simp only [eval, D, hup]; ring
  | cos a iha =>
    refine (iha h).cos.congr_deriv ?_
    simp only [eval, D, hup]; ring
  | abs a iha =>
    have h0 : a.eval (Function.update env v (env v)) ≠ 0 := by rw [hup]; exact h.2
    refine (HasDerivAt.comp (h₂ := fun x : ℝ => |x|)
      (h := fun t => a.eval (Function.update env v t)) (env v) (hasDerivAt_abs h0)
      (iha h.1)).congr_deriv ?_
    simp only [eval, D, hup]
    rcases lt_or_gt_of_ne h.2 with hn | hp
    · rw [if_neg (not_le.mpr hn)]
      simp [hn]
    · rw [if_pos hp.le]
      simp [hp]
  | absSign a iha =>
    have hc := (iha h.1).continuousAt
    have h0 := h.2
    rw [← hup] at h0
    refine (hasDerivAt_const (env v) (if 0 ≤ a.eval env then (1 : ℝ) else -1)).congr_of_eventuallyEq ?_
    rcases lt_or_gt_of_ne h0 with hn | hp
    · filter_upwards [hc.eventually_lt continuousAt_const hn] with t ht
      rw [hup] at hn
      simp [eval, not_le.mpr ht, not_le.mpr hn]
    · filter_upwards [continuousAt_const.eventually_lt hc hp] with t ht
      rw [hup] at hp
      simp [eval, ht.le, hp.le]
  | sqrt a iha =>
    have h0 : a.eval (Function.update env v (env v)) ≠ 0 := by rw [hup]; exact h.2.ne'
    refine ((iha h.1).sqrt h0).congr_deriv ?_
    simp only [eval, D, hup]
    rw [div_eq_mul_inv, mul_inv]
    ring
  | maxc a c iha =>
    have hc := (iha h.1).continuousAt
    have h0 := h.2
    rw [← hup] at h0
    rcases lt_or_gt_of_ne h0 with hn | hp
    · have : (((maxc a c).D v).eval env) = 0 := by
        rw [hup] at hn
        simp [eval, D, not_lt.mpr hn.le, hn.ne]
      rw [this]
      refine (hasDerivAt_const (env v) c).congr_of_eventuallyEq ?_
      filter_upwards [hc.eventually_lt continuousAt_const hn] with t ht
      simp [eval, ht.le]
    · have : (((maxc a c).D v).eval env) = (a.D v).eval env := by
        rw [hup] at hp
        simp [eval, D, hp]
      rw [this]
      refine (iha h.1).congr_of_eventuallyEq ?_
      filter_upwards [continuousAt_const.eventually_lt hc hp] with t ht
      simp [eval, ht.le]
  | maxMask a c iha =>
    have hc := (iha h.1).continuousAt
    have h0 := h.2
    rw [← hup] at h0
    rcases lt_or_gt_of_ne h0 with hn | hp
    · refine (hasDerivAt_const (env v) (0 : ℝ)).congr_of_eventuallyEq ?_
      filter_upwards [hc.eventually_lt continuousAt_const hn] with t ht
      simp [eval, not_lt.mpr ht.le, ht.ne]
    · refine (hasDerivAt_const (env v) (1 : ℝ)).congr_of_eventuallyEq ?_
      filter_upwards [continuousAt_const.eventually_lt hc hp] with t ht
      simp [eval, ht]
  | powc a p iha =>
    rcases h.2 with h0 | ⟨n, rfl⟩
    · have h0' : a.eval (Function.update env v (env v)) ≠ 0 := by rw [hup]; exact h0
      refine ((iha h.1).rpow_const (p := p) (Or.inl h0')).congr_deriv ?_
      simp only [eval, D, hup]
      by_cases hp : p = 0
      · subst hp; simp
      · rw [if_neg hp]; ring
    · have := (iha h.1).pow n
      have he : (fun t => (powc a (n : ℝ)).eval (Function.update env v t)) =
          (fun t => a.eval (Function.update env v t)) ^ n := by
        funext t
        simp [eval]
      rw [he]
      refine this.congr_deriv ?_
      simp only [eval, D, hup]
      rw [pow_exp_rule]
      ring
  | sum a iha =>
    have := HasDerivAt.fun_sum (u := Finset.univ) fun i _ => iha i (h i)
    exact this

/-- The derivative program is smooth where the program is. -/
theorem Smooth.deriv {env : V → ℝ} (v : V) (e : Ex V) (h : e.Smooth env) : (e.D v).Smooth env := by
  induction e with
  | var w => trivial
  | const r => trivial
  | add a b iha ihb => exact ⟨iha h.1, ihb h.2⟩
  | mul a b iha ihb => exact ⟨⟨iha h.1, h.2⟩, ⟨h.1, ihb h.2⟩⟩
  | neg a iha => exact iha h
  | inv a iha => exact ⟨iha h.1, h, h⟩
  | exp a iha => exact ⟨iha h, h⟩
  | sin a iha => exact ⟨iha h, h⟩
  | cos a iha => exact ⟨iha h, h⟩
  | abs a iha => exact ⟨iha h.1, h⟩
  | absSign a iha => trivial
  | sqrt a iha => exact ⟨iha h.1, trivial, h, (Real.sqrt_pos.mpr h.2).ne'⟩
  | maxc a c iha => exact ⟨iha h.1, h⟩
  | maxMask a c iha => trivial
  | powc a p iha =>
    refine ⟨iha h.1, trivial, h.1, ?_⟩
    rcases h.2 with h0 | ⟨n, rfl⟩
    · exact Or.inl h0
    · refine Or.inr ?_
      cases n with
      | zero => exact ⟨1, by simp⟩
      | succ n =>
        refine ⟨n, ?_⟩
        rw [if_neg (by positivity)]
        push_cast; ring
  | sum a iha => exact fun i => iha i (h i)

end GPX.Ex
