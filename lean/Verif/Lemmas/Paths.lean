import Verif.Lemmas.JointPSD
import Verif.Spec.Consistency
import Mathlib.Analysis.Calculus.FDeriv.Pi
import Mathlib.Analysis.Calculus.Deriv.Pi
import Mathlib.Analysis.Calculus.FDeriv.Comp
import Mathlib.Analysis.Calculus.MeanValue

/-! # From partial derivatives to derivatives along paths -/

namespace GPX
open GPX.Spec Filter Topology

variable {d : ℕ}

/-- The point with the first `m` coordinates of `y` and the others of `x`. -/
def cut (x y : Fin d → ℝ) (m : ℕ) : Fin d → ℝ := fun i => if i.val < m then y i else x i

theorem cut_zero (x y : Fin d → ℝ) : cut x y 0 = x := by funext i; simp [cut]

theorem cut_last (x y : Fin d → ℝ) : cut x y d = y := by funext i; simp [cut]

theorem cut_succ (x y : Fin d → ℝ) (a : Fin d) :
    cut x y (a.val + 1) = Function.update (cut x y a.val) a (y a) := by
  funext i
  by_cases h : i = a
  · subst h; simp [cut]
  · have : i.val ≠ a.val := fun e => h (Fin.ext e)
    rw [Function.update_of_ne h]
    simp only [cut]
    by_cases h2 : i.val < a.val
    · rw [if_pos h2, if_pos (by omega)]
    · rw [if_neg h2, if_neg (by omega)]

theorem cut_self (x y : Fin d → ℝ) (a : Fin d) : Function.update (cut x y a.val) a (x a) = cut x y a.val := by
  funext i
  by_cases h : i = a
  · subst h; simp [cut]
  · rw [Function.update_of_ne h]

/-- One step of the telescoping sum, by the mean value theorem. -/
theorem partial_step {f : (Fin d → ℝ) → ℝ} {g : (Fin d → ℝ) → Fin d → ℝ}
    (h : ∀ x a, HasDerivAt (fun t => f (Function.update x a t)) (g x a) (x a)) (x y : Fin d → ℝ) (a : Fin d) :
    ∃ ξ, (∀ i, |ξ i - x i| ≤ |y i - x i|) ∧
      f (cut x y (a.val + 1)) - f (cut x y a.val) = g ξ a * (y a - x a) := by
  have hd : ∀ t, HasDerivAt (fun t => f (Function.update (cut x y a.val) a t))
      (g (Function.update (cut x y a.val) a t) a) t := fun t => by
    have := h (Function.update (cut x y a.val) a t) a
    simpa only [Function.update_idem, Function.update_self] using this
  have near : ∀ t, |t - x a| ≤ |y a - x a| →
      ∀ i, |Function.update (cut x y a.val) a t i - x i| ≤ |y i - x i| := fun t ht i => by
    by_cases hi : i = a
    · subst hi; simpa using ht
    · rw [Function.update_of_ne hi]
      simp only [cut]
      split_ifs
      · exact le_rfl
      · simp
  rw [cut_succ]
  conv => enter [1, ξ, 2]; rw [← cut_self x y a]
  simp only [Function.update_idem]
  rcases lt_trichotomy (x a) (y a) with hlt | heq | hgt
  · obtain ⟨c, hc, he⟩ := exists_hasDerivAt_eq_slope (fun t => f (Function.update (cut x y a.val) a t))
      (fun t => g (Function.update (cut x y a.val) a t) a) hlt
      (fun t _ => (hd t).continuousAt.continuousWithinAt) (fun t _ => hd t)
    refine ⟨_, near c ?_, ?_⟩
    · rw [abs_of_nonneg (by linarith [hc.1]), abs_of_nonneg (by linarith)]; linarith [hc.2]
    · rw [he, div_mul_cancel₀ _ (by linarith)]
  · refine ⟨x, fun i => by simp, ?_⟩
    rw [heq]; simp
  · obtain ⟨c, hc, he⟩ := exists_hasDerivAt_eq_slope (fun t => f (Function.update (cut x y a.val) a t))
      (fun t => g (Function.update (cut x y a.val) a t) a) hgt
      (fun t _ => (hd t).continuousAt.continuousWithinAt) (fun t _ => hd t)
    refine ⟨_, near c ?_, ?_⟩
    · rw [abs_of_nonpos (by linarith [hc.2]), abs_of_nonpos (by linarith)]; linarith [hc.1]
    · rw [he, ← neg_sub (x a) (y a), mul_neg, div_mul_cancel₀ _ (by linarith), neg_sub]

theorem telescope (F : ℕ → ℝ) : F d - F 0 = ∑ a : Fin d, (F (a.val + 1) - F a.val) := by
  rw [← Finset.sum_range_sub F d, Finset.sum_range]

/-- A function with continuous partial derivatives is differentiable along every differentiable path, and its
derivative is given by the chain rule. -/
theorem hasDerivAt_path {f : (Fin d → ℝ) → ℝ} {g : (Fin d → ℝ) → Fin d → ℝ}
    (h : ∀ x a, HasDerivAt (fun t => f (Function.update x a t)) (g x a) (x a))
    (hc : ∀ a, Continuous fun x => g x a) {γ : ℝ → Fin d → ℝ} {γ' : Fin d → ℝ} {t : ℝ}
    (hγ : ∀ a, HasDerivAt (fun s => γ s a) (γ' a) t) :
    HasDerivAt (fun s => f (γ s)) (∑ a, g (γ t) a * γ' a) t := by
  choose ξ hξ he using fun (y : Fin d → ℝ) (a : Fin d) => partial_step h (γ t) y a
  have hsum : ∀ s, f (γ s) - f (γ t) = ∑ a, g (ξ (γ s) a) a * (γ s a - γ t a) := fun s => by
    have := telescope (d := d) fun m => f (cut (γ t) (γ s) m)
    rw [cut_zero, cut_last] at this
    rw [this]
    exact Finset.sum_congr rfl fun a _ => he (γ s) a
  have hξt : ∀ a, Tendsto (fun s => ξ (γ s) a) (𝓝[≠] t) (𝓝 (γ t)) := fun a => by
    rw [tendsto_pi_nhds]
    intro i
    rw [tendsto_iff_dist_tendsto_zero]
    have hγi : Tendsto (fun s => |γ s i - γ t i|) (𝓝[≠] t) (𝓝 0) := by
      have := (hγ i).continuousAt.tendsto.mono_left (nhdsWithin_le_nhds (s := {t}ᶜ))
      have := (this.sub_const (γ t i)).abs
      simpa using this
    exact squeeze_zero (fun s => dist_nonneg) (fun s => by rw [Real.dist_eq]; exact hξ (γ s) a i) hγi
  rw [hasDerivAt_iff_tendsto_slope]
  have hs : ∀ s, slope (fun s => f (γ s)) t s = ∑ a, g (ξ (γ s) a) a * slope (fun s => γ s a) t s := fun s => by
    simp only [slope_def_field, hsum s, Finset.sum_div, mul_div_assoc]
  refine Tendsto.congr (fun s => (hs s).symm) ?_
  exact tendsto_finsetSum _ fun a _ =>
    (((hc a).tendsto (γ t)).comp (hξt a)).mul (hasDerivAt_iff_tendsto_slope.1 (hγ a))

/-! ## Kernels along paths -/

section Kernels
open Spec

variable {n m v w : ℕ} {κ : KernelObj d} {p : KPar}

theorem path_k0 (hs : SampleWise κ p) {g : (Fin d → ℝ) → (Fin d → ℝ) → Fin d → ℝ}
    (h : ∀ x y f, HasDerivAt (fun t => κ.k p (setFeature (one x) 0 f t) (one y) 0 0) (g x y f) (x f))
    (hc : ∀ y f, Continuous fun x => g x y f) (x1 : ℝ → Batch n d) (x2 : Batch m d) (t : ℝ) (J : Jac n d v)
    (u : Fin v) (hm : Moves x1 t J u) (i : Fin n) (j : Fin m) :
    HasDerivAt (fun s => κ.k p (x1 s) x2 i j) (∑ f, g (x1 t i) (x2 j) f * J i f u) t := by
  have := hasDerivAt_path (f := fun x => κ.k p (one x) (one (x2 j)) 0 0) (g := fun x f => g x (x2 j) f)
    (fun x a => by simpa only [setFeature_one] using h x (x2 j) a) (fun a => hc _ _) (γ := fun s => x1 s i)
    (γ' := fun f => J i f u) (t := t) (fun a => hm i a)
  refine this.congr_of_eventuallyEq (Filter.Eventually.of_forall fun s => ?_)
  exact (hs.k (x1 s) x2 (fun _ : Fin 1 => i) (fun _ : Fin 1 => j) 0 0).symm

theorem path_k1 (hs : SampleWise κ p) {g : (Fin d → ℝ) → (Fin d → ℝ) → Fin d → ℝ}
    (h : ∀ x y f, HasDerivAt (fun t => κ.k p (one x) (setFeature (one y) 0 f t) 0 0) (g x y f) (y f))
    (hc : ∀ x f, Continuous fun y => g x y f) (x1 : Batch n d) (x2 : ℝ → Batch m d) (t : ℝ) (J : Jac m d v)
    (u : Fin v) (hm : Moves x2 t J u) (i : Fin n) (j : Fin m) :
    HasDerivAt (fun s => κ.k p x1 (x2 s) i j) (∑ f, g (x1 i) (x2 t j) f * J j f u) t := by
  have := hasDerivAt_path (f := fun y => κ.k p (one (x1 i)) (one y) 0 0) (g := fun y f => g (x1 i) y f)
    (fun x a => by simpa only [setFeature_one] using h (x1 i) x a) (fun a => hc _ _) (γ := fun s => x2 s j)
    (γ' := fun f => J j f u) (t := t) (fun a => hm j a)
  refine this.congr_of_eventuallyEq (Filter.Eventually.of_forall fun s => ?_)
  exact (hs.k x1 (x2 s) (fun _ : Fin 1 => i) (fun _ : Fin 1 => j) 0 0).symm

theorem path_d0k (hs : SampleWise κ p) {g : (Fin d → ℝ) → (Fin d → ℝ) → Fin d → Fin d → ℝ}
    (h : ∀ x y f e, HasDerivAt (fun t => κ.d0k p (one x) (setFeature (one y) 0 e t) (flat 0 f) 0) (g x y f e) (y e))
    (hc : ∀ x f e, Continuous fun y => g x y f e) (x1 : Batch n d) (x2 : ℝ → Batch m d) (t : ℝ) (J : Jac m d v)
    (u : Fin v) (hm : Moves x2 t J u) (i : Fin n) (f : Fin d) (j : Fin m) :
    HasDerivAt (fun s => κ.d0k p x1 (x2 s) (flat i f) j) (∑ e, g (x1 i) (x2 t j) f e * J j e u) t := by
  have := hasDerivAt_path (f := fun y => κ.d0k p (one (x1 i)) (one y) (flat 0 f) 0)
    (g := fun y e => g (x1 i) y f e)
    (fun x a => by simpa only [setFeature_one] using h (x1 i) x f a) (fun a => hc _ _ _) (γ := fun s => x2 s j)
    (γ' := fun e => J j e u) (t := t) (fun a => hm j a)
  refine this.congr_of_eventuallyEq (Filter.Eventually.of_forall fun s => ?_)
  exact (hs.d0k x1 (x2 s) (fun _ : Fin 1 => i) (fun _ : Fin 1 => j) 0 f 0).symm

/-- The derivative of `d0k` in the second argument, from the true derivatives of the kernel. -/
theorem d0k_hasDerivAt (h0 : ∀ x y f, TrueD0At κ p (one x) (one y) 0 f 0)
    (h01 : ∀ x y f e, TrueD01At κ p (one x) (one y) 0 f 0 e) (x y : Fin d → ℝ) (f e : Fin d) :
    HasDerivAt (fun t => κ.d0k p (one x) (setFeature (one y) 0 e t) (flat 0 f) 0)
      (κ.d01k p (one x) (one y) (flat 0 f) (flat 0 e)) (y e) := by
  have h := h01 x y f e
  unfold TrueD01At at h
  refine h.congr_of_eventuallyEq (Filter.Eventually.of_forall fun t => ?_)
  have := h0 x (Function.update y e t) f
  unfold TrueD0At at this
  rw [← setFeature_one] at this
  exact this.deriv.symm

theorem pathScaled_leaf {ε : ℝ} (hs : SampleWise κ p) (hcon : Contracts0 κ p ∧ Contracts1 κ p ∧ Contracts01 κ p)
    (h0 : ∀ x y f, HasDerivAt (fun t => κ.k p (setFeature (one x) 0 f t) (one y) 0 0)
      (ε * κ.d0k p (one x) (one y) (flat 0 f) 0) (x f))
    (h1 : ∀ x y f, HasDerivAt (fun t => κ.k p (one x) (setFeature (one y) 0 f t) 0 0)
      (ε * κ.d1k p (one x) (one y) 0 (flat 0 f)) (y f))
    (h01 : ∀ x y f e, HasDerivAt (fun t => κ.d0k p (one x) (setFeature (one y) 0 e t) (flat 0 f) 0)
      (ε⁻¹ * κ.d01k p (one x) (one y) (flat 0 f) (flat 0 e)) (y e))
    (c0 : ∀ f, Continuous fun q : (Fin d → ℝ) × (Fin d → ℝ) => κ.d0k p (one q.1) (one q.2) (flat 0 f) 0)
    (c1 : ∀ f, Continuous fun q : (Fin d → ℝ) × (Fin d → ℝ) => κ.d1k p (one q.1) (one q.2) 0 (flat 0 f))
    (c01 : ∀ f e, Continuous fun q : (Fin d → ℝ) × (Fin d → ℝ) =>
      κ.d01k p (one q.1) (one q.2) (flat 0 f) (flat 0 e)) : PathScaled ε κ p where
  d0 x1 x2 t J u hm i j := by
    refine (path_k0 hs h0 (fun y f => continuous_const.mul ((c0 f).comp (Continuous.prodMk_left y)))
      x1 x2 t J u hm i j).congr_deriv ?_
    rw [hcon.1, Finset.mul_sum]
    refine Finset.sum_congr rfl fun f _ => ?_
    rw [mul_assoc, mul_comm (J i f u)]
    congr 2
    exact hs.d0k (x1 t) x2 (fun _ : Fin 1 => i) (fun _ : Fin 1 => j) 0 f 0
  d1 x1 x2 t J u hm i j := by
    refine (path_k1 hs h1 (fun x f => continuous_const.mul ((c1 f).comp (Continuous.prodMk_right x)))
      x1 x2 t J u hm i j).congr_deriv ?_
    rw [hcon.2.1, Finset.mul_sum]
    refine Finset.sum_congr rfl fun f _ => ?_
    rw [mul_assoc]
    congr 2
    exact hs.d1k x1 (x2 t) (fun _ : Fin 1 => i) (fun _ : Fin 1 => j) 0 0 f
  d01 x1 J1 x2 t J2 u hm i q j := by
    have hp := fun f => path_d0k hs h01 (fun x f e => continuous_const.mul ((c01 f e).comp (Continuous.prodMk_right x)))
      x1 x2 t J2 u hm i f j
    have hsum := HasDerivAt.fun_sum (u := Finset.univ) fun f _ => (hp f).const_mul (J1 i f q)
    rw [hcon.2.2]
    refine (hsum.congr_of_eventuallyEq (Filter.Eventually.of_forall fun s => ?_)).congr_deriv ?_
    · exact hcon.1 _ _ _ x1 (x2 s) J1 i q j
    · rw [Finset.mul_sum]
      refine Finset.sum_congr rfl fun f _ => ?_
      rw [Finset.mul_sum, Finset.mul_sum]
      refine Finset.sum_congr rfl fun e _ => ?_
      have : κ.d01k p (one (x1 i)) (one (x2 t j)) (flat 0 f) (flat 0 e) = κ.d01k p x1 (x2 t) (flat i f) (flat j e) :=
        hs.d01k x1 (x2 t) (fun _ : Fin 1 => i) (fun _ : Fin 1 => j) 0 f 0 e
      rw [this]
      ring

theorem Spec.PathScaled.pathTrue (h : PathScaled 1 κ p) : PathTrue κ p where
  d0 x1 x2 t J u hm i j := by simpa using h.d0 x1 x2 t J u hm i j
  d1 x1 x2 t J u hm i j := by simpa using h.d1 x1 x2 t J u hm i j
  d01 x1 J1 x2 t J2 u hm i q j := by simpa using h.d01 x1 J1 x2 t J2 u hm i q j

theorem Spec.PathTrue.scaled (h : PathTrue κ p) : PathScaled 1 κ p where
  d0 x1 x2 t J u hm i j := by simpa using h.d0 x1 x2 t J u hm i j
  d1 x1 x2 t J u hm i j := by simpa using h.d1 x1 x2 t J u hm i j
  d01 x1 J1 x2 t J2 u hm i q j := by simpa using h.d01 x1 J1 x2 t J2 u hm i q j

theorem pathTrue_leaf (hs : SampleWise κ p) (hcon : Contracts0 κ p ∧ Contracts1 κ p ∧ Contracts01 κ p)
    (h0 : ∀ x y f, TrueD0At κ p (one x) (one y) 0 f 0) (h1 : ∀ x y f, TrueD1At κ p (one x) (one y) 0 0 f)
    (h01 : ∀ x y f e, TrueD01At κ p (one x) (one y) 0 f 0 e)
    (c0 : ∀ f, Continuous fun q : (Fin d → ℝ) × (Fin d → ℝ) => κ.d0k p (one q.1) (one q.2) (flat 0 f) 0)
    (c1 : ∀ f, Continuous fun q : (Fin d → ℝ) × (Fin d → ℝ) => κ.d1k p (one q.1) (one q.2) 0 (flat 0 f))
    (c01 : ∀ f e, Continuous fun q : (Fin d → ℝ) × (Fin d → ℝ) =>
      κ.d01k p (one q.1) (one q.2) (flat 0 f) (flat 0 e)) : PathTrue κ p :=
  (pathScaled_leaf hs hcon (fun x y f => by rw [one_mul]; exact h0 x y f)
    (fun x y f => by rw [one_mul]; exact h1 x y f)
    (fun x y f e => by rw [inv_one, one_mul]; exact d0k_hasDerivAt h0 h01 x y f e) c0 c1 c01).pathTrue

theorem Spec.PathTrue.sum {κ1 κ2 : KernelObj d} (h1 : PathTrue κ1 (p.sub "kernel1"))
    (h2 : PathTrue κ2 (p.sub "kernel2")) : PathTrue (κ1.sum κ2) p where
  d0 x1 x2 t J u hm i j := (h1.d0 x1 x2 t J u hm i j).add (h2.d0 x1 x2 t J u hm i j)
  d1 x1 x2 t J u hm i j := (h1.d1 x1 x2 t J u hm i j).add (h2.d1 x1 x2 t J u hm i j)
  d01 x1 J1 x2 t J2 u hm i q j := (h1.d01 x1 J1 x2 t J2 u hm i q j).add (h2.d01 x1 J1 x2 t J2 u hm i q j)

theorem Spec.PathTrue.prod {κ1 κ2 : KernelObj d} (h1 : PathTrue κ1 (p.sub "kernel1"))
    (h2 : PathTrue κ2 (p.sub "kernel2")) : PathTrue (κ1.prod κ2) p where
  d0 x1 x2 t J u hm i j := by
    refine ((h1.d0 x1 x2 t J u hm i j).mul (h2.d0 x1 x2 t J u hm i j)).congr_deriv ?_
    simp only [KernelObj.prod, prodDeriv0Jac, Arr2.mul, Arr2.add, repeatRows_flat]
    ring
  d1 x1 x2 t J u hm i j := by
    refine ((h1.d1 x1 x2 t J u hm i j).mul (h2.d1 x1 x2 t J u hm i j)).congr_deriv ?_
    simp only [KernelObj.prod, prodDeriv1Jac, Arr2.mul, Arr2.add, repeatCols_flat]
    ring
  d01 x1 J1 x2 t J2 u hm i q j := by
    have a := (h1.d01 x1 J1 x2 t J2 u hm i q j).mul (h2.d1 x1 x2 t J2 u hm i j)
    have b := (h1.d1 x1 x2 t J2 u hm i j).mul (h2.d01 x1 J1 x2 t J2 u hm i q j)
    refine ((a.add b).congr_of_eventuallyEq (Filter.Eventually.of_forall fun s => ?_)).congr_deriv ?_
    · simp only [KernelObj.prod, prodDeriv0Jac, Arr2.mul, Arr2.add, repeatRows_flat, Pi.add_apply, Pi.mul_apply]
      ring
    · simp only [KernelObj.prod, prodDeriv01Jac, Arr2.mul, Arr2.add, repeatCols_flat, repeatRows_flat]
      ring

/-- Continuity of the first derivatives, from the closed form. -/
theorem continuous_d0k_of_closed {ad : Dims d} {c : Core} (h : ClosedForm κ p ad c)
    (hinj : Function.Injective ad.idx)
    (hH : ∀ a, Continuous fun q : (Fin ad.k → ℝ) × (Fin ad.k → ℝ) => c.G0 q.1 q.2 a) (f : Fin d) :
    Continuous fun q : (Fin d → ℝ) × (Fin d → ℝ) => κ.d0k p (one q.1) (one q.2) (flat 0 f) 0 := by
  simp only [h.d0k, one_apply]
  have ht : Continuous fun q : (Fin d → ℝ) × (Fin d → ℝ) => (ad.take q.1, ad.take q.2) :=
    (continuous_pi fun a => (continuous_apply _).comp continuous_fst).prodMk
      (continuous_pi fun a => (continuous_apply _).comp continuous_snd)
  rcases ad.cases_idx f with ⟨a, rfl⟩ | hf
  · simp only [ad.spread_idx hinj]
    exact (hH a).comp ht
  · simp only [ad.spread_not _ f hf]
    exact continuous_const

theorem continuous_d1k_of_closed {ad : Dims d} {c : Core} (h : ClosedForm κ p ad c)
    (hinj : Function.Injective ad.idx)
    (hH : ∀ a, Continuous fun q : (Fin ad.k → ℝ) × (Fin ad.k → ℝ) => c.G1 q.1 q.2 a) (f : Fin d) :
    Continuous fun q : (Fin d → ℝ) × (Fin d → ℝ) => κ.d1k p (one q.1) (one q.2) 0 (flat 0 f) := by
  simp only [h.d1k, one_apply]
  have ht : Continuous fun q : (Fin d → ℝ) × (Fin d → ℝ) => (ad.take q.1, ad.take q.2) :=
    (continuous_pi fun a => (continuous_apply _).comp continuous_fst).prodMk
      (continuous_pi fun a => (continuous_apply _).comp continuous_snd)
  rcases ad.cases_idx f with ⟨a, rfl⟩ | hf
  · simp only [ad.spread_idx hinj]
    exact (hH a).comp ht
  · simp only [ad.spread_not _ f hf]
    exact continuous_const

end Kernels

end GPX
