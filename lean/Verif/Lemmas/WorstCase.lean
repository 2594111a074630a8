import Verif.Lemmas.JointPSD
import Mathlib.LinearAlgebra.Matrix.PosDef
import Mathlib.Algebra.Order.BigOperators.Ring.Finset
import Mathlib.Algebra.QuadraticDiscriminant

/-! # Regularised fits and the functions of the kernel's space: error bounds that are attained -/

namespace GPX.Props
open GPX Matrix

variable {X : Type} {I C : Type} [Fintype I] [DecidableEq I] [Fintype C] [DecidableEq C]

/-- Cauchy-Schwarz for a positive semidefinite kernel and two finite combinations of its points. -/
theorem psdk_cauchy {K : X → X → ℝ} (hK : PSDK K) (p : I → X) (q : C → X) (u : I → ℝ) (v : C → ℝ) :
    (∑ i, ∑ j, u i * K (p i) (q j) * v j) ^ 2 ≤
      (∑ i, ∑ i', u i * K (p i) (p i') * u i') * ∑ j, ∑ j', v j * K (q j) (q j') * v j' := by
  have hsym : ∀ a b, K a b = K b a := fun a b => hK.symm a b
  have h : ∀ t : ℝ, 0 ≤ (∑ i, ∑ i', u i * K (p i) (p i') * u i') * (t * t) +
      2 * (∑ i, ∑ j, u i * K (p i) (q j) * v j) * t + ∑ j, ∑ j', v j * K (q j) (q j') * v j' := fun t => by
    have h1 := (hK.gram (I := I ⊕ C) (Sum.elim p q)).dotProduct_mulVec_nonneg (Sum.elim (fun i => t * u i) v)
    simp only [star_trivial, dotProduct, Matrix.mulVec, Fintype.sum_sum_type, Matrix.of_apply, Sum.elim_inl, Sum.elim_inr] at h1
    refine h1.trans_eq ?_
    simp only [mul_add, Finset.sum_add_distrib, Finset.mul_sum, Finset.sum_mul]
    have e1 : ∑ j, ∑ i, v j * (K (q j) (p i) * (t * u i)) = ∑ i, ∑ j, u i * K (p i) (q j) * v j * t := by
      rw [Finset.sum_comm]
      exact Finset.sum_congr rfl fun i _ => Finset.sum_congr rfl fun j _ => by rw [hsym (q j)]; ring
    have e2 : ∑ i, ∑ j, t * u i * (K (p i) (q j) * v j) = ∑ i, ∑ j, u i * K (p i) (q j) * v j * t :=
      Finset.sum_congr rfl fun i _ => Finset.sum_congr rfl fun j _ => by ring
    have e3 : ∑ i, ∑ i', t * u i * (K (p i) (p i') * (t * u i')) = ∑ i, ∑ i', u i * K (p i) (p i') * u i' * (t * t) :=
      Finset.sum_congr rfl fun i _ => Finset.sum_congr rfl fun j _ => by ring
    have e4 : ∑ j, ∑ j', v j * (K (q j) (q j') * v j') = ∑ j, ∑ j', v j * K (q j) (q j') * v j' :=
      Finset.sum_congr rfl fun i _ => Finset.sum_congr rfl fun j _ => by ring
    have e5 : ∑ i, ∑ j, 2 * (u i * K (p i) (q j) * v j) * t =
        ∑ i, ∑ j, u i * K (p i) (q j) * v j * t + ∑ i, ∑ j, u i * K (p i) (q j) * v j * t := by
      simp only [← Finset.sum_add_distrib]
      exact Finset.sum_congr rfl fun i _ => Finset.sum_congr rfl fun j _ => by ring
    rw [e1, e2, e3, e4, e5]
    ring
  have := discrim_le_zero h
  rw [discrim] at this
  linarith

/-- Two Cauchy-Schwarz inequalities together. -/
theorem cauchy_pair {p q A V E S : ℝ} (hA : 0 ≤ A) (hV : 0 ≤ V) (hE : 0 ≤ E) (hS : 0 ≤ S) (h1 : p ^ 2 ≤ A * V)
    (h2 : q ^ 2 ≤ E * S) : (p + q) ^ 2 ≤ (A + E) * (V + S) := by
  have h3 : (2 * (p * q)) ^ 2 ≤ (A * S + E * V) ^ 2 := by
    have : (p * q) ^ 2 ≤ (A * V) * (E * S) := by
      rw [mul_pow]; exact mul_le_mul h1 h2 (sq_nonneg _) (mul_nonneg hA hV)
    nlinarith [sq_nonneg (A * S - E * V)]
  have h4 : 2 * (p * q) ≤ A * S + E * V :=
    (le_abs_self _).trans (abs_le_of_sq_le_sq h3 (by positivity))
  nlinarith

/-- The error of any weights is non-negative. -/
theorem err_nonneg {K : X → X → ℝ} (hK : PSDK K) (t : I → X) (q : X) (β : I → ℝ) :
    0 ≤ K q q - 2 * (∑ a, β a * K (t a) q) + ∑ a, ∑ b, β a * K (t a) (t b) * β b := by
  have hsym : ∀ a b, K a b = K b a := fun a b => hK.symm a b
  have h := (hK.gram (I := Unit ⊕ I) (Sum.elim (fun _ => q) t)).dotProduct_mulVec_nonneg
    (Sum.elim (fun _ => 1) (fun a => -β a))
  simp only [star_trivial, dotProduct, Matrix.mulVec, Fintype.sum_sum_type, Matrix.of_apply, Sum.elim_inl, Sum.elim_inr,
    mul_add, Finset.sum_add_distrib, Finset.mul_sum, Finset.univ_unique, Finset.sum_singleton, mul_one, one_mul] at h
  have b2 : ∑ a, K q (t a) * -β a = -∑ a, β a * K (t a) q := by
    rw [← Finset.sum_neg_distrib]
    exact Finset.sum_congr rfl fun a _ => by rw [hsym q]; ring
  have b3 : ∑ a, -β a * K (t a) q = -∑ a, β a * K (t a) q := by
    rw [← Finset.sum_neg_distrib]
    exact Finset.sum_congr rfl fun a _ => by ring
  have b4 : ∑ a, ∑ b, -β a * (K (t a) (t b) * -β b) = ∑ a, ∑ b, β a * K (t a) (t b) * β b :=
    Finset.sum_congr rfl fun a _ => Finset.sum_congr rfl fun b _ => by ring
  rw [b2, b3, b4] at h
  linarith

/-- Noise on the diagonal. -/
theorem err_noise (k : I → I → ℝ) (s β : I → ℝ) :
    ∑ a, ∑ b, β a * (k a b + if a = b then s a else 0) * β b = ∑ a, ∑ b, β a * k a b * β b + ∑ a, s a * β a ^ 2 := by
  rw [← Finset.sum_add_distrib]
  refine Finset.sum_congr rfl fun a _ => ?_
  simp only [mul_add, add_mul, Finset.sum_add_distrib, mul_ite, ite_mul, mul_zero, zero_mul, Finset.sum_ite_eq, Finset.mem_univ,
    if_true]
  ring

/-- What a combination of the kernel's points may do at `q`, given how far it is from the fitted one. `c` solves
`(K + diag s) c = r`. -/
theorem worst_case {K : X → X → ℝ} (hK : PSDK K) (t : I → X) (q : X) {s : I → ℝ} (hs : ∀ a, 0 < s a) (c r : I → ℝ)
    (hc : ∀ a, (∑ b, K (t a) (t b) * c b) + s a * c a = r a) (z : C → X) (w : C → ℝ) (β : I → ℝ) :
    (∑ l, w l * K (z l) q - ∑ a, K (t a) q * c a) ^ 2 ≤
      ((∑ l, ∑ l', w l * K (z l) (z l') * w l') + (∑ a, (r a - ∑ l, w l * K (z l) (t a)) ^ 2 / s a) - ∑ a, c a * r a) *
      (K q q - 2 * (∑ a, β a * K (t a) q) + ∑ a, ∑ b, β a * (K (t a) (t b) + if a = b then s a else 0) * β b) := by
  have hsym : ∀ a b, K a b = K b a := fun a b => hK.symm a b
  obtain ⟨F, hF⟩ : ∃ F : I → ℝ, F = fun a => ∑ l, w l * K (z l) (t a) := ⟨_, rfl⟩
  obtain ⟨G, hG⟩ : ∃ G : I → ℝ, G = fun a => ∑ b, K (t a) (t b) * c b := ⟨_, rfl⟩
  obtain ⟨N, hN⟩ : ∃ N, N = ∑ l, ∑ l', w l * K (z l) (z l') * w l' := ⟨_, rfl⟩
  obtain ⟨Fq, hFq⟩ : ∃ Fq, Fq = ∑ l, w l * K (z l) q := ⟨_, rfl⟩
  obtain ⟨P, hP⟩ : ∃ P, P = ∑ a, K (t a) q * c a := ⟨_, rfl⟩
  have hFa : ∀ a, ∑ l, w l * K (z l) (t a) = F a := fun a => by rw [hF]
  have hGa : ∀ a, ∑ b, K (t a) (t b) * c b = G a := fun a => by rw [hG]
  -- the first inequality
  have h1 : (Fq - P - ∑ a, β a * (F a - G a)) ^ 2 ≤ (N - 2 * (∑ a, c a * F a) + ∑ a, c a * G a) *
      (K q q - 2 * (∑ a, β a * K (t a) q) + ∑ a, ∑ b, β a * K (t a) (t b) * β b) := by
    have h := psdk_cauchy hK (I := C ⊕ I) (C := Unit ⊕ I) (Sum.elim z t) (Sum.elim (fun _ => q) t) (Sum.elim w (fun a => -c a))
      (Sum.elim (fun _ => 1) (fun a => -β a))
    simp only [Fintype.sum_sum_type, Sum.elim_inl, Sum.elim_inr, Finset.univ_unique, Finset.sum_singleton, mul_one, one_mul,
      Finset.sum_add_distrib] at h
    have a1 : ∑ l, ∑ a, w l * K (z l) (t a) * -β a = -∑ a, β a * F a := by
      rw [Finset.sum_comm, ← Finset.sum_neg_distrib]
      refine Finset.sum_congr rfl fun a _ => ?_
      rw [← hFa, Finset.mul_sum, ← Finset.sum_neg_distrib]
      exact Finset.sum_congr rfl fun l _ => by ring
    have a2 : ∑ a, -c a * K (t a) q = -P := by
      rw [hP, ← Finset.sum_neg_distrib]
      exact Finset.sum_congr rfl fun a _ => by ring
    have a3 : ∑ a, ∑ b, -c a * K (t a) (t b) * -β b = ∑ b, β b * G b := by
      rw [Finset.sum_comm]
      refine Finset.sum_congr rfl fun b _ => ?_
      rw [← hGa, Finset.mul_sum]
      exact Finset.sum_congr rfl fun a _ => by rw [hsym (t a)]; ring
    have a4 : ∑ l, ∑ a, w l * K (z l) (t a) * -c a = -∑ a, c a * F a := by
      rw [Finset.sum_comm, ← Finset.sum_neg_distrib]
      refine Finset.sum_congr rfl fun a _ => ?_
      rw [← hFa, Finset.mul_sum, ← Finset.sum_neg_distrib]
      exact Finset.sum_congr rfl fun l _ => by ring
    have a5 : ∑ a, ∑ l, -c a * K (t a) (z l) * w l = -∑ a, c a * F a := by
      rw [← Finset.sum_neg_distrib]
      refine Finset.sum_congr rfl fun a _ => ?_
      rw [← hFa, Finset.mul_sum, ← Finset.sum_neg_distrib]
      exact Finset.sum_congr rfl fun l _ => by rw [hsym (t a)]; ring
    have a6 : ∑ a, ∑ b, -c a * K (t a) (t b) * -c b = ∑ a, c a * G a := by
      refine Finset.sum_congr rfl fun a _ => ?_
      rw [← hGa, Finset.mul_sum]
      exact Finset.sum_congr rfl fun b _ => by ring
    have a7 : ∑ a, -β a * K (t a) q = -∑ a, β a * K (t a) q := by
      rw [← Finset.sum_neg_distrib]
      exact Finset.sum_congr rfl fun a _ => by ring
    have a8 : ∑ a, K q (t a) * -β a = -∑ a, β a * K (t a) q := by
      rw [← Finset.sum_neg_distrib]
      exact Finset.sum_congr rfl fun a _ => by rw [hsym q]; ring
    have a9 : ∑ a, ∑ b, -β a * K (t a) (t b) * -β b = ∑ a, ∑ b, β a * K (t a) (t b) * β b :=
      Finset.sum_congr rfl fun a _ => Finset.sum_congr rfl fun b _ => by ring
    rw [a1, a2, a3, a4, a5, a6, a7, a8, a9, ← hN, ← hFq] at h
    refine (le_of_eq ?_).trans (h.trans_eq ?_)
    · congr 1
      simp only [mul_sub, Finset.sum_sub_distrib]
      ring
    · congr 1 <;> ring
  have hA : 0 ≤ N - 2 * (∑ a, c a * F a) + ∑ a, c a * G a := by
    have h := (hK.gram (I := C ⊕ I) (Sum.elim z t)).dotProduct_mulVec_nonneg (Sum.elim w (fun a => -c a))
    simp only [star_trivial, dotProduct, Matrix.mulVec, Fintype.sum_sum_type, Matrix.of_apply, Sum.elim_inl, Sum.elim_inr,
      mul_add, Finset.sum_add_distrib, Finset.mul_sum] at h
    have b1 : ∑ l, ∑ l', w l * (K (z l) (z l') * w l') = N := by
      rw [hN]; exact Finset.sum_congr rfl fun a _ => Finset.sum_congr rfl fun b _ => by ring
    have b2 : ∑ l, ∑ a, w l * (K (z l) (t a) * -c a) = -∑ a, c a * F a := by
      rw [Finset.sum_comm, ← Finset.sum_neg_distrib]
      refine Finset.sum_congr rfl fun a _ => ?_
      rw [← hFa, Finset.mul_sum, ← Finset.sum_neg_distrib]
      exact Finset.sum_congr rfl fun l _ => by ring
    have b3 : ∑ a, ∑ l, -c a * (K (t a) (z l) * w l) = -∑ a, c a * F a := by
      rw [← Finset.sum_neg_distrib]
      refine Finset.sum_congr rfl fun a _ => ?_
      rw [← hFa, Finset.mul_sum, ← Finset.sum_neg_distrib]
      exact Finset.sum_congr rfl fun l _ => by rw [hsym (t a)]; ring
    have b4 : ∑ a, ∑ b, -c a * (K (t a) (t b) * -c b) = ∑ a, c a * G a := by
      refine Finset.sum_congr rfl fun a _ => ?_
      rw [← hGa, Finset.mul_sum]
      exact Finset.sum_congr rfl fun b _ => by ring
    rw [b1, b2, b3, b4] at h
    linarith
  have hV := err_nonneg hK t q β
  -- the second
  have h2 : (∑ a, β a * (F a - G a)) ^ 2 ≤ (∑ a, (F a - G a) ^ 2 / s a) * ∑ a, s a * β a ^ 2 := by
    refine Finset.sum_sq_le_sum_mul_sum_of_sq_le_mul _ (fun a _ => div_nonneg (sq_nonneg _) (hs a).le)
      (fun a _ => mul_nonneg (hs a).le (sq_nonneg _)) fun a _ => le_of_eq ?_
    have := (hs a).ne'
    field_simp
  have h3 := cauchy_pair hA hV (Finset.sum_nonneg fun a _ => div_nonneg (sq_nonneg _) (hs a).le)
    (Finset.sum_nonneg fun a _ => mul_nonneg (hs a).le (sq_nonneg _)) h1 h2
  rw [sub_add_cancel] at h3
  rw [← hFq, ← hP, ← hN]
  refine h3.trans_eq ?_
  congr 1
  · have : ∑ a, (r a - F a) ^ 2 / s a - ∑ a, c a * r a =
        -(2 * ∑ a, c a * F a) + ∑ a, c a * G a + ∑ a, (F a - G a) ^ 2 / s a := by
      rw [Finset.mul_sum, ← Finset.sum_neg_distrib, ← Finset.sum_sub_distrib, ← Finset.sum_add_distrib, ← Finset.sum_add_distrib]
      refine Finset.sum_congr rfl fun a _ => ?_
      rw [← hc a, hGa]
      have := (hs a).ne'
      field_simp
      ring
    simp only [hFa]
    linarith
  · rw [err_noise]; ring

/-- The bound is attained: the functions `fit + τ (k(q, ·) - Σ α_a k(t_a, ·))`. -/
theorem worst_case_attained {K : X → X → ℝ} (hK : PSDK K) (t : I → X) (q : X) {s : I → ℝ} (hs : ∀ a, 0 < s a) (c r : I → ℝ)
    (hc : ∀ a, (∑ b, K (t a) (t b) * c b) + s a * c a = r a) (α : I → ℝ)
    (hα : ∀ a, (∑ b, K (t a) (t b) * α b) + s a * α a = K (t a) q) (τ : ℝ) :
    let z : I ⊕ Unit → X := Sum.elim t fun _ => q
    let w : I ⊕ Unit → ℝ := Sum.elim (fun a => c a - τ * α a) fun _ => τ
    let W := K q q - 2 * (∑ a, α a * K (t a) q) + ∑ a, ∑ b, α a * (K (t a) (t b) + if a = b then s a else 0) * α b
    ∑ l, w l * K (z l) q - ∑ a, K (t a) q * c a = τ * W ∧
    (∑ l, ∑ l', w l * K (z l) (z l') * w l') + (∑ a, (r a - ∑ l, w l * K (z l) (t a)) ^ 2 / s a) - ∑ a, c a * r a =
      τ ^ 2 * W := by
  intro z w W
  have hsym : ∀ a b, K a b = K b a := fun a b => hK.symm a b
  obtain ⟨G, hG⟩ : ∃ G : I → ℝ, G = fun a => ∑ b, K (t a) (t b) * c b := ⟨_, rfl⟩
  obtain ⟨k, hk⟩ : ∃ k : I → ℝ, k = fun a => K (t a) q := ⟨_, rfl⟩
  have hGa : ∀ a, ∑ b, K (t a) (t b) * c b = G a := fun a => by rw [hG]
  have hka : ∀ a, K (t a) q = k a := fun a => by rw [hk]
  have hqa : ∀ a, K q (t a) = k a := fun a => by rw [hk, hsym]
  have hAa : ∀ a, ∑ b, K (t a) (t b) * α b = k a - s a * α a := fun a => by rw [← hka, ← hα a]; ring
  have hW : W = K q q - ∑ a, α a * k a := by
    have : ∑ a, ∑ b, α a * (K (t a) (t b) + if a = b then s a else 0) * α b = ∑ a, α a * k a := by
      refine Finset.sum_congr rfl fun a _ => ?_
      rw [← hka, ← hα a, mul_add, Finset.mul_sum]
      simp only [mul_add, add_mul, Finset.sum_add_distrib, mul_ite, ite_mul, mul_zero, zero_mul, Finset.sum_ite_eq,
        Finset.mem_univ, if_true]
      congr 1
      · exact Finset.sum_congr rfl fun b _ => by ring
      · ring
    simp only [W, this, hka]
    ring
  -- the function at the training points
  have hF : ∀ a, ∑ l, w l * K (z l) (t a) = G a + τ * (s a * α a) := fun a => by
    simp only [w, z, Fintype.sum_sum_type, Sum.elim_inl, Sum.elim_inr, Finset.univ_unique, Finset.sum_singleton]
    have : ∑ b, (c b - τ * α b) * K (t b) (t a) = G a - τ * (k a - s a * α a) := by
      rw [← hGa, ← hAa, Finset.mul_sum, ← Finset.sum_sub_distrib]
      exact Finset.sum_congr rfl fun b _ => by rw [hsym (t b)]; ring
    rw [this, hqa]
    ring
  have hFq : ∑ l, w l * K (z l) q = (∑ a, c a * k a) + τ * W := by
    simp only [w, z, Fintype.sum_sum_type, Sum.elim_inl, Sum.elim_inr, Finset.univ_unique, Finset.sum_singleton, hka, sub_mul,
      Finset.sum_sub_distrib, hW, mul_assoc, ← Finset.mul_sum]
    ring
  have hcα : ∑ a, c a * k a = ∑ a, α a * r a := by
    have e1 : ∑ a, c a * k a = ∑ a, ∑ b, c a * K (t a) (t b) * α b + ∑ a, s a * c a * α a := by
      rw [← Finset.sum_add_distrib]
      refine Finset.sum_congr rfl fun a _ => ?_
      rw [← hka, ← hα a, mul_add, Finset.mul_sum]
      congr 1
      · exact Finset.sum_congr rfl fun b _ => by ring
      · ring
    have e2 : ∑ a, α a * r a = ∑ b, ∑ a, c a * K (t a) (t b) * α b + ∑ a, s a * c a * α a := by
      rw [← Finset.sum_add_distrib]
      refine Finset.sum_congr rfl fun a _ => ?_
      rw [← hc a, mul_add, Finset.mul_sum]
      congr 1
      · exact Finset.sum_congr rfl fun b _ => by rw [hsym (t a)]; ring
      · ring
    rw [e1, e2, Finset.sum_comm]
  constructor
  · rw [hFq]
    simp only [hka]
    have : ∑ a, k a * c a = ∑ a, c a * k a := Finset.sum_congr rfl fun a _ => mul_comm _ _
    rw [this]; ring
  · have hN : ∑ l, ∑ l', w l * K (z l) (z l') * w l' =
        (∑ a, (c a - τ * α a) * (G a + τ * (s a * α a))) + τ * ((∑ a, c a * k a) + τ * W) := by
      have e1 : ∀ l, ∑ l', w l * K (z l) (z l') * w l' = w l * ∑ l', w l' * K (z l') (z l) := fun l => by
        rw [Finset.mul_sum]
        exact Finset.sum_congr rfl fun b _ => by rw [hsym (z l)]; ring
      rw [Finset.sum_congr rfl fun l _ => e1 l, Fintype.sum_sum_type]
      congr 1
      · exact Finset.sum_congr rfl fun a _ => by rw [← hF a]; rfl
      · rw [Finset.univ_unique, Finset.sum_singleton, ← hFq]; rfl
    rw [hN]
    simp only [hF]
    have hr : ∀ a, r a = G a + s a * c a := fun a => by rw [← hc a, hGa]
    have e1 : ∑ a, (r a - (G a + τ * (s a * α a))) ^ 2 / s a = ∑ a, s a * (c a - τ * α a) ^ 2 :=
      Finset.sum_congr rfl fun a _ => by
        rw [hr a]
        have := (hs a).ne'
        field_simp
        ring
    have e2 : ∑ a, (c a - τ * α a) * (G a + τ * (s a * α a)) + ∑ a, s a * (c a - τ * α a) ^ 2 - ∑ a, c a * r a =
        -(τ * ∑ a, α a * r a) := by
      rw [← Finset.sum_add_distrib, ← Finset.sum_sub_distrib, Finset.mul_sum, ← Finset.sum_neg_distrib]
      exact Finset.sum_congr rfl fun a _ => by rw [hr a]; ring
    rw [e1, hcα]
    linarith

/-- The weights of the prediction. -/
theorem weights_exist {K : X → X → ℝ} (hK : PSDK K) (t : I → X) (q : X) {s : I → ℝ} (hs : ∀ a, 0 < s a) :
    ∃ α : I → ℝ, ∀ a, (∑ b, K (t a) (t b) * α b) + s a * α a = K (t a) q := by
  have hp : ((Matrix.of fun a b => K (t a) (t b)) + Matrix.diagonal s : Matrix I I ℝ).PosDef :=
    Matrix.PosDef.posSemidef_add (hK.gram t) (Matrix.PosDef.diagonal hs)
  refine ⟨((Matrix.of fun a b => K (t a) (t b)) + Matrix.diagonal s : Matrix I I ℝ)⁻¹ *ᵥ fun a => K (t a) q, fun a => ?_⟩
  have hu : IsUnit ((Matrix.of fun a b => K (t a) (t b)) + Matrix.diagonal s : Matrix I I ℝ).det := hp.isUnit.map Matrix.detMonoidHom
  have h1 : ((Matrix.of fun a b => K (t a) (t b)) + Matrix.diagonal s : Matrix I I ℝ) *ᵥ
      (((Matrix.of fun a b => K (t a) (t b)) + Matrix.diagonal s : Matrix I I ℝ)⁻¹ *ᵥ fun a => K (t a) q) = fun a => K (t a) q := by
    rw [Matrix.mulVec_mulVec, Matrix.mul_nonsing_inv _ hu, Matrix.one_mulVec]
  have h2 := congrFun h1 a
  rw [Matrix.add_mulVec, Pi.add_apply, Matrix.mulVec_diagonal] at h2
  exact h2

/-- The weights of the prediction have the least error. -/
theorem weights_best {K : X → X → ℝ} (hK : PSDK K) (t : I → X) (q : X) {s : I → ℝ} (hs : ∀ a, 0 < s a) (α β : I → ℝ)
    (hα : ∀ a, (∑ b, K (t a) (t b) * α b) + s a * α a = K (t a) q) :
    K q q - 2 * (∑ a, α a * K (t a) q) + ∑ a, ∑ b, α a * (K (t a) (t b) + if a = b then s a else 0) * α b ≤
      K q q - 2 * (∑ a, β a * K (t a) q) + ∑ a, ∑ b, β a * (K (t a) (t b) + if a = b then s a else 0) * β b := by
  have h0 : ∀ a, (∑ b, K (t a) (t b) * (0 : I → ℝ) b) + s a * (0 : I → ℝ) a = (0 : I → ℝ) a := fun a => by simp
  obtain ⟨h1, h2⟩ := worst_case_attained hK t q hs 0 0 h0 α hα 1
  have h3 := worst_case (C := I ⊕ Unit) hK t q hs 0 0 h0 (Sum.elim t fun _ => q)
    (Sum.elim (fun a => (0 : I → ℝ) a - 1 * α a) fun _ => 1) β
  rw [h1, h2, one_mul, one_pow, one_mul] at h3
  have hpos : ∀ β : I → ℝ, 0 ≤ K q q - 2 * (∑ a, β a * K (t a) q) +
      ∑ a, ∑ b, β a * (K (t a) (t b) + if a = b then s a else 0) * β b := fun β => by
    rw [err_noise (fun a b => K (t a) (t b)), ← add_assoc]
    exact add_nonneg (err_nonneg hK t q β) (Finset.sum_nonneg fun a _ => mul_nonneg (hs a).le (sq_nonneg _))
  rcases (hpos α).eq_or_lt with h4 | h4
  · rw [← h4]; exact hpos β
  · rw [sq] at h3
    exact le_of_mul_le_mul_left h3 h4

end GPX.Props
