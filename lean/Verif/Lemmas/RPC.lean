import Verif.Spec.RPC
import Verif.Lemmas.GPR
import Verif.Lemmas.Arrays
import Mathlib.Algebra.QuadraticDiscriminant

/-! # Invariants of the pivoted Cholesky loop -/

namespace GPX
open Spec

variable {N r : ℕ}

/-- Cauchy–Schwarz for a positive semidefinite matrix. -/
theorem psd_cauchy {R : Mat N N} (hR : R.PosSemidef) (s : Fin N) (z : Fin N → ℝ) :
    (∑ a, R s a * z a) ^ 2 ≤ R s s * ∑ a, ∑ b, z a * R a b * z b := by
  have hsym : ∀ a b, R a b = R b a := fun a b => congrFun (congrFun (posDef_transpose hR) b) a
  have hq : ∀ t : ℝ, 0 ≤ R s s * (t * t) + (2 * ∑ a, R s a * z a) * t +
      ∑ a, ∑ b, z a * R a b * z b := by
    intro t
    have h := (Matrix.posSemidef_iff_dotProduct_mulVec.1 hR).2 (fun a => z a + if a = s then t else 0)
    have e : star (fun a => z a + if a = s then t else 0) ⬝ᵥ
        (Matrix.mulVec R fun a => z a + if a = s then t else 0) =
        R s s * (t * t) + (2 * ∑ a, R s a * z a) * t + ∑ a, ∑ b, z a * R a b * z b := by
      simp only [dotProduct, Matrix.mulVec, star_trivial, mul_add, add_mul, Finset.sum_add_distrib,
        Finset.mul_sum, ite_mul, mul_ite, zero_mul, mul_zero, Finset.sum_ite_eq', Finset.mem_univ, if_true,
        Finset.sum_ite_irrel, Finset.sum_const_zero]
      have e1 : ∑ x, z x * (R x s * t) = ∑ x, R s x * z x * t := Finset.sum_congr rfl fun x _ => by
        rw [hsym x s]; ring
      have e2 : ∑ x, t * (R s x * z x) = ∑ x, R s x * z x * t := Finset.sum_congr rfl fun x _ => by ring
      have e3 : ∑ x, ∑ y, z x * (R x y * z y) = ∑ x, ∑ y, z x * R x y * z y :=
        Finset.sum_congr rfl fun x _ => Finset.sum_congr rfl fun y _ => by ring
      have e4 : (∑ x, 2 * (R s x * z x)) * t = 2 * ∑ x, R s x * z x * t := by
        rw [Finset.sum_mul, Finset.mul_sum]
        exact Finset.sum_congr rfl fun x _ => by ring
      rw [e1, e2, e3, e4]
      ring
    rw [← e]
    exact h
  have hd := discrim_le_zero hq
  unfold discrim at hd
  nlinarith

/-- Subtracting the (jittered) pivot column keeps the resid positive semidefinite. -/
theorem psd_pivot {R : Mat N N} (hR : R.PosSemidef) (s : Fin N) {ε : ℝ} (hε : 0 < ε) :
    (R - Matrix.of fun a b => (R s a / (Real.sqrt (R s s) + ε)) *
      (R s b / (Real.sqrt (R s s) + ε))).PosSemidef := by
  have hsym : ∀ a b, R a b = R b a := fun a b => congrFun (congrFun (posDef_transpose hR) b) a
  have hs : 0 ≤ R s s := hR.diag_nonneg
  set q := Real.sqrt (R s s) + ε with hq
  have hsq : 0 ≤ Real.sqrt (R s s) := Real.sqrt_nonneg _
  have hqp : 0 < q := by positivity
  have hq2 : R s s ≤ q ^ 2 := by
    have := Real.sq_sqrt hs
    rw [hq]
    nlinarith
  refine Matrix.PosSemidef.of_dotProduct_mulVec_nonneg ?_ ?_
  · ext a b
    simp only [Matrix.conjTranspose_apply, Matrix.sub_apply, Matrix.of_apply, star_trivial]
    rw [hsym b a]
    ring
  · intro z
    have e : star z ⬝ᵥ (Matrix.mulVec (R - Matrix.of fun a b => (R s a / q) * (R s b / q)) z) =
        (∑ a, ∑ b, z a * R a b * z b) - (∑ a, R s a * z a) ^ 2 / q ^ 2 := by
      simp only [dotProduct, Matrix.mulVec, star_trivial, Matrix.sub_apply, Matrix.of_apply]
      rw [sq (∑ a, R s a * z a), Finset.sum_mul_sum, Finset.sum_div]
      rw [← Finset.sum_sub_distrib]
      refine Finset.sum_congr rfl fun a _ => ?_
      rw [Finset.mul_sum, Finset.sum_div, ← Finset.sum_sub_distrib]
      refine Finset.sum_congr rfl fun b _ => ?_
      field_simp
    rw [e, sub_nonneg, div_le_iff₀ (by positivity)]
    have hz : 0 ≤ ∑ a, ∑ b, z a * R a b * z b := by
      have h := (Matrix.posSemidef_iff_dotProduct_mulVec.1 hR).2 z
      simp only [dotProduct, Matrix.mulVec, star_trivial, Finset.mul_sum, ← mul_assoc] at h
      exact h
    calc (∑ a, R s a * z a) ^ 2 ≤ R s s * ∑ a, ∑ b, z a * R a b * z b := psd_cauchy hR s z
      _ ≤ q ^ 2 * ∑ a, ∑ b, z a * R a b * z b := mul_le_mul_of_nonneg_right hq2 hz
      _ = _ := mul_comm _ _

/-- The loop invariant after `t` steps. -/
structure RpcInv (K : Mat N N) {Key : Type} (t : ℕ) (st : RpcState N r Key) : Prop where
  zero : ∀ a (j : Fin r), t ≤ j.val → st.fmat a j = 0
  diag : ∀ a, st.diag a = K a a - ∑ j, st.fmat a j ^ 2
  col : ∀ j : Fin r, j.val < t → ∃ s : Fin N, st.pivots j = s.val ∧
    ∀ a, st.fmat a j = resid K (Matrix.of st.fmat) j.val s a /
      (Real.sqrt (resid K (Matrix.of st.fmat) j.val s s) + 1 / 10 ^ 6)

theorem resid_zero {K : Mat N N} {F : Mat N r} {t : ℕ} (h : ∀ a (j : Fin r), t ≤ j.val → F a j = 0)
    (a b : Fin N) : resid K F t a b = K a b - ∑ l, F a l * F b l := by
  unfold resid
  congr 1
  refine Finset.sum_congr rfl fun l _ => ?_
  by_cases hl : l.val < t
  · simp [hl]
  · simp [hl, h a l (by omega)]

theorem resid_congr {K : Mat N N} {F F' : Mat N r} {t : ℕ}
    (h : ∀ a (j : Fin r), j.val < t → F a j = F' a j) (a b : Fin N) :
    resid K F t a b = resid K F' t a b := by
  unfold resid
  congr 1
  refine Finset.sum_congr rfl fun l _ => ?_
  by_cases hl : l.val < t
  · simp [hl, h _ l hl]
  · simp [hl]

theorem rpcStep_inv {K : Mat N N} {Key : Type} {split : Key → Key × Key}
    {choice : Key → (Fin N → ℝ) → Fin N} {t : ℕ} (ht : t < r) {st : RpcState N r Key}
    (h : RpcInv K t st) : RpcInv K (t + 1) (rpcStep split choice (fun s a => K s a) t st) := by
  set s := choice (split st.key).1 (fun a => st.diag a / ∑ b, st.diag b) with hs
  have hF : ∀ a (j : Fin r), (rpcStep split choice (fun s a => K s a) t st).fmat a j =
      if j.val = t then (K s a - ∑ l, st.fmat a l * st.fmat s l) /
        (Real.sqrt (K s s - ∑ l, st.fmat s l * st.fmat s l) + rpcJitter) else st.fmat a j := fun a j => rfl
  have hold : ∀ a (j : Fin r), j.val < t → (rpcStep split choice (fun s a => K s a) t st).fmat a j = st.fmat a j :=
    fun a j hj => by rw [hF, if_neg (by omega)]
  refine ⟨?_, ?_, ?_⟩
  · intro a j hj
    rw [hF, if_neg (by omega)]
    exact h.zero a j (by omega)
  · intro a
    have e : (rpcStep split choice (fun s a => K s a) t st).diag a =
        st.diag a - (rpcStep split choice (fun s a => K s a) t st).fmat a ⟨t, ht⟩ ^ 2 := by
      simp only [rpcStep, ht, dif_pos]
    rw [e, h.diag]
    have : ∑ j, (rpcStep split choice (fun s a => K s a) t st).fmat a j ^ 2 =
        ∑ j, (st.fmat a j ^ 2 + if j = ⟨t, ht⟩ then (rpcStep split choice (fun s a => K s a) t st).fmat a ⟨t, ht⟩ ^ 2 else 0) :=
      Finset.sum_congr rfl fun j _ => by
        by_cases hj : j = ⟨t, ht⟩
        · subst hj
          simp [h.zero a ⟨t, ht⟩ le_rfl]
        · have : j.val ≠ t := fun hh => hj (Fin.ext hh)
          rw [hF a j, if_neg this, if_neg hj, add_zero]
    rw [this, Finset.sum_add_distrib, Finset.sum_ite_eq', if_pos (Finset.mem_univ _)]
    ring
  · intro j hj
    by_cases hjt : j.val = t
    · refine ⟨s, ?_, ?_⟩
      · simp only [rpcStep, hjt, if_true]
        rfl
      · intro a
        have e : ∀ a b, resid K (Matrix.of (rpcStep split choice (fun s a => K s a) t st).fmat) j.val a b =
            K a b - ∑ l, st.fmat a l * st.fmat b l := fun a b => by
          rw [resid_congr (F := Matrix.of (rpcStep split choice (fun s a => K s a) t st).fmat)
              (F' := Matrix.of st.fmat) (fun a j' hj' => hold a j' (by omega)),
            resid_zero (F := Matrix.of st.fmat) (fun a j' hj' => h.zero a j' (by omega))]
          rfl
        rw [e, e, hF, if_pos hjt]
        have e2 : ∑ l, st.fmat a l * st.fmat s l = ∑ l, st.fmat s l * st.fmat a l :=
          Finset.sum_congr rfl fun l _ => mul_comm _ _
        rw [e2]
        rfl
    · have hlt : j.val < t := by omega
      obtain ⟨s', h1, h2⟩ := h.col j hlt
      refine ⟨s', ?_, fun a => ?_⟩
      · simp only [rpcStep, hjt, if_false]
        exact h1
      · rw [hold a j hlt, h2 a]
        have e : ∀ a b, resid K (Matrix.of (rpcStep split choice (fun s a => K s a) t st).fmat) j.val a b =
            resid K (Matrix.of st.fmat) j.val a b := fun a b =>
          resid_congr (fun a j' hj' => hold a j' (by omega)) a b
        rw [e, e]

theorem rpcLoop_inv {K : Mat N N} {Key : Type} {split : Key → Key × Key}
    {choice : Key → (Fin N → ℝ) → Fin N} {key : Key} {t : ℕ} (ht : t ≤ r) :
    RpcInv K t (rpcLoop r split choice (fun s a => K s a) (fun a => K a a) key t) :=
  foriLoop_ind t _ _ (RpcInv K) ⟨fun _ _ _ => rfl, fun a => by simp, fun j hj => absurd hj (by omega)⟩
    fun i st hi hst => rpcStep_inv (by omega) hst

/-- The resid before and after column `t`. -/
theorem resid_succ (K : Mat N N) (F : Mat N r) {t : ℕ} (ht : t < r) (a b : Fin N) :
    resid K F (t + 1) a b = resid K F t a b - F a ⟨t, ht⟩ * F b ⟨t, ht⟩ := by
  unfold resid
  have : ∑ l : Fin r, (if l.val < t + 1 then F a l * F b l else 0) =
      ∑ l : Fin r, ((if l.val < t then F a l * F b l else 0) +
        if l = ⟨t, ht⟩ then F a ⟨t, ht⟩ * F b ⟨t, ht⟩ else 0) :=
    Finset.sum_congr rfl fun l _ => by
      by_cases hl : l = ⟨t, ht⟩
      · subst hl; simp
      · have hne : l.val ≠ t := fun hh => hl (Fin.ext hh)
        by_cases h2 : l.val < t
        · simp [h2, hl, Nat.lt_succ_of_lt h2]
        · have : ¬ l.val < t + 1 := by omega
          simp [h2, hl, this]
  rw [this, Finset.sum_add_distrib, Finset.sum_ite_eq', if_pos (Finset.mem_univ _)]
  ring

/-- All residuals of a pivoted Cholesky factor of a positive semidefinite matrix are positive semidefinite. -/
theorem resid_psd {K : Mat N N} (hK : K.PosSemidef) {F : Mat N r} {t : ℕ} (ht : t ≤ r)
    (h : ∀ j : Fin r, j.val < t → ∃ s : Fin N, ∀ a, F a j = resid K F j.val s a /
      (Real.sqrt (resid K F j.val s s) + 1 / 10 ^ 6)) :
    (Matrix.of (resid K F t)).PosSemidef := by
  induction t with
  | zero =>
    have : (Matrix.of (resid K F 0)) = K := by ext a b; simp [resid]
    rw [this]; exact hK
  | succ t ih =>
    have hR := ih (by omega) fun j hj => h j (by omega)
    obtain ⟨s, hs⟩ := h ⟨t, ht⟩ (Nat.lt_succ_self t)
    have e : Matrix.of (resid K F (t + 1)) = Matrix.of (resid K F t) -
        Matrix.of fun a b => (resid K F t s a / (Real.sqrt (resid K F t s s) + 1 / 10 ^ 6)) *
          (resid K F t s b / (Real.sqrt (resid K F t s s) + 1 / 10 ^ 6)) := by
      ext a b
      simp only [Matrix.of_apply, Matrix.sub_apply]
      rw [resid_succ K F ht, hs a, hs b]
    rw [e]
    exact psd_pivot hR s (by norm_num)

end GPX
