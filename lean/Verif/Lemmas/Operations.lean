import Verif.Model.Operations
import Verif.Lemmas.Arrays
import Verif.Lemmas.Kernels

/-! # Helper lemmas on `operations.py` -/

namespace GPX
open GPX.Spec

variable {n r N o : ℕ}

theorem laxScan_counter_getD {A B : Type*} (φ : ℕ → A → B) (z : B) (l : List A) (c i : ℕ)
    (h : i < l.length) :
    (laxScan (fun (c : ℕ) a => (c + 1, φ c a)) c l).2.getD i z = φ (c + i) l[i] := by
  induction l generalizing c i with
  | nil => simp at h
  | cons a l ih =>
    cases i with
    | zero => simp [laxScan]
    | succ i =>
      have := ih (c + 1) i (by simpa using h)
      simp only [laxScan, List.getD_cons_succ, List.getElem_cons_succ]
      rw [this]
      congr 1
      omega

/-- A scan whose carry counts the steps. -/
theorem stack_laxScan_counter {A B : Type*} (φ : ℕ → A → B) (z : B) (x : Fin n → A) :
    stack n z (laxScan (fun (c : ℕ) a => (c + 1, φ c a)) 0 (List.ofFn x)).2 =
      fun i => φ i.val (x i) := by
  funext i
  unfold stack
  rw [laxScan_counter_getD _ _ _ _ _ (by simp)]
  simp

/-- `update_row_diagonal` adds the value at column `index * r + a` of row `a`, nothing else. -/
theorem updateRowDiagonal_apply (row : Arr2 r (n * r)) (i : Fin n) (value : ℝ) (a : Fin r)
    (j : Fin n) (b : Fin r) :
    updateRowDiagonal row i.val value a (flat j b) =
      row a (flat j b) + if j = i ∧ a = b then value else 0 := by
  have hle : r * i.val ≤ n * r - r := by
    have : (i.val + 1) * r ≤ n * r := Nat.mul_le_mul_right r i.isLt
    rw [Nat.add_mul, Nat.one_mul, Nat.mul_comm] at this
    omega
  unfold updateRowDiagonal dynUpdate2 dynSlice2
  simp only [Nat.min_eq_left hle, Nat.sub_self, Nat.min_self, Nat.zero_le, true_and, Nat.sub_zero,
    Nat.zero_add]
  have hb := b.isLt
  have ha := a.isLt
  have hval : (flat j b).val = j.val * r + b.val := rfl
  by_cases hj : j = i
  · subst hj
    have h1 : r * j.val ≤ (flat j b).val := by rw [hval, Nat.mul_comm]; omega
    have h2 : (flat j b).val - r * j.val = b.val := by rw [hval, Nat.mul_comm]; omega
    have h3 : r * j.val + b.val = (flat j b).val := by rw [hval, Nat.mul_comm]
    rw [dif_pos ⟨ha, h1, by omega⟩, dif_pos ⟨ha, by simp only [h2]; rw [h3]; exact (flat j b).isLt⟩]
    have e1 : (⟨r * j.val + ((flat j b).val - r * j.val), by rw [h2, h3]; exact (flat j b).isLt⟩ :
        Fin (n * r)) = flat j b := by
      apply Fin.ext; simp only [h2, h3]
    simp only [e1]
    congr 1
    by_cases hab : a = b
    · subst hab
      rw [if_pos (Fin.ext (by simp only [h2])), if_pos ⟨trivial, rfl⟩, mul_one]
    · rw [if_neg, if_neg (fun h => hab h.2), mul_zero]
      intro h
      apply hab
      have := congrArg Fin.val h
      simp only [h2] at this
      exact Fin.ext this
  · rw [dif_neg, if_neg (fun h => hj h.1), add_zero]
    rintro ⟨-, h1, h2⟩
    apply hj
    apply Fin.ext
    rw [hval, Nat.mul_comm r] at h1 h2
    rcases Nat.lt_trichotomy j.val i.val with h | h | h
    · have : (j.val + 1) * r ≤ i.val * r := Nat.mul_le_mul_right r h
      rw [Nat.add_mul, Nat.one_mul] at this
      omega
    · exact h
    · have : (i.val + 1) * r ≤ j.val * r := Nat.mul_le_mul_right r h
      rw [Nat.add_mul, Nat.one_mul] at this
      omega

theorem rowfunToMatvec_none {X : Type} (rowFun : X → Arr2 r N) (xs : Fin n → X) (z : Mat N o)
    (i : Fin n) (a : Fin r) (c : Fin o) :
    rowfunToMatvec rowFun xs none z (flat i a) c = ∑ b, rowFun (xs i) a b * z b c := by
  unfold rowfunToMatvec
  simp only [stack_laxScan]
  rw [Matrix.of_apply, reshapeRows_flat]

/-- Sums over `i * r + a`. -/
theorem sum_flat {M : Type*} [AddCommMonoid M] (φ : Fin (n * r) → M) :
    ∑ b, φ b = ∑ i, ∑ a, φ (flat i a) := by
  rw [← finProdFinEquiv.sum_comp, Fintype.sum_prod_type]
  simp only [prod_flat]

theorem rowfunToMatvec_some {X : Type} (rowFun : X → Arr2 r (n * r)) (xs : Fin n → X) (value : ℝ)
    (z : Mat (n * r) o) (i : Fin n) (a : Fin r) (c : Fin o) :
    rowfunToMatvec rowFun xs (some value) z (flat i a) c =
      ∑ b, rowFun (xs i) a b * z b c + value * z (flat i a) c := by
  unfold rowfunToMatvec
  simp only [stack_laxScan_counter]
  rw [Matrix.of_apply, reshapeRows_flat, sum_flat, sum_flat]
  simp only [updateRowDiagonal_apply, add_mul, Finset.sum_add_distrib]
  congr 1
  rw [Finset.sum_eq_single i, Finset.sum_eq_single a]
  · simp
  · intro b _ hb; simp [Ne.symm hb]
  · simp
  · intro j _ hj; simp [hj]
  · simp

/-- The same for a number of columns that only equals `n * r`. -/
theorem rowfunToMatvec_some' {X : Type} (hN : N = n * r) (rowFun : X → Arr2 r N) (xs : Fin n → X)
    (value : ℝ) (z : Mat N o) (i : Fin n) (a : Fin r) (c : Fin o) :
    rowfunToMatvec rowFun xs (some value) z (flat i a) c =
      ∑ b, rowFun (xs i) a b * z b c + value * z (Fin.cast hN.symm (flat i a)) c := by
  subst hN
  exact rowfunToMatvec_some rowFun xs value z i a c

end GPX
