import Verif.Props.Logdet

/-! Second and fourth moments of independent random signs, as finite averages over all sign matrices. -/

namespace GPX
open GPX.Props

variable {n q : ℕ}

/-- Changing one sign. -/
def flipSign (i : Fin n) (c : Fin q) (S : Fin n → Fin q → Bool) : Fin n → Fin q → Bool := fun a b =>
  if a = i ∧ b = c then !(S a b) else S a b

theorem flipSign_involutive (i : Fin n) (c : Fin q) : Function.Involutive (flipSign i c) := by
  intro S
  funext a b
  simp only [flipSign]
  split_ifs <;> simp

theorem signs_flip_self (i : Fin n) (c : Fin q) (S : Fin n → Fin q → Bool) :
    signs (flipSign i c S) i c = - signs S i c := by
  simp only [signs, flipSign, and_self, if_true]
  cases S i c <;> simp

theorem signs_flip_other (i : Fin n) (c : Fin q) (S : Fin n → Fin q → Bool) (a : Fin n) (b : Fin q)
    (h : ¬ (a = i ∧ b = c)) : signs (flipSign i c S) a b = signs S a b := by
  simp only [signs, flipSign, if_neg h]

/-- A function that changes sign with one of the random signs has mean zero. -/
theorem sum_flip_zero (i : Fin n) (c : Fin q) (f : (Fin n → Fin q → Bool) → ℝ)
    (h : ∀ S, f (flipSign i c S) = - f S) : ∑ S, f S = 0 := by
  have hs : ∑ S, f S = ∑ S, f (flipSign i c S) :=
    (Equiv.sum_comp (flipSign_involutive i c).toPerm f).symm
  simp only [h, Finset.sum_neg_distrib] at hs
  linarith

theorem signs_mul_self (S : Fin n → Fin q → Bool) (i : Fin n) (c : Fin q) : signs S i c * signs S i c = 1 := by
  simp only [signs]; split_ifs <;> norm_num

/-- The fourth moment of pairs of distinct signs. -/
theorem sum_signs_four {i j k l : Fin n} (hij : i ≠ j) (hkl : k ≠ l) (c d : Fin q) :
    ∑ S : Fin n → Fin q → Bool, (signs S i c * signs S j c) * (signs S k d * signs S l d) =
      if c = d ∧ ((i = k ∧ j = l) ∨ (i = l ∧ j = k)) then
        (Fintype.card (Fin n → Fin q → Bool) : ℝ) else 0 := by
  by_cases hcd : c = d
  · subst hcd
    by_cases hik : i = k
    · subst hik
      have : ∀ S : Fin n → Fin q → Bool, (signs S i c * signs S j c) * (signs S i c * signs S l c) =
          signs S j c * signs S l c := fun S => by
        linear_combination signs S j c * signs S l c * signs_mul_self S i c
      simp only [this, sum_signs]
      by_cases hjl : j = l
      · simp [hjl]
      · have : ¬ (i = l ∧ j = i) := fun h => hij h.2.symm
        simp [hjl, this]
    · by_cases hil : i = l
      · subst hil
        have : ∀ S : Fin n → Fin q → Bool, (signs S i c * signs S j c) * (signs S k c * signs S i c) =
            signs S j c * signs S k c := fun S => by
          linear_combination signs S j c * signs S k c * signs_mul_self S i c
        simp only [this, sum_signs]
        by_cases hjk : j = k
        · simp [hjk]
        · simp [hik, hjk]
      · rw [if_neg (by rintro ⟨-, h | h⟩; exacts [hik h.1, hil h.1])]
        refine sum_flip_zero i c _ fun S => ?_
        rw [signs_flip_self, signs_flip_other i c S j c (fun h => hij h.1.symm),
          signs_flip_other i c S k c (fun h => hik h.1.symm), signs_flip_other i c S l c (fun h => hil h.1.symm)]
        ring
  · rw [if_neg (fun h => hcd h.1)]
    refine sum_flip_zero i c _ fun S => ?_
    rw [signs_flip_self, signs_flip_other i c S j c (fun h => hij h.1.symm),
      signs_flip_other i c S k d (fun h => hcd h.2.symm), signs_flip_other i c S l d (fun h => hcd h.2.symm)]
    ring

/-- The quadratic form of a matrix at a sign vector, minus its trace, involves the off-diagonal elements only. -/
theorem quad_signs (L : Matrix (Fin n) (Fin n) ℝ) (S : Fin n → Fin q → Bool) (c : Fin q) :
    ∑ i, ∑ j, L i j * (signs S i c * signs S j c) =
      L.trace + ∑ i, ∑ j, (if i = j then 0 else L i j) * (signs S i c * signs S j c) := by
  have : ∀ i j, L i j * (signs S i c * signs S j c) =
      (if i = j then L i i else 0) + (if i = j then 0 else L i j) * (signs S i c * signs S j c) := by
    intro i j
    by_cases h : i = j
    · subst h; simp [signs_mul_self]
    · simp [h]
  simp only [this, Finset.sum_add_distrib, Finset.sum_ite_eq, Finset.mem_univ, if_true]
  rfl

/-- Mean square of the deviation from the trace of the average of `q` quadratic forms at sign vectors. -/
theorem mean_square_quad (hq : 0 < q) (L : Matrix (Fin n) (Fin n) ℝ) (hL : L.transpose = L) :
    (∑ S : Fin n → Fin q → Bool,
      ((1 / (q : ℝ)) * ∑ c, ∑ i, ∑ j, L i j * (signs S i c * signs S j c) - L.trace) ^ 2) /
        Fintype.card (Fin n → Fin q → Bool) =
      2 / (q : ℝ) * ∑ i, ∑ j, if i = j then 0 else L i j ^ 2 := by
  have hq' : (q : ℝ) ≠ 0 := by exact_mod_cast hq.ne'
  have hcard : (Fintype.card (Fin n → Fin q → Bool) : ℝ) ≠ 0 := by exact_mod_cast Fintype.card_ne_zero
  set N : ℝ := (Fintype.card (Fin n → Fin q → Bool) : ℝ) with hN
  set O : Fin n → Fin n → ℝ := fun i j => if i = j then 0 else L i j with hO
  have hOs : ∀ i j, O j i = O i j := fun i j => by
    have := congrFun (congrFun hL i) j
    simp only [Matrix.transpose_apply] at this
    simp only [hO, this, eq_comm (a := j) (b := i)]
  have hdev : ∀ S : Fin n → Fin q → Bool,
      (1 / (q : ℝ)) * ∑ c, ∑ i, ∑ j, L i j * (signs S i c * signs S j c) - L.trace =
        (1 / (q : ℝ)) * ∑ c, ∑ i, ∑ j, O i j * (signs S i c * signs S j c) := by
    intro S
    simp only [quad_signs L, Finset.sum_add_distrib, Finset.sum_const, Finset.card_univ, Fintype.card_fin,
      nsmul_eq_mul]
    field_simp
    ring
  have hcov : ∀ c d : Fin q, ∑ S : Fin n → Fin q → Bool,
      (∑ i, ∑ j, O i j * (signs S i c * signs S j c)) * (∑ i, ∑ j, O i j * (signs S i d * signs S j d)) =
        if c = d then N * (2 * ∑ i, ∑ j, O i j ^ 2) else 0 := by
    intro c d
    have h1 : ∀ S : Fin n → Fin q → Bool,
        (∑ i, ∑ j, O i j * (signs S i c * signs S j c)) * (∑ i, ∑ j, O i j * (signs S i d * signs S j d)) =
        ∑ i, ∑ j, ∑ k, ∑ l, O i j * O k l * ((signs S i c * signs S j c) * (signs S k d * signs S l d)) := by
      intro S
      rw [Finset.sum_mul]
      refine Finset.sum_congr rfl fun i _ => ?_
      rw [Finset.sum_mul]
      refine Finset.sum_congr rfl fun j _ => ?_
      rw [Finset.mul_sum]
      refine Finset.sum_congr rfl fun k _ => ?_
      rw [Finset.mul_sum]
      exact Finset.sum_congr rfl fun l _ => by ring
    simp only [h1]
    rw [Finset.sum_comm]
    have h2 : ∀ i j : Fin n, ∑ S : Fin n → Fin q → Bool, ∑ k, ∑ l,
        O i j * O k l * ((signs S i c * signs S j c) * (signs S k d * signs S l d)) =
        if c = d then N * (2 * O i j ^ 2) else 0 := by
      intro i j
      by_cases hij : i = j
      · have : O i j = 0 := by simp [hO, hij]
        simp [this]
      rw [Finset.sum_comm]
      have h3 : ∀ k l : Fin n, ∑ S : Fin n → Fin q → Bool,
          O i j * O k l * ((signs S i c * signs S j c) * (signs S k d * signs S l d)) =
          (if c = d then N * O i j else 0) *
            ((if k = i then (if l = j then O i j else 0) else 0) +
             (if k = j then (if l = i then O i j else 0) else 0)) := by
        intro k l
        by_cases hkl : k = l
        · have h0 : O k l = 0 := by simp [hO, hkl]
          have hL1 : ¬ (k = i ∧ l = j) := fun h => hij (h.1 ▸ h.2 ▸ hkl)
          have hL2 : ¬ (k = j ∧ l = i) := fun h => hij (h.2 ▸ h.1 ▸ hkl.symm)
          rw [← ite_and, ← ite_and, if_neg hL1, if_neg hL2]
          simp [h0]
        · rw [← Finset.mul_sum, sum_signs_four hij hkl]
          rw [← ite_and, ← ite_and]
          by_cases hcd : c = d
          · simp only [hcd, true_and, if_true]
            by_cases e1 : k = i ∧ l = j
            · have e2 : ¬ (k = j ∧ l = i) := fun h => hij (e1.1 ▸ h.1)
              rw [if_pos e1, if_neg e2, if_pos (Or.inl ⟨e1.1.symm, e1.2.symm⟩), e1.1, e1.2]
              ring
            · by_cases e2 : k = j ∧ l = i
              · rw [if_neg e1, if_pos e2, if_pos (Or.inr ⟨e2.2.symm, e2.1.symm⟩), e2.1, e2.2, hOs i j]
                ring
              · rw [if_neg e1, if_neg e2, if_neg]
                · ring
                · rintro (h | h)
                  · exact e1 ⟨h.1.symm, h.2.symm⟩
                  · exact e2 ⟨h.2.symm, h.1.symm⟩
          · simp [hcd]
      have h4 : ∀ k : Fin n, ∑ S : Fin n → Fin q → Bool, ∑ l,
          O i j * O k l * ((signs S i c * signs S j c) * (signs S k d * signs S l d)) =
          (if c = d then N * O i j else 0) * ((if k = i then O i j else 0) + (if k = j then O i j else 0)) := by
        intro k
        rw [Finset.sum_comm]
        simp only [h3, ← Finset.mul_sum, Finset.sum_add_distrib]
        congr 2
        · by_cases h : k = i <;> simp [h]
        · by_cases h : k = j <;> simp [h]
      simp only [h4, ← Finset.mul_sum, Finset.sum_add_distrib, Finset.sum_ite_eq', Finset.mem_univ, if_true]
      split_ifs <;> ring
    have h5 : ∀ i : Fin n, ∑ S : Fin n → Fin q → Bool, ∑ j, ∑ k, ∑ l,
        O i j * O k l * ((signs S i c * signs S j c) * (signs S k d * signs S l d)) =
        ∑ j, if c = d then N * (2 * O i j ^ 2) else 0 := by
      intro i
      rw [Finset.sum_comm]
      exact Finset.sum_congr rfl fun j _ => h2 i j
    simp only [h5]
    split_ifs
    · simp only [Finset.mul_sum]
    · simp
  have hsq : ∑ S : Fin n → Fin q → Bool,
      ((1 / (q : ℝ)) * ∑ c, ∑ i, ∑ j, L i j * (signs S i c * signs S j c) - L.trace) ^ 2 =
      (1 / (q : ℝ)) ^ 2 * (q * (N * (2 * ∑ i, ∑ j, O i j ^ 2))) := by
    simp only [hdev, mul_pow, ← Finset.mul_sum]
    congr 1
    have hsplit : ∀ S : Fin n → Fin q → Bool, (∑ c, ∑ i, ∑ j, O i j * (signs S i c * signs S j c)) ^ 2 =
        ∑ c, ∑ d, (∑ i, ∑ j, O i j * (signs S i c * signs S j c)) *
          (∑ i, ∑ j, O i j * (signs S i d * signs S j d)) := fun S => by
      rw [sq]
      exact Finset.sum_mul_sum _ _ _ _
    simp only [hsplit]
    rw [Finset.sum_comm]
    have : ∀ c : Fin q, ∑ S : Fin n → Fin q → Bool, ∑ d,
        (∑ i, ∑ j, O i j * (signs S i c * signs S j c)) * (∑ i, ∑ j, O i j * (signs S i d * signs S j d)) =
        N * (2 * ∑ i, ∑ j, O i j ^ 2) := by
      intro c
      rw [Finset.sum_comm]
      simp only [hcov, Finset.sum_ite_eq, Finset.mem_univ, if_true]
    simp only [this, Finset.sum_const, Finset.card_univ, Fintype.card_fin, nsmul_eq_mul]
  rw [hsq]
  have hOsq : ∀ i j, O i j ^ 2 = if i = j then 0 else L i j ^ 2 := fun i j => by
    simp only [hO]; split_ifs <;> simp
  simp only [hOsq]
  field_simp

end GPX
