import Verif.Model.Kernelizers
import Mathlib.Algebra.BigOperators.Fin
import Mathlib.Tactic.Ring
import Mathlib.Tactic.Linarith

/-! # Helper lemmas on the array primitives -/

namespace GPX

variable {d n m v v1 v2 : ℕ}

theorem laxScan_map {C A B : Type*} (φ : A → B) (c : C) (l : List A) :
    (laxScan (fun (c : C) a => (c, φ a)) c l).2 = l.map φ := by
  induction l with
  | nil => rfl
  | cons a l ih => simp only [laxScan, List.map_cons, ih]

/-- A scan whose carry is never changed is a map: no element of the stacked result is a default. -/
theorem stack_laxScan {C A B : Type*} (φ : A → B) (c : C) (z : B) (x : Fin n → A) :
    stack n z (laxScan (fun (c : C) a => (c, φ a)) c (List.ofFn x)).2 = fun i => φ (x i) := by
  funext i
  rw [laxScan_map]
  simp [stack]

theorem foriLoop_zero {S : Type*} (body : ℕ → S → S) (s : S) : foriLoop 0 body s = s := rfl

theorem foriLoop_succ {S : Type*} (n : ℕ) (body : ℕ → S → S) (s : S) :
    foriLoop (n + 1) body s = body n (foriLoop n body s) := by
  simp [foriLoop, List.range_succ]

/-- Loop invariant rule for `fori_loop`. -/
theorem foriLoop_ind {S : Type*} (n : ℕ) (body : ℕ → S → S) (s : S) (P : ℕ → S → Prop)
    (h0 : P 0 s) (hstep : ∀ i t, i < n → P i t → P (i + 1) (body i t)) : P n (foriLoop n body s) := by
  induction n with
  | zero => exact h0
  | succ n ih =>
    rw [foriLoop_succ]
    exact hstep n _ (Nat.lt_succ_self n) (ih fun i t hi ht => hstep i t (by omega) ht)

theorem foriLoop_congr {S : Type*} (n : ℕ) (b1 b2 : ℕ → S → S) (s : S)
    (h : ∀ i t, i < n → b1 i t = b2 i t) : foriLoop n b1 s = foriLoop n b2 s := by
  induction n with
  | zero => rfl
  | succ n ih =>
    rw [foriLoop_succ, foriLoop_succ, ih fun i t hi => h i t (by omega), h n _ (Nat.lt_succ_self n)]

/-- A loop in which step `i` overwrites exactly the entries owned by `i`. -/
theorem foriLoop_write {P : Type*} (owner : P → ℕ) (w : ℕ → P → ℝ) (n : ℕ) (init : P → ℝ) (p : P) :
    foriLoop n (fun i (s : P → ℝ) q => if owner q = i then w i q else s q) init p =
      if owner p < n then w (owner p) p else init p := by
  induction n with
  | zero => simp [foriLoop_zero]
  | succ n ih =>
    rw [foriLoop_succ]
    by_cases h : owner p = n
    · simp [h]
    · simp only [h, if_false, ih]
      by_cases h2 : owner p < n
      · simp [h2, Nat.lt_succ_of_lt h2]
      · have : ¬ owner p < n + 1 := by omega
        simp [h2, this]

/-- A loop in which step `i` adds a term to every entry. -/
theorem foriLoop_add {P : Type*} (w : ℕ → P → ℝ) (n : ℕ) (init : P → ℝ) (p : P) :
    foriLoop n (fun i (s : P → ℝ) q => s q + w i q) init p =
      init p + ∑ i : Fin n, w i p := by
  induction n with
  | zero => simp [foriLoop_zero]
  | succ n ih =>
    rw [foriLoop_succ]
    simp only [ih, Fin.sum_univ_castSucc, Fin.val_castSucc, Fin.val_last]
    ring

theorem rowAt_lt {B : Type*} (z : B) (x : Fin n → B) (i : ℕ) (h : i < n) :
    rowAt z x i = x ⟨i, h⟩ := by
  have : 0 < n := by omega
  simp only [rowAt, this, dif_pos]
  congr 2
  omega

@[simp] theorem rowAt_fin {B : Type*} (z : B) (x : Fin n → B) (i : Fin n) :
    rowAt z x i.val = x i := rowAt_lt z x i.val i.isLt

/-- The clamped start of block `i` and the test "`r` lies in block `i`". -/
theorem block_iff {n v i r : ℕ} (hi : i < n) (hr : r < n * v) :
    (min (i * v) (n * v - v) ≤ r ∧ r - min (i * v) (n * v - v) < v) ↔ r / v = i := by
  have hle : i * v ≤ n * v - v := by
    have : (i + 1) * v ≤ n * v := Nat.mul_le_mul_right v hi
    rw [Nat.add_mul, Nat.one_mul] at this
    omega
  rw [Nat.min_eq_left hle]
  have hv : 0 < v := by
    rcases Nat.eq_zero_or_pos v with h | h
    · subst h; simp at hr
    · exact h
  constructor
  · rintro ⟨h1, h2⟩
    rw [Nat.div_eq_iff hv]
    constructor
    · exact h1
    · omega
  · rintro rfl
    constructor
    · exact Nat.div_mul_le_self r v
    · have := Nat.div_add_mod r v
      have h3 := Nat.mod_lt r hv
      rw [Nat.mul_comm] at this
      omega

theorem block_sub {n v i r : ℕ} (hi : i < n) (h : r / v = i) :
    r - min (i * v) (n * v - v) = r % v := by
  have hle : i * v ≤ n * v - v := by
    have : (i + 1) * v ≤ n * v := Nat.mul_le_mul_right v hi
    rw [Nat.add_mul, Nat.one_mul] at this
    omega
  rw [Nat.min_eq_left hle]
  subst h
  have := Nat.div_add_mod r v
  rw [Nat.mul_comm] at this
  omega

/-- Overwriting block `(i, j)` of a block matrix. -/
theorem dynUpdate2_block {i j : ℕ} (hi : i < n) (hj : j < m) (g : Arr2 (n * v1) (m * v2))
    (u : Arr2 v1 v2) (r : Fin (n * v1)) (c : Fin (m * v2)) :
    dynUpdate2 g u (i * v1) (j * v2) r c =
      if r.divNat.val = i ∧ c.divNat.val = j then u r.modNat c.modNat else g r c := by
  unfold dynUpdate2
  have h1 := block_iff (v := v1) hi r.isLt
  have h2 := block_iff (v := v2) hj c.isLt
  simp only [h1, h2]
  by_cases h : r.val / v1 = i ∧ c.val / v2 = j
  · rw [dif_pos h, if_pos (by simpa [Fin.divNat] using h)]
    congr 1
    · congr 1; exact block_sub hi h.1
    · apply Fin.ext; simp only [Fin.modNat]; exact block_sub hj h.2
  · rw [dif_neg h, if_neg (by simpa [Fin.divNat] using h)]

/-- Overwriting the block of rows `i` (all columns). -/
theorem dynUpdate2_rows {i : ℕ} (hi : i < n) (g : Arr2 (n * v) m) (u : Arr2 v m)
    (r : Fin (n * v)) (c : Fin m) :
    dynUpdate2 g u (i * v) 0 r c = if r.divNat.val = i then u r.modNat c else g r c := by
  unfold dynUpdate2
  have h1 := block_iff (v := v) hi r.isLt
  have h2 : (min 0 (m - m) ≤ c.val ∧ c.val - min 0 (m - m) < m) ↔ True := by
    simp
  simp only [h1, h2, and_true]
  by_cases h : r.val / v = i
  · rw [dif_pos h, if_pos (by simpa [Fin.divNat] using h)]
    congr 1
    · congr 1; exact block_sub hi h
  · rw [dif_neg h, if_neg (by simpa [Fin.divNat] using h)]

/-- Overwriting the block of columns `j` (all rows). -/
theorem dynUpdate2_cols {j : ℕ} (hj : j < m) (g : Arr2 n (m * v)) (u : Arr2 n v)
    (r : Fin n) (c : Fin (m * v)) :
    dynUpdate2 g u 0 (j * v) r c = if c.divNat.val = j then u r c.modNat else g r c := by
  unfold dynUpdate2
  have h1 := block_iff (v := v) hj c.isLt
  have h2 : (min 0 (n - n) ≤ r.val ∧ r.val - min 0 (n - n) < n) ↔ True := by
    simp
  simp only [h1, h2, true_and]
  by_cases h : c.val / v = j
  · rw [dif_pos h, if_pos (by simpa [Fin.divNat] using h)]
    congr 1
    apply Fin.ext; simp only [Fin.modNat]; exact block_sub hj h
  · rw [dif_neg h, if_neg (by simpa [Fin.divNat] using h)]

/-- Overwriting one row's block of columns `j`. -/
theorem dynUpdate2_row_cols {i j : ℕ} (hi : i < n) (hj : j < m) (g : Arr2 n (m * v))
    (u : Arr2 1 v) (r : Fin n) (c : Fin (m * v)) :
    dynUpdate2 g u i (j * v) r c =
      if r.val = i ∧ c.divNat.val = j then u 0 c.modNat else g r c := by
  unfold dynUpdate2
  have h1 := block_iff (v := v) hj c.isLt
  have h2 : (min i (n - 1) ≤ r.val ∧ r.val - min i (n - 1) < 1) ↔ r.val = i := by omega
  simp only [h1, h2]
  by_cases h : r.val = i ∧ c.val / v = j
  · rw [dif_pos h, if_pos (by simpa [Fin.divNat] using h)]
    congr 1
    · congr 1; omega
    · apply Fin.ext; simp only [Fin.modNat]; exact block_sub hj h.2
  · rw [dif_neg h, if_neg (by simpa [Fin.divNat] using h)]

theorem dynUpdate1_block {j : ℕ} (hj : j < m) (g : Fin (m * v) → ℝ) (u : Fin v → ℝ)
    (c : Fin (m * v)) :
    dynUpdate1 g u (j * v) c = if c.divNat.val = j then u c.modNat else g c := by
  unfold dynUpdate1
  have h1 := block_iff (v := v) hj c.isLt
  simp only [h1]
  by_cases h : c.val / v = j
  · rw [dif_pos h, if_pos (by simpa [Fin.divNat] using h)]
    congr 1
    apply Fin.ext; simp only [Fin.modNat]; exact block_sub hj h
  · rw [dif_neg h, if_neg (by simpa [Fin.divNat] using h)]

theorem dynSlice1_block {j : ℕ} (hj : j < m) (g : Fin (m * v) → ℝ) (c : Fin (m * v))
    (h : c.divNat.val = j) : dynSlice1 g (j * v) v c.modNat = g c := by
  unfold dynSlice1
  have hle : j * v ≤ m * v - v := by
    have : (j + 1) * v ≤ m * v := Nat.mul_le_mul_right v hj
    rw [Nat.add_mul, Nat.one_mul] at this
    omega
  have hd : c.val / v = j := by simpa [Fin.divNat] using h
  have key : min (j * v) (m * v - v) + c.modNat.val = c.val := by
    rw [Nat.min_eq_left hle]
    have := Nat.div_add_mod c.val v
    rw [hd, Nat.mul_comm] at this
    simpa [Fin.modNat] using this
  rw [dif_pos (by rw [key]; exact c.isLt)]
  congr 1
  exact Fin.ext key

end GPX
