import Verif.Lemmas.Arrays

/-! # Entry formulas for the kernelizers -/

namespace GPX

variable {d n m v v1 v2 : ℕ}

theorem kernelize_apply (kf : Sample d → Sample d → ℝ) (lax : Bool) (x1 : Batch n d)
    (x2 : Batch m d) : kernelize kf lax x1 x2 = fun i j => kf (x1 i) (x2 j) := by
  cases lax
  · rfl
  · simp only [kernelize, if_true, kernelizeLax]
    exact stack_laxScan (fun (x1s : Sample d) => fun j => kf x1s (x2 j)) 0 0 x1

theorem grad0Kernelize_apply (g0 : Sample d → Sample d → Fin d → ℝ) (x1 : Batch n d)
    (x2 : Batch m d) :
    grad0Kernelize g0 x1 x2 = fun r c => g0 (x1 r.divNat) (x2 c) r.modNat := by
  unfold grad0Kernelize
  rw [stack_laxScan (fun (x1s : Sample d) => fun f j => g0 x1s (x2 j) f) 0 0 x1]
  rfl

theorem grad1Kernelize_apply (g1 : Sample d → Sample d → Fin d → ℝ) (x1 : Batch n d)
    (x2 : Batch m d) :
    grad1Kernelize g1 x1 x2 = fun r c => g1 (x1 r) (x2 c.divNat) c.modNat := by
  unfold grad1Kernelize
  rw [stack_laxScan (fun (x1s : Sample d) => fun j f => g1 x1s (x2 j) f) 0 0 x1]
  rfl

theorem grad01Kernelize_apply (h01 : Sample d → Sample d → Fin d → Fin d → ℝ) (x1 : Batch n d)
    (x2 : Batch m d) :
    grad01Kernelize h01 x1 x2 =
      fun r c => h01 (x1 r.divNat) (x2 c.divNat) r.modNat c.modNat := by
  unfold grad01Kernelize
  rw [stack_laxScan (fun (x1s : Sample d) => fun f j e => h01 x1s (x2 j) f e) 0 0 x1]
  rfl

theorem grad0jacKernelize_apply (g0 : Sample d → Sample d → Fin d → ℝ) (x1 : Batch n d)
    (x2 : Batch m d) (J : Jac n d v) :
    grad0jacKernelize g0 x1 x2 J =
      fun r c => ∑ f, g0 (x1 r.divNat) (x2 c) f * J r.divNat f r.modNat := by
  have h : ∀ (s : Arr2 (n * v) m) (p : Fin (n * v) × Fin m), 
      grad0jacKernelize g0 x1 x2 J p.1 p.2 = ∑ f, g0 (x1 p.1.divNat) (x2 p.2) f * J p.1.divNat f p.1.modNat := by
    intro _ p
    unfold grad0jacKernelize
    have key : ∀ k, k ≤ n → ∀ (r : Fin (n * v)) (c : Fin m), r.divNat.val < k →
        foriLoop k (fun i (gram : Arr2 (n * v) m) =>
          dynUpdate2 gram (fun (j : Fin v) (k : Fin m) =>
            ∑ f, g0 (rowAt 0 x1 i) (x2 k) f * rowAt 0 J i f j) (i * v) 0) (fun _ _ => 0) r c =
          ∑ f, g0 (x1 r.divNat) (x2 c) f * J r.divNat f r.modNat := by
      intro k
      induction k with
      | zero => intro _ r c h; omega
      | succ k ih =>
        intro hk r c h
        rw [foriLoop_succ, dynUpdate2_rows (by omega)]
        by_cases hd : r.divNat.val = k
        · rw [if_pos hd]
          subst hd
          simp only [rowAt_fin]
        · rw [if_neg hd]
          exact ih (by omega) r c (by omega)
    exact key n le_rfl p.1 p.2 p.1.divNat.isLt
  funext r c
  exact h 0 (r, c)

theorem grad0jaccoefTraced_apply (g0 : Sample d → Sample d → Fin d → ℝ) (x1 : Batch n d)
    (x2 : Batch m d) (jc : Batch n d) :
    grad0jaccoefTraced g0 x1 x2 jc = fun c => ∑ i, ∑ f, g0 (x1 i) (x2 c) f * jc i f := by
  funext c
  unfold grad0jaccoefTraced
  rw [foriLoop_add (fun i (k : Fin m) => ∑ f, g0 (rowAt 0 x1 i) (x2 k) f * rowAt 0 jc i f)]
  simp only [rowAt_fin, zero_add]

theorem grad0jaccoefUntraced_apply (g0 : Sample d → Sample d → Fin d → ℝ) (x1 : Batch n d)
    (x2 : Batch m d) (jc : Batch n d) :
    grad0jaccoefUntraced g0 x1 x2 jc = fun r c => ∑ f, g0 (x1 r) (x2 c) f * jc r f := by
  funext r c
  unfold grad0jaccoefUntraced
  have key : ∀ k, k ≤ n → r.val < k →
      foriLoop k (fun i (gram : Arr2 n m) =>
        setRow gram i (fun k => ∑ f, g0 (rowAt 0 x1 i) (x2 k) f * rowAt 0 jc i f))
        (fun _ _ => 0) r c = ∑ f, g0 (x1 r) (x2 c) f * jc r f := by
    intro k
    induction k with
    | zero => intro _ h; omega
    | succ k ih =>
      intro hk h
      rw [foriLoop_succ]
      unfold setRow
      by_cases hd : r.val = k
      · rw [if_pos hd]
        subst hd
        simp only [rowAt_fin]
      · rw [if_neg hd]
        exact ih (by omega) (by omega)
  exact key n le_rfl r.isLt

theorem grad1jacKernelize_apply (g1 : Sample d → Sample d → Fin d → ℝ) (x1 : Batch n d)
    (x2 : Batch m d) (J : Jac m d v) :
    grad1jacKernelize g1 x1 x2 J =
      fun r c => ∑ f, g1 (x1 r) (x2 c.divNat) f * J c.divNat f c.modNat := by
  funext r c
  unfold grad1jacKernelize
  have key : ∀ k, k ≤ m → c.divNat.val < k →
      foriLoop k (fun j (gram : Arr2 n (m * v)) =>
        dynUpdate2 gram (fun (k : Fin n) (u : Fin v) =>
          ∑ f, g1 (x1 k) (rowAt 0 x2 j) f * rowAt 0 J j f u) 0 (j * v)) (fun _ _ => 0) r c =
        ∑ f, g1 (x1 r) (x2 c.divNat) f * J c.divNat f c.modNat := by
    intro k
    induction k with
    | zero => intro _ h; omega
    | succ k ih =>
      intro hk h
      rw [foriLoop_succ, dynUpdate2_cols (by omega)]
      by_cases hd : c.divNat.val = k
      · rw [if_pos hd]
        subst hd
        simp only [rowAt_fin]
      · rw [if_neg hd]
        exact ih (by omega) (by omega)
  exact key m le_rfl c.divNat.isLt

theorem foriLoop_write_inner {P : Type*} (o1 o2 : P → ℕ) (w : ℕ → ℕ → P → ℝ) (m i : ℕ)
    (s : P → ℝ) (q : P) :
    foriLoop m (fun j (s : P → ℝ) q => if o1 q = i ∧ o2 q = j then w i j q else s q) s q =
      if o1 q = i ∧ o2 q < m then w i (o2 q) q else s q := by
  induction m with
  | zero => simp [foriLoop_zero]
  | succ m ih =>
    rw [foriLoop_succ]
    show (if o1 q = i ∧ o2 q = m then w i m q else _) = _
    rw [ih]
    by_cases ha : o1 q = i <;> by_cases hb : o2 q = m <;> simp [ha, hb]
    congr 1
    exact propext ⟨fun h => by omega, fun h => by omega⟩

/-- Two nested loops, step `(i, j)` overwriting the entries owned by `(i, j)`. -/
theorem foriLoop_write2 {P : Type*} (o1 o2 : P → ℕ) (w : ℕ → ℕ → P → ℝ) (n m : ℕ)
    (init : P → ℝ) (p : P) (h1 : o1 p < n) (h2 : o2 p < m) :
    foriLoop n (fun i s => foriLoop m (fun j (s : P → ℝ) q =>
      if o1 q = i ∧ o2 q = j then w i j q else s q) s) init p = w (o1 p) (o2 p) p := by
  have outer : ∀ k, k ≤ n → foriLoop k (fun i s => foriLoop m (fun j (s : P → ℝ) q =>
      if o1 q = i ∧ o2 q = j then w i j q else s q) s) init p =
        if o1 p < k then w (o1 p) (o2 p) p else init p := by
    intro k
    induction k with
    | zero => intro _; simp [foriLoop_zero]
    | succ k ih =>
      intro hk
      rw [foriLoop_succ, foriLoop_write_inner, ih (by omega)]
      by_cases ha : o1 p = k
      · simp [ha, h2]
      · have : o1 p < k + 1 ↔ o1 p < k := by omega
        simp [ha, this]
  rw [outer n le_rfl, if_pos h1]

/-- Currying of the loop state, so that `foriLoop_write2` applies to two-dimensional arrays. -/
theorem foriLoop_conj {S T : Type*} (e : S → T) (k : ℕ) (b : ℕ → S → S) (b' : ℕ → T → T) (s : S)
    (h : ∀ i s, i < k → e (b i s) = b' i (e s)) : e (foriLoop k b s) = foriLoop k b' (e s) := by
  induction k with
  | zero => rfl
  | succ k ih =>
    rw [foriLoop_succ, foriLoop_succ, h k _ (Nat.lt_succ_self k), ih fun i s hi => h i s (by omega)]

theorem grad01jacKernelize_apply (h01 : Sample d → Sample d → Fin d → Fin d → ℝ) (x1 : Batch n d)
    (x2 : Batch m d) (J1 : Jac n d v1) (J2 : Jac m d v2) :
    grad01jacKernelize h01 x1 x2 J1 J2 = fun r c =>
      ∑ a, ∑ b, J1 r.divNat a r.modNat * h01 (x1 r.divNat) (x2 c.divNat) a b *
        J2 c.divNat b c.modNat := by
  funext r c
  let e : Arr2 (n * v1) (m * v2) → (Fin (n * v1) × Fin (m * v2) → ℝ) := fun g p => g p.1 p.2
  show e (grad01jacKernelize h01 x1 x2 J1 J2) (r, c) = _
  unfold grad01jacKernelize
  rw [foriLoop_conj e n _ (fun i s => foriLoop m (fun j (s : Fin (n * v1) × Fin (m * v2) → ℝ) q =>
      if q.1.divNat.val = i ∧ q.2.divNat.val = j then
        ∑ a, ∑ b, rowAt 0 J1 i a q.1.modNat * h01 (rowAt 0 x1 i) (rowAt 0 x2 j) a b *
          rowAt 0 J2 j b q.2.modNat
      else s q) s)]
  · rw [foriLoop_write2 (fun q : Fin (n * v1) × Fin (m * v2) => q.1.divNat.val)
      (fun q => q.2.divNat.val) (fun i j q => ∑ a, ∑ b, rowAt 0 J1 i a q.1.modNat *
        h01 (rowAt 0 x1 i) (rowAt 0 x2 j) a b * rowAt 0 J2 j b q.2.modNat) n m _ (r, c)
      r.divNat.isLt c.divNat.isLt]
    simp only [rowAt_fin]
  · intro i s hi
    refine foriLoop_conj e m _ _ s ?_
    intro j s hj
    funext q
    exact dynUpdate2_block hi hj _ _ q.1 q.2

theorem grad01jaccoefUntraced_apply (h01 : Sample d → Sample d → Fin d → Fin d → ℝ)
    (x1 : Batch n d) (x2 : Batch m d) (jc : Batch n d) (J : Jac m d v) :
    grad01jaccoefUntraced h01 x1 x2 jc J = fun r c =>
      ∑ f, ∑ e, jc r f * h01 (x1 r) (x2 c.divNat) f e * J c.divNat e c.modNat := by
  funext r c
  let e : Arr2 n (m * v) → (Fin n × Fin (m * v) → ℝ) := fun g p => g p.1 p.2
  show e (grad01jaccoefUntraced h01 x1 x2 jc J) (r, c) = _
  unfold grad01jaccoefUntraced
  rw [foriLoop_conj e n _ (fun i s => foriLoop m (fun j (s : Fin n × Fin (m * v) → ℝ) q =>
      if q.1.val = i ∧ q.2.divNat.val = j then
        ∑ f, ∑ e, rowAt 0 jc i f * h01 (rowAt 0 x1 i) (rowAt 0 x2 j) f e *
          rowAt 0 J j e q.2.modNat
      else s q) s)]
  · rw [foriLoop_write2 (fun q : Fin n × Fin (m * v) => q.1.val)
      (fun q => q.2.divNat.val) (fun i j q => ∑ f, ∑ e, rowAt 0 jc i f *
        h01 (rowAt 0 x1 i) (rowAt 0 x2 j) f e * rowAt 0 J j e q.2.modNat) n m _ (r, c)
      r.isLt c.divNat.isLt]
    simp only [rowAt_fin]
  · intro i s hi
    refine foriLoop_conj e m _ _ s ?_
    intro j s hj
    funext q
    exact dynUpdate2_row_cols hi hj _ _ q.1 q.2

theorem grad01jaccoefTraced_apply (h01 : Sample d → Sample d → Fin d → Fin d → ℝ)
    (x1 : Batch n d) (x2 : Batch m d) (jc : Batch n d) (J : Jac m d v) :
    grad01jaccoefTraced h01 x1 x2 jc J = fun c =>
      ∑ i, ∑ f, ∑ e, jc i f * h01 (x1 i) (x2 c.divNat) f e * J c.divNat e c.modNat := by
  funext c
  unfold grad01jaccoefTraced
  have inner : ∀ (i : ℕ) (s : Fin (m * v) → ℝ) (k : ℕ), k ≤ m → ∀ c : Fin (m * v),
      foriLoop k (fun j (gram : Fin (m * v) → ℝ) =>
        dynUpdate1 gram (fun u => dynSlice1 gram (j * v) v u +
          ∑ f, ∑ e, rowAt 0 jc i f * h01 (rowAt 0 x1 i) (rowAt 0 x2 j) f e * rowAt 0 J j e u)
          (j * v)) s c =
        if c.divNat.val < k then s c + ∑ f, ∑ e, rowAt 0 jc i f *
          h01 (rowAt 0 x1 i) (x2 c.divNat) f e * J c.divNat e c.modNat else s c := by
    intro i s k
    induction k with
    | zero => intro _ c; simp [foriLoop_zero]
    | succ k ih =>
      intro hk c
      rw [foriLoop_succ, dynUpdate1_block (by omega)]
      by_cases hd : c.divNat.val = k
      · rw [if_pos hd, dynSlice1_block (by omega) _ c hd, ih (by omega)]
        rw [if_neg (by omega), if_pos (by omega)]
        subst hd
        simp only [rowAt_fin]
      · rw [if_neg hd, ih (by omega)]
        by_cases h2 : c.divNat.val < k
        · rw [if_pos h2, if_pos (by omega)]
        · rw [if_neg h2, if_neg (by omega)]
  rw [foriLoop_congr n _ (fun i s c => s c + ∑ f, ∑ e, rowAt 0 jc i f *
          h01 (rowAt 0 x1 i) (x2 c.divNat) f e * J c.divNat e c.modNat)]
  · rw [foriLoop_add (fun i (c : Fin (m * v)) => ∑ f, ∑ e, rowAt 0 jc i f *
          h01 (rowAt 0 x1 i) (x2 c.divNat) f e * J c.divNat e c.modNat)]
    simp only [rowAt_fin, zero_add]
  · intro i s hi
    funext c
    rw [inner i s m le_rfl c, if_pos c.divNat.isLt]

end GPX
