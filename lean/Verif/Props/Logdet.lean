import Verif.Props.Lanczos
import Verif.Lemmas.Eigh
import Mathlib.LinearAlgebra.Lagrange

/-!
# C67: the stochastic Lanczos estimate of the log-determinant
-/

namespace GPX.Props
open GPX

variable {n : ℕ} {Key : Type}

/-- Every real function agrees with a polynomial on finitely many points. -/
theorem exists_poly (f : ℝ → ℝ) (s : Finset ℝ) : ∃ p : Polynomial ℝ, ∀ x ∈ s, p.eval x = f x :=
  ⟨Lagrange.interpolate s id f, fun x hx => Lagrange.eval_interpolate_at_node f (Function.injective_id.injOn) hx⟩

/-- A polynomial of a diagonalized matrix. -/
theorem aeval_diag (Q : Mat n n) (d : Fin n → ℝ) (hQ : Q.transpose * Q = 1) (p : Polynomial ℝ) :
    Polynomial.aeval (Q * Matrix.diagonal d * Q.transpose) p =
      Q * Matrix.diagonal (fun i => p.eval (d i)) * Q.transpose := by
  have hQ' : Q * Q.transpose = 1 := mul_eq_one_comm.mp hQ
  induction p using Polynomial.induction_on' with
  | add p q hp hq =>
    rw [map_add, hp, hq, ← Matrix.add_mul, ← Matrix.mul_add, Matrix.diagonal_add]
    simp only [Polynomial.eval_add]
  | monomial k a =>
    have hpow : ∀ k : ℕ, (Q * Matrix.diagonal d * Q.transpose) ^ k =
        Q * Matrix.diagonal (fun i => d i ^ k) * Q.transpose := by
      intro k
      induction k with
      | zero => simp [hQ']
      | succ k ih =>
        rw [pow_succ, ih]
        calc Q * Matrix.diagonal (fun i => d i ^ k) * Q.transpose * (Q * Matrix.diagonal d * Q.transpose)
            = Q * Matrix.diagonal (fun i => d i ^ k) * (Q.transpose * Q) * Matrix.diagonal d * Q.transpose := by
              simp only [Matrix.mul_assoc]
          _ = _ := by
              rw [hQ, Matrix.mul_one, Matrix.mul_assoc Q, Matrix.diagonal_mul_diagonal]
              simp only [pow_succ]
    rw [Polynomial.aeval_monomial, hpow, ← Algebra.smul_def, ← Matrix.smul_mul, ← Matrix.mul_smul,
      ← Matrix.diagonal_smul]
    congr 3
    funext i
    simp [Polynomial.eval_monomial]

/-- Conjugation by an orthogonal matrix commutes with polynomials. -/
theorem aeval_conj (V A : Mat n n) (hV : V.transpose * V = 1) (p : Polynomial ℝ) :
    Polynomial.aeval (V.transpose * A * V) p = V.transpose * Polynomial.aeval A p * V := by
  have hV' : V * V.transpose = 1 := mul_eq_one_comm.mp hV
  induction p using Polynomial.induction_on' with
  | add p q hp hq => rw [map_add, map_add, hp, hq, Matrix.mul_add, Matrix.add_mul]
  | monomial k a =>
    have hpow : ∀ k : ℕ, (V.transpose * A * V) ^ k = V.transpose * A ^ k * V := by
      intro k
      induction k with
      | zero => simp [hV]
      | succ k ih =>
        rw [pow_succ, ih, pow_succ]
        calc V.transpose * A ^ k * V * (V.transpose * A * V)
            = V.transpose * A ^ k * (V * V.transpose) * A * V := by simp only [Matrix.mul_assoc]
          _ = _ := by rw [hV', Matrix.mul_one]; simp only [Matrix.mul_assoc]
    rw [Polynomial.aeval_monomial, Polynomial.aeval_monomial, hpow, ← Algebra.smul_def, ← Algebra.smul_def,
      Matrix.mul_smul, Matrix.smul_mul]

/-- The quadratic form of a diagonalized matrix. -/
theorem quad_diag (Q : Mat n n) (d : Fin n → ℝ) (x : Fin n → ℝ) :
    x ⬝ᵥ (Q * Matrix.diagonal d * Q.transpose).mulVec x = ∑ k, (∑ i, x i * Q i k) ^ 2 * d k := by
  rw [← Matrix.mulVec_mulVec, ← Matrix.mulVec_mulVec, Matrix.dotProduct_mulVec]
  simp only [dotProduct, Matrix.mulVec_diagonal]
  refine Finset.sum_congr rfl fun k _ => ?_
  have h1 : Matrix.vecMul x Q k = ∑ i, x i * Q i k := rfl
  have h2 : Matrix.mulVec Q.transpose x k = ∑ i, x i * Q i k := by
    change ∑ i, Q i k * x i = _
    exact Finset.sum_congr rfl fun i _ => mul_comm _ _
  rw [h1, h2]
  ring

/-- **C67**, one random vector: for every matrix `A = Q diag(l) Qᵀ` with `Q` orthogonal and eigenvalues at least
`1e-36`, every unit vector `u` and every run of `n` steps without inexact breakdown, the quadrature term computed from
the tridiagonal matrix is exactly `uᵀ log(A) u`. -/
theorem C67_term (eigh : Eigh) (he : eigh.Exact) {m : ℕ} (A Q : Mat (m + 1) (m + 1)) (l : Fin (m + 1) → ℝ)
    (hQ : Q.transpose * Q = 1) (hA : A = Q * Matrix.diagonal l * Q.transpose)
    (hl : ∀ i, 1 / 10 ^ 36 ≤ l i) (split : Key → Key × Key) (normal : Key → Vec (m + 1))
    (u : Vec (m + 1)) (hu : ∑ i, u i ^ 2 = 1) (key : Key)
    (hr : ExactRun split normal A.mulVec (m + 1) u key) :
    logdetTerm eigh (lanczosTridiagonal split normal A.mulVec (m + 1) u key).1 =
      u ⬝ᵥ (Q * Matrix.diagonal (fun i => Real.log (l i)) * Q.transpose).mulVec u := by
  have hAs : A.transpose = A := by
    rw [hA]
    simp only [Matrix.transpose_mul, Matrix.transpose_transpose, Matrix.diagonal_transpose, Matrix.mul_assoc]
  obtain ⟨hVV, hT, -⟩ := exactRun_spec A hAs split normal (m + 1) u hu key hr
  set T : Mat (m + 1) (m + 1) := Matrix.of (lanczosTridiagonal split normal A.mulVec (m + 1) u key).1 with hTdef
  set V : Mat (m + 1) (m + 1) := Matrix.of (lanczosTridiagonal split normal A.mulVec (m + 1) u key).2 with hVdef
  have hV' : V * V.transpose = 1 := mul_eq_one_comm.mp hVV
  have hTh : T.IsHermitian := by
    ext a b
    exact (C40_symmetric_tridiagonal split normal A.mulVec (m + 1) u key).1 b a
  obtain ⟨hE, hTE⟩ := he T hTh
  set E := (eigh T).2 with hEdef
  set μ := (eigh T).1 with hμdef
  have hV0 : V.mulVec (Pi.single 0 1) = u := by
    funext i
    rw [Matrix.mulVec_single_one]
    exact C40_start split normal A.mulVec (m + 1) u key (Nat.succ_pos m) i
  -- both spectra give the same value for every polynomial
  have hpoly : ∀ p : Polynomial ℝ, ∑ k, (E 0 k) ^ 2 * p.eval (μ k) =
      u ⬝ᵥ (Q * Matrix.diagonal (fun i => p.eval (l i)) * Q.transpose).mulVec u := by
    intro p
    have h1 : Polynomial.aeval T p 0 0 = ∑ k, (E 0 k) ^ 2 * p.eval (μ k) := by
      rw [hTE, aeval_diag E μ hE, Matrix.mul_apply]
      refine Finset.sum_congr rfl fun k _ => ?_
      rw [Matrix.mul_diagonal, Matrix.transpose_apply]
      ring
    rw [← h1, hT, aeval_conj V A hVV, hA, aeval_diag Q l hQ, ← hV0]
    obtain ⟨M, hM⟩ : ∃ M, M = Q * Matrix.diagonal (fun i => p.eval (l i)) * Q.transpose := ⟨_, rfl⟩
    have hMt : M.transpose = M := by
      simp only [hM, Matrix.transpose_mul, Matrix.transpose_transpose, Matrix.diagonal_transpose, Matrix.mul_assoc]
    rw [← hM, Matrix.mulVec_mulVec, Matrix.dotProduct_mulVec, ← Matrix.mulVec_transpose, Matrix.mulVec_mulVec,
      dotProduct_single_one, Matrix.mulVec_single_one, Matrix.col_apply, Matrix.transpose_mul, hMt]
  -- the eigenvalues of `T` are at least `1e-36`
  have hμ : ∀ k, 1 / 10 ^ 36 ≤ μ k := by
    intro k
    let p : Polynomial ℝ := ∏ i, (Polynomial.X - Polynomial.C (l i))
    have hpl : ∀ i, p.eval (l i) = 0 := fun i => by
      simp only [p, Polynomial.eval_prod, Polynomial.eval_sub, Polynomial.eval_X, Polynomial.eval_C]
      exact Finset.prod_eq_zero (Finset.mem_univ i) (sub_self _)
    have h0 : Polynomial.aeval T p = 0 := by
      rw [hT, aeval_conj V A hVV, hA, aeval_diag Q l hQ]
      simp only [hpl]
      simp
    have h1 : Matrix.diagonal (fun i => p.eval (μ i)) = 0 := by
      rw [hTE, aeval_diag E μ hE] at h0
      calc Matrix.diagonal (fun i => p.eval (μ i))
          = (E.transpose * E) * Matrix.diagonal (fun i => p.eval (μ i)) * (E.transpose * E) := by
            rw [hE, Matrix.one_mul, Matrix.mul_one]
        _ = E.transpose * (E * Matrix.diagonal (fun i => p.eval (μ i)) * E.transpose) * E := by
            simp only [Matrix.mul_assoc]
        _ = 0 := by rw [h0, Matrix.mul_zero, Matrix.zero_mul]
    have h2 : p.eval (μ k) = 0 := by
      have := congrFun (congrFun h1 k) k
      rwa [Matrix.diagonal_apply_eq] at this
    simp only [p, Polynomial.eval_prod, Polynomial.eval_sub, Polynomial.eval_X, Polynomial.eval_C] at h2
    obtain ⟨i, -, hi⟩ := Finset.prod_eq_zero_iff.mp h2
    rw [sub_eq_zero.mp hi]
    exact hl i
  obtain ⟨p, hp⟩ := exists_poly Real.log (Finset.image μ Finset.univ ∪ Finset.image l Finset.univ)
  have hpμ : ∀ k, p.eval (μ k) = Real.log (μ k) := fun k =>
    hp _ (Finset.mem_union_left _ (Finset.mem_image_of_mem _ (Finset.mem_univ _)))
  have hpl : ∀ k, p.eval (l k) = Real.log (l k) := fun k =>
    hp _ (Finset.mem_union_right _ (Finset.mem_image_of_mem _ (Finset.mem_univ _)))
  have := hpoly p
  simp only [hpμ, hpl] at this
  rw [← this]
  unfold logdetTerm
  refine Finset.sum_congr rfl fun k _ => ?_
  change E 0 k ^ 2 * Real.log (max (μ k) (1 / 10 ^ 36)) = _
  rw [max_eq_left (hμ k)]

/-- A matrix of random signs. -/
noncomputable def signs {n q : ℕ} (S : Fin n → Fin q → Bool) : Arr2 n q := fun i c => if S i c then 1 else -1

/-- Distinct signs are uncorrelated over all sign matrices; every sign squares to one. -/
theorem sum_signs {n q : ℕ} (i j : Fin n) (c : Fin q) :
    ∑ S : Fin n → Fin q → Bool, signs S i c * signs S j c =
      if i = j then (Fintype.card (Fin n → Fin q → Bool) : ℝ) else 0 := by
  split_ifs with h
  · subst h
    have : ∀ S : Fin n → Fin q → Bool, signs S i c * signs S i c = 1 := fun S => by
      simp only [signs]; split_ifs <;> norm_num
    simp only [this, Finset.sum_const, Finset.card_univ, nsmul_eq_mul, mul_one]
  · let flip : (Fin n → Fin q → Bool) → (Fin n → Fin q → Bool) := fun S a b =>
      if a = i ∧ b = c then !(S a b) else S a b
    have hinv : Function.Involutive flip := by
      intro S
      funext a b
      simp only [flip]
      split_ifs <;> simp
    have hs : ∑ S : Fin n → Fin q → Bool, signs S i c * signs S j c =
        ∑ S : Fin n → Fin q → Bool, signs (flip S) i c * signs (flip S) j c :=
      (Equiv.sum_comp hinv.toPerm fun S => signs S i c * signs S j c).symm
    have hneg : ∀ S : Fin n → Fin q → Bool, signs (flip S) i c * signs (flip S) j c =
        -(signs S i c * signs S j c) := by
      intro S
      have hj : ¬ (j = i ∧ c = c) := fun h' => h h'.1.symm
      simp only [signs, flip, and_self, if_true, if_neg hj]
      cases S i c <;> cases S j c <;> simp
    simp only [hneg, Finset.sum_neg_distrib] at hs
    linarith

theorem vnorm_signs {n q : ℕ} (S : Fin n → Fin q → Bool) (c : Fin q) :
    vnorm (column (signs S) c) = Real.sqrt n := by
  unfold vnorm
  congr 1
  have : ∀ i, column (signs S) c i ^ 2 = 1 := fun i => by
    simp only [column, signs]; split_ifs <;> norm_num
  simp [this]

/-- **C67.** For every matrix with eigenvalues at least `1e-36`, every key, every number of random vectors `q ≥ 1` and
`n` Lanczos steps, if the runs started at the normalized sign vectors have no inexact breakdown, the average of the
estimate over all matrices of random signs is exactly `log det A`. -/
theorem C67_unbiased (eigh : Eigh) (he : eigh.Exact) {m q : ℕ} (hq : 0 < q) (A Q : Mat (m + 1) (m + 1))
    (l : Fin (m + 1) → ℝ) (hQ : Q.transpose * Q = 1) (hA : A = Q * Matrix.diagonal l * Q.transpose)
    (hl : ∀ i, 1 / 10 ^ 36 ≤ l i) (split : Key → Key × Key) (normal : Key → Vec (m + 1)) (key : Key)
    (hr : ∀ s : Fin (m + 1) → Bool, ExactRun split normal A.mulVec (m + 1)
      (fun i => (if s i then 1 else -1) / Real.sqrt ((m + 1 : ℕ) : ℝ)) (split key).2) :
    (∑ S : Fin (m + 1) → Fin q → Bool,
        lanczosLogdet split normal (fun _ => signs S) eigh A.mulVec m key) /
      Fintype.card (Fin (m + 1) → Fin q → Bool) = Real.log A.det := by
  have hn : (0 : ℝ) < ((m + 1 : ℕ) : ℝ) := by positivity
  have hs := Real.sq_sqrt hn.le
  have hs0 : (0 : ℝ) < Real.sqrt ((m + 1 : ℕ) : ℝ) := Real.sqrt_pos.mpr hn
  set L := Q * Matrix.diagonal (fun i => Real.log (l i)) * Q.transpose with hL
  have hone : ∀ S : Fin (m + 1) → Fin q → Bool,
      lanczosLogdet split normal (fun _ => signs S) eigh A.mulVec m key =
        (1 / (q : ℝ)) * ∑ c, ∑ i, ∑ j, L i j * (signs S i c * signs S j c) := by
    intro S
    unfold lanczosLogdet
    simp only [vnorm_signs]
    have hterm : ∀ c : Fin q, logdetTerm eigh (lanczosTridiagonal split normal A.mulVec (m + 1)
        (column (fun i c => signs S i c / Real.sqrt ((m + 1 : ℕ) : ℝ)) c) (split key).2).1 =
        (1 / ((m + 1 : ℕ) : ℝ)) * ∑ i, ∑ j, L i j * (signs S i c * signs S j c) := by
      intro c
      have hu : ∑ i, (column (fun i c => signs S i c / Real.sqrt ((m + 1 : ℕ) : ℝ)) c i) ^ 2 = 1 := by
        have : ∀ i, (column (fun i c => signs S i c / Real.sqrt ((m + 1 : ℕ) : ℝ)) c i) ^ 2 =
            1 / ((m + 1 : ℕ) : ℝ) := fun i => by
          have h1 : signs S i c ^ 2 = 1 := by simp only [signs]; split_ifs <;> norm_num
          change (signs S i c / Real.sqrt ((m + 1 : ℕ) : ℝ)) ^ 2 = _
          rw [div_pow, h1, hs]
        simp only [this, Finset.sum_const, Finset.card_univ, Fintype.card_fin, nsmul_eq_mul]
        field_simp
      rw [C67_term eigh he A Q l hQ hA hl split normal _ hu (split key).2 (hr fun i => S i c), ← hL]
      simp only [dotProduct, Matrix.mulVec, column, Finset.mul_sum]
      refine Finset.sum_congr rfl fun i _ => Finset.sum_congr rfl fun j _ => ?_
      have : 1 / ((m + 1 : ℕ) : ℝ) = 1 / Real.sqrt ((m + 1 : ℕ) : ℝ) * (1 / Real.sqrt ((m + 1 : ℕ) : ℝ)) := by
        rw [div_mul_div_comm, one_mul, ← sq, hs]
      rw [this]
      ring
    have hscan : ∀ (f : Vec (m + 1) → ℝ) (xs : List (Vec (m + 1))) (a : ℝ),
        (laxScan (fun (logdet : ℝ) (u : Vec (m + 1)) => (logdet + f u, ())) a xs).1 =
          a + (xs.map f).sum := by
      intro f xs
      induction xs with
      | nil => intro a; simp [laxScan]
      | cons x xs ih => intro a; simp [laxScan, ih, add_assoc]
    rw [hscan (fun u => logdetTerm eigh (lanczosTridiagonal split normal A.mulVec (m + 1) u (split key).2).1),
      List.map_ofFn, List.sum_ofFn, zero_add]
    simp only [Function.comp_def, hterm, ← Finset.mul_sum]
    field_simp
  simp only [hone, ← Finset.mul_sum]
  have hswap : ∑ S : Fin (m + 1) → Fin q → Bool, ∑ c, ∑ i, ∑ j, L i j * (signs S i c * signs S j c) =
      (q : ℝ) * (Fintype.card (Fin (m + 1) → Fin q → Bool) * L.trace) := by
    rw [Finset.sum_comm]
    have : ∀ c : Fin q, ∑ S : Fin (m + 1) → Fin q → Bool, ∑ i, ∑ j, L i j * (signs S i c * signs S j c) =
        Fintype.card (Fin (m + 1) → Fin q → Bool) * L.trace := by
      intro c
      rw [Finset.sum_comm, Matrix.trace, Finset.mul_sum]
      refine Finset.sum_congr rfl fun i _ => ?_
      rw [Finset.sum_comm]
      simp only [← Finset.mul_sum, sum_signs, mul_ite, mul_zero, Finset.sum_ite_eq, Finset.mem_univ, if_true,
        Matrix.diag_apply]
      ring
    simp only [this, Finset.sum_const, Finset.card_univ, Fintype.card_fin, nsmul_eq_mul]
  rw [hswap]
  have hq' : (q : ℝ) ≠ 0 := by exact_mod_cast hq.ne'
  have hcard : (Fintype.card (Fin (m + 1) → Fin q → Bool) : ℝ) ≠ 0 := by
    exact_mod_cast Fintype.card_ne_zero
  have htr : L.trace = Real.log A.det := by
    have hdet : A.det = ∏ i, l i := by
      have hd : Q.det * Q.transpose.det = 1 := by
        rw [← Matrix.det_mul, mul_eq_one_comm.mp hQ, Matrix.det_one]
      rw [hA, Matrix.det_mul, Matrix.det_mul, Matrix.det_diagonal]
      linear_combination (∏ i, l i) * hd
    rw [hL, Matrix.trace_mul_comm, ← Matrix.mul_assoc, hQ, Matrix.one_mul, Matrix.trace_diagonal, hdet,
      Real.log_prod (fun i _ => ?_)]
    have := hl i
    have : (0 : ℝ) < l i := lt_of_lt_of_le (by norm_num) this
    exact this.ne'
  rw [htr]
  field_simp

/-- A two-step run on a diagonal matrix is exact as soon as its off-diagonal element is above the threshold. -/
theorem exactRun_two (split : Key → Key × Key) (normal : Key → Vec 2) (matvec : Vec 2 → Vec 2) (v1 : Vec 2)
    (key : Key) (hb : 1 / 10 ^ 12 < (lanczosInit matvec 2 v1 key).beta) :
    ExactRun split normal matvec 2 v1 key := by
  constructor
  · intro i hi h
    have : i = 0 := by omega
    subst this
    exact absurd hb (not_lt.mpr h)
  · intro k k1 hk
    have h0 : k.val = 0 := by omega
    have h1 : k1.val = 1 := by omega
    right
    have : (lanczosTridiagonal split normal matvec 2 v1 key).1 k k1 = (lanczosInit matvec 2 v1 key).beta := by
      simp [lanczosTridiagonal, lanczosState, foriLoop_succ, foriLoop_zero, lanczosStep, setEntry, h0, h1]
    rw [this]
    exact hb

/-- Non-vacuity of `C67_unbiased`, `C67_term` and `C68_moments`: for `A = diag(1, 3)` every run started at a
normalized sign vector is exact, whatever the generator and the key. -/
example (split : Key → Key × Key) (normal : Key → Vec 2) (key : Key) (s : Fin 2 → Bool) :
    ExactRun split normal (Matrix.mulVec (Matrix.diagonal ![1, 3])) 2
      (fun i => (if s i then 1 else -1) / Real.sqrt ((1 + 1 : ℕ) : ℝ)) key := by
  apply exactRun_two
  obtain ⟨u, hu⟩ : ∃ u : Vec 2, u = fun i => (if s i then 1 else -1) / Real.sqrt ((1 + 1 : ℕ) : ℝ) := ⟨_, rfl⟩
  have e : ∀ i, u i ^ 2 = 1 / 2 := fun i => by
    have hs : ((if s i then 1 else -1 : ℝ)) ^ 2 = 1 := by split_ifs <;> norm_num
    rw [hu]
    simp only [div_pow, hs]
    norm_num
  have hb : (lanczosInit (Matrix.mulVec (Matrix.diagonal ![1, 3])) 2 u key).beta = Real.sqrt 1 := by
    simp only [lanczosInit, vnorm]
    congr 1
    simp only [Fin.sum_univ_two, vdot, Matrix.mulVec_diagonal, Matrix.cons_val_zero, Matrix.cons_val_one, one_mul]
    have e0 := e 0
    have e1 := e 1
    have : u 0 * u 0 + 3 * u 1 * u 1 = 2 := by linear_combination e0 + 3 * e1
    rw [this]
    linear_combination e0 + e1
  rw [← hu, hb, Real.sqrt_one]
  norm_num

/-- Non-vacuity of the contract of `jnp.linalg.eigh` assumed by C67: the spectral theorem provides such a function. -/
example : ∃ eigh : Eigh, eigh.Exact := ⟨idealEigh, idealEigh_exact⟩

end GPX.Props
