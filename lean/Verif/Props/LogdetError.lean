import Verif.Lemmas.SignMoments
import Mathlib.Analysis.SpecialFunctions.Log.Deriv

/-!
# C113, C114: the accuracy of the stochastic Lanczos estimate of the log-determinant

The averages are over all matrices of random signs, the distribution of `random.rademacher`.
-/

namespace GPX.Props
open GPX

variable {n : ℕ} {Key : Type}

/-- `lanczos_logdet` is the mean over the random vectors of `n` times the quadrature terms. -/
theorem lanczosLogdet_eq (split : Key → Key × Key) (normal : Key → Vec n) {q : ℕ} (S : Fin n → Fin q → Bool)
    (eigh : Eigh) (matvec : Vec n → Vec n) (m : ℕ) (key : Key) :
    lanczosLogdet split normal (fun _ => signs S) eigh matvec m key =
      (n : ℝ) / q * ∑ c, logdetTerm eigh (lanczosTridiagonal split normal matvec (m + 1)
        (fun i => signs S i c / Real.sqrt n) (split key).2).1 := by
  unfold lanczosLogdet
  simp only [vnorm_signs]
  have hscan : ∀ (f : Vec n → ℝ) (xs : List (Vec n)) (a : ℝ),
      (laxScan (fun (logdet : ℝ) (u : Vec n) => (logdet + f u, ())) a xs).1 = a + (xs.map f).sum := by
    intro f xs
    induction xs with
    | nil => intro a; simp [laxScan]
    | cons x xs ih => intro a; simp [laxScan, ih, add_assoc]
  rw [hscan (fun u => logdetTerm eigh (lanczosTridiagonal split normal matvec (m + 1) u (split key).2).1),
    List.map_ofFn, List.sum_ofFn, zero_add]
  rfl

/-- The normalized sign vectors have norm one. -/
theorem unit_signs (hn : 0 < n) {q : ℕ} (S : Fin n → Fin q → Bool) (c : Fin q) :
    ∑ i, (signs S i c / Real.sqrt n) ^ 2 = 1 := by
  have hn' : (0 : ℝ) < n := by exact_mod_cast hn
  have : ∀ i, (signs S i c / Real.sqrt n) ^ 2 = 1 / (n : ℝ) := fun i => by
    rw [div_pow, sq (signs S i c), signs_mul_self, Real.sq_sqrt hn'.le]
  simp only [this, Finset.sum_const, Finset.card_univ, Fintype.card_fin, nsmul_eq_mul]
  field_simp

/-- Quadratic forms at the normalized sign vectors. -/
theorem quad_unit_signs (hn : 0 < n) (L : Mat n n) {q : ℕ} (S : Fin n → Fin q → Bool) (c : Fin q) :
    (fun i => signs S i c / Real.sqrt n) ⬝ᵥ L.mulVec (fun i => signs S i c / Real.sqrt n) =
      1 / (n : ℝ) * ∑ i, ∑ j, L i j * (signs S i c * signs S j c) := by
  have hn' : (0 : ℝ) < n := by exact_mod_cast hn
  simp only [dotProduct, Matrix.mulVec, Finset.mul_sum]
  refine Finset.sum_congr rfl fun i _ => Finset.sum_congr rfl fun j _ => ?_
  have : 1 / (n : ℝ) = 1 / Real.sqrt n * (1 / Real.sqrt n) := by
    rw [div_mul_div_comm, one_mul, ← sq, Real.sq_sqrt hn'.le]
  rw [this]
  ring

/-- The trace of the logarithm is the logarithm of the determinant. -/
theorem trace_log (A Q : Mat n n) (l : Fin n → ℝ) (hQ : Q.transpose * Q = 1)
    (hA : A = Q * Matrix.diagonal l * Q.transpose) (hl : ∀ i, 0 < l i) :
    (Q * Matrix.diagonal (fun i => Real.log (l i)) * Q.transpose).trace = Real.log A.det := by
  have hdet : A.det = ∏ i, l i := by
    have hd : Q.det * Q.transpose.det = 1 := by
      rw [← Matrix.det_mul, mul_eq_one_comm.mp hQ, Matrix.det_one]
    rw [hA, Matrix.det_mul, Matrix.det_mul, Matrix.det_diagonal]
    linear_combination (∏ i, l i) * hd
  rw [Matrix.trace_mul_comm, ← Matrix.mul_assoc, hQ, Matrix.one_mul, Matrix.trace_diagonal, hdet,
    Real.log_prod (fun i _ => (hl i).ne')]

theorem log_symm (Q : Mat n n) (d : Fin n → ℝ) :
    (Q * Matrix.diagonal d * Q.transpose).transpose = Q * Matrix.diagonal d * Q.transpose := by
  simp only [Matrix.transpose_mul, Matrix.transpose_transpose, Matrix.diagonal_transpose, Matrix.mul_assoc]

/-- **C113.** For every matrix with eigenvalues at least `1e-36`, every number of random vectors `q ≥ 1` and `n` Lanczos
steps without inexact breakdown, the mean square error of the estimate over all matrices of random signs is exactly
`2 / q` times the sum of the squares of the off-diagonal elements of `log A`. -/
theorem C113_mean_square (eigh : Eigh) (he : eigh.Exact) {m q : ℕ} (hq : 0 < q) (A Q L : Mat (m + 1) (m + 1))
    (l : Fin (m + 1) → ℝ) (hQ : Q.transpose * Q = 1) (hA : A = Q * Matrix.diagonal l * Q.transpose)
    (hL : L = Q * Matrix.diagonal (fun i => Real.log (l i)) * Q.transpose)
    (hl : ∀ i, 1 / 10 ^ 36 ≤ l i) (split : Key → Key × Key) (normal : Key → Vec (m + 1)) (key : Key)
    (hr : ∀ s : Fin (m + 1) → Bool, ExactRun split normal A.mulVec (m + 1)
      (fun i => (if s i then 1 else -1) / Real.sqrt ((m + 1 : ℕ) : ℝ)) (split key).2) :
    (∑ S : Fin (m + 1) → Fin q → Bool,
        (lanczosLogdet split normal (fun _ => signs S) eigh A.mulVec m key - Real.log A.det) ^ 2) /
      Fintype.card (Fin (m + 1) → Fin q → Bool) =
    2 / (q : ℝ) * ∑ i, ∑ j, if i = j then 0 else L i j ^ 2 := by
  have hn : (0 : ℝ) < ((m + 1 : ℕ) : ℝ) := by positivity
  have hlpos : ∀ i, 0 < l i := fun i => lt_of_lt_of_le (by norm_num) (hl i)
  have hq' : (q : ℝ) ≠ 0 := by exact_mod_cast hq.ne'
  have hone : ∀ S : Fin (m + 1) → Fin q → Bool,
      lanczosLogdet split normal (fun _ => signs S) eigh A.mulVec m key =
        (1 / (q : ℝ)) * ∑ c, ∑ i, ∑ j, L i j * (signs S i c * signs S j c) := by
    intro S
    rw [lanczosLogdet_eq]
    have hterm : ∀ c : Fin q, logdetTerm eigh (lanczosTridiagonal split normal A.mulVec (m + 1)
        (fun i => signs S i c / Real.sqrt ((m + 1 : ℕ) : ℝ)) (split key).2).1 =
        (1 / ((m + 1 : ℕ) : ℝ)) * ∑ i, ∑ j, L i j * (signs S i c * signs S j c) := by
      intro c
      rw [C67_term eigh he A Q l hQ hA hl split normal _ (unit_signs (Nat.succ_pos m) S c) (split key).2
        (hr fun i => S i c), ← hL, quad_unit_signs (Nat.succ_pos m)]
    simp only [hterm, ← Finset.mul_sum]
    field_simp
  rw [← trace_log A Q l hQ hA hlpos, ← hL]
  simp only [hone]
  exact mean_square_quad hq L (by rw [hL]; exact log_symm _ _)

/-- **C113**, diagonal matrices: the estimate is exact for every draw of the random vectors, however few. -/
theorem C113_diagonal_exact (eigh : Eigh) (he : eigh.Exact) {m q : ℕ} (hq : 0 < q) (l : Fin (m + 1) → ℝ)
    (hl : ∀ i, 1 / 10 ^ 36 ≤ l i) (split : Key → Key × Key) (normal : Key → Vec (m + 1)) (key : Key)
    (hr : ∀ s : Fin (m + 1) → Bool, ExactRun split normal (Matrix.diagonal l).mulVec (m + 1)
      (fun i => (if s i then 1 else -1) / Real.sqrt ((m + 1 : ℕ) : ℝ)) (split key).2)
    (S : Fin (m + 1) → Fin q → Bool) :
    lanczosLogdet split normal (fun _ => signs S) eigh (Matrix.diagonal l).mulVec m key = ∑ i, Real.log (l i) := by
  have hn : (0 : ℝ) < ((m + 1 : ℕ) : ℝ) := by positivity
  have hq' : (q : ℝ) ≠ 0 := by exact_mod_cast hq.ne'
  rw [lanczosLogdet_eq]
  have hterm : ∀ c : Fin q, logdetTerm eigh (lanczosTridiagonal split normal (Matrix.diagonal l).mulVec (m + 1)
      (fun i => signs S i c / Real.sqrt ((m + 1 : ℕ) : ℝ)) (split key).2).1 =
      (1 / ((m + 1 : ℕ) : ℝ)) * ∑ i, Real.log (l i) := by
    intro c
    rw [C67_term eigh he (Matrix.diagonal l) 1 l (by simp) (by simp) hl split normal _
      (unit_signs (Nat.succ_pos m) S c) (split key).2 (hr fun i => S i c), quad_unit_signs (Nat.succ_pos m)]
    congr 1
    simp only [Matrix.one_mul, Matrix.transpose_one, Matrix.diagonal_apply, ite_mul, zero_mul,
      Finset.sum_ite_eq, Finset.mem_univ, if_true, signs_mul_self, mul_one]
  simp only [hterm, Finset.sum_const, Finset.card_univ, Fintype.card_fin, nsmul_eq_mul]
  field_simp

/-! ## C114: any number of Lanczos steps -/

/-- The eigenvalues of the tridiagonal matrix of an exact run lie between bounds of those of the operator. -/
theorem ritz_bounds (A Q : Mat n n) (l : Fin n → ℝ) (hQ : Q.transpose * Q = 1)
    (hA : A = Q * Matrix.diagonal l * Q.transpose) {a b : ℝ} (hl : ∀ i, a ≤ l i ∧ l i ≤ b)
    {m : ℕ} (T E : Mat m m) (μ : Fin m → ℝ) (V : Mat n m) (hVV : V.transpose * V = 1)
    (hT : T = V.transpose * A * V) (hE : E.transpose * E = 1) (hTE : T = E * Matrix.diagonal μ * E.transpose)
    (k : Fin m) : a ≤ μ k ∧ μ k ≤ b := by
  set W : Mat n m := Q.transpose * (V * E) with hW
  have hQ' : Q * Q.transpose = 1 := mul_eq_one_comm.mp hQ
  have hWW : W.transpose * W = 1 := by
    rw [hW, Matrix.transpose_mul, Matrix.transpose_transpose, Matrix.mul_assoc, ← Matrix.mul_assoc Q, hQ',
      Matrix.one_mul, Matrix.transpose_mul, Matrix.mul_assoc, ← Matrix.mul_assoc V.transpose, hVV, Matrix.one_mul, hE]
  have hD : Matrix.diagonal μ = W.transpose * Matrix.diagonal l * W := by
    calc Matrix.diagonal μ = (E.transpose * E) * Matrix.diagonal μ * (E.transpose * E) := by
          rw [hE, Matrix.one_mul, Matrix.mul_one]
      _ = E.transpose * (E * Matrix.diagonal μ * E.transpose) * E := by simp only [Matrix.mul_assoc]
      _ = _ := by
        rw [← hTE, hT, hA, hW, Matrix.transpose_mul, Matrix.transpose_transpose, Matrix.transpose_mul]
        simp only [Matrix.mul_assoc]
  have hμ : μ k = ∑ i, W i k ^ 2 * l i := by
    have := congrFun (congrFun hD k) k
    rw [Matrix.diagonal_apply_eq] at this
    rw [this, Matrix.mul_apply]
    refine Finset.sum_congr rfl fun i _ => ?_
    rw [Matrix.mul_diagonal, Matrix.transpose_apply]
    ring
  have h1 : ∑ i, W i k ^ 2 = 1 := by
    have := congrFun (congrFun hWW k) k
    rw [Matrix.one_apply_eq, Matrix.mul_apply] at this
    rw [← this]
    exact Finset.sum_congr rfl fun i _ => by rw [Matrix.transpose_apply, sq]
  rw [hμ]
  constructor
  · calc a = ∑ i, W i k ^ 2 * a := by rw [← Finset.sum_mul, h1, one_mul]
      _ ≤ _ := Finset.sum_le_sum fun i _ => mul_le_mul_of_nonneg_left (hl i).1 (sq_nonneg _)
  · calc ∑ i, W i k ^ 2 * l i ≤ ∑ i, W i k ^ 2 * b :=
          Finset.sum_le_sum fun i _ => mul_le_mul_of_nonneg_left (hl i).2 (sq_nonneg _)
      _ = b := by rw [← Finset.sum_mul, h1, one_mul]

/-- **C114**, one random vector and any approximating polynomial: for every matrix with eigenvalues in `[a, b]`,
`a ≥ 1e-36`, every unit vector and every run of `m + 1` steps without inexact breakdown, the quadrature term is within
`2 ε` of `uᵀ log(A) u` for every `ε` for which some polynomial of degree at most `2 (m + 1) - 1` is within `ε` of the
logarithm on `[a, b]`. -/
theorem C114_term (eigh : Eigh) (he : eigh.Exact) (A Q : Mat n n) (l : Fin n → ℝ)
    (hQ : Q.transpose * Q = 1) (hA : A = Q * Matrix.diagonal l * Q.transpose) {a b : ℝ} (ha : 1 / 10 ^ 36 ≤ a)
    (hl : ∀ i, a ≤ l i ∧ l i ≤ b) (split : Key → Key × Key) (normal : Key → Vec n) (m : ℕ)
    (u : Vec n) (hu : ∑ i, u i ^ 2 = 1) (key : Key) (hr : ExactRun split normal A.mulVec (m + 1) u key)
    (p : Polynomial ℝ) (hp : p.natDegree ≤ 2 * (m + 1) - 1) {ε : ℝ}
    (hε : ∀ x, a ≤ x → x ≤ b → |Real.log x - p.eval x| ≤ ε) :
    |logdetTerm eigh (lanczosTridiagonal split normal A.mulVec (m + 1) u key).1 -
      u ⬝ᵥ (Q * Matrix.diagonal (fun i => Real.log (l i)) * Q.transpose).mulVec u| ≤ 2 * ε := by
  have hAs : A.transpose = A := by rw [hA]; exact log_symm _ _
  obtain ⟨hVV, hT, -⟩ := exactRun_spec A hAs split normal (m + 1) u hu key hr
  have hmom := C68_moments A hAs split normal (m + 1) (Nat.succ_pos m) u hu key hr
  set T : Mat (m + 1) (m + 1) := Matrix.of (lanczosTridiagonal split normal A.mulVec (m + 1) u key).1 with hTdef
  set V : Mat n (m + 1) := Matrix.of (lanczosTridiagonal split normal A.mulVec (m + 1) u key).2 with hVdef
  have hTh : T.IsHermitian := by
    ext a b
    exact (C40_symmetric_tridiagonal split normal A.mulVec (m + 1) u key).1 b a
  obtain ⟨hE, hTE⟩ := he T hTh
  have hμ := ritz_bounds A Q l hQ hA hl T (eigh T).2 (eigh T).1 V hVV hT hE hTE
  have hterm : logdetTerm eigh (lanczosTridiagonal split normal A.mulVec (m + 1) u key).1 =
      ∑ k, ((eigh T).2 0 k) ^ 2 * Real.log ((eigh T).1 k) := by
    unfold logdetTerm
    refine Finset.sum_congr rfl fun k _ => ?_
    change (eigh T).2 0 k ^ 2 * Real.log (max ((eigh T).1 k) (1 / 10 ^ 36)) = _
    rw [max_eq_left (ha.trans (hμ k).1)]
  set E := (eigh T).2 with hEdef
  set μ := (eigh T).1 with hμdef
  have hE' : E * E.transpose = 1 := mul_eq_one_comm.mp hE
  have hQ' : Q * Q.transpose = 1 := mul_eq_one_comm.mp hQ
  have hEone : ∑ k, E 0 k ^ 2 = 1 := by
    have := congrFun (congrFun hE' 0) 0
    rw [Matrix.one_apply_eq, Matrix.mul_apply] at this
    rw [← this]
    exact Finset.sum_congr rfl fun i _ => by rw [Matrix.transpose_apply, sq]
  have hUone : ∑ k, (∑ i, u i * Q i k) ^ 2 = 1 := by
    have := quad_diag Q (fun _ => 1) u
    simp only [mul_one] at this
    rw [← this, Matrix.diagonal_one, Matrix.mul_one, hQ', Matrix.one_mulVec, ← hu]
    exact Finset.sum_congr rfl fun i _ => (sq _).symm
  -- the two spectra give the same value for `p`
  have hpoly : ∑ k, (E 0 k) ^ 2 * p.eval (μ k) = ∑ k, (∑ i, u i * Q i k) ^ 2 * p.eval (l k) := by
    have h1 : Polynomial.aeval T p 0 0 = ∑ k, (E 0 k) ^ 2 * p.eval (μ k) := by
      rw [hTE, aeval_diag E μ hE, Matrix.mul_apply]
      refine Finset.sum_congr rfl fun k _ => ?_
      rw [Matrix.mul_diagonal, Matrix.transpose_apply]
      ring
    have h2 : u ⬝ᵥ (Polynomial.aeval A p).mulVec u = ∑ k, (∑ i, u i * Q i k) ^ 2 * p.eval (l k) := by
      rw [hA, aeval_diag Q l hQ, quad_diag]
    rw [← h1, ← h2, Polynomial.aeval_eq_sum_range' (Nat.lt_succ_of_le hp),
      Polynomial.aeval_eq_sum_range' (Nat.lt_succ_of_le hp), Matrix.sum_apply, Matrix.sum_mulVec,
      dotProduct_sum]
    refine Finset.sum_congr rfl fun i hi => ?_
    rw [Matrix.smul_apply, Matrix.smul_mulVec, dotProduct_smul]
    congr 1
    exact hmom i (by have := Finset.mem_range.mp hi; omega)
  have e1 : |∑ k, (E 0 k) ^ 2 * Real.log (μ k) - ∑ k, (E 0 k) ^ 2 * p.eval (μ k)| ≤ ε := by
    rw [← Finset.sum_sub_distrib]
    calc |∑ k, ((E 0 k) ^ 2 * Real.log (μ k) - (E 0 k) ^ 2 * p.eval (μ k))|
        ≤ ∑ k, |(E 0 k) ^ 2 * Real.log (μ k) - (E 0 k) ^ 2 * p.eval (μ k)| := Finset.abs_sum_le_sum_abs _ _
      _ ≤ ∑ k, (E 0 k) ^ 2 * ε := Finset.sum_le_sum fun k _ => by
          rw [← mul_sub, abs_mul, abs_of_nonneg (sq_nonneg _)]
          exact mul_le_mul_of_nonneg_left (hε _ (hμ k).1 (hμ k).2) (sq_nonneg _)
      _ = ε := by rw [← Finset.sum_mul, hEone, one_mul]
  have e2 : |∑ k, (∑ i, u i * Q i k) ^ 2 * Real.log (l k) - ∑ k, (∑ i, u i * Q i k) ^ 2 * p.eval (l k)| ≤ ε := by
    rw [← Finset.sum_sub_distrib]
    calc |∑ k, ((∑ i, u i * Q i k) ^ 2 * Real.log (l k) - (∑ i, u i * Q i k) ^ 2 * p.eval (l k))|
        ≤ ∑ k, |(∑ i, u i * Q i k) ^ 2 * Real.log (l k) - (∑ i, u i * Q i k) ^ 2 * p.eval (l k)| :=
          Finset.abs_sum_le_sum_abs _ _
      _ ≤ ∑ k, (∑ i, u i * Q i k) ^ 2 * ε := Finset.sum_le_sum fun k _ => by
          rw [← mul_sub, abs_mul, abs_of_nonneg (sq_nonneg _)]
          exact mul_le_mul_of_nonneg_left (hε _ (hl k).1 (hl k).2) (sq_nonneg _)
      _ = ε := by rw [← Finset.sum_mul, hUone, one_mul]
  rw [hterm, quad_diag]
  rw [hpoly] at e1
  rw [abs_le] at e1 e2 ⊢
  constructor <;> linarith [e1.1, e1.2, e2.1, e2.2]

/-- The truncated series of the logarithm around the middle of an interval. -/
theorem log_approx {a b : ℝ} (ha : 0 < a) (N : ℕ) :
    ∃ p : Polynomial ℝ, p.natDegree ≤ N ∧ ∀ x, a ≤ x → x ≤ b →
      |Real.log x - p.eval x| ≤ ((b - a) / (b + a)) ^ (N + 1) * ((b + a) / (2 * a)) := by
  by_cases hab : a ≤ b
  swap
  · exact ⟨0, by simp, fun x h1 h2 => absurd (h1.trans h2) hab⟩
  have hc : 0 < (a + b) / 2 := by linarith
  have hs' : 0 < b + a := by linarith
  set c := (a + b) / 2 with hcdef
  let p : Polynomial ℝ := Polynomial.C (Real.log c) -
    ∑ i ∈ Finset.range N, Polynomial.C (1 / ((i : ℝ) + 1)) * (1 - Polynomial.C (1 / c) * Polynomial.X) ^ (i + 1)
  have hp : ∀ x, p.eval x = Real.log c - ∑ i ∈ Finset.range N, (1 - x / c) ^ (i + 1) / ((i : ℝ) + 1) := by
    intro x
    simp only [p, Polynomial.eval_sub, Polynomial.eval_C, Polynomial.eval_finsetSum, Polynomial.eval_mul,
      Polynomial.eval_pow, Polynomial.eval_one, Polynomial.eval_X]
    congr 1
    refine Finset.sum_congr rfl fun i _ => ?_
    rw [one_div_mul_eq_div, one_div_mul_eq_div]
  refine ⟨p, ?_, fun x h1 h2 => ?_⟩
  · refine (Polynomial.natDegree_sub_le _ _).trans (max_le (by simp) ?_)
    refine Polynomial.natDegree_sum_le_of_forall_le _ _ fun i hi => ?_
    have hi' := Finset.mem_range.mp hi
    refine (Polynomial.natDegree_C_mul_le _ _).trans ((Polynomial.natDegree_pow_le).trans ?_)
    have : (1 - Polynomial.C (1 / c) * Polynomial.X : Polynomial ℝ).natDegree ≤ 1 := by
      refine (Polynomial.natDegree_sub_le _ _).trans (max_le (by simp) ?_)
      exact (Polynomial.natDegree_C_mul_le _ _).trans Polynomial.natDegree_X_le
    calc (i + 1) * _ ≤ (i + 1) * 1 := Nat.mul_le_mul_left _ this
      _ ≤ N := by omega
  · have hx : 0 < x := lt_of_lt_of_le ha h1
    set r := (b - a) / (b + a) with hr
    have hr1 : 1 - r = 2 * a / (b + a) := by rw [hr, eq_div_iff hs'.ne', sub_mul, div_mul_cancel₀ _ hs'.ne']; ring
    have hrlt : r < 1 := by
      have : 0 < 1 - r := by rw [hr1]; positivity
      linarith
    have hr0 : 0 ≤ r := div_nonneg (by linarith) (by linarith)
    have hy : |1 - x / c| ≤ r := by
      have e : 1 - x / c = (a + b - 2 * x) / (b + a) := by 
        rw [hcdef, add_comm a b, eq_div_iff hs'.ne']
        field_simp
        try ring
      rw [e, hr, abs_div, abs_of_pos (show 0 < b + a by linarith)]
      refine div_le_div_of_nonneg_right ?_ (by linarith)
      rw [abs_le]
      constructor <;> linarith
    have hlog : Real.log x = Real.log c + Real.log (1 - (1 - x / c)) := by
      rw [sub_sub_cancel, Real.log_div hx.ne' hc.ne']
      ring
    have hb := Real.abs_log_sub_add_sum_range_le (lt_of_le_of_lt hy hrlt) N
    rw [hp, hlog]
    have e : Real.log c + Real.log (1 - (1 - x / c)) -
        (Real.log c - ∑ i ∈ Finset.range N, (1 - x / c) ^ (i + 1) / ((i : ℝ) + 1)) =
        (∑ i ∈ Finset.range N, (1 - x / c) ^ (i + 1) / ((i : ℝ) + 1)) + Real.log (1 - (1 - x / c)) := by ring
    rw [e]
    refine hb.trans ?_
    have e2 : (b + a) / (2 * a) = 1 / (1 - r) := by rw [hr1, one_div_div]
    rw [e2, mul_one_div]
    refine div_le_div₀ (pow_nonneg hr0 _) (pow_le_pow_left₀ (abs_nonneg _) hy _) (by linarith) (by linarith)

/-- The bound of C114 for `k` Lanczos steps, matrices of size `n` and eigenvalues in `[a, b]`:
`n (1 + b/a) ((b - a)/(b + a))^(2k)`. -/
noncomputable def stepsBound (n k : ℕ) (a b : ℝ) : ℝ := n * (1 + b / a) * ((b - a) / (b + a)) ^ (2 * k)

/-- **C114**, every draw: with `k = m + 1` Lanczos steps, the estimate differs from the mean of `sᵀ log(A) s` over the
drawn sign vectors by at most `n (1 + b/a) ((b - a)/(b + a))^(2k)`. -/
theorem C114_every_draw (eigh : Eigh) (he : eigh.Exact) (hn : 0 < n) {q : ℕ} (hq : 0 < q) (A Q L : Mat n n)
    (l : Fin n → ℝ) (hQ : Q.transpose * Q = 1) (hA : A = Q * Matrix.diagonal l * Q.transpose)
    (hL : L = Q * Matrix.diagonal (fun i => Real.log (l i)) * Q.transpose) {a b : ℝ} (ha : 1 / 10 ^ 36 ≤ a)
    (hl : ∀ i, a ≤ l i ∧ l i ≤ b) (split : Key → Key × Key) (normal : Key → Vec n) (m : ℕ) (key : Key)
    (hr : ∀ s : Fin n → Bool, ExactRun split normal A.mulVec (m + 1)
      (fun i => (if s i then 1 else -1) / Real.sqrt n) (split key).2)
    (S : Fin n → Fin q → Bool) :
    |lanczosLogdet split normal (fun _ => signs S) eigh A.mulVec m key -
      (1 / (q : ℝ)) * ∑ c, ∑ i, ∑ j, L i j * (signs S i c * signs S j c)| ≤ stepsBound n (m + 1) a b := by
  have hn' : (0 : ℝ) < n := by exact_mod_cast hn
  have hq' : (0 : ℝ) < q := by exact_mod_cast hq
  have ha0 : 0 < a := lt_of_lt_of_le (by norm_num) ha
  obtain ⟨p, hp, hε⟩ := log_approx (b := b) ha0 (2 * (m + 1) - 1)
  have hterm : ∀ c : Fin q, |logdetTerm eigh (lanczosTridiagonal split normal A.mulVec (m + 1)
      (fun i => signs S i c / Real.sqrt n) (split key).2).1 -
      1 / (n : ℝ) * ∑ i, ∑ j, L i j * (signs S i c * signs S j c)| ≤
      2 * (((b - a) / (b + a)) ^ (2 * (m + 1) - 1 + 1) * ((b + a) / (2 * a))) := by
    intro c
    have := C114_term eigh he A Q l hQ hA ha hl split normal m _ (unit_signs hn S c) (split key).2
      (hr fun i => S i c) p hp hε
    rwa [← hL, quad_unit_signs hn] at this
  rw [lanczosLogdet_eq]
  have e : (1 / (q : ℝ)) * ∑ c, ∑ i, ∑ j, L i j * (signs S i c * signs S j c) =
      (n : ℝ) / q * ∑ c, 1 / (n : ℝ) * ∑ i, ∑ j, L i j * (signs S i c * signs S j c) := by
    rw [← Finset.mul_sum]
    field_simp
  rw [e, ← mul_sub, ← Finset.sum_sub_distrib, abs_mul, abs_of_pos (div_pos hn' hq')]
  have hsum := (Finset.abs_sum_le_sum_abs _ _).trans
    (Finset.sum_le_sum fun c (_ : c ∈ (Finset.univ : Finset (Fin q))) => hterm c)
  rw [Finset.sum_const, Finset.card_univ, Fintype.card_fin, nsmul_eq_mul] at hsum
  refine (mul_le_mul_of_nonneg_left hsum (div_pos hn' hq').le).trans (le_of_eq ?_)
  unfold stepsBound
  have : 2 * (m + 1) - 1 + 1 = 2 * (m + 1) := by omega
  rw [this]
  have : 1 + b / a = 2 * ((b + a) / (2 * a)) := by field_simp; ring
  rw [this]
  field_simp

/-- **C114**, the bias: with `k = m + 1` Lanczos steps and any number of random vectors, the average of the estimate over
all matrices of random signs is within `n (1 + b/a) ((b - a)/(b + a))^(2k)` of `log det A`. -/
theorem C114_bias (eigh : Eigh) (he : eigh.Exact) (hn : 0 < n) {q : ℕ} (hq : 0 < q) (A Q : Mat n n)
    (l : Fin n → ℝ) (hQ : Q.transpose * Q = 1) (hA : A = Q * Matrix.diagonal l * Q.transpose)
    {a b : ℝ} (ha : 1 / 10 ^ 36 ≤ a)
    (hl : ∀ i, a ≤ l i ∧ l i ≤ b) (split : Key → Key × Key) (normal : Key → Vec n) (m : ℕ) (key : Key)
    (hr : ∀ s : Fin n → Bool, ExactRun split normal A.mulVec (m + 1)
      (fun i => (if s i then 1 else -1) / Real.sqrt n) (split key).2) :
    |(∑ S : Fin n → Fin q → Bool, lanczosLogdet split normal (fun _ => signs S) eigh A.mulVec m key) /
      Fintype.card (Fin n → Fin q → Bool) - Real.log A.det| ≤ n * (1 + b / a) * ((b - a) / (b + a)) ^ (2 * (m + 1)) := by
  have hq' : (q : ℝ) ≠ 0 := by exact_mod_cast hq.ne'
  have hcard : (0 : ℝ) < Fintype.card (Fin n → Fin q → Bool) := by exact_mod_cast Fintype.card_pos
  have hlpos : ∀ i, 0 < l i := fun i => lt_of_lt_of_le (lt_of_lt_of_le (by norm_num) ha) (hl i).1
  have htr := trace_log A Q l hQ hA hlpos
  obtain ⟨L, hL⟩ : ∃ L, L = Q * Matrix.diagonal (fun i => Real.log (l i)) * Q.transpose := ⟨_, rfl⟩
  rw [← hL] at htr
  have hmean : ∑ S : Fin n → Fin q → Bool, (1 / (q : ℝ)) * ∑ c, ∑ i, ∑ j, L i j * (signs S i c * signs S j c) =
      Fintype.card (Fin n → Fin q → Bool) * L.trace := by
    rw [← Finset.mul_sum, Finset.sum_comm]
    have : ∀ c : Fin q, ∑ S : Fin n → Fin q → Bool, ∑ i, ∑ j, L i j * (signs S i c * signs S j c) =
        Fintype.card (Fin n → Fin q → Bool) * L.trace := by
      intro c
      rw [Finset.sum_comm, Matrix.trace, Finset.mul_sum]
      refine Finset.sum_congr rfl fun i _ => ?_
      rw [Finset.sum_comm]
      simp only [← Finset.mul_sum, sum_signs, mul_ite, mul_zero, Finset.sum_ite_eq, Finset.mem_univ, if_true,
        Matrix.diag_apply]
      ring
    simp only [this, Finset.sum_const, Finset.card_univ, Fintype.card_fin, nsmul_eq_mul]
    field_simp
  have hd := fun S => C114_every_draw eigh he hn hq A Q L l hQ hA hL ha hl split normal m key hr S
  have hs := (Finset.abs_sum_le_sum_abs _ _).trans
    (Finset.sum_le_sum fun S (_ : S ∈ (Finset.univ : Finset (Fin n → Fin q → Bool))) => hd S)
  rw [Finset.sum_sub_distrib, hmean, htr, Finset.sum_const, Finset.card_univ, nsmul_eq_mul] at hs
  have e : ∀ x : ℝ, x / Fintype.card (Fin n → Fin q → Bool) - Real.log A.det =
      (x - Fintype.card (Fin n → Fin q → Bool) * Real.log A.det) / Fintype.card (Fin n → Fin q → Bool) := by
    intro x
    field_simp
  rw [e, abs_div, abs_of_pos hcard, div_le_iff₀ hcard]
  refine hs.trans (le_of_eq ?_)
  unfold stepsBound
  ring

/-- Mean squares: a perturbation by at most `δ` increases the root mean square by at most `δ`. -/
theorem mean_square_perturb {ι : Type} [Fintype ι] [Nonempty ι] (x y : ι → ℝ) {δ V : ℝ} (hδ : 0 ≤ δ)
    (h : ∀ i, |x i - y i| ≤ δ) (hV : (∑ i, y i ^ 2) / Fintype.card ι = V) :
    (∑ i, x i ^ 2) / Fintype.card ι ≤ (Real.sqrt V + δ) ^ 2 := by
  have hN : (0 : ℝ) < Fintype.card ι := by exact_mod_cast Fintype.card_pos
  have hV0 : 0 ≤ V := by rw [← hV]; positivity
  have hS : ∑ i, y i ^ 2 = Fintype.card ι * V := by rw [← hV]; field_simp
  have habs : ∑ i, |y i| ≤ Fintype.card ι * Real.sqrt V := by
    have h1 : (∑ i, |y i|) ^ 2 ≤ Fintype.card ι * ∑ i, |y i| ^ 2 := by
      have := sq_sum_le_card_mul_sum_sq (s := (Finset.univ : Finset ι)) (f := fun i => |y i|)
      simpa using this
    simp only [sq_abs, hS] at h1
    refine abs_le_of_sq_le_sq' ?_ (by positivity) |>.2
    rw [mul_pow, Real.sq_sqrt hV0]
    linarith
  rw [div_le_iff₀ hN]
  calc ∑ i, x i ^ 2 ≤ ∑ i, (y i ^ 2 + 2 * δ * |y i| + δ ^ 2) := Finset.sum_le_sum fun i _ => by
        have hx : |x i| ≤ |y i| + δ := by
          have := abs_add_le (x i - y i) (y i)
          rw [sub_add_cancel] at this
          linarith [h i]
        have := mul_self_le_mul_self (abs_nonneg _) hx
        rw [← sq, sq_abs] at this
        have e := sq_abs (y i)
        nlinarith
    _ = Fintype.card ι * V + 2 * δ * ∑ i, |y i| + Fintype.card ι * δ ^ 2 := by
        rw [Finset.sum_add_distrib, Finset.sum_add_distrib, hS, ← Finset.mul_sum, Finset.sum_const, Finset.card_univ,
          nsmul_eq_mul]
    _ ≤ Fintype.card ι * V + 2 * δ * (Fintype.card ι * Real.sqrt V) + Fintype.card ι * δ ^ 2 := by
        have := mul_le_mul_of_nonneg_left habs (show 0 ≤ 2 * δ by linarith)
        linarith
    _ = _ := by
        have := Real.sq_sqrt hV0
        linear_combination -(Fintype.card ι : ℝ) * this

/-- **C114**, the mean square error: with `q` random vectors and `k = m + 1` Lanczos steps, the root mean square error is at
most the random error `√(2/q · Σ_{i≠j} (log A)_ij²)` plus `n (1 + b/a) ((b - a)/(b + a))^(2k)`. -/
theorem C114_mean_square (eigh : Eigh) (he : eigh.Exact) (hn : 0 < n) {q : ℕ} (hq : 0 < q) (A Q L : Mat n n)
    (l : Fin n → ℝ) (hQ : Q.transpose * Q = 1) (hA : A = Q * Matrix.diagonal l * Q.transpose)
    (hL : L = Q * Matrix.diagonal (fun i => Real.log (l i)) * Q.transpose) {a b : ℝ} (ha : 1 / 10 ^ 36 ≤ a)
    (hl : ∀ i, a ≤ l i ∧ l i ≤ b) (split : Key → Key × Key) (normal : Key → Vec n) (m : ℕ) (key : Key)
    (hr : ∀ s : Fin n → Bool, ExactRun split normal A.mulVec (m + 1)
      (fun i => (if s i then 1 else -1) / Real.sqrt n) (split key).2) :
    (∑ S : Fin n → Fin q → Bool,
        (lanczosLogdet split normal (fun _ => signs S) eigh A.mulVec m key - Real.log A.det) ^ 2) /
      Fintype.card (Fin n → Fin q → Bool) ≤
    (Real.sqrt (2 / (q : ℝ) * ∑ i, ∑ j, if i = j then 0 else L i j ^ 2) +
      n * (1 + b / a) * ((b - a) / (b + a)) ^ (2 * (m + 1))) ^ 2 := by
  have hlpos : ∀ i, 0 < l i := fun i => lt_of_lt_of_le (lt_of_lt_of_le (by norm_num) ha) (hl i).1
  have htr := trace_log A Q l hQ hA hlpos
  rw [← hL] at htr
  have ha0 : 0 < a := lt_of_lt_of_le (by norm_num) ha
  have hab : a ≤ b := (hl ⟨0, hn⟩).1.trans (hl ⟨0, hn⟩).2
  refine mean_square_perturb _ (fun S => (1 / (q : ℝ)) * ∑ c, ∑ i, ∑ j, L i j * (signs S i c * signs S j c) - L.trace)
    ?_ (fun S => ?_) (mean_square_quad hq L (by rw [hL]; exact log_symm _ _))
  · have : 0 ≤ b := ha0.le.trans hab
    have h2 : 0 ≤ (b - a) / (b + a) := div_nonneg (by linarith) (by linarith)
    positivity
  · rw [htr, sub_sub_sub_cancel_right]
    exact C114_every_draw eigh he hn hq A Q L l hQ hA hL ha hl split normal m key hr S

/-- A run of one step is always exact. -/
theorem exactRun_one (split : Key → Key × Key) (normal : Key → Vec n) (matvec : Vec n → Vec n) (v1 : Vec n)
    (key : Key) : ExactRun split normal matvec 1 v1 key := by
  constructor
  · intro i hi
    exact absurd hi (by omega)
  · intro k k1 hk
    omega

/-- Non-vacuity of `C113_mean_square` and of `C114` with two steps: a matrix with a non-diagonal logarithm, eigenvalues
`1` and `3` and eigenvectors `(3/5, 4/5)`, `(-4/5, 3/5)`; every run started at a normalized sign vector is exact. -/
example (split : Key → Key × Key) (normal : Key → Vec 2) (key : Key) :
    let Q : Mat 2 2 := !![3 / 5, -4 / 5; 4 / 5, 3 / 5]
    let A : Mat 2 2 := Q * Matrix.diagonal ![1, 3] * Q.transpose
    Q.transpose * Q = 1 ∧
    (Q * Matrix.diagonal (fun i => Real.log ((![1, 3] : Fin 2 → ℝ) i)) * Q.transpose) 0 1 = -12 / 25 * Real.log 3 ∧
    ∀ s : Fin 2 → Bool, ExactRun split normal A.mulVec 2
      (fun i => (if s i then 1 else -1) / Real.sqrt ((1 + 1 : ℕ) : ℝ)) key := by
  intro Q A
  have hent : ∀ (d : Fin 2 → ℝ) (i j : Fin 2), (Q * Matrix.diagonal d * Q.transpose) i j =
      Q i 0 * d 0 * Q j 0 + Q i 1 * d 1 * Q j 1 := fun d i j => by
    rw [Matrix.mul_apply, Fin.sum_univ_two, Matrix.mul_diagonal, Matrix.mul_diagonal]
    rfl
  have hA : A = !![57 / 25, -24 / 25; -24 / 25, 43 / 25] := by
    ext i j
    rw [show A i j = _ from hent _ i j]
    fin_cases i <;> fin_cases j <;> norm_num [Q]
  refine ⟨?_, ?_, fun s => ?_⟩
  · ext i j
    fin_cases i <;> fin_cases j <;> norm_num [Q, Matrix.mul_apply, Fin.sum_univ_two]
  · rw [hent]
    simp [Q]
    ring
  · apply exactRun_two
    obtain ⟨u, hu⟩ : ∃ u : Vec 2, u = fun i => (if s i then 1 else -1) / Real.sqrt ((1 + 1 : ℕ) : ℝ) := ⟨_, rfl⟩
    have e : ∀ i, u i ^ 2 = 1 / 2 := fun i => by
      have hs : ((if s i then 1 else -1 : ℝ)) ^ 2 = 1 := by split_ifs <;> norm_num
      rw [hu]
      simp only [div_pow, hs]
      norm_num
    have hb : (lanczosInit A.mulVec 2 u key).beta = Real.sqrt ((7 / 25) ^ 2) := by
      simp only [lanczosInit, vnorm]
      congr 1
      rw [hA]
      simp only [Fin.sum_univ_two, vdot, Matrix.mulVec, dotProduct, Matrix.of_apply, Matrix.cons_val_zero,
        Matrix.cons_val_one]
      have e0 := e 0
      have e1 := e 1
      generalize u 0 = x at e0 e1
      generalize u 1 = y at e0 e1
      have h1 : (57 / 25 * x + -24 / 25 * y) * x + (-24 / 25 * x + 43 / 25 * y) * y = 2 - 48 / 25 * (x * y) := by
        linear_combination 57 / 25 * e0 + 43 / 25 * e1
      have h2 : (x * y) ^ 2 = 1 / 4 := by
        rw [mul_pow, e0, e1]; norm_num
      rw [h1]
      linear_combination (-2 * (2 - 48 / 25 * (x * y))) * h1 + (2 - 48 / 25 * (x * y)) ^ 2 * (e0 + e1) +
        3825 / 625 * e0 + 2425 / 625 * e1 - (48 / 25) ^ 2 * h2
    rw [← hu, hb, Real.sqrt_sq (by norm_num)]
    norm_num

end GPX.Props
