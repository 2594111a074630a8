import Verif.Lemmas.Lanczos
import Verif.Lemmas.GPR

/-!
# C40 and C68: Lanczos tridiagonalization
-/

namespace GPX.Props
open GPX

variable {n m : ℕ} {Key : Type}

/-- The run is regular up to column `j`: whenever `beta` has fallen to the threshold, the random replacement vector
drawn by the code is not a combination of the columns built so far (its orthogonal part is not zero). -/
def RegularUntil (split : Key → Key × Key) (normal : Key → Vec n) (matvec : Vec n → Vec n) (m : ℕ)
    (v1 : Vec n) (key : Key) (j : ℕ) : Prop :=
  ∀ i < j, (lanczosState split normal matvec m v1 key i).beta ≤ 1 / 10 ^ 12 →
    orthogonalize (normal (split (lanczosState split normal matvec m v1 key i).key).1)
      (lanczosState split normal matvec m v1 key i).vecs ≠ 0

theorem lanczos_inv (A : Mat n n) (split : Key → Key × Key) (normal : Key → Vec n) (v1 : Vec n)
    (hv : ∑ i, v1 i ^ 2 = 1) (key : Key) {j : ℕ} (hj : j < m)
    (hr : RegularUntil split normal A.mulVec m v1 key j) :
    LanczosInv A j (lanczosState split normal A.mulVec m v1 key j) := by
  have hv' : vdot v1 v1 = 1 := by simpa only [vdot, sq] using hv
  induction j with
  | zero => exact lanczosInit_inv A v1 hv' key
  | succ j ih =>
    have := ih (by omega) fun i hi => hr i (by omega)
    unfold lanczosState at this ⊢
    rw [foriLoop_succ]
    exact lanczosStep_inv hj this (hr j (Nat.lt_succ_self j))

/-- Columns and entries already computed are not changed by later steps. -/
theorem lanczos_stable (split : Key → Key × Key) (normal : Key → Vec n) (matvec : Vec n → Vec n)
    (v1 : Vec n) (key : Key) (j i : ℕ) :
    (∀ k : Fin m, k.val ≤ j → column (lanczosState split normal matvec m v1 key (j + i)).vecs k =
      column (lanczosState split normal matvec m v1 key j).vecs k) ∧
    (∀ a b : Fin m, a.val ≤ j → b.val ≤ j →
      (lanczosState split normal matvec m v1 key (j + i)).tridiag a b =
        (lanczosState split normal matvec m v1 key j).tridiag a b) := by
  induction i with
  | zero => exact ⟨fun _ _ => rfl, fun _ _ _ _ => rfl⟩
  | succ i ih =>
    have e : lanczosState split normal matvec m v1 key (j + (i + 1)) =
        lanczosStep split normal matvec (j + i) (lanczosState split normal matvec m v1 key (j + i)) := by
      unfold lanczosState
      rw [← Nat.add_assoc, foriLoop_succ]
    constructor
    · intro k hk
      rw [← ih.1 k hk, e]
      exact column_setColumn_other _ k _ _ (by omega)
    · intro a b ha hb
      rw [← ih.2 a b ha hb, e]
      simp only [lanczosStep, setEntry]
      rw [if_neg (by omega), if_neg (by omega), if_neg (by omega)]

/-- **C40**, shape: for every operator (symmetric or not), start vector, key and number of steps the returned
matrix is symmetric and tridiagonal. -/
theorem C40_symmetric_tridiagonal (split : Key → Key × Key) (normal : Key → Vec n)
    (matvec : Vec n → Vec n) (m : ℕ) (v1 : Vec n) (key : Key) :
    let T := (lanczosTridiagonal split normal matvec m v1 key).1
    (∀ a b, T a b = T b a) ∧ ∀ a b : Fin m, (a.val + 1 < b.val ∨ b.val + 1 < a.val) → T a b = 0 := by
  intro T
  obtain ⟨h1, h2⟩ := lanczosState_triSym (m := m) split normal matvec v1 key (m - 1)
  refine ⟨h1, fun a b hab => ?_⟩
  rcases hab with h | h
  · exact h2 a b h
  · exact (h1 a b).trans (h2 b a h)

/-- **C40**, basis: for every matrix, unit start vector and number of steps, the returned vectors `0..j` are
orthonormal as long as the run is regular up to `j`. -/
theorem C40_orthonormal (A : Mat n n) (split : Key → Key × Key) (normal : Key → Vec n) (m : ℕ)
    (v1 : Vec n) (hv : ∑ i, v1 i ^ 2 = 1) (key : Key) (j : ℕ) (hj : j < m)
    (hr : RegularUntil split normal A.mulVec m v1 key j) :
    let V := (lanczosTridiagonal split normal A.mulVec m v1 key).2
    ∀ a b : Fin m, a.val ≤ j → b.val ≤ j → ∑ i, V i a * V i b = if a = b then 1 else 0 := by
  intro V a b ha hb
  have inv := lanczos_inv A split normal v1 hv key hj hr
  have e := (lanczos_stable (m := m) split normal A.mulVec v1 key j (m - 1 - j)).1
  rw [show j + (m - 1 - j) = m - 1 by omega] at e
  have := inv.ortho a b ha hb
  rw [← e a ha, ← e b hb] at this
  exact this

/-- The first vector is the start vector. -/
theorem C40_start (split : Key → Key × Key) (normal : Key → Vec n) (matvec : Vec n → Vec n) (m : ℕ)
    (v1 : Vec n) (key : Key) (hm : 0 < m) (i : Fin n) :
    (lanczosTridiagonal split normal matvec m v1 key).2 i ⟨0, hm⟩ = v1 i := by
  have e := (lanczos_stable (m := m) split normal matvec v1 key 0 (m - 1)).1 ⟨0, hm⟩ le_rfl
  rw [Nat.zero_add] at e
  have h0 : column (lanczosState split normal matvec m v1 key 0).vecs ⟨0, hm⟩ = v1 :=
    column_setColumn_same _ _ 0 v1 rfl
  rw [h0] at e
  exact congrFun e i

/-- The lower triangle of `Vᵀ A V` against `T`. -/
theorem lanczos_lower {A : Mat n n} {j : ℕ} {st : LanczosState n m Key} (h : LanczosInv A j st)
    (hts : TriSym st.tridiag) (a b : Fin m) (hab : b.val < a.val) (ha : a.val ≤ j) :
    |st.tridiag a b - vdot (A.mulVec (column st.vecs b)) (column st.vecs a)| ≤ 2 / 10 ^ 12 ∧
    ((∀ k k1 : Fin m, k1.val = k.val + 1 → k1.val ≤ j →
        st.tridiag k k1 = 0 ∨ 1 / 10 ^ 12 < st.tridiag k k1) →
      st.tridiag a b = vdot (A.mulVec (column st.vecs b)) (column st.vecs a)) := by
  let b1 : Fin m := ⟨b.val + 1, by have := a.isLt; omega⟩
  obtain ⟨u, c, hc0, hc, hT, hu, hup⟩ := h.past b b1 rfl (show b.val + 1 ≤ j by omega)
  -- `v_a · A v_b = v_a · u`
  have hdot : vdot (A.mulVec (column st.vecs b)) (column st.vecs a) = vdot u (column st.vecs a) := by
    have e : A.mulVec (column st.vecs b) =
        fun i => u i - ∑ l, (fun l i => -c l * column st.vecs l i) l i := by
      funext i
      rw [hc i]
      simp only [neg_mul, Finset.sum_neg_distrib, sub_neg_eq_add]
    rw [e, vdot_sub, vdot_sum]
    rw [Finset.sum_eq_zero, sub_zero]
    intro l _
    rw [vdot_smul]
    by_cases hl : b.val < l.val
    · rw [hc0 l hl]; simp
    · rw [h.ortho l a (by omega) ha, if_neg (fun h' => by rw [h'] at hl; omega), mul_zero]
  have hua : vnorm (column st.vecs a) = 1 := by
    have h1 := vdot_self (column st.vecs a)
    rw [h.ortho a a ha ha, if_pos rfl] at h1
    have := vnorm_nonneg (column st.vecs a)
    nlinarith
  have hTab : st.tridiag a b = if a = b1 then vnorm u else 0 := by
    split_ifs with hab1
    · rw [hab1, hts.1, hT]
    · rw [hts.1]
      refine hts.2 b a ?_
      have : a.val ≠ b.val + 1 := fun h' => hab1 (Fin.ext h')
      omega
  -- above the threshold `u` is the next vector
  have hbig : 1 / 10 ^ 12 < vnorm u → st.tridiag a b = vdot u (column st.vecs a) := by
    intro hb
    have e : u = fun i => vnorm u * column st.vecs b1 i := funext (hu hb)
    rw [hTab]
    conv_rhs => rw [e]
    rw [vdot_smul, h.ortho b1 a (by simp only [b1]; omega) ha]
    by_cases hab1 : a = b1
    · rw [if_pos hab1, if_pos hab1.symm, mul_one]
    · rw [if_neg hab1, if_neg (Ne.symm hab1), mul_zero]
  rw [hdot]
  constructor
  · by_cases hb : 1 / 10 ^ 12 < vnorm u
    · rw [hbig hb, sub_self, abs_zero]; positivity
    · have h1 : |vdot u (column st.vecs a)| ≤ vnorm u := by
        have := vdot_le_vnorm u (column st.vecs a)
        rwa [hua, mul_one] at this
      have h2 : |st.tridiag a b| ≤ vnorm u := by
        rw [hTab]
        split_ifs
        · rw [abs_of_nonneg (vnorm_nonneg u)]
        · rw [abs_zero]; exact vnorm_nonneg u
      have h3 := abs_sub (st.tridiag a b) (vdot u (column st.vecs a))
      have h4 : vnorm u ≤ 1 / 10 ^ 12 := not_lt.1 hb
      calc _ ≤ _ := h3
        _ ≤ vnorm u + vnorm u := add_le_add h2 h1
        _ ≤ 1 / 10 ^ 12 + 1 / 10 ^ 12 := add_le_add h4 h4
        _ = _ := by ring
  · intro hex
    rcases hex b b1 rfl (show b.val + 1 ≤ j by omega) with h0 | hb
    · rw [hT] at h0
      have hu0 := vnorm_eq_zero h0
      rw [hTab, h0, hu0]
      simp [vdot]
    · rw [hT] at hb
      exact hbig hb

theorem vdot_symm {A : Mat n n} (hA : A.transpose = A) (a b : Vec n) :
    vdot (A.mulVec a) b = vdot (A.mulVec b) a := by
  simp only [vdot, Matrix.mulVec, dotProduct, Finset.sum_mul]
  rw [Finset.sum_comm]
  refine Finset.sum_congr rfl fun i _ => Finset.sum_congr rfl fun j _ => ?_
  have : A j i = A i j := congrFun (congrFun hA i) j
  rw [this]; ring

/-- **C40**, projection: for every symmetric matrix, unit start vector and number of steps, as long as the run is
regular up to `j`, the entries `(a, b)` with `a, b ≤ j` of the returned tridiagonal matrix agree with
`v_aᵀ A v_b` up to `2e-12`; and they agree exactly if none of the off-diagonal entries up to `j` lies in
`(0, 1e-12]` (no breakdown at all, or exact breakdown followed by a restart). -/
theorem C40_projection (A : Mat n n) (hA : A.transpose = A) (split : Key → Key × Key)
    (normal : Key → Vec n) (m : ℕ) (v1 : Vec n) (hv : ∑ i, v1 i ^ 2 = 1) (key : Key) (j : ℕ)
    (hj : j < m) (hr : RegularUntil split normal A.mulVec m v1 key j) :
    let T := (lanczosTridiagonal split normal A.mulVec m v1 key).1
    let V : Mat n m := Matrix.of (lanczosTridiagonal split normal A.mulVec m v1 key).2
    (∀ a b : Fin m, a.val ≤ j → b.val ≤ j → |T a b - (V.transpose * A * V) a b| ≤ 2 / 10 ^ 12) ∧
    ((∀ k k1 : Fin m, k1.val = k.val + 1 → k1.val ≤ j → T k k1 = 0 ∨ 1 / 10 ^ 12 < T k k1) →
      ∀ a b : Fin m, a.val ≤ j → b.val ≤ j → T a b = (V.transpose * A * V) a b) := by
  intro T V
  have inv := lanczos_inv A split normal v1 hv key hj hr
  have hts := lanczosState_triSym (m := m) split normal A.mulVec v1 key j
  obtain ⟨e1, e2⟩ := lanczos_stable (m := m) split normal A.mulVec v1 key j (m - 1 - j)
  rw [show j + (m - 1 - j) = m - 1 by omega] at e1 e2
  set st := lanczosState split normal A.mulVec m v1 key j
  have hVAV : ∀ a b : Fin m, a.val ≤ j → b.val ≤ j →
      (V.transpose * A * V) a b = vdot (A.mulVec (column st.vecs b)) (column st.vecs a) := by
    intro a b ha hb
    rw [← e1 a ha, ← e1 b hb, Matrix.mul_assoc, Matrix.mul_apply]
    refine Finset.sum_congr rfl fun i _ => ?_
    rw [mul_comm]
    rfl
  have hT : ∀ a b : Fin m, a.val ≤ j → b.val ≤ j → T a b = st.tridiag a b := e2
  have key1 : ∀ a b : Fin m, a.val ≤ j → b.val ≤ j →
      |st.tridiag a b - vdot (A.mulVec (column st.vecs b)) (column st.vecs a)| ≤ 2 / 10 ^ 12 ∧
      ((∀ k k1 : Fin m, k1.val = k.val + 1 → k1.val ≤ j →
          st.tridiag k k1 = 0 ∨ 1 / 10 ^ 12 < st.tridiag k k1) →
        st.tridiag a b = vdot (A.mulVec (column st.vecs b)) (column st.vecs a)) := by
    intro a b ha hb
    rcases lt_trichotomy a.val b.val with h | h | h
    · have := lanczos_lower inv hts b a h hb
      rw [hts.1 a b, vdot_symm hA]
      exact this
    · have : a = b := Fin.ext h
      subst this
      rw [inv.diag a ha, sub_self, abs_zero]
      exact ⟨by positivity, fun _ => rfl⟩
    · exact lanczos_lower inv hts a b h ha
  refine ⟨fun a b ha hb => ?_, fun hex a b ha hb => ?_⟩
  · rw [hT a b ha hb, hVAV a b ha hb]
    exact (key1 a b ha hb).1
  · rw [hT a b ha hb, hVAV a b ha hb]
    refine (key1 a b ha hb).2 fun k k1 h1 h2 => ?_
    have := hex k k1 h1 h2
    rwa [hT k k1 (by omega) h2] at this

/-- Non-vacuity: a run with a genuine second vector. For `A = diag(0, 1)` and `v1 = (3/5, 4/5)` the off-diagonal
element is `12/25`, so the run is regular for every generator. -/
example (split : Key → Key × Key) (normal : Key → Vec 2) (key : Key) :
    (∑ i, (![3 / 5, 4 / 5] : Vec 2) i ^ 2 = 1) ∧
    RegularUntil split normal (Matrix.mulVec !![0, 0; 0, 1]) 2 ![3 / 5, 4 / 5] key 1 ∧
    (lanczosState split normal (Matrix.mulVec !![0, 0; 0, 1]) 2 ![3 / 5, 4 / 5] key 0).beta = 12 / 25 := by
  have hb : (lanczosState split normal (Matrix.mulVec !![0, 0; 0, 1]) 2 ![3 / 5, 4 / 5] key 0).beta =
      12 / 25 := by
    have : (12 / 25 : ℝ) = Real.sqrt ((12 / 25) ^ 2) := (Real.sqrt_sq (by norm_num)).symm
    rw [this]
    simp only [lanczosState, foriLoop_zero, lanczosInit, vnorm]
    congr 1
    simp [Fin.sum_univ_two, vdot, Matrix.mulVec, dotProduct]
    norm_num
  refine ⟨by simp [Fin.sum_univ_two]; norm_num, ?_, hb⟩
  intro i hi h
  have : i = 0 := by omega
  subst this
  rw [hb] at h
  norm_num at h

/-! ## C68: quadrature -/

/-- A run of `m` steps without inexact breakdown: regular, and no off-diagonal element of the result lies in
`(0, 1e-12]`. -/
def ExactRun (split : Key → Key × Key) (normal : Key → Vec n) (matvec : Vec n → Vec n) (m : ℕ)
    (v1 : Vec n) (key : Key) : Prop :=
  RegularUntil split normal matvec m v1 key (m - 1) ∧
  ∀ k k1 : Fin m, k1.val = k.val + 1 →
    (lanczosTridiagonal split normal matvec m v1 key).1 k k1 = 0 ∨
      1 / 10 ^ 12 < (lanczosTridiagonal split normal matvec m v1 key).1 k k1

/-- What an exact run gives, in matrix form. -/
theorem exactRun_spec (A : Mat n n) (hA : A.transpose = A) (split : Key → Key × Key)
    (normal : Key → Vec n) (m : ℕ) (v1 : Vec n) (hv : ∑ i, v1 i ^ 2 = 1) (key : Key)
    (hr : ExactRun split normal A.mulVec m v1 key) :
    let T : Mat m m := Matrix.of (lanczosTridiagonal split normal A.mulVec m v1 key).1
    let V : Mat n m := Matrix.of (lanczosTridiagonal split normal A.mulVec m v1 key).2
    V.transpose * V = 1 ∧ T = V.transpose * A * V ∧
    ∀ (i : Fin n) (k : Fin m), k.val + 1 < m → (A * V) i k = (V * T) i k := by
  intro T V
  rcases Nat.eq_zero_or_pos m with rfl | hm
  · exact ⟨by ext a; exact a.elim0, by ext a; exact a.elim0, fun _ k => k.elim0⟩
  have hj : m - 1 < m := by omega
  have hVV : V.transpose * V = 1 := by
    ext a b
    rw [Matrix.mul_apply, Matrix.one_apply]
    exact C40_orthonormal A split normal m v1 hv key (m - 1) hj hr.1 a b (by omega) (by omega)
  have hT : T = V.transpose * A * V := by
    ext a b
    exact (C40_projection A hA split normal m v1 hv key (m - 1) hj hr.1).2
      (fun k k1 h1 _ => hr.2 k k1 h1) a b (by omega) (by omega)
  refine ⟨hVV, hT, fun i k hk => ?_⟩
  have inv := lanczos_inv A split normal v1 hv key hj hr.1
  obtain ⟨u, c, hc0, hc, hTu, hu, hup⟩ := inv.past k ⟨k.val + 1, hk⟩ rfl (show k.val + 1 ≤ m - 1 by omega)
  -- `A v_k` is a combination of the columns
  have hcomb : ∃ d : Fin m → ℝ, ∀ i, (A * V) i k = ∑ l, d l * V i l := by
    have hAV : ∀ i, (A * V) i k = A.mulVec (column (lanczosState split normal A.mulVec m v1 key (m - 1)).vecs k) i :=
      fun i => rfl
    rcases hr.2 k ⟨k.val + 1, hk⟩ rfl with h0 | hb
    · have h0' : vnorm u = 0 := hTu ▸ h0
      refine ⟨c, fun i => ?_⟩
      rw [hAV, hc i, vnorm_eq_zero h0']
      simp only [Pi.zero_apply, zero_add]
      rfl
    · have hb' : 1 / 10 ^ 12 < vnorm u := hTu ▸ hb
      refine ⟨fun l => c l + if l = ⟨k.val + 1, hk⟩ then vnorm u else 0, fun i => ?_⟩
      rw [hAV, hc i, hu hb' i]
      simp only [add_mul, Finset.sum_add_distrib, ite_mul, zero_mul, Finset.sum_ite_eq', Finset.mem_univ, if_true]
      rw [add_comm]
      rfl
  obtain ⟨d, hd⟩ := hcomb
  have hdT : ∀ l, T l k = d l := by
    intro l
    rw [hT, Matrix.mul_assoc, Matrix.mul_apply]
    simp only [hd, Finset.mul_sum]
    rw [Finset.sum_comm]
    have : ∀ l', ∑ i, V.transpose l i * (d l' * V i l') = d l' * (V.transpose * V) l l' := fun l' => by
      rw [Matrix.mul_apply, Finset.mul_sum]
      exact Finset.sum_congr rfl fun i _ => by ring
    simp only [this, hVV, Matrix.one_apply, mul_ite, mul_one, mul_zero, Finset.sum_ite_eq, Finset.mem_univ,
      if_true]
  rw [hd, Matrix.mul_apply]
  exact Finset.sum_congr rfl fun l _ => by rw [hdT]; ring

/-- The first unit vector. -/
def unit0 (m : ℕ) : Fin m → ℝ := fun k => if k.val = 0 then 1 else 0

theorem krylov (A : Mat n n) {m : ℕ} (T : Mat m m) (V : Mat n m) (v1 : Vec n)
    (htri : ∀ a b : Fin m, b.val + 1 < a.val → T a b = 0)
    (hAV : ∀ (i : Fin n) (k : Fin m), k.val + 1 < m → (A * V) i k = (V * T) i k)
    (hV : V.mulVec (unit0 m) = v1) (i : ℕ) (hi : i < m) :
    (∀ k : Fin m, i < k.val → (T ^ i).mulVec (unit0 m) k = 0) ∧
      (A ^ i).mulVec v1 = V.mulVec ((T ^ i).mulVec (unit0 m)) := by
  induction i with
  | zero =>
    refine ⟨fun k hk => ?_, ?_⟩
    · simp only [pow_zero, Matrix.one_mulVec, unit0]
      rw [if_neg (by omega)]
    · simp only [pow_zero, Matrix.one_mulVec, hV]
  | succ i ih =>
    obtain ⟨h1, h2⟩ := ih (by omega)
    constructor
    · intro k hk
      rw [pow_succ', ← Matrix.mulVec_mulVec]
      change ∑ b, T k b * (T ^ i).mulVec (unit0 m) b = 0
      refine Finset.sum_eq_zero fun b _ => ?_
      by_cases hb : i < b.val
      · rw [h1 b hb, mul_zero]
      · rw [htri k b (by omega), zero_mul]
    · rw [pow_succ', ← Matrix.mulVec_mulVec, h2, pow_succ', ← Matrix.mulVec_mulVec (M := T),
        Matrix.mulVec_mulVec, Matrix.mulVec_mulVec (M := V)]
      funext a
      change ∑ b, (A * V) a b * (T ^ i).mulVec (unit0 m) b = ∑ b, (V * T) a b * (T ^ i).mulVec (unit0 m) b
      refine Finset.sum_congr rfl fun b _ => ?_
      by_cases hb : i < b.val
      · rw [h1 b hb, mul_zero, mul_zero]
      · rw [hAV a b (by omega)]

/-- **C68.** Quadrature: for every symmetric matrix, unit start vector and number of steps `m` of a run without
inexact breakdown, the moments of the tridiagonal matrix are those of the operator,
`(T^k)_{00} = v1ᵀ A^k v1`, for every `k ≤ 2 m - 1`. -/
theorem C68_moments (A : Mat n n) (hA : A.transpose = A) (split : Key → Key × Key)
    (normal : Key → Vec n) (m : ℕ) (hm : 0 < m) (v1 : Vec n) (hv : ∑ i, v1 i ^ 2 = 1) (key : Key)
    (hr : ExactRun split normal A.mulVec m v1 key) (k : ℕ) (hk : k ≤ 2 * m - 1) :
    let T : Mat m m := Matrix.of (lanczosTridiagonal split normal A.mulVec m v1 key).1
    (T ^ k) ⟨0, hm⟩ ⟨0, hm⟩ = v1 ⬝ᵥ (A ^ k).mulVec v1 := by
  intro T
  obtain ⟨hVV, hT, hAV⟩ := exactRun_spec A hA split normal m v1 hv key hr
  set V : Mat n m := Matrix.of (lanczosTridiagonal split normal A.mulVec m v1 key).2
  have htri := (C40_symmetric_tridiagonal split normal A.mulVec m v1 key).2
  have hsym : T.transpose = T := by
    ext a b
    exact (C40_symmetric_tridiagonal split normal A.mulVec m v1 key).1 b a
  have hcol : ∀ M : Mat m m, M ⟨0, hm⟩ ⟨0, hm⟩ = unit0 m ⬝ᵥ M.mulVec (unit0 m) := by
    intro M
    have hu : unit0 m = Pi.single ⟨0, hm⟩ 1 := by
      funext k
      simp only [unit0, Pi.single_apply, Fin.ext_iff]
    rw [hu, Matrix.mulVec_single_one, single_one_dotProduct]
    rfl
  have hV0 : V.mulVec (unit0 m) = v1 := by
    funext i
    have : V.mulVec (unit0 m) i = V i ⟨0, hm⟩ := by
      have hu : unit0 m = Pi.single ⟨0, hm⟩ 1 := by
        funext k
        simp only [unit0, Pi.single_apply, Fin.ext_iff]
      rw [hu, Matrix.mulVec_single_one]
      rfl
    rw [this]
    exact C40_start split normal A.mulVec m v1 key hm i
  have kry := fun i hi => (krylov A T V v1 (fun a b h => htri a b (Or.inr h)) hAV hV0 i hi).2
  have hAp : ∀ i, (A ^ i).transpose = A ^ i := fun i => by rw [Matrix.transpose_pow, hA]
  have hTp : ∀ i, (T ^ i).transpose = T ^ i := fun i => by rw [Matrix.transpose_pow, hsym]
  have move : ∀ (i : ℕ) (x y : Vec n), x ⬝ᵥ (A ^ i).mulVec y = (A ^ i).mulVec x ⬝ᵥ y := fun i x y => by
    rw [Matrix.dotProduct_mulVec, ← Matrix.mulVec_transpose, hAp]
  have moveT : ∀ (i : ℕ) (x y : Vec m), x ⬝ᵥ (T ^ i).mulVec y = (T ^ i).mulVec x ⬝ᵥ y := fun i x y => by
    rw [Matrix.dotProduct_mulVec, ← Matrix.mulVec_transpose, hTp]
  have hVdot : ∀ (x : Vec m) (M : Mat n n) (y : Vec m), V.mulVec x ⬝ᵥ M.mulVec (V.mulVec y) =
      x ⬝ᵥ (V.transpose * M * V).mulVec y := fun x M y => by
    rw [Matrix.mulVec_mulVec, ← Matrix.mulVec_mulVec (M := V.transpose * M), ← Matrix.mulVec_mulVec (M := V.transpose),
      Matrix.dotProduct_mulVec x, ← Matrix.mulVec_transpose, Matrix.transpose_transpose, Matrix.mulVec_mulVec]
  rw [hcol (T ^ k)]
  by_cases hk1 : k < m
  · rw [kry k hk1, ← hV0]
    have := hVdot (unit0 m) 1 ((T ^ k).mulVec (unit0 m))
    rw [Matrix.one_mulVec, Matrix.mul_one, hVV, Matrix.one_mulVec] at this
    rw [this]
  · -- `k = (m - 1) + 1 + i` with `i ≤ m - 1`
    obtain ⟨i, hi, rfl⟩ : ∃ i, i < m ∧ k = (m - 1) + (1 + i) := ⟨k - m, by omega, by omega⟩
    rw [pow_add, ← Matrix.mulVec_mulVec, moveT, pow_add, ← Matrix.mulVec_mulVec, pow_one,
      pow_add, ← Matrix.mulVec_mulVec, move, pow_add, ← Matrix.mulVec_mulVec, pow_one,
      kry (m - 1) (by omega), kry i hi, hVdot, ← hT]

end GPX.Props
