import Verif.Model.Lanczos
import Verif.Lemmas.Arrays
import Mathlib.Tactic.Linarith
import Mathlib.Tactic.Positivity
import Mathlib.Algebra.Order.Chebyshev

/-! # Invariants of the Lanczos iteration -/

namespace GPX

variable {n m : ℕ} {Key : Type}

theorem vdot_comm (a b : Vec n) : vdot a b = vdot b a :=
  Finset.sum_congr rfl fun _ _ => mul_comm _ _

theorem vdot_sub (a b c : Vec n) : vdot (fun i => a i - b i) c = vdot a c - vdot b c := by
  simp only [vdot, sub_mul, Finset.sum_sub_distrib]

theorem vdot_smul (t : ℝ) (a c : Vec n) : vdot (fun i => t * a i) c = t * vdot a c := by
  simp only [vdot, Finset.mul_sum, mul_assoc]

theorem vdot_div (t : ℝ) (a c : Vec n) : vdot (fun i => a i / t) c = vdot a c / t := by
  simp only [vdot, div_eq_mul_inv, Finset.sum_mul]
  exact Finset.sum_congr rfl fun i _ => by ring

theorem vdot_sum {ι : Type*} (s : Finset ι) (f : ι → Vec n) (c : Vec n) :
    vdot (fun i => ∑ l ∈ s, f l i) c = ∑ l ∈ s, vdot (f l) c := by
  simp only [vdot, Finset.sum_mul]
  exact Finset.sum_comm

theorem vdot_self (a : Vec n) : vdot a a = vnorm a ^ 2 := by
  unfold vnorm vdot
  rw [Real.sq_sqrt (Finset.sum_nonneg fun i _ => sq_nonneg _)]
  exact Finset.sum_congr rfl fun i _ => (sq _).symm

theorem vnorm_nonneg (a : Vec n) : 0 ≤ vnorm a := Real.sqrt_nonneg _

theorem vnorm_eq_zero {a : Vec n} (h : vnorm a = 0) : a = 0 := by
  have h2 := vdot_self a
  rw [h, zero_pow (by norm_num)] at h2
  funext i
  have := (Finset.sum_eq_zero_iff_of_nonneg (fun i _ => mul_self_nonneg (a i))).1 h2 i (Finset.mem_univ i)
  exact mul_self_eq_zero.1 this

theorem vdot_le_vnorm (a b : Vec n) : |vdot a b| ≤ vnorm a * vnorm b := by
  have h : vdot a b ^ 2 ≤ (vnorm a * vnorm b) ^ 2 := by
    rw [mul_pow, ← vdot_self, ← vdot_self]
    have := Finset.sum_mul_sq_le_sq_mul_sq Finset.univ a b
    simp only [vdot]
    simpa only [sq] using this
  exact abs_le_of_sq_le_sq h (mul_nonneg (vnorm_nonneg a) (vnorm_nonneg b))

/-- Pairwise orthogonal columns. -/
def OrthoCols (V : Arr2 n m) : Prop := ∀ i j, i ≠ j → vdot (column V i) (column V j) = 0

theorem orthogonalize_list (l : List (Vec n)) (hl : l.Pairwise fun a b => vdot a b = 0) (v : Vec n) :
    (laxScan (fun (origv : Vec n) (refv : Vec n) => ((fun i => origv i - vdot origv refv * refv i), ()))
      v l).1 = fun i => v i - (l.map fun c => vdot v c * c i).sum := by
  induction l generalizing v with
  | nil => simp [laxScan]
  | cons c l ih =>
    rw [List.pairwise_cons] at hl
    simp only [laxScan, List.map_cons, List.sum_cons]
    rw [ih hl.2]
    funext i
    have : ∀ b ∈ l, vdot (fun i => v i - vdot v c * c i) b = vdot v b := fun b hb => by
      rw [vdot_sub, vdot_smul, hl.1 b hb, mul_zero, sub_zero]
    have e : (l.map fun b => vdot (fun i => v i - vdot v c * c i) b * b i) = l.map fun b => vdot v b * b i :=
      List.map_congr_left fun b hb => by rw [this b hb]
    rw [e]
    ring

/-- Against pairwise orthogonal columns the scan subtracts all projections of the original vector. -/
theorem orthogonalize_eq {V : Arr2 n m} (hV : OrthoCols V) (v : Vec n) :
    orthogonalize v V = fun i => v i - ∑ l, vdot v (column V l) * column V l i := by
  unfold orthogonalize
  rw [orthogonalize_list _ (List.pairwise_ofFn.2 fun i j hij => hV i j hij.ne)]
  funext i
  rw [List.map_ofFn, List.sum_ofFn]
  rfl

theorem orthogonalize_dot {V : Arr2 n m} (hV : OrthoCols V) (v : Vec n) (k : Fin m)
    (hk : vdot (column V k) (column V k) = 1 ∨ column V k = 0) :
    vdot (orthogonalize v V) (column V k) = 0 := by
  rw [orthogonalize_eq hV, vdot_sub, vdot_sum]
  have : ∀ l ∈ Finset.univ, l ≠ k → vdot (fun i => vdot v (column V l) * column V l i) (column V k) = 0 :=
    fun l _ hl => by rw [vdot_smul, hV l k hl, mul_zero]
  rw [Finset.sum_eq_single_of_mem k (Finset.mem_univ k) this, vdot_smul]
  rcases hk with hk | hk
  · rw [hk]; ring
  · rw [hk]; simp [vdot]

theorem vdot_zero_right (a : Vec n) : vdot a (0 : Vec n) = 0 := by simp [vdot]

theorem column_setColumn_same (V : Arr2 n m) (k : Fin m) (j : ℕ) (v : Vec n) (h : k.val = j) :
    column (setColumn V j v) k = v := by
  funext i; simp [column, setColumn, h]

theorem column_setColumn_other (V : Arr2 n m) (k : Fin m) (j : ℕ) (v : Vec n) (h : k.val ≠ j) :
    column (setColumn V j v) k = column V k := by
  funext i; simp [column, setColumn, h]

/-- Symmetric and tridiagonal. -/
def TriSym (T : Arr2 m m) : Prop :=
  (∀ s t, T s t = T t s) ∧ ∀ s t : Fin m, s.val + 1 < t.val → T s t = 0

theorem lanczosState_triSym (split : Key → Key × Key) (normal : Key → Vec n)
    (matvec : Vec n → Vec n) (v1 : Vec n) (key : Key) (j : ℕ) :
    TriSym (lanczosState split normal matvec m v1 key j).tridiag := by
  refine foriLoop_ind j _ _ (fun _ (st : LanczosState n m Key) => TriSym st.tridiag) ?_ ?_
  · constructor
    · intro s t
      simp only [lanczosInit, setEntry]
      by_cases h1 : s.val = 0 <;> by_cases h2 : t.val = 0 <;> simp [h1, h2]
    · intro s t h
      have h2 : t.val ≠ 0 := by omega
      simp [lanczosInit, setEntry, h2]
  · rintro i st _ ⟨hs, ht⟩
    constructor
    · intro s t
      simp only [lanczosStep, setEntry]
      rw [hs s t]
      split_ifs <;> first | rfl | omega
    · intro s t h
      simp only [lanczosStep, setEntry]
      rw [ht s t h]
      split_ifs <;> first | rfl | omega

/-- The loop invariant: `j` steps done, columns `0..j` built. -/
structure LanczosInv (A : Mat n n) (j : ℕ) (st : LanczosState n m Key) : Prop where
  zero : ∀ k : Fin m, j < k.val → column st.vecs k = 0
  ortho : ∀ a b : Fin m, a.val ≤ j → b.val ≤ j →
    vdot (column st.vecs a) (column st.vecs b) = if a = b then 1 else 0
  perp : ∀ k : Fin m, k.val ≤ j → vdot st.w (column st.vecs k) = 0
  beta : st.beta = vnorm st.w
  range : ∀ k : Fin m, k.val = j → ∃ c : Fin m → ℝ, (∀ l, j < l.val → c l = 0) ∧
    ∀ i, A.mulVec (column st.vecs k) i = st.w i + ∑ l, c l * column st.vecs l i
  past : ∀ k k1 : Fin m, k1.val = k.val + 1 → k1.val ≤ j → ∃ (u : Vec n) (c : Fin m → ℝ),
    (∀ l, k.val < l.val → c l = 0) ∧
    (∀ i, A.mulVec (column st.vecs k) i = u i + ∑ l, c l * column st.vecs l i) ∧
    st.tridiag k k1 = vnorm u ∧
    (betaThreshold < vnorm u → ∀ i, u i = vnorm u * column st.vecs k1 i) ∧
    ∀ l : Fin m, l.val ≤ k.val → vdot u (column st.vecs l) = 0
  diag : ∀ a : Fin m, a.val ≤ j →
    st.tridiag a a = vdot (A.mulVec (column st.vecs a)) (column st.vecs a)

theorem LanczosInv.orthoCols {A : Mat n n} {j : ℕ} {st : LanczosState n m Key}
    (h : LanczosInv A j st) : OrthoCols st.vecs := by
  intro a b hab
  by_cases ha : a.val ≤ j
  · by_cases hb : b.val ≤ j
    · rw [h.ortho a b ha hb, if_neg hab]
    · rw [h.zero b (by omega), vdot_zero_right]
  · rw [h.zero a (by omega), vdot_comm, vdot_zero_right]

theorem LanczosInv.unit {A : Mat n n} {j : ℕ} {st : LanczosState n m Key}
    (h : LanczosInv A j st) (k : Fin m) :
    vdot (column st.vecs k) (column st.vecs k) = 1 ∨ column st.vecs k = 0 := by
  by_cases ha : k.val ≤ j
  · left; rw [h.ortho k k ha ha, if_pos rfl]
  · right; exact h.zero k (by omega)

theorem lanczosInit_inv (A : Mat n n) (v1 : Vec n) (hv : vdot v1 v1 = 1) (key : Key) :
    LanczosInv A 0 (lanczosInit A.mulVec m v1 key : LanczosState n m Key) := by
  have hc : ∀ k : Fin m, k.val = 0 → column (lanczosInit A.mulVec m v1 key).vecs k = v1 := fun k hk =>
    column_setColumn_same _ k 0 v1 hk
  have hw : ∀ i, (lanczosInit A.mulVec m v1 key : LanczosState n m Key).w i =
    A.mulVec v1 i - vdot (A.mulVec v1) v1 * v1 i := fun i => rfl
  refine ⟨?_, ?_, ?_, rfl, ?_, ?_, ?_⟩
  · intro k hk
    exact column_setColumn_other _ k 0 v1 (by omega)
  · intro a b ha hb
    rw [hc a (by omega), hc b (by omega), hv, if_pos (Fin.ext (by omega))]
  · intro k hk
    rw [hc k (by omega)]
    have : (lanczosInit A.mulVec m v1 key : LanczosState n m Key).w =
      fun i => A.mulVec v1 i - vdot (A.mulVec v1) v1 * v1 i := rfl
    rw [this, vdot_sub, vdot_smul, hv, mul_one, sub_self]
  · intro k hk
    refine ⟨fun l => if l = k then vdot (A.mulVec v1) v1 else 0, fun l hl => ?_, fun i => ?_⟩
    · exact if_neg (fun h => by rw [h] at hl; omega)
    · simp only [ite_mul, zero_mul, Finset.sum_ite_eq', Finset.mem_univ, if_true]
      rw [hc k hk, hw]
      ring
  · intro k k1 h1 h2
    omega
  · intro a ha
    rw [hc a (by omega)]
    have h0 : a.val = 0 := by omega
    simp [lanczosInit, setEntry, h0]

theorem lanczosStep_inv {A : Mat n n} {split : Key → Key × Key} {normal : Key → Vec n} {j : ℕ}
    (hj : j + 1 < m) {st : LanczosState n m Key} (h : LanczosInv A j st)
    (hr : st.beta ≤ betaThreshold → orthogonalize (normal (split st.key).1) st.vecs ≠ 0) :
    LanczosInv A (j + 1) (lanczosStep split normal A.mulVec j st) := by
  have hthr : 0 < betaThreshold := by norm_num [betaThreshold]
  -- the new vector
  obtain ⟨v, hvdef⟩ : ∃ v, v = lanczosNext split normal st := ⟨_, rfl⟩
  have hvv : vdot v v = 1 ∧ (∀ k : Fin m, k.val ≤ j → vdot v (column st.vecs k) = 0) ∧
      (betaThreshold < st.beta → ∀ i, st.w i = st.beta * v i) := by
    rw [hvdef]
    unfold lanczosNext
    by_cases hb : betaThreshold < st.beta
    · rw [if_pos hb]
      have hb0 : st.beta ≠ 0 := by linarith
      refine ⟨?_, fun k hk => ?_, fun _ i => ?_⟩
      · rw [vdot_div, vdot_comm, vdot_div, vdot_self, ← h.beta]
        field_simp
      · rw [vdot_div, h.perp k hk, zero_div]
      · field_simp
    · rw [if_neg hb]
      have ho := hr (not_lt.1 hb)
      have hn : vnorm (orthogonalize (normal (split st.key).1) st.vecs) ≠ 0 := fun h0 => ho (vnorm_eq_zero h0)
      refine ⟨?_, fun k hk => ?_, fun h' => absurd h' hb⟩
      · unfold orthonormalize
        rw [vdot_div, vdot_comm, vdot_div, vdot_self]
        field_simp
      · unfold orthonormalize
        rw [vdot_div, orthogonalize_dot h.orthoCols _ k (h.unit k), zero_div]
  obtain ⟨hv1, hv2, hv3⟩ := hvv
  set st' := lanczosStep split normal A.mulVec j st with hst'
  have hvecs : st'.vecs = setColumn st.vecs (j + 1) v := by rw [hst', hvdef]; rfl
  have hcn : ∀ k : Fin m, k.val = j + 1 → column st'.vecs k = v := fun k hk => by
    rw [hvecs, column_setColumn_same _ k _ _ hk]
  have hco : ∀ k : Fin m, k.val ≠ j + 1 → column st'.vecs k = column st.vecs k := fun k hk => by
    rw [hvecs, column_setColumn_other _ k _ _ hk]
  have hzero : ∀ k : Fin m, j + 1 < k.val → column st'.vecs k = 0 := fun k hk => by
    rw [hco k (by omega)]; exact h.zero k (by omega)
  have hortho : ∀ a b : Fin m, a.val ≤ j + 1 → b.val ≤ j + 1 →
      vdot (column st'.vecs a) (column st'.vecs b) = if a = b then 1 else 0 := by
    intro a b ha hb
    by_cases ha' : a.val = j + 1
    · by_cases hb' : b.val = j + 1
      · rw [hcn a ha', hcn b hb', hv1, if_pos (Fin.ext (by omega))]
      · rw [hcn a ha', hco b hb', hv2 b (by omega), if_neg (fun h => by rw [h] at ha'; omega)]
    · by_cases hb' : b.val = j + 1
      · rw [hco a ha', hcn b hb', vdot_comm, hv2 a (by omega), if_neg (fun h => by rw [h] at ha'; omega)]
      · rw [hco a ha', hco b hb', h.ortho a b (by omega) (by omega)]
  have hOC : OrthoCols st'.vecs := by
    intro a b hab
    by_cases ha : a.val ≤ j + 1
    · by_cases hb : b.val ≤ j + 1
      · rw [hortho a b ha hb, if_neg hab]
      · rw [hzero b (by omega), vdot_zero_right]
    · rw [hzero a (by omega), vdot_comm, vdot_zero_right]
  have hunit : ∀ k : Fin m, vdot (column st'.vecs k) (column st'.vecs k) = 1 ∨ column st'.vecs k = 0 := by
    intro k
    by_cases ha : k.val ≤ j + 1
    · left; rw [hortho k k ha ha, if_pos rfl]
    · right; exact hzero k (by omega)
  -- the new w
  let kj : Fin m := ⟨j, by omega⟩
  let kn : Fin m := ⟨j + 1, hj⟩
  obtain ⟨w1, hw1⟩ : ∃ w1 : Vec n, w1 = fun i => A.mulVec v i - vdot (A.mulVec v) v * v i -
    st.beta * column st.vecs kj i := ⟨_, rfl⟩
  have hcolAt : columnAt (setColumn st.vecs (j + 1) v) j = column st.vecs kj := by
    unfold columnAt
    rw [dif_pos (show j < m by omega)]
    exact column_setColumn_other _ _ _ _ (by simp)
  have hw : st'.w = orthogonalize w1 st'.vecs := by
    rw [hvecs, hw1, hst', ← hcolAt, hvdef]; rfl
  have hwi : ∀ i, st'.w i = w1 i - ∑ l, vdot w1 (column st'.vecs l) * column st'.vecs l i := fun i => by
    rw [hw, orthogonalize_eq hOC]
  have hT : ∀ s t : Fin m, st'.tridiag s t =
      if s.val = j + 1 ∧ t.val = j then st.beta
      else if s.val = j ∧ t.val = j + 1 then st.beta
      else if s.val = j + 1 ∧ t.val = j + 1 then vdot (A.mulVec v) v
      else st.tridiag s t := fun s t => by
    rw [hst', hvdef]; rfl
  refine ⟨hzero, hortho, ?_, rfl, ?_, ?_, ?_⟩
  · intro k _
    rw [hw]
    exact orthogonalize_dot hOC w1 k (hunit k)
  · intro k hk
    refine ⟨fun l => vdot w1 (column st'.vecs l) + (if l = kn then vdot (A.mulVec v) v else 0) +
      (if l = kj then st.beta else 0), fun l hl => ?_, fun i => ?_⟩
    · simp only
      rw [hzero l hl, vdot_zero_right, if_neg, if_neg]
      · ring
      · intro h; rw [h] at hl; simp only [kj] at hl; omega
      · intro h; rw [h] at hl; simp only [kn] at hl; omega
    · simp only [add_mul, ite_mul, zero_mul, Finset.sum_add_distrib, Finset.sum_ite_eq', Finset.mem_univ,
        if_true]
      rw [hwi, hcn k hk, hcn kn rfl, hco kj (by simp only [kj]; omega)]
      simp only [hw1]
      ring
  · intro k k1 h1 h2
    by_cases hlast : k1.val = j + 1
    · have hk : k.val = j := by omega
      obtain ⟨c, hc0, hc⟩ := h.range k hk
      refine ⟨st.w, c, fun l hl => hc0 l (by omega), fun i => ?_, ?_, fun hb i => ?_, fun l hl => ?_⟩
      · rw [hco k (by omega), hc i]
        congr 1
        refine Finset.sum_congr rfl fun l _ => ?_
        by_cases hl : l.val = j + 1
        · rw [hc0 l (by omega), zero_mul, zero_mul]
        · rw [hco l hl]
      · rw [hT, if_neg (by omega), if_pos ⟨hk, hlast⟩, h.beta]
      · rw [hcn k1 hlast, ← h.beta]
        exact hv3 (by rw [h.beta]; exact hb) i
      · rw [hco l (by omega)]
        exact h.perp l (by omega)
    · obtain ⟨u, c, hc0, hc, hTu, hu, hup⟩ := h.past k k1 h1 (by omega)
      refine ⟨u, c, hc0, fun i => ?_, ?_, fun hb i => ?_, fun l hl => ?_⟩
      · rw [hco k (by omega), hc i]
        congr 1
        refine Finset.sum_congr rfl fun l _ => ?_
        by_cases hl : l.val = j + 1
        · rw [hc0 l (by omega), zero_mul, zero_mul]
        · rw [hco l hl]
      · rw [hT, if_neg (by omega), if_neg (by omega), if_neg (by omega)]
        exact hTu
      · rw [hco k1 hlast]
        exact hu hb i
      · rw [hco l (by omega)]
        exact hup l hl
  · intro a ha
    by_cases ha' : a.val = j + 1
    · rw [hT, if_neg (by omega), if_neg (by omega), if_pos ⟨ha', ha'⟩, hcn a ha']
    · rw [hT, if_neg (by omega), if_neg (by omega), if_neg (by omega), hco a ha']
      exact h.diag a (by omega)

end GPX
