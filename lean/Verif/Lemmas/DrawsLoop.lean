import Verif.Lemmas.Draws

/-! # The expected error of the pivoted Cholesky loop -/

namespace GPX
open Spec

variable {N r : ℕ} {Key : Type}

/-- `k` steps of the loop, starting at step `i`. -/
noncomputable def runFrom (split : Key → Key × Key) (choice : Key → (Fin N → ℝ) → Fin N)
    (row : Fin N → Fin N → ℝ) : ℕ → ℕ → RpcState N r Key → RpcState N r Key
  | 0, _, st => st
  | k + 1, i, st => runFrom split choice row k (i + 1) (rpcStep split choice row i st)

theorem runFrom_last (split : Key → Key × Key) (choice : Key → (Fin N → ℝ) → Fin N)
    (row : Fin N → Fin N → ℝ) (k i : ℕ) (st : RpcState N r Key) :
    runFrom split choice row (k + 1) i st =
      rpcStep split choice row (i + k) (runFrom split choice row k i st) := by
  induction k generalizing i st with
  | zero => rfl
  | succ k ih =>
    rw [runFrom, ih, runFrom]
    congr 1
    omega

theorem foriLoop_runFrom (split : Key → Key × Key) (choice : Key → (Fin N → ℝ) → Fin N)
    (row : Fin N → Fin N → ℝ) (k : ℕ) (st : RpcState N r Key) :
    foriLoop k (rpcStep split choice row) st = runFrom split choice row k 0 st := by
  induction k with
  | zero => rfl
  | succ k ih => rw [foriLoop_succ, ih, runFrom_last, Nat.zero_add]

/-- The spent number at the head of the key plays no role. -/
theorem runFrom_head [NeZero N] (row : Fin N → Fin N → ℝ) (k i : ℕ) (F : Arr2 N r) (dg : Fin N → ℝ)
    (pv : Fin r → ℕ) (h h' : ℝ) (us : List ℝ) :
    (runFrom drawSplit drawChoice row k i ⟨F, dg, pv, h :: us⟩).fmat =
      (runFrom drawSplit drawChoice row k i ⟨F, dg, pv, h' :: us⟩).fmat := by
  cases k with
  | zero => rfl
  | succ k => rfl

/-- The state after a step in which pivot `s` is drawn, with its key replaced. -/
noncomputable def pivotStep (row : Fin N → Fin N → ℝ) (i : ℕ) (s : Fin N) (st : RpcState N r (List ℝ))
    (key : List ℝ) : RpcState N r (List ℝ) :=
  { rpcStep drawSplit (fun _ _ => s) row i st with key := key }

theorem rpcStep_draw [NeZero N] (row : Fin N → Fin N → ℝ) (i : ℕ) (st : RpcState N r (List ℝ)) (h u : ℝ)
    (us : List ℝ) :
    rpcStep drawSplit drawChoice row i { st with key := h :: u :: us } =
      pivotStep row i (invCdf (fun a => st.diag a / ∑ b, st.diag b) u) st (u :: us) := rfl

/-- The residual matrix of a state. -/
noncomputable def residOf (K : Mat N N) (st : RpcState N r Key) : Mat N N :=
  K - Matrix.of st.fmat * (Matrix.of st.fmat).transpose

theorem residOf_psd {K : Mat N N} (hK : K.PosSemidef) {i : ℕ} (hi : i ≤ r) {st : RpcState N r Key}
    (inv : RpcInv K i st) : (residOf K st).PosSemidef := by
  have hR : residOf K st = Matrix.of (resid K (Matrix.of st.fmat) i) := by
    ext a b
    rw [Matrix.of_apply, resid_zero (F := Matrix.of st.fmat) inv.zero]
    rfl
  rw [hR]
  exact resid_psd hK hi fun j hj => let ⟨s, _, h⟩ := inv.col j hj; ⟨s, h⟩

theorem residOf_diag {K : Mat N N} {i : ℕ} {st : RpcState N r Key} (inv : RpcInv K i st) (a : Fin N) :
    st.diag a = residOf K st a a := by
  rw [inv.diag, residOf, Matrix.sub_apply, Matrix.mul_apply]
  congr 1
  exact Finset.sum_congr rfl fun j _ => by rw [sq]; rfl

theorem RpcInv.withKey {K : Mat N N} {i : ℕ} {st : RpcState N r Key} (inv : RpcInv K i st) (key : Key) :
    RpcInv K i { st with key := key } := ⟨inv.zero, inv.diag, inv.col⟩

theorem pivotStep_inv {K : Mat N N} {i : ℕ} (hi : i < r) {st : RpcState N r (List ℝ)} (inv : RpcInv K i st)
    (s : Fin N) (key : List ℝ) : RpcInv K (i + 1) (pivotStep (fun s a => K s a) i s st key) :=
  (rpcStep_inv hi inv).withKey key

/-- The trace after a step with pivot `s`. -/
theorem pivotStep_trace {K : Mat N N} {i : ℕ} (hi : i < r) {st : RpcState N r (List ℝ)} (inv : RpcInv K i st)
    (s : Fin N) (key : List ℝ) :
    (residOf K (pivotStep (fun s a => K s a) i s st key)).trace = (residOf K st).trace -
      ∑ a, (residOf K st s a / (Real.sqrt (residOf K st s s) + rpcJitter)) ^ 2 := by
  have e1 : (residOf K (pivotStep (fun s a => K s a) i s st key)).trace =
      ∑ a, (pivotStep (fun s a => K s a) i s st key).diag a :=
    Finset.sum_congr rfl fun a _ => (residOf_diag (pivotStep_inv hi inv s key) a).symm
  have e2 : (residOf K st).trace = ∑ a, st.diag a :=
    Finset.sum_congr rfl fun a _ => (residOf_diag inv a).symm
  rw [e1, e2, ← Finset.sum_sub_distrib]
  have hg : ∀ a, K s a - ∑ j, st.fmat a j * st.fmat s j = residOf K st s a := fun a => by
    rw [residOf, Matrix.sub_apply, Matrix.mul_apply]
    congr 1
    exact Finset.sum_congr rfl fun j _ => mul_comm _ _
  refine Finset.sum_congr rfl fun a _ => ?_
  simp only [pivotStep, rpcStep, hi, dif_pos, setCol, if_true, hg]

/-- The expected error of `k` more steps from a given state. -/
noncomputable def errFrom [NeZero N] (K : Mat N N) (k i : ℕ) (st : RpcState N r (List ℝ)) : ℝ :=
  unifMean k fun us => (residOf K (runFrom drawSplit drawChoice (fun s a => K s a) k i
    { st with key := 1 :: us })).trace

theorem errFrom_zero [NeZero N] (K : Mat N N) (i : ℕ) (st : RpcState N r (List ℝ)) :
    errFrom K 0 i st = (residOf K st).trace := rfl

theorem errFrom_succ [NeZero N] (K : Mat N N) (k i : ℕ) (st : RpcState N r (List ℝ)) :
    errFrom K (k + 1) i st = ∫ u in (0 : ℝ)..1,
      errFrom K k (i + 1) (pivotStep (fun s a => K s a) i
        (invCdf (fun a => st.diag a / ∑ b, st.diag b) u) st []) := by
  unfold errFrom
  show (∫ u in (0 : ℝ)..1, unifMean k fun us => (residOf K (runFrom drawSplit drawChoice (fun s a => K s a) (k + 1) i
    { st with key := 1 :: u :: us })).trace) = _
  congr 1
  funext u
  congr 1
  funext us
  rw [runFrom, rpcStep_draw]
  unfold residOf
  rw [show (runFrom drawSplit drawChoice (fun s a => K s a) k (i + 1) (pivotStep (fun s a => K s a) i
      (invCdf (fun a => st.diag a / ∑ b, st.diag b) u) st (u :: us))).fmat = _ from
    runFrom_head _ _ _ _ _ _ u 1 us]
  rfl

/-- A linear one-step bound on the expected trace gives a geometric bound on the expected error. -/
theorem errFrom_le [NeZero N] {K : Mat N N} (hK : K.PosSemidef) {q c τ T0 : ℝ} (hq0 : 0 ≤ q) (hq1 : q ≤ 1)
    (hc : 0 ≤ c) (hτ : 0 ≤ τ)
    (hstep : ∀ i (st : RpcState N r (List ℝ)), i ≤ r → RpcInv K i st → 0 < (residOf K st).trace →
      (residOf K st).trace ≤ T0 →
      ∑ s, residOf K st s s / (residOf K st).trace * ((residOf K st).trace -
        ∑ a, (residOf K st s a / (Real.sqrt (residOf K st s s) + rpcJitter)) ^ 2) - τ ≤
      q * ((residOf K st).trace - τ) + c)
    (k i : ℕ) (hi : i + k ≤ r) (st : RpcState N r (List ℝ)) (inv : RpcInv K i st)
    (hT0 : (residOf K st).trace ≤ T0) :
    errFrom K k i st ≤ q ^ k * ((residOf K st).trace - τ) + c * ∑ j ∈ Finset.range k, q ^ j + τ := by
  induction k generalizing i st with
  | zero => rw [errFrom_zero]; simp
  | succ k ih =>
    rw [errFrom_succ]
    have hil : i < r := by omega
    set T := (residOf K st).trace with hT
    have hpsd := residOf_psd hK hil.le inv
    have hdiag := residOf_diag inv
    have hTs : T = ∑ s, st.diag s := Finset.sum_congr rfl fun a _ => (hdiag a).symm
    have hnn : ∀ s, 0 ≤ st.diag s := fun s => by rw [hdiag]; exact hpsd.diag_nonneg
    have hT0' : 0 ≤ T := by rw [hTs]; exact Finset.sum_nonneg fun s _ => hnn s
    let G : Fin N → ℝ := fun s => errFrom K k (i + 1) (pivotStep (fun s a => K s a) i s st [])
    let D : Fin N → ℝ := fun s => T -
      ∑ a, (residOf K st s a / (Real.sqrt (residOf K st s s) + rpcJitter)) ^ 2
    have htr : ∀ s, (residOf K (pivotStep (fun s a => K s a) i s st [])).trace = D s := fun s =>
      pivotStep_trace hil inv s []
    have hDT : ∀ s, D s ≤ T := fun s => sub_le_self _ (Finset.sum_nonneg fun a _ => sq_nonneg _)
    have hG : ∀ s, G s ≤ q ^ k * (D s - τ) + c * ∑ j ∈ Finset.range k, q ^ j + τ := fun s => by
      rw [← htr s]
      exact ih (i + 1) (by omega) _ (pivotStep_inv hil inv s []) (by rw [htr]; exact (hDT s).trans hT0)
    have hqk : 0 ≤ q ^ k := pow_nonneg hq0 k
    rw [Finset.sum_range_succ, pow_succ]
    rcases hT0'.eq_or_lt with h0 | hpos
    · have hw : (fun a => st.diag a / ∑ b, st.diag b) = fun _ => 0 := by
        funext a; rw [← hTs, ← h0, div_zero]
      have hconst : ∀ u : ℝ, 0 < u → invCdf (fun a : Fin N => st.diag a / ∑ b, st.diag b) u = 0 := by
        intro u hu
        rw [hw, invCdf, dif_neg]
        rintro ⟨s, hs⟩
        simp only [Finset.sum_const_zero, Finset.mem_filter] at hs
        exact absurd hs.2 (not_le.2 hu)
      have hI : (∫ u in (0 : ℝ)..1, G (invCdf (fun a => st.diag a / ∑ b, st.diag b) u)) = G 0 := by
        rw [intervalIntegral.integral_congr_ae (g := fun _ => G 0)
          (Filter.Eventually.of_forall fun u hu => ?_), intervalIntegral.integral_const]
        · simp
        · rw [Set.uIoc_of_le zero_le_one] at hu
          simp only [hconst u hu.1]
      change (∫ u in (0 : ℝ)..1, G (invCdf (fun a => st.diag a / ∑ b, st.diag b) u)) ≤ _
      rw [hI]
      have h1 := hG 0
      have h2 : D 0 ≤ 0 := by rw [h0]; exact hDT 0
      have h3 : q ^ k * (D 0 - τ) ≤ q ^ k * (q * (T - τ) + c) := by
        refine mul_le_mul_of_nonneg_left ?_ hqk
        rw [← h0]
        nlinarith
      nlinarith
    · have hw0 : ∀ a, 0 ≤ st.diag a / ∑ b, st.diag b := fun a => by
        rw [← hTs]; exact div_nonneg (hnn a) hpos.le
      have hw1 : ∑ a, st.diag a / ∑ b, st.diag b = 1 := by
        rw [← Finset.sum_div, ← hTs, div_self hpos.ne']
      have hI := integral_invCdf hw0 hw1 G
      change (∫ u in (0 : ℝ)..1, G (invCdf (fun a => st.diag a / ∑ b, st.diag b) u)) ≤ _
      rw [hI]
      have h1 : ∑ s, st.diag s / (∑ b, st.diag b) * G s ≤ ∑ s, st.diag s / (∑ b, st.diag b) *
          (q ^ k * (D s - τ) + c * ∑ j ∈ Finset.range k, q ^ j + τ) :=
        Finset.sum_le_sum fun s _ => mul_le_mul_of_nonneg_left (hG s) (hw0 s)
      have h2 : ∑ s, st.diag s / (∑ b, st.diag b) *
          (q ^ k * (D s - τ) + c * ∑ j ∈ Finset.range k, q ^ j + τ) =
          q ^ k * (∑ s, st.diag s / (∑ b, st.diag b) * D s - τ) +
            c * ∑ j ∈ Finset.range k, q ^ j + τ := by
        have e : ∀ s, st.diag s / (∑ b, st.diag b) * (q ^ k * (D s - τ) + c * ∑ j ∈ Finset.range k, q ^ j + τ) =
            q ^ k * (st.diag s / (∑ b, st.diag b) * D s) + st.diag s / (∑ b, st.diag b) *
              (c * ∑ j ∈ Finset.range k, q ^ j + τ - q ^ k * τ) := fun s => by ring
        simp only [e]
        rw [Finset.sum_add_distrib, ← Finset.mul_sum, ← Finset.sum_mul, hw1]
        ring
      have h3 := hstep i st hil.le inv hpos hT0
      have h4 : ∑ s, st.diag s / (∑ b, st.diag b) * D s - τ ≤ q * (T - τ) + c := by
        rw [← hTs]
        simp only [hdiag]
        exact h3
      have h5 := mul_le_mul_of_nonneg_left h4 hqk
      rw [h2] at h1
      nlinarith

end GPX
