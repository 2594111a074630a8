import Verif.Lemmas.RPC
import Verif.Props.GPR
import Mathlib.Algebra.Order.Floor.Semifield

/-!
# C37, C38, C39 and C66: randomly pivoted Cholesky
-/

namespace GPX.Props
open GPX GPX.Spec

variable {d n v N r : ℕ} {Key : Type}

/-! ## The rows and the diagonal used by the code are those of the kernel matrix -/

theorem rpcRow_eq {κ : KernelObj d} {p : KPar} (sw : SampleWise κ p) (x : Batch n d) :
    rpcRow κ p x = κ.k p x x := by
  funext s a
  simp only [rpcRow, rowAt_fin]
  exact k_row sw x x s 0 a

theorem rpcDiag_eq {κ : KernelObj d} {p : KPar} (sw : SampleWise κ p) (x : Batch n d) :
    rpcDiag κ p x = fun a => κ.k p x x a a := by
  unfold rpcDiag
  rw [stack_laxScan (fun xs : Sample d => κ.k p (recoverFirstAxis xs) (recoverFirstAxis xs) 0 0)]
  funext a
  exact sw.k x x (fun _ : Fin 1 => a) (fun _ : Fin 1 => a) 0 0

theorem rpcIndex1_eq (s jv : ℕ) : rpcIndex1 s jv = s / jv := by
  unfold rpcIndex1
  exact Nat.floor_div_eq_div s jv

theorem rpcRowDerivs_eq {κ : KernelObj d} {p : KPar} (sw : SampleWise κ p) (x : Batch n d)
    (J : Jac n d v) : rpcRowDerivs κ p x J = κ.d01kj p x x J J := by
  funext s a
  have hv : 0 < v := by
    rcases Nat.eq_zero_or_pos v with rfl | h
    · exact absurd s.isLt (by simp)
    · exact h
  have hdiv : s.val / v < n := (Nat.div_lt_iff_lt_mul hv).2 s.isLt
  have hmod : s.val % v < v := Nat.mod_lt _ hv
  simp only [rpcRowDerivs, rpcIndex1_eq, rowAt_lt _ _ _ hdiv]
  rw [rowAt_lt _ _ _ (by rw [one_mul]; exact hmod)]
  have e1 : (⟨s.val % v, by rw [one_mul]; exact hmod⟩ : Fin (1 * v)) = flat 0 s.modNat :=
    Fin.ext (by simp [flat, Fin.modNat])
  rw [e1]
  have := d01kj_row sw x x J J s.divNat 0 s.modNat a
  rw [flat_eta] at this
  exact this

theorem rpcDiagDerivs_eq {κ : KernelObj d} {p : KPar} (sw : SampleWise κ p) (x : Batch n d)
    (J : Jac n d v) : rpcDiagDerivs κ p x J = fun a => κ.d01kj p x x J J a a := by
  unfold rpcDiagDerivs
  simp only
  rw [stack_laxScan (fun xj : Sample d × (Fin d → Fin v → ℝ) =>
    κ.d01kj p (recoverFirstAxis xj.1) (recoverFirstAxis xj.1) (recoverFirstAxis xj.2)
        (recoverFirstAxis xj.2))]
  funext a
  have e : Fin.cast (one_mul v).symm a.modNat = flat 0 a.modNat := Fin.ext (by simp [flat, Fin.modNat])
  rw [e]
  have := sw.d01kj x x J J (fun _ : Fin 1 => a.divNat) (fun _ : Fin 1 => a.divNat) 0 a.modNat 0 a.modNat
  rw [flat_eta] at this
  exact this

/-! ## C37 -/

/-- **C37**, the loop: for every positive semidefinite matrix `K`, every generator (`split`, `choice`) and every
number `t ≤ r` of steps, `K - F Fᵀ` is positive semidefinite, the maintained diagonal is `diag(K - F Fᵀ)` and
nonnegative, columns not yet built are zero, and the sampling weights of the next step are nonnegative and sum
to one unless the whole diagonal is zero. -/
theorem C37_loop (K : Mat N N) (hK : K.PosSemidef) (split : Key → Key × Key)
    (choice : Key → (Fin N → ℝ) → Fin N) (key : Key) (t : ℕ) (ht : t ≤ r) :
    let st := rpcLoop r split choice (fun s a => K s a) (fun a => K a a) key t
    let F : Mat N r := Matrix.of st.fmat
    (K - F * F.transpose).PosSemidef ∧
    (∀ a, st.diag a = (K - F * F.transpose) a a ∧ 0 ≤ st.diag a) ∧
    (∀ a (j : Fin r), t ≤ j.val → F a j = 0) ∧
    (∀ a, 0 ≤ st.diag a / ∑ b, st.diag b) ∧
    ((∃ a, st.diag a ≠ 0) → ∑ a, st.diag a / ∑ b, st.diag b = 1) := by
  intro st F
  have inv : RpcInv K t st := rpcLoop_inv ht
  have hR : K - F * F.transpose = Matrix.of (resid K F t) := by
    ext a b
    rw [Matrix.of_apply, resid_zero (F := F) inv.zero, Matrix.sub_apply, Matrix.mul_apply]
    rfl
  have hp : (K - F * F.transpose).PosSemidef := by
    rw [hR]
    exact resid_psd hK ht fun j hj => let ⟨s, _, h⟩ := inv.col j hj; ⟨s, h⟩
  have hd : ∀ a, st.diag a = (K - F * F.transpose) a a := fun a => by
    rw [inv.diag, Matrix.sub_apply, Matrix.mul_apply]
    congr 1
    exact Finset.sum_congr rfl fun j _ => by rw [sq]; rfl
  have hn : ∀ a, 0 ≤ st.diag a := fun a => by rw [hd]; exact hp.diag_nonneg
  refine ⟨hp, fun a => ⟨hd a, hn a⟩, inv.zero, fun a => div_nonneg (hn a) (Finset.sum_nonneg fun b _ => hn b), ?_⟩
  rintro ⟨a, ha⟩
  rw [← Finset.sum_div]
  refine div_self ?_
  have : 0 < ∑ b, st.diag b :=
    Finset.sum_pos' (fun b _ => hn b) ⟨a, Finset.mem_univ a, lt_of_le_of_ne (hn a) (Ne.symm ha)⟩
  exact this.ne'

/-- **C37**, diagonal: the maintained diagonal (the approximation error of every entry of the diagonal) never
increases from one step to the next. -/
theorem C37_error_decreases (K : Mat N N) (split : Key → Key × Key)
    (choice : Key → (Fin N → ℝ) → Fin N) (key : Key) (t : ℕ) (a : Fin N) :
    (rpcLoop r split choice (fun s a => K s a) (fun a => K a a) key (t + 1)).diag a ≤
      (rpcLoop r split choice (fun s a => K s a) (fun a => K a a) key t).diag a := by
  unfold rpcLoop
  rw [foriLoop_succ]
  simp only [rpcStep]
  exact sub_le_self _ (sq_nonneg _)

/-- **C37**, the public function: for every kernel expression with admissible hyperparameters, dataset, key and
number of pivots, the returned factor satisfies `F Fᵀ ≤ k(x, x)` in the Loewner order. -/
theorem C37_factor_below_kernel (e : KExpr d) (p : KPar) (h : Admissible e p)
    (split : Key → Key × Key) (choice : Key → (Fin n → ℝ) → Fin n) (key : Key) (x : Batch n d)
    (nPivots : ℕ) (F : Mat n nPivots) (piv : Fin nPivots → ℕ)
    (hr : rpcholesky split choice key x nPivots e.obj p = .ok (F, piv)) :
    (Matrix.of (e.obj.k p x x) - F * F.transpose).PosSemidef := by
  have sw := C63_sampleWise e p
  unfold rpcholesky at hr
  split_ifs at hr with h1
  simp only [rpcRow_eq sw, rpcDiag_eq sw] at hr
  have hF := congrArg Prod.fst (Except.ok.inj hr)
  have := (C37_loop (Matrix.of (e.obj.k p x x)) (C22_gram_posSemidef e p h x) split choice key nPivots
    (r := nPivots) le_rfl).1
  change (Matrix.of (e.obj.k p x x) - (F, piv).1 * (F, piv).1.transpose).PosSemidef
  rw [← hF]
  exact this

/-- **C37** for derivative kernels (positive semidefinite derivative Gram matrix, see C65). -/
theorem C37_factor_below_kernel_derivs (e : KExpr d) (p : KPar)
    (split : Key → Key × Key) (choice : Key → (Fin (n * v) → ℝ) → Fin (n * v)) (key : Key)
    (x : Batch n d) (J : Jac n d v) (h : (Matrix.of (e.obj.d01kj p x x J J)).PosSemidef)
    (nPivots : ℕ) :
    let F := (rpcholeskyDerivs split choice key x J nPivots e.obj p).1
    (Matrix.of (e.obj.d01kj p x x J J) - F * F.transpose).PosSemidef := by
  intro F
  have sw := C63_sampleWise e p
  have hF : F = Matrix.of (rpcLoop nPivots split choice (rpcRowDerivs e.obj p x J)
    (rpcDiagDerivs e.obj p x J) key nPivots).fmat := rfl
  rw [hF, rpcRowDerivs_eq sw, rpcDiagDerivs_eq sw]
  exact (C37_loop (Matrix.of (e.obj.d01kj p x x J J)) h split choice key nPivots
    (r := nPivots) le_rfl).1

/-! ## C38 -/

/-- **C38.** For every kernel expression, dataset, key and number of pivots: each returned pivot is the index of a
sample, and the returned factor is the pivoted Cholesky factor of the full kernel matrix `k(x, x)` for exactly
these pivots. -/
theorem C38_pivots (e : KExpr d) (p : KPar)
    (split : Key → Key × Key) (choice : Key → (Fin n → ℝ) → Fin n) (key : Key) (x : Batch n d)
    (nPivots : ℕ) (F : Mat n nPivots) (piv : Fin nPivots → ℕ)
    (hr : rpcholesky split choice key x nPivots e.obj p = .ok (F, piv)) :
    (∀ j, piv j < n) ∧ IsPivotedCholesky (Matrix.of (e.obj.k p x x)) F piv := by
  have sw := C63_sampleWise e p
  unfold rpcholesky at hr
  split_ifs at hr with h1
  simp only [rpcRow_eq sw, rpcDiag_eq sw] at hr
  have hF := congrArg Prod.fst (Except.ok.inj hr)
  have hP := congrArg Prod.snd (Except.ok.inj hr)
  have inv : RpcInv (Matrix.of (e.obj.k p x x)) nPivots _ :=
    rpcLoop_inv (r := nPivots) (split := split) (choice := choice) (key := key) le_rfl
  have hc : IsPivotedCholesky (Matrix.of (e.obj.k p x x)) F piv := by
    change IsPivotedCholesky (Matrix.of (e.obj.k p x x)) (F, piv).1 (F, piv).2
    rw [← hF, ← hP]
    intro j
    obtain ⟨s, h1, h2⟩ := inv.col j j.isLt
    exact ⟨s, h1, h2⟩
  exact ⟨fun j => let ⟨s, h, _⟩ := hc j; h ▸ s.isLt, hc⟩

/-- **C38** for derivatives: a pivot decodes to sample `⌊s / n_variables⌋` and derivative component
`s mod n_variables`, the row used for it is that row of the full derivative kernel matrix, and the factor is the
pivoted Cholesky factor of that matrix. -/
theorem C38_pivots_derivs (e : KExpr d) (p : KPar)
    (split : Key → Key × Key) (choice : Key → (Fin (n * v) → ℝ) → Fin (n * v)) (key : Key)
    (x : Batch n d) (J : Jac n d v) (nPivots : ℕ) :
    let res := rpcholeskyDerivs split choice key x J nPivots e.obj p
    (∀ j, res.2 j < n * v) ∧ IsPivotedCholesky (Matrix.of (e.obj.d01kj p x x J J)) res.1 res.2 ∧
    ∀ (i : Fin n) (u : Fin v),
      rpcIndex1 (flat i u).val v = i.val ∧ (flat i u).val % v = u.val ∧
      ∀ a, rpcRowDerivs e.obj p x J (flat i u) a = e.obj.d01kj p x x J J (flat i u) a := by
  intro res
  have sw := C63_sampleWise e p
  have inv : RpcInv (Matrix.of (e.obj.d01kj p x x J J)) nPivots _ :=
    rpcLoop_inv (r := nPivots) (split := split) (choice := choice) (key := key) le_rfl
  have hres : res = (Matrix.of (rpcLoop nPivots split choice (e.obj.d01kj p x x J J)
      (fun a => e.obj.d01kj p x x J J a a) key nPivots).fmat,
      (rpcLoop nPivots split choice (e.obj.d01kj p x x J J)
      (fun a => e.obj.d01kj p x x J J a a) key nPivots).pivots) := by
    simp only [res, rpcholeskyDerivs, rpcRowDerivs_eq sw, rpcDiagDerivs_eq sw]
  have hc : IsPivotedCholesky (Matrix.of (e.obj.d01kj p x x J J)) res.1 res.2 := by
    intro j
    obtain ⟨s, h1, h2⟩ := inv.col j j.isLt
    rw [hres]
    exact ⟨s, h1, h2⟩
  refine ⟨fun j => let ⟨s, h, _⟩ := hc j; h ▸ s.isLt, hc, fun i u => ?_⟩
  have hv : 0 < v := by have := u.isLt; omega
  refine ⟨?_, ?_, fun a => by rw [rpcRowDerivs_eq sw]⟩
  · rw [rpcIndex1_eq]
    exact congrArg Fin.val (flat_divNat i u)
  · exact congrArg Fin.val (flat_modNat i u)

/-- Non-vacuity of C37 and C38: on two samples the call succeeds. -/
example (split : Key → Key × Key) (choice : Key → (Fin 2 → ℝ) → Fin 2) (key : Key) (x : Batch 2 1) :
    ∃ F piv, rpcholesky split choice key x 1 (KExpr.obj (.squaredExponential none)) (fun _ => 1) =
      .ok (F, piv) := by
  unfold rpcholesky
  rw [if_neg (by norm_num)]
  exact ⟨_, _, rfl⟩

/-! ## C39 -/

/-- A sampler that only returns indices of positive weight. -/
def SamplesSupport (choice : Key → (Fin N → ℝ) → Fin N) : Prop :=
  ∀ (k : Key) (w : Fin N → ℝ), (∃ a, 0 < w a) → 0 < w (choice k w)

/-- The full claim of C39: for every positive semidefinite matrix (of two or more rows) and every sampler that only
returns indices of positive weight, the pivots are pairwise different, as long as there are at most as many as
rows. -/
def C39_full : Prop :=
  ∀ (N r : ℕ) (K : Mat N N), K.PosSemidef → r ≤ N → ∀ (Key : Type) (split : Key → Key × Key)
    (choice : Key → (Fin N → ℝ) → Fin N), SamplesSupport choice → ∀ key : Key,
    Function.Injective (rpcLoop r split choice (fun s a => K s a) (fun a => K a a) key r).pivots

/-- The claim is false: the jitter leaves a positive weight on a pivot that was already chosen. With the identity
matrix of size two, index 0 can be drawn twice. -/
theorem C39_false : ¬ C39_full := by
  intro h
  -- draw 0 whenever it has positive weight
  classical
  let choice : Unit → (Fin 2 → ℝ) → Fin 2 := fun _ w => if 0 < w 0 then 0 else 1
  have hc : SamplesSupport choice := by
    rintro k w ⟨a, ha⟩
    by_cases h0 : 0 < w 0
    · simpa [choice, h0]
    · have : a ≠ 0 := fun h => h0 (h ▸ ha)
      have : a = 1 := by omega
      simpa [choice, h0, this] using this ▸ ha
  have := h 2 2 1 Matrix.PosSemidef.one le_rfl Unit (fun k => (k, k)) choice hc ()
  have h0 : (rpcLoop 2 (fun k => (k, k)) choice (fun s a => (1 : Mat 2 2) s a)
      (fun a => (1 : Mat 2 2) a a) () 2).pivots 0 = 0 := by
    simp [rpcLoop, foriLoop_succ, foriLoop_zero, rpcStep, choice]
  have h1 : (rpcLoop 2 (fun k => (k, k)) choice (fun s a => (1 : Mat 2 2) s a)
      (fun a => (1 : Mat 2 2) a a) () 2).pivots 1 = 0 := by
    have hj : 0 < rpcJitter := by norm_num [rpcJitter]
    have hlt : ((1 : ℝ) + rpcJitter)⁻¹ ^ 2 < 1 := by
      have : ((1 : ℝ) + rpcJitter)⁻¹ < 1 := inv_lt_one_of_one_lt₀ (by linarith)
      have h0 : 0 < ((1 : ℝ) + rpcJitter)⁻¹ := by positivity
      nlinarith
    let st0 : RpcState 2 2 Unit :=
      { fmat := fun _ _ => 0, diag := fun a => (1 : Mat 2 2) a a, pivots := fun _ => 0, key := () }
    let st1 := rpcStep (fun k => (k, k)) choice (fun s a => (1 : Mat 2 2) s a) 0 st0
    have hs0 : choice () (fun a => st0.diag a / ∑ b, st0.diag b) = 0 := by
      simp [choice, st0]
    have hdiag : ∀ a, st1.diag a = 1 - ((1 : Mat 2 2) 0 a / (1 + rpcJitter)) ^ 2 := fun a => by
      have e : st1.diag a = st0.diag a - (((1 : Mat 2 2) (choice () fun a => st0.diag a / ∑ b, st0.diag b) a -
          ∑ j, st0.fmat a j * st0.fmat (choice () fun a => st0.diag a / ∑ b, st0.diag b) j) /
          (Real.sqrt ((1 : Mat 2 2) (choice () fun a => st0.diag a / ∑ b, st0.diag b)
            (choice () fun a => st0.diag a / ∑ b, st0.diag b) -
          ∑ j, st0.fmat (choice () fun a => st0.diag a / ∑ b, st0.diag b) j *
            st0.fmat (choice () fun a => st0.diag a / ∑ b, st0.diag b) j) + rpcJitter)) ^ 2 := by
        simp only [st1, rpcStep, setCol]
        simp
      rw [e, hs0]
      simp [st0]
    have hd0 : 0 < st1.diag 0 := by
      rw [hdiag]
      simpa using hlt
    have hd1 : st1.diag 1 = 1 := by rw [hdiag]; simp
    have hs1 : choice () (fun a => st1.diag a / ∑ b, st1.diag b) = 0 := by
      have : 0 < st1.diag 0 / ∑ b, st1.diag b := by
        rw [Fin.sum_univ_two, hd1]
        positivity
      exact if_pos this
    have : (rpcLoop 2 (fun k => (k, k)) choice (fun s a => (1 : Mat 2 2) s a)
      (fun a => (1 : Mat 2 2) a a) () 2).pivots 1 =
        (choice () (fun a => st1.diag a / ∑ b, st1.diag b)).val := rfl
    rw [this, hs1]
    rfl
  exact absurd (this (h0.trans h1.symm)) (by decide)

/-- **C39** (partial): what is left of the weight of a pivot after it has been used. If index `s` with residual
`g = diag s` is chosen, its new residual is at most `2e-6 · √g`: a repeated choice is possible but has weight of
the order of the jitter. -/
theorem C39_residual_partial (K : Mat N N) (hK : K.PosSemidef) (split : Key → Key × Key)
    (choice : Key → (Fin N → ℝ) → Fin N) (key : Key) (t : ℕ) (ht : t < r) :
    let st := rpcLoop r split choice (fun s a => K s a) (fun a => K a a) key t
    let st' := rpcLoop r split choice (fun s a => K s a) (fun a => K a a) key (t + 1)
    ∃ s : Fin N, st'.pivots ⟨t, ht⟩ = s.val ∧
      st'.diag s ≤ 2 / 10 ^ 6 * Real.sqrt (st.diag s) := by
  intro st st'
  have inv : RpcInv K t st := rpcLoop_inv (by omega)
  have inv' : RpcInv K (t + 1) st' := rpcLoop_inv (by omega)
  obtain ⟨s, h1, h2⟩ := inv'.col ⟨t, ht⟩ (Nat.lt_succ_self t)
  refine ⟨s, h1, ?_⟩
  have hnn : 0 ≤ st.diag s := ((C37_loop K hK split choice key t (r := r) (by omega)).2.1 s).2
  have hst : st' = rpcStep split choice (fun s a => K s a) t st := by
    simp only [st, st', rpcLoop, foriLoop_succ]
  have hd : st'.diag s = st.diag s - st'.fmat s ⟨t, ht⟩ ^ 2 := by
    rw [hst]; simp only [rpcStep, ht, dif_pos]
  have hold : ∀ a (j : Fin r), j.val < t → st'.fmat a j = st.fmat a j := fun a j hj => by
    rw [hst]
    simp only [rpcStep, setCol]
    rw [if_neg (by omega)]
  have hg : resid K (Matrix.of st'.fmat) t s s = st.diag s := by
    rw [resid_congr (F := Matrix.of st'.fmat) (F' := Matrix.of st.fmat) hold,
      resid_zero (F := Matrix.of st.fmat) inv.zero, inv.diag]
    congr 1
    exact Finset.sum_congr rfl fun j _ => by rw [sq]; rfl
  rw [hd, h2 s]
  simp only [hg]
  set q := Real.sqrt (st.diag s) with hq
  have hq0 : 0 ≤ q := Real.sqrt_nonneg _
  have hqq : st.diag s = q ^ 2 := (Real.sq_sqrt hnn).symm
  rw [hqq]
  have hpos : 0 < q + 1 / 10 ^ 6 := by positivity
  have hu : q ^ 2 / (q + 1 / 10 ^ 6) ≤ q := by
    rw [div_le_iff₀ hpos]; nlinarith
  have hl : q - 1 / 10 ^ 6 ≤ q ^ 2 / (q + 1 / 10 ^ 6) := by
    rw [le_div_iff₀ hpos]; nlinarith
  have h0 : 0 ≤ q ^ 2 / (q + 1 / 10 ^ 6) := by positivity
  nlinarith

/-! ## C66 -/

/-- The full claim of C66: iterative fitting succeeds on every nonempty dataset. -/
def C66_full : Prop :=
  ∀ (d n o : ℕ), 0 < n → ∀ (Key : Type) (split : Key → Key × Key)
    (choice : Key → (Fin n → ℝ) → Fin n) (la : LinAlg) (cg : CG) (θ : GPParams) (κ : KernelObj d)
    (mf : MeanFun) (x : Batch n d) (y : Mat n o) (nPivots : ℕ) (key : Key),
    ∃ r, fitIter la cg split choice θ κ mf x y nPivots key = .ok r

/-- On a dataset with a single sample the pivoted Cholesky routine, the preconditioner and the iterative fit raise
`IndexError`, for every kernel, key and number of pivots. -/
theorem C66_single_sample {d o : ℕ} (split : Key → Key × Key) (choice : Key → (Fin 1 → ℝ) → Fin 1)
    (la : LinAlg) (cg : CG) (θ : GPParams) (κ : KernelObj d) (mf : MeanFun) (x : Batch 1 d)
    (y : Mat 1 o) (nPivots : ℕ) (key : Key) :
    fitIter la cg split choice θ κ mf x y nPivots key = .error .indexError := by
  simp [fitIter, precondRpcholesky, rpcholesky]

/-- The full claim is false. -/
theorem C66_false : ¬ C66_full := by
  intro h
  obtain ⟨r, hr⟩ := h 1 1 1 one_pos Unit (fun k => (k, k)) (fun _ _ => 0) LinAlg.ideal idealCG
    ⟨fun _ => 1, 1⟩ (KExpr.obj (.linear none)) zeroMean (fun _ _ => 0) 0 1 ()
  rw [C66_single_sample] at hr
  exact absurd hr (by simp)

/-- **C66** (partial): it succeeds on every dataset with two or more samples (in particular the preconditioner is
built, for any number of pivots). -/
theorem C66_fit_partial {d n o : ℕ} (hn : 2 ≤ n) (split : Key → Key × Key)
    (choice : Key → (Fin n → ℝ) → Fin n) (la : LinAlg) (cg : CG) (θ : GPParams) (κ : KernelObj d)
    (mf : MeanFun) (x : Batch n d) (y : Mat n o) (nPivots : ℕ) (key : Key) :
    ∃ c, fitIter la cg split choice θ κ mf x y nPivots key = .ok (c, mf y) := by
  unfold fitIter precondRpcholesky rpcholesky
  simp only [show n ≠ 1 by omega, if_false]
  exact ⟨_, rfl⟩

end GPX.Props
