import Verif.Lemmas.DrawsLoop
import Verif.Lemmas.LinAlg
import Verif.Props.RPCholesky

/-!
# C109: the expected error of randomly pivoted Cholesky
-/

namespace GPX.Props
open GPX GPX.Spec

variable {d n v N r m : ℕ}

/-- Every factor with `m` columns has an orthogonal projection of rank at most `m` fixing it. -/
theorem exists_range_projection (G : Mat N m) : ∃ P : Mat N N, P.transpose = P ∧ P * P = P ∧
    P.trace ≤ m ∧ P * (G * G.transpose) = G * G.transpose := by
  obtain ⟨V, l, hV1, hV2, hV⟩ := exists_spectral (G * G.transpose) (by
    rw [Matrix.IsHermitian, Matrix.conjTranspose_eq_transpose_of_trivial, Matrix.transpose_mul,
      Matrix.transpose_transpose])
  let χ : Fin N → ℝ := fun i => if l i ≠ 0 then 1 else 0
  have hχ : ∀ i, χ i * χ i = χ i := fun i => by
    show (if l i ≠ 0 then (1 : ℝ) else 0) * (if l i ≠ 0 then 1 else 0) = if l i ≠ 0 then 1 else 0
    split_ifs <;> simp
  have hχl : ∀ i, χ i * l i = l i := fun i => by
    show (if l i ≠ 0 then (1 : ℝ) else 0) * l i = l i
    split_ifs with h
    · simp
    · simp only [not_not] at h; rw [h]; simp
  have hA : G * G.transpose = V * Matrix.diagonal l * V.transpose := by
    rw [← hV]
    calc G * G.transpose = (V * V.transpose) * (G * G.transpose) * (V * V.transpose) := by
          rw [hV2, Matrix.one_mul, Matrix.mul_one]
      _ = _ := by simp only [Matrix.mul_assoc]
  have hmid : ∀ a b : Fin N → ℝ, V * Matrix.diagonal a * V.transpose * (V * Matrix.diagonal b * V.transpose) =
      V * Matrix.diagonal (fun i => a i * b i) * V.transpose := fun a b => by
    calc V * Matrix.diagonal a * V.transpose * (V * Matrix.diagonal b * V.transpose)
        = V * Matrix.diagonal a * (V.transpose * V) * (Matrix.diagonal b * V.transpose) := by
          simp only [Matrix.mul_assoc]
      _ = V * (Matrix.diagonal a * Matrix.diagonal b) * V.transpose := by
          rw [hV1, Matrix.mul_one]; simp only [Matrix.mul_assoc]
      _ = _ := by rw [Matrix.diagonal_mul_diagonal]
  refine ⟨V * Matrix.diagonal χ * V.transpose, ?_, ?_, ?_, ?_⟩
  · rw [Matrix.transpose_mul, Matrix.transpose_mul, Matrix.transpose_transpose, Matrix.diagonal_transpose,
      Matrix.mul_assoc]
  · rw [hmid]
    simp only [hχ]
  · have h1 : (V * Matrix.diagonal χ * V.transpose).trace = ∑ i, χ i := by
      rw [Matrix.trace_mul_comm, ← Matrix.mul_assoc, hV1, Matrix.one_mul, Matrix.trace_diagonal]
    rw [h1]
    have h2 : ∑ i, χ i = ((Finset.univ.filter fun i => l i ≠ 0).card : ℝ) := by
      show (∑ i, if l i ≠ 0 then (1 : ℝ) else 0) = _
      rw [Finset.sum_boole]
    rw [h2]
    have h3 : (Finset.univ.filter fun i => l i ≠ 0).card = (Matrix.diagonal l).rank := by
      rw [Matrix.rank_diagonal, Fintype.card_subtype]
    rw [h3, ← hV]
    have h4 : (V.transpose * (G * G.transpose) * V).rank ≤ m := by
      refine (Matrix.rank_mul_le_left _ _).trans ((Matrix.rank_mul_le_right _ _).trans
        ((Matrix.rank_mul_le_left _ _).trans ?_))
      simpa using Matrix.rank_le_card_width G
    exact_mod_cast h4
  · rw [hA, hmid]
    simp only [hχl]

/-- The part of a positive semidefinite matrix inside, or outside, a subspace has nonnegative trace. -/
theorem trace_proj_nonneg {P B : Mat N N} (hs : P.transpose = P) (hi : P * P = P) (hB : B.PosSemidef) :
    0 ≤ (P * B).trace := by
  have h : (P * B).trace = (P.conjTranspose * B * P).trace := by
    rw [Matrix.conjTranspose_eq_transpose_of_trivial, hs, Matrix.trace_mul_comm (P * B) P, ← Matrix.mul_assoc, hi]
  rw [h]
  exact (hB.conjTranspose_mul_mul_same P).trace_nonneg

theorem trace_proj_le {P B : Mat N N} (hs : P.transpose = P) (hi : P * P = P) (hB : B.PosSemidef) :
    (P * B).trace ≤ B.trace := by
  have h := trace_proj_nonneg (P := 1 - P) (by rw [Matrix.transpose_sub, Matrix.transpose_one, hs])
    (by rw [Matrix.sub_mul, Matrix.mul_sub, Matrix.mul_sub, hi]; simp) hB
  rw [Matrix.sub_mul, Matrix.one_mul, Matrix.trace_sub] at h
  linarith

/-- **C109**, the loop, for every positive semidefinite matrix `K`. -/
theorem C109_loop [NeZero N] (K : Mat N N) (hK : K.PosSemidef) (k : ℕ) (hm : 0 < m) (G : Mat N m)
    (hG : (K - G * G.transpose).PosSemidef) {θ : ℝ} (hθ : 0 < θ) (u₀ : ℝ) :
    unifMean k (fun us =>
        let F : Mat N k := Matrix.of (rpcLoop k drawSplit drawChoice (fun s a => K s a) (fun a => K a a)
          (u₀ :: us) k).fmat
        (K - F * F.transpose).trace) ≤
      (1 + θ) * (K - G * G.transpose).trace + (1 - 4 * θ / ((1 + θ) ^ 2 * m)) ^ k * K.trace +
        (1 + θ) ^ 2 * m / (4 * θ) * (2 / 10 ^ 6 * Real.sqrt (N * K.trace)) := by
  obtain ⟨P, hPs, hPi, hPt, hPG⟩ := exists_range_projection G
  have hm' : (1 : ℝ) ≤ m := by exact_mod_cast hm
  set τ := (K - G * G.transpose).trace with hτ
  set T0 := K.trace with hT0
  set α := 4 * θ / ((1 + θ) ^ 2 * m) with hα
  set B := 2 / 10 ^ 6 * Real.sqrt (N * T0) with hB
  have hτ0 : 0 ≤ τ := hG.trace_nonneg
  have hT00 : 0 ≤ T0 := hK.trace_nonneg
  have hα0 : 0 < α := by positivity
  have hα1 : α ≤ 1 := by
    rw [hα, div_le_one (by positivity)]
    have h1 : 4 * θ ≤ (1 + θ) ^ 2 := by nlinarith [sq_nonneg (1 - θ)]
    nlinarith
  have hB0 : 0 ≤ B := by positivity
  have hinv0 : ∀ us, RpcInv K 0 (⟨fun _ _ => 0, fun a => K a a, fun _ => 0, us⟩ : RpcState N k (List ℝ)) :=
    fun us => ⟨fun _ _ _ => rfl, fun a => by simp, fun j hj => absurd hj (by omega)⟩
  have hres0 : ∀ us, residOf K (⟨fun _ _ => 0, fun a => K a a, fun _ => 0, us⟩ : RpcState N k (List ℝ)) = K :=
    fun us => by
      unfold residOf
      have : (Matrix.of fun (_ : Fin N) (_ : Fin k) => (0 : ℝ)) = 0 := rfl
      simp only [this, Matrix.zero_mul, sub_zero]
  have hmain := errFrom_le (r := k) hK (q := 1 - α) (c := α * (θ * τ) + B) (τ := τ) (T0 := T0)
    (by linarith) (by linarith) (by positivity) hτ0 (by
      intro i st hi inv hpos hle
      have hR := residOf_psd hK hi inv
      set R := residOf K st with hRdef
      set T := R.trace with hT
      have hone := rpc_step_mean hR (T := T) rfl hpos (show (0 : ℝ) < rpcJitter by unfold rpcJitter; positivity)
      have hS : 0 ≤ ∑ s, ∑ a, R s a ^ 2 := Finset.sum_nonneg fun s _ => Finset.sum_nonneg fun a _ => sq_nonneg _
      have hin : ∑ s, ∑ a, P s a * R s a = (P * R).trace := by
        rw [Matrix.trace]
        refine Finset.sum_congr rfl fun s _ => ?_
        rw [Matrix.diag_apply, Matrix.mul_apply]
        refine Finset.sum_congr rfl fun a _ => ?_
        have : R a s = R s a := congrFun (congrFun (posDef_transpose hR) s) a
        rw [this]
      have hout : T - τ ≤ (P * R).trace := by
        have h1 := trace_proj_le hPs hPi hG
        rw [Matrix.mul_sub, hPG, Matrix.trace_sub] at h1
        have hFF : (Matrix.of st.fmat * (Matrix.of st.fmat).transpose).PosSemidef := by
          have := Matrix.posSemidef_self_mul_conjTranspose (Matrix.of st.fmat : Mat N k)
          rwa [Matrix.conjTranspose_eq_transpose_of_trivial] at this
        have h2 := trace_proj_le hPs hPi hFF
        have h3 : (P * R).trace = (P * K).trace -
            (P * (Matrix.of st.fmat * (Matrix.of st.fmat).transpose)).trace := by
          rw [hRdef, residOf, Matrix.mul_sub, Matrix.trace_sub]
        have h4 : T = K.trace - (Matrix.of st.fmat * (Matrix.of st.fmat).transpose).trace := by
          rw [hT, hRdef, residOf, Matrix.trace_sub]
        have h5 : τ = K.trace - (G * G.transpose).trace := by rw [hτ, Matrix.trace_sub]
        have h6 := trace_proj_le (P := 1 - P) (B := K - G * G.transpose)
          (by rw [Matrix.transpose_sub, Matrix.transpose_one, hPs])
          (by rw [Matrix.sub_mul, Matrix.mul_sub, Matrix.mul_sub, hPi]; simp) hG
        rw [Matrix.sub_mul, Matrix.one_mul, Matrix.mul_sub, hPG, Matrix.trace_sub, Matrix.trace_sub,
          Matrix.trace_sub] at h6
        linarith
      have hdec := rank_decrease (S := ∑ s, ∑ a, R s a ^ 2) hm hpos hθ hτ0 hS (fun hle' => by
        have h1 := trace_proj_sq (R := R) hPs hPi hPt
        rw [hin] at h1
        have h2 : (T - τ) ^ 2 ≤ (P * R).trace ^ 2 := by
          have : 0 ≤ T - τ := by linarith
          nlinarith
        exact h2.trans h1)
      have hsq : 2 * rpcJitter * Real.sqrt (N * T) ≤ B := by
        rw [hB]
        unfold rpcJitter
        have : Real.sqrt (N * T) ≤ Real.sqrt (N * T0) :=
          Real.sqrt_le_sqrt (mul_le_mul_of_nonneg_left hle (by positivity))
        linarith
      rw [← hα] at hdec
      nlinarith)
    k 0 (by omega) (⟨fun _ _ => 0, fun a => K a a, fun _ => 0, []⟩ : RpcState N k (List ℝ)) (hinv0 _)
    (by rw [hres0])
  rw [hres0] at hmain
  have hgoal : unifMean k (fun us =>
        let F : Mat N k := Matrix.of (rpcLoop k drawSplit drawChoice (fun s a => K s a) (fun a => K a a)
          (u₀ :: us) k).fmat
        (K - F * F.transpose).trace) =
      errFrom K k 0 (⟨fun _ _ => 0, fun a => K a a, fun _ => 0, []⟩ : RpcState N k (List ℝ)) := by
    unfold errFrom
    congr 1
    funext us
    unfold rpcLoop residOf
    rw [foriLoop_runFrom, runFrom_head _ _ _ _ _ _ u₀ 1 us]
  rw [hgoal]
  refine hmain.trans ?_
  have hgeo : (∑ j ∈ Finset.range k, (1 - α) ^ j) ≤ 1 / α := by
    have h1 := mul_neg_geom_sum (1 - α) k
    rw [le_div_iff₀ hα0]
    have h2 : 0 ≤ (1 - α) ^ k := pow_nonneg (by linarith) k
    have h3 : (∑ j ∈ Finset.range k, (1 - α) ^ j) * α = 1 - (1 - α) ^ k := by
      rw [← h1]; ring
    linarith
  have hc : (α * (θ * τ) + B) * (∑ j ∈ Finset.range k, (1 - α) ^ j) ≤ θ * τ + 1 / α * B := by
    refine (mul_le_mul_of_nonneg_left hgeo (by positivity)).trans (le_of_eq ?_)
    field_simp
  have hqk : (1 - α) ^ k * (T0 - τ) ≤ (1 - α) ^ k * T0 :=
    mul_le_mul_of_nonneg_left (by linarith) (pow_nonneg (by linarith) k)
  have hinvα : 1 / α = (1 + θ) ^ 2 * m / (4 * θ) := by rw [hα, one_div_div]
  rw [← hinvα]
  linarith

/-- **C109.** For every kernel expression with admissible hyperparameters, dataset of at least two samples, number
`k` of pivots and every competing factor `G` with `m` columns that stays below the kernel matrix `K` (its error is
`tr(K - G Gᵀ)`): with an ideal generator, the expected error of the returned factor is at most `1 + θ` times the
error of `G`, plus a share of `tr K` decaying geometrically in `k` at a rate set by `m` and not by the number of
samples, plus a term caused by the jitter `1e-6`. -/
theorem C109_expected_error [NeZero n] (hn : n ≠ 1) (e : KExpr d) (p : KPar)
    (h : Admissible e p) (x : Batch n d) (k : ℕ) (hm : 0 < m) (G : Mat n m)
    (hG : (Matrix.of (e.obj.k p x x) - G * G.transpose).PosSemidef) {θ : ℝ} (hθ : 0 < θ) (u₀ : ℝ)
    (err : List ℝ → ℝ)
    (herr : ∀ us, ∃ F piv, rpcholesky drawSplit drawChoice (u₀ :: us) x k e.obj p = .ok (F, piv) ∧
      err us = (Matrix.of (e.obj.k p x x) - F * F.transpose).trace) :
    unifMean k err ≤
      (1 + θ) * (Matrix.of (e.obj.k p x x) - G * G.transpose).trace +
      (1 - 4 * θ / ((1 + θ) ^ 2 * m)) ^ k * (Matrix.of (e.obj.k p x x)).trace +
      (1 + θ) ^ 2 * m / (4 * θ) * (2 / 10 ^ 6 * Real.sqrt (n * (Matrix.of (e.obj.k p x x)).trace)) := by
  have sw := C63_sampleWise e p
  have hl := C109_loop (Matrix.of (e.obj.k p x x)) (C22_gram_posSemidef e p h x) k hm G hG hθ u₀
  refine le_trans (le_of_eq ?_) hl
  congr 1
  funext us
  obtain ⟨F, piv, hr, hu⟩ := herr us
  rw [hu]
  unfold rpcholesky at hr
  rw [if_neg hn] at hr
  simp only [rpcRow_eq sw, rpcDiag_eq sw] at hr
  have hF := congrArg Prod.fst (Except.ok.inj hr)
  change (Matrix.of (e.obj.k p x x) - (F, piv).1 * (F, piv).1.transpose).trace = _
  rw [← hF]
  rfl

/-- **C109** for derivative kernels (positive semidefinite derivative Gram matrix, see C65). -/
theorem C109_expected_error_derivs [NeZero (n * v)] (e : KExpr d) (p : KPar)
    (x : Batch n d) (J : Jac n d v) (hK : (Matrix.of (e.obj.d01kj p x x J J)).PosSemidef) (k : ℕ)
    (hm : 0 < m) (G : Mat (n * v) m)
    (hG : (Matrix.of (e.obj.d01kj p x x J J) - G * G.transpose).PosSemidef) {θ : ℝ} (hθ : 0 < θ) (u₀ : ℝ) :
    unifMean k (fun us =>
        let F := (rpcholeskyDerivs drawSplit drawChoice (u₀ :: us) x J k e.obj p).1
        (Matrix.of (e.obj.d01kj p x x J J) - F * F.transpose).trace) ≤
      (1 + θ) * (Matrix.of (e.obj.d01kj p x x J J) - G * G.transpose).trace +
      (1 - 4 * θ / ((1 + θ) ^ 2 * m)) ^ k * (Matrix.of (e.obj.d01kj p x x J J)).trace +
      (1 + θ) ^ 2 * m / (4 * θ) *
        (2 / 10 ^ 6 * Real.sqrt ((n * v : ℕ) * (Matrix.of (e.obj.d01kj p x x J J)).trace)) := by
  have sw := C63_sampleWise e p
  have hl := C109_loop (Matrix.of (e.obj.d01kj p x x J J)) hK k hm G hG hθ u₀
  refine le_trans (le_of_eq ?_) hl
  congr 1
  funext us
  have hF : (rpcholeskyDerivs drawSplit drawChoice (u₀ :: us) x J k e.obj p).1 =
    Matrix.of (rpcLoop k drawSplit drawChoice (rpcRowDerivs e.obj p x J)
    (rpcDiagDerivs e.obj p x J) (u₀ :: us) k).fmat := rfl
  simp only [hF, rpcRowDerivs_eq sw, rpcDiagDerivs_eq sw]
  rfl

/-- The ideal generator is one: whatever the weights (nonnegative, adding up to one), each index is drawn with the
probability it was given. -/
theorem C109_generator [NeZero n] (w : Fin n → ℝ) (hw : ∀ s, 0 ≤ w s) (h1 : ∑ s, w s = 1) (u₀ : ℝ) (s : Fin n) :
    unifMean 1 (fun us => if drawChoice (drawSplit (u₀ :: us)).1 w = s then 1 else 0) = w s := by
  have := integral_invCdf hw h1 fun t => if t = s then (1 : ℝ) else 0
  simp only [mul_ite, mul_one, mul_zero, Finset.sum_ite_eq', Finset.mem_univ, if_true] at this
  exact this

/-- The hypotheses of C109 hold for the linear kernel on the samples `0, 1, 2`, whose matrix is `G Gᵀ` for the
column `G = (0, 1, 2)`: with two pivots the expected error is at most `2e-6 √15`. -/
example : ∃ err : List ℝ → ℝ,
    (∀ us, ∃ F piv, rpcholesky drawSplit drawChoice (1 :: us) (fun (i : Fin 3) (_ : Fin 1) => (i.val : ℝ)) 2
      (KExpr.obj (.linear none)) (fun _ => 1) = .ok (F, piv) ∧
      err us = (Matrix.of ((KExpr.obj (.linear none)).k (fun _ => 1) (fun (i : Fin 3) (_ : Fin 1) => (i.val : ℝ))
        (fun (i : Fin 3) (_ : Fin 1) => (i.val : ℝ))) - F * F.transpose).trace) ∧
    unifMean 2 err ≤ 2 / 10 ^ 6 * Real.sqrt 15 := by
  have hex : ∀ us : List ℝ, ∃ z : Mat 3 2 × (Fin 2 → ℕ),
      rpcholesky drawSplit drawChoice (1 :: us) (fun (i : Fin 3) (_ : Fin 1) => (i.val : ℝ)) 2
      (KExpr.obj (.linear none)) (fun _ => 1) = .ok z := fun us => by
    unfold rpcholesky
    rw [if_neg (by norm_num)]
    exact ⟨_, rfl⟩
  choose z hz using hex
  let K : Mat 3 3 := Matrix.of ((KExpr.obj (.linear none)).k (fun _ => 1)
    (fun (i : Fin 3) (_ : Fin 1) => (i.val : ℝ)) (fun (i : Fin 3) (_ : Fin 1) => (i.val : ℝ)))
  let G : Mat 3 1 := Matrix.of fun i _ => (i.val : ℝ)
  have hKG : K = G * G.transpose := by
    ext a b
    rw [Matrix.mul_apply, Fin.sum_univ_one]
    change (∑ _ : Fin 1, (a.val : ℝ) * b.val) = (a.val : ℝ) * b.val
    simp
  have htr : K.trace = 5 := by
    rw [hKG]
    simp [G, Matrix.trace, Matrix.mul_apply, Fin.sum_univ_three]
    norm_num
  refine ⟨fun us => (K - (z us).1 * (z us).1.transpose).trace, fun us => ⟨(z us).1, (z us).2, hz us, rfl⟩, ?_⟩
  have hG0 : K - G * G.transpose = 0 := by rw [← hKG, sub_self]
  have := C109_expected_error (n := 3) (d := 1) (m := 1) (by norm_num) (.linear none) (fun _ => 1) trivial
    (fun (i : Fin 3) (_ : Fin 1) => (i.val : ℝ)) 2 one_pos G
    (by change (K - G * G.transpose).PosSemidef; rw [hG0]; exact Matrix.PosSemidef.zero) (θ := 1) one_pos 1
    (fun us => (K - (z us).1 * (z us).1.transpose).trace) (fun us => ⟨(z us).1, (z us).2, hz us, rfl⟩)
  change _ ≤ (1 + 1) * (K - G * G.transpose).trace + _ * K.trace + _ * (_ * Real.sqrt (_ * K.trace)) at this
  rw [hG0, htr] at this
  norm_num at this ⊢
  exact this

end GPX.Props
