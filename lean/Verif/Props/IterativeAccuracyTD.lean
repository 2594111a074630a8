import Verif.Lemmas.Residual
import Verif.Props.GPRTD

/-!
# C108: how far iterative results can be from dense ones, `GPR_TD`
-/

namespace GPX.Props
open GPX GPX.Spec

variable {d m n v w v' w' : ℕ} {la : LinAlg}

/-- Observations in a stacking order, with different noise per observation. -/
theorem residual_obs {I I' : Type} [Fintype I] [DecidableEq I] [Fintype I'] {N k : ℕ} (pos : I → Fin N)
    (hpos : Function.Bijective pos) (A : Mat N N) (C : I → I → ℝ) (s : I → ℝ) {lo : ℝ} (hlo : 0 < lo)
    (hs : ∀ a, lo ≤ s a) (hA : ∀ a b, A (pos a) (pos b) = C a b + if a = b then s a else 0)
    (obs : Fin k → I') (B : I → I' → ℝ) (D : I' → I' → ℝ)
    (hB : (Matrix.fromBlocks (Matrix.of C) (Matrix.of B) (Matrix.of B).transpose (Matrix.of D)).PosSemidef)
    {c c' b : Mat N 1} (h : A * c = b) :
    lo ^ 2 * sumSq (c' - c) ≤ sumSq (b - A * c') ∧
    ∀ j, 4 * lo * ((∑ a, B a (obs j) * c' (pos a) 0) - ∑ a, B a (obs j) * c (pos a) 0) ^ 2 ≤
      D (obs j) (obs j) * sumSq (b - A * c') := by
  set f := (Equiv.ofBijective pos hpos).symm with hf
  have hfp : ∀ a, f (pos a) = a := fun a => (Equiv.ofBijective pos hpos).symm_apply_apply a
  have hpf : ∀ i, pos (f i) = i := fun i => (Equiv.ofBijective pos hpos).apply_symm_apply i
  let K : Mat N N := Matrix.of fun i j => C (f i) (f j) + if i = j then s (f i) - lo else 0
  let Bm : Mat N k := Matrix.of fun i j => B (f i) (obs j)
  let Dm : Mat k k := Matrix.of fun i j => D (obs i) (obs j)
  have hAK : A = K + lo • (1 : Mat N N) := by
    ext i j
    have := hA (f i) (f j)
    rw [hpf, hpf] at this
    rw [this]
    simp only [K, Matrix.add_apply, Matrix.of_apply, Matrix.smul_apply, Matrix.one_apply, smul_eq_mul,
      f.injective.eq_iff]
    split_ifs <;> ring
  have hblk : (Matrix.fromBlocks K Bm Bm.transpose Dm).PosSemidef := by
    have h1 := hB.submatrix (Sum.map f obs : Fin N ⊕ Fin k → I ⊕ I')
    have h2 : (Matrix.diagonal (Sum.elim (fun i : Fin N => s (f i) - lo) (fun _ : Fin k => 0))).PosSemidef := by
      rw [Matrix.posSemidef_diagonal_iff]
      rintro (i | i)
      · exact sub_nonneg.2 (hs _)
      · exact le_rfl
    have h3 := h1.add h2
    convert h3 using 1
    ext i j
    rcases i with i | i <;> rcases j with j | j <;>
      simp [K, Bm, Dm, Matrix.diagonal_apply]
  have hK : K.PosSemidef := by
    have := hblk.submatrix (Sum.inl : Fin N → Fin N ⊕ Fin k)
    rwa [show (Matrix.fromBlocks K Bm Bm.transpose Dm).submatrix Sum.inl Sum.inl = K from rfl] at this
  rw [hAK] at h ⊢
  refine ⟨(residual_bound hK hlo h).1, fun j => ?_⟩
  have hr := residual_predict hblk hlo h (c' := c') j 0
  have hsum : ∀ z : Mat N 1, (Bm.transpose * z) j 0 = ∑ a, B a (obs j) * z (pos a) 0 := by
    intro z
    rw [Matrix.mul_apply, sum_pos hpos]
    exact Finset.sum_congr rfl fun a _ => by
      simp only [Matrix.transpose_apply, Bm, Matrix.of_apply, hfp]
  rw [hsum, hsum] at hr
  exact hr

/-- Joint covariance of training and new observations, two sets of derivatives. -/
theorem joint_obs2 (e : KExpr d) (p : KPar) (h : JointSmooth e p) (xt : Batch m d)
    (Jt : Jac m d v) (Jt' : Jac m d v') (x : Batch n d) (J : Jac n d w) (J' : Jac n d w') :
    (Matrix.fromBlocks (Matrix.of (cov2 e.obj p xt Jt Jt' xt Jt Jt')) (Matrix.of (cov2 e.obj p xt Jt Jt' x J J'))
      (Matrix.of (cov2 e.obj p xt Jt Jt' x J J')).transpose (Matrix.of (cov2 e.obj p x J J' x J J'))).PosSemidef := by
  obtain ⟨E, hE, hk, h0, h1, h01⟩ := joint_expr e p h
  have := hE.gram (I := Obs2 m v v' ⊕ Obs2 n w w') fun q => match q with
    | .inl (.inl (.inl i)) => (xt i, none)
    | .inl (.inl (.inr (i, u))) => (xt i, some fun f => Jt i f u)
    | .inl (.inr (i, u)) => (xt i, some fun f => Jt' i f u)
    | .inr (.inl (.inl i)) => (x i, none)
    | .inr (.inl (.inr (i, u))) => (x i, some fun f => J i f u)
    | .inr (.inr (i, u)) => (x i, some fun f => J' i f u)
  have hsy := C21_symmetric e p
  convert this using 1
  ext s t
  rcases s with s | s <;> rcases t with t | t
  · rcases s with (i | ⟨i, u⟩) | ⟨i, u⟩ <;> rcases t with (j | ⟨j, t⟩) | ⟨j, t⟩ <;>
      simp only [Matrix.of_apply, Matrix.fromBlocks_apply₁₁, cov2, cov1, hk, h0, h1, h01]
  · rcases s with (i | ⟨i, u⟩) | ⟨i, u⟩ <;> rcases t with (j | ⟨j, t⟩) | ⟨j, t⟩ <;>
      simp only [Matrix.of_apply, Matrix.fromBlocks_apply₁₂, cov2, cov1, hk, h0, h1, h01]
  · rw [Matrix.fromBlocks_apply₂₁, Matrix.transpose_apply, Matrix.of_apply, cov2_symm hsy]
    rcases s with (i | ⟨i, u⟩) | ⟨i, u⟩ <;> rcases t with (j | ⟨j, t⟩) | ⟨j, t⟩ <;>
      simp only [Matrix.of_apply, cov2, cov1, hk, h0, h1, h01]
  · rcases s with (i | ⟨i, u⟩) | ⟨i, u⟩ <;> rcases t with (j | ⟨j, t⟩) | ⟨j, t⟩ <;>
      simp only [Matrix.of_apply, Matrix.fromBlocks_apply₂₂, cov2, cov1, hk, h0, h1, h01]

/-- **C108**, targets and one set of derivatives: with `lo` a positive lower bound of the two noise variances and
`δ² = max(tol² ‖b‖², atol²)` for the stacked right-hand side `b` (centred targets, then derivatives), the coefficients
of the iterative fit are within `δ / lo` of the dense ones, every predicted target is within
`δ/2 * sqrt(k(x*, x*) / lo)` and every predicted derivative component within `δ/2 * sqrt(D / lo)` of the dense
prediction, `D` its prior variance. -/
theorem C108_td1 (ex : la.Exact) (cg : CG) (tol atol : ℝ) (hcg : CGStops cg tol atol) {Key : Type}
    (split : Key → Key × Key) (choice : Key → (Fin (n + n * v) → ℝ) → Fin (n + n * v)) (e : KExpr d) (θ : TDParams) (h : JointSmooth e θ.kernelParams) (mf : MeanFun) (x : Batch n d)
    (y : Mat n 1) (J : Jac n d v) (yd : Mat n v) (nPivots : ℕ) (key : Key) (hn : n ≠ 1) (lo : ℝ) (hlo : 0 < lo)
    (ht : lo ≤ θ.sigmaTargets ^ 2 + 1 / 10 ^ 10) (hd : lo ≤ θ.sigmaDerivs ^ 2 + 1 / 10 ^ 10) :
    let c := (tdFitDense1 la θ e.obj mf x y J yd).1
    let δ2 := max (tol ^ 2 * (∑ i, (y i 0 - mf y) ^ 2 + ∑ i, ∑ u, yd i u ^ 2)) (atol ^ 2)
    ∃ c', tdFitIter1 la cg split choice θ e.obj mf x y J yd nPivots key = .ok (c', mf y) ∧
      lo ^ 2 * sumSq (c' - c) ≤ δ2 ∧
      ∀ {k w : ℕ} (xs : Batch k d) (Js : Jac k d w),
        let p' := tdPredictIter1 θ e.obj x J xs Js c' (mf y)
        let p := tdPredictDense1 θ e.obj x J xs Js c (mf y)
        (∀ j, 4 * lo * (p'.1 j 0 - p.1 j 0) ^ 2 ≤ e.obj.k θ.kernelParams xs xs j j * δ2) ∧
        ∀ j t, 4 * lo * (p'.2 j t - p.2 j t) ^ 2 ≤
          e.obj.d01kj θ.kernelParams xs xs Js Js (flat j t) (flat j t) * δ2 := by
  intro c δ2
  have hpsd := (C78_joint_partial e θ.kernelParams h x J J).1
  have hp := C52_posDef1 e.obj θ x J hpsd
  have hmv : (tdAxLhs1 θ e.obj true x J x J : Mat (n + n * v) 1 → Mat (n + n * v) 1) =
      fun z : Mat (n + n * v) 1 => tdALhsNoise1 θ e.obj x J x J * z :=
    funext fun z => (C52_matvec1 e θ x J x J z).2.2.2
  obtain ⟨M, hM⟩ : ∃ M : Mat (n + n * v) 1 → Mat (n + n * v) 1,
      tdFitIter1 la cg split choice θ e.obj mf x y J yd nPivots key =
      .ok (cg (fun z : Mat (n + n * v) 1 => tdALhsNoise1 θ e.obj x J x J * z) (tdRhs1 mf y yd) M, mf y) := by
    unfold tdFitIter1 rpcholeskyTD1
    simp only [hn, if_false, hmv]
    exact ⟨_, rfl⟩
  have hs : tdALhsNoise1 θ e.obj x J x J * c = tdRhs1 mf y yd := ex.solve _ _ (posDef_isUnit hp)
  have hδ : cgTarget tol atol (tdRhs1 mf y yd) = δ2 := by
    simp only [cgTarget, δ2]
    congr 2
    simp only [sumSq, Finset.univ_unique, Finset.sum_singleton, Fin.default_eq_zero]
    rw [Fin.sum_univ_add, sum_flat]
    simp [tdRhs1, vcat, centerBy, flatCol]
  have hr := hδ ▸ hcg _ (tdRhs1 mf y yd) M hp
  set c' := cg (fun z : Mat (n + n * v) 1 => tdALhsNoise1 θ e.obj x J x J * z) (tdRhs1 mf y yd) M with hc'
  have hnoise : ∀ a : Obs1 n v, lo ≤ noise1 θ a := by
    rintro (i | i)
    · exact ht
    · exact hd
  have hblk : ∀ {k w : ℕ} (xs : Batch k d) (Js : Jac k d w),
      (Matrix.fromBlocks (Matrix.of (cov1 e.obj θ.kernelParams x J x J))
        (Matrix.of (cov1 e.obj θ.kernelParams x J xs Js)) (Matrix.of (cov1 e.obj θ.kernelParams x J xs Js)).transpose
        (Matrix.of (cov1 e.obj θ.kernelParams xs Js xs Js))).PosSemidef := by
    intro k w xs Js
    have := (joint_obs2 e θ.kernelParams h x J J xs Js Js).submatrix
      (Sum.map Sum.inl Sum.inl : Obs1 n v ⊕ Obs1 k w → Obs2 n v v ⊕ Obs2 k w w)
    convert this using 1
    ext s t
    rcases s with s | s <;> rcases t with t | t <;> rfl
  have hres := fun {k w : ℕ} (xs : Batch k d) (Js : Jac k d w) {q : ℕ} (obs : Fin q → Obs1 k w) =>
    residual_obs pos1 pos1_bij _ _ (noise1 θ) hlo hnoise (C52_entries1 e.obj θ x J x J).2.2 obs _ _ (hblk xs Js) hs
      (c' := c')
  refine ⟨c', hM, ((hres x J (q := 0) Fin.elim0).1).trans hr, fun {k w} xs Js => ?_⟩
  have hD := fun b : Obs1 k w =>
    ((hblk xs Js).submatrix (Sum.inr : Obs1 k w → Obs1 n v ⊕ Obs1 k w)).diag_nonneg (i := b)
  have hpr := fun z => C76_predict1 e θ x J xs Js z (mf y)
  intro p' p
  refine ⟨fun j => ?_, fun j t => ?_⟩
  · refine le_trans ?_ (mul_le_mul_of_nonneg_left hr (hD (.inl j)))
    have := (hres xs Js (q := 1) fun _ => .inl j).2 0
    simp only [p', p]
    rw [(hpr c').2.2, (hpr c').1, (hpr c).1, add_sub_add_left_eq_sub]
    exact this
  · refine le_trans ?_ (mul_le_mul_of_nonneg_left hr (hD (.inr (j, t))))
    have := (hres xs Js (q := 1) fun _ => .inr (j, t)).2 0
    simp only [p', p]
    rw [(hpr c').2.2, (hpr c').2.1, (hpr c).2.1]
    exact this

/-- **C108**, targets and two sets of derivatives. -/
theorem C108_td2 (ex : la.Exact) (cg : CG) (tol atol : ℝ) (hcg : CGStops cg tol atol) {Key : Type}
    (split : Key → Key × Key) (choice : Key → (Fin (n + n * v + n * v') → ℝ) → Fin (n + n * v + n * v'))
    (e : KExpr d) (θ : TDParams) (h : JointSmooth e θ.kernelParams) (mf : MeanFun)
    (x : Batch n d) (y : Mat n 1) (J : Jac n d v) (J' : Jac n d v') (yd : Mat n v) (yd' : Mat n v') (nPivots : ℕ)
    (key : Key) (hn : n ≠ 1) (lo : ℝ) (hlo : 0 < lo) (ht : lo ≤ θ.sigmaTargets ^ 2 + 1 / 10 ^ 10)
    (hd : lo ≤ θ.sigmaDerivs ^ 2 + 1 / 10 ^ 10) (hd' : lo ≤ θ.sigmaDerivs2 ^ 2 + 1 / 10 ^ 10) :
    let c := (tdFitDense2 la θ e.obj mf x y J J' yd yd').1
    let δ2 := max (tol ^ 2 * (∑ i, (y i 0 - mf y) ^ 2 + ∑ i, ∑ u, yd i u ^ 2 + ∑ i, ∑ u, yd' i u ^ 2)) (atol ^ 2)
    ∃ c', tdFitIter2 la cg split choice θ e.obj mf x y J J' yd yd' nPivots key = .ok (c', mf y) ∧
      lo ^ 2 * sumSq (c' - c) ≤ δ2 ∧
      ∀ {k w w' : ℕ} (xs : Batch k d) (Js : Jac k d w) (Js' : Jac k d w'),
        let p' := tdPredictIter2 θ e.obj x J J' xs Js Js' c' (mf y)
        let p := tdPredictDense2 θ e.obj x J J' xs Js Js' c (mf y)
        (∀ j, 4 * lo * (p'.1 j 0 - p.1 j 0) ^ 2 ≤ e.obj.k θ.kernelParams xs xs j j * δ2) ∧
        (∀ j t, 4 * lo * (p'.2.1 j t - p.2.1 j t) ^ 2 ≤
          e.obj.d01kj θ.kernelParams xs xs Js Js (flat j t) (flat j t) * δ2) ∧
        ∀ j t, 4 * lo * (p'.2.2 j t - p.2.2 j t) ^ 2 ≤
          e.obj.d01kj θ.kernelParams xs xs Js' Js' (flat j t) (flat j t) * δ2 := by
  intro c δ2
  have hpsd := (C78_joint_partial e θ.kernelParams h x J J').2
  have hp := C52_posDef2 e.obj θ x J J' hpsd
  have hmv : (tdAxLhs2 θ e.obj true x J J' x J J' : Mat (n + n * v + n * v') 1 → Mat (n + n * v + n * v') 1) =
      fun z : Mat (n + n * v + n * v') 1 => tdALhsNoise2 θ e.obj x J J' x J J' * z :=
    funext fun z => (C52_matvec2 e θ x J J' x J J' z).2.2.2
  obtain ⟨M, hM⟩ : ∃ M : Mat (n + n * v + n * v') 1 → Mat (n + n * v + n * v') 1,
      tdFitIter2 la cg split choice θ e.obj mf x y J J' yd yd' nPivots key =
      .ok (cg (fun z : Mat (n + n * v + n * v') 1 => tdALhsNoise2 θ e.obj x J J' x J J' * z)
        (tdRhs2 mf y yd yd') M, mf y) := by
    unfold tdFitIter2 rpcholeskyTD2
    simp only [hn, if_false, hmv]
    exact ⟨_, rfl⟩
  have hs : tdALhsNoise2 θ e.obj x J J' x J J' * c = tdRhs2 mf y yd yd' := ex.solve _ _ (posDef_isUnit hp)
  have hδ : cgTarget tol atol (tdRhs2 mf y yd yd') = δ2 := by
    simp only [cgTarget, δ2]
    congr 2
    simp only [sumSq, Finset.univ_unique, Finset.sum_singleton, Fin.default_eq_zero]
    rw [Fin.sum_univ_add, Fin.sum_univ_add, sum_flat, sum_flat]
    simp [tdRhs2, tdRhs1, vcat, centerBy, flatCol]
  have hr := hδ ▸ hcg _ (tdRhs2 mf y yd yd') M hp
  set c' := cg (fun z : Mat (n + n * v + n * v') 1 => tdALhsNoise2 θ e.obj x J J' x J J' * z)
    (tdRhs2 mf y yd yd') M with hc'
  have hnoise : ∀ a : Obs2 n v v', lo ≤ noise2 θ a := by
    rintro ((i | i) | i)
    · exact ht
    · exact hd
    · exact hd'
  have hres := fun {k w w' : ℕ} (xs : Batch k d) (Js : Jac k d w) (Js' : Jac k d w') {q : ℕ}
      (obs : Fin q → Obs2 k w w') =>
    residual_obs pos2 pos2_bij _ _ (noise2 θ) hlo hnoise (C52_entries2 e.obj θ x J J' x J J').2.2 obs _ _
      (joint_obs2 e θ.kernelParams h x J J' xs Js Js') hs (c' := c')
  refine ⟨c', hM, ((hres x J J' (q := 0) Fin.elim0).1).trans hr, fun {k w w'} xs Js Js' => ?_⟩
  have hD := fun b : Obs2 k w w' => ((joint_obs2 e θ.kernelParams h x J J' xs Js Js').submatrix
    (Sum.inr : Obs2 k w w' → Obs2 n v v' ⊕ Obs2 k w w')).diag_nonneg (i := b)
  have hpr := fun z => C76_predict2 e θ x J J' xs Js Js' z (mf y)
  intro p' p
  refine ⟨fun j => ?_, fun j t => ?_, fun j t => ?_⟩
  · refine le_trans ?_ (mul_le_mul_of_nonneg_left hr (hD (.inl (.inl j))))
    have := (hres xs Js Js' (q := 1) fun _ => .inl (.inl j)).2 0
    simp only [p', p]
    rw [(hpr c').2.2.2, (hpr c').1, (hpr c).1, add_sub_add_left_eq_sub]
    exact this
  · refine le_trans ?_ (mul_le_mul_of_nonneg_left hr (hD (.inl (.inr (j, t)))))
    have := (hres xs Js Js' (q := 1) fun _ => .inl (.inr (j, t))).2 0
    simp only [p', p]
    rw [(hpr c').2.2.2, (hpr c').2.1, (hpr c).2.1]
    exact this
  · refine le_trans ?_ (mul_le_mul_of_nonneg_left hr (hD (.inr (j, t))))
    have := (hres xs Js Js' (q := 1) fun _ => .inr (j, t)).2 0
    simp only [p', p]
    rw [(hpr c').2.2.2, (hpr c').2.2.1, (hpr c).2.2.1]
    exact this

/-- Non-vacuity: a routine that stops early and is not exact, a smooth kernel, two samples, `lo` the jitter. -/
example : LinAlg.ideal.Exact ∧ CGStops (earlyCG (1 - 1 / 10 ^ 5)) (1 / 10 ^ 5) (1 / 10 ^ 7) ∧
    JointSmooth (.matern52 none : KExpr 2) (fun _ => 1) ∧ (2 : ℕ) ≠ 1 ∧
    ∀ s : ℝ, (1 / 10 ^ 10 : ℝ) ≤ s ^ 2 + 1 / 10 ^ 10 :=
  ⟨LinAlg.ideal_exact, earlyCG_stops (by norm_num [abs_of_nonneg]), by norm_num [JointSmooth, KPar.val], by norm_num,
    fun s => le_add_of_nonneg_left (sq_nonneg s)⟩

end GPX.Props
