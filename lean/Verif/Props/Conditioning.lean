import Verif.Props.RPCExpectedTD
import Verif.Props.Matvec
import Verif.Lemmas.Residual

/-!
# C110: the preconditioner bounds the condition number of the iterative fits
-/

namespace GPX.Props
open GPX GPX.Spec

variable {d n v v' o N r m : ℕ} {la : LinAlg}

/-- A positive semidefinite quadratic form is at most the trace times the squared norm. -/
theorem quad_le_trace {R : Mat N N} (hR : R.PosSemidef) (z : Fin N → ℝ) :
    ∑ i, ∑ j, z i * R i j * z j ≤ R.trace * ∑ i, z i ^ 2 := by
  have h1 : (∑ i, ∑ j, z i * R i j * z j) ≤ (∑ i, Real.sqrt (R i i) * |z i|) ^ 2 := by
    rw [sq, Finset.sum_mul_sum]
    refine Finset.sum_le_sum fun i _ => Finset.sum_le_sum fun j _ => ?_
    have h2 := sq_entry_le hR i j
    have h3 : |R i j| ≤ Real.sqrt (R i i) * Real.sqrt (R j j) := by
      rw [← Real.sqrt_mul hR.diag_nonneg]
      exact Real.abs_le_sqrt h2
    calc z i * R i j * z j ≤ |z i * R i j * z j| := le_abs_self _
      _ = |R i j| * (|z i| * |z j|) := by rw [abs_mul, abs_mul]; ring
      _ ≤ Real.sqrt (R i i) * Real.sqrt (R j j) * (|z i| * |z j|) :=
          mul_le_mul_of_nonneg_right h3 (by positivity)
      _ = _ := by ring
  refine h1.trans ((Finset.sum_mul_sq_le_sq_mul_sq _ _ _).trans (le_of_eq ?_))
  congr 1
  · exact Finset.sum_congr rfl fun i _ => Real.sq_sqrt hR.diag_nonneg
  · exact Finset.sum_congr rfl fun i _ => sq_abs _

/-- The quadratic forms of the system and of the preconditioner, for a diagonal noise between `lo` and `hi`. -/
theorem precond_bounds {K : Mat N N} {F : Mat N r} (hR : (K - F * F.transpose).PosSemidef) {A : Mat N N}
    {s lo hi : ℝ} (hs : 0 < s) (noise : Fin N → ℝ) (h1 : ∀ i, lo ≤ noise i) (h2 : ∀ i, noise i ≤ hi)
    (hA : ∀ i j, A i j = K i j + if i = j then noise i else 0) (z w : Fin N → ℝ)
    (hw : ∀ i, ∑ j, (s • (1 : Mat N N) + F * F.transpose) i j * z j = w i) :
    min 1 (lo / s) * ∑ i, w i * z i ≤ ∑ i, z i * ∑ j, A i j * z j ∧
    ∑ i, z i * ∑ j, A i j * z j ≤ (max 1 (hi / s) + (K - F * F.transpose).trace / s) * ∑ i, w i * z i := by
  set S := ∑ i, z i ^ 2 with hS
  set f := ∑ i, ∑ j, z i * (F * F.transpose) i j * z j with hf
  set ρ := ∑ i, ∑ j, z i * (K - F * F.transpose) i j * z j with hρ
  have hS0 : 0 ≤ S := Finset.sum_nonneg fun i _ => sq_nonneg _
  have hf0 : 0 ≤ f := psd_quad (by
    have := Matrix.posSemidef_self_mul_conjTranspose F
    rwa [Matrix.conjTranspose_eq_transpose_of_trivial] at this) z
  have hρ0 : 0 ≤ ρ := psd_quad hR z
  have hρ1 : ρ ≤ (K - F * F.transpose).trace * S := quad_le_trace hR z
  have htr : 0 ≤ (K - F * F.transpose).trace := hR.trace_nonneg
  have ewz : ∑ i, w i * z i = s * S + f := by
    rw [hS, hf, Finset.mul_sum, ← Finset.sum_add_distrib]
    refine Finset.sum_congr rfl fun i _ => ?_
    rw [← hw i]
    simp only [Matrix.add_apply, Matrix.smul_apply, Matrix.one_apply, smul_eq_mul, mul_ite, mul_one, mul_zero,
      add_mul, ite_mul, zero_mul, Finset.sum_add_distrib, Finset.sum_ite_eq, Finset.mem_univ, if_true,
      Finset.sum_mul]
    congr 1
    · ring
    · exact Finset.sum_congr rfl fun j _ => by ring
  have eA : ∑ i, z i * ∑ j, A i j * z j = (ρ + f) + ∑ i, noise i * z i ^ 2 := by
    rw [hρ, hf, ← Finset.sum_add_distrib, ← Finset.sum_add_distrib]
    refine Finset.sum_congr rfl fun i _ => ?_
    simp only [hA, add_mul, ite_mul, zero_mul, Finset.sum_add_distrib, Finset.sum_ite_eq, Finset.mem_univ, if_true,
      mul_add, Finset.mul_sum]
    congr 1
    · rw [← Finset.sum_add_distrib]
      exact Finset.sum_congr rfl fun j _ => by rw [Matrix.sub_apply]; ring
    · ring
  have hn1 : lo * S ≤ ∑ i, noise i * z i ^ 2 := by
    rw [hS, Finset.mul_sum]
    exact Finset.sum_le_sum fun i _ => mul_le_mul_of_nonneg_right (h1 i) (sq_nonneg _)
  have hn2 : ∑ i, noise i * z i ^ 2 ≤ hi * S := by
    rw [hS, Finset.mul_sum]
    exact Finset.sum_le_sum fun i _ => mul_le_mul_of_nonneg_right (h2 i) (sq_nonneg _)
  rw [ewz, eA]
  have hlos : lo = lo / s * s := by field_simp
  have hhis : hi = hi / s * s := by field_simp
  constructor
  · have a1 : min 1 (lo / s) * f ≤ 1 * f := mul_le_mul_of_nonneg_right (min_le_left _ _) hf0
    have a2 : min 1 (lo / s) * (s * S) ≤ lo / s * (s * S) :=
      mul_le_mul_of_nonneg_right (min_le_right _ _) (by positivity)
    have a3 : lo / s * (s * S) = lo * S := by field_simp
    linarith
  · have b1 : 1 * f ≤ max 1 (hi / s) * f := mul_le_mul_of_nonneg_right (le_max_left _ _) hf0
    have b2 : hi / s * (s * S) ≤ max 1 (hi / s) * (s * S) :=
      mul_le_mul_of_nonneg_right (le_max_right _ _) (by positivity)
    have b3 : hi / s * (s * S) = hi * S := by field_simp
    have b4 : (K - F * F.transpose).trace / s * (s * S) = (K - F * F.transpose).trace * S := by field_simp
    have b5 : 0 ≤ (K - F * F.transpose).trace / s * f := by positivity
    nlinarith

theorem precond_bounds_const {K : Mat N N} {F : Mat N r} (hR : (K - F * F.transpose).PosSemidef) {A : Mat N N}
    {σ : ℝ} (hs : σ ≠ 0)
    (hA : ∀ i j, A i j = K i j + if i = j then σ ^ 2 + 1 / 10 ^ 10 else 0) (z w : Fin N → ℝ)
    (hw : ∀ i, ∑ j, (σ ^ 2 • (1 : Mat N N) + F * F.transpose) i j * z j = w i) :
    ∑ i, w i * z i ≤ ∑ i, z i * ∑ j, A i j * z j ∧
    ∑ i, z i * ∑ j, A i j * z j ≤
      (1 + ((K - F * F.transpose).trace + 1 / 10 ^ 10) / σ ^ 2) * ∑ i, w i * z i := by
  have hs2 : 0 < σ ^ 2 := by positivity
  obtain ⟨h1, h2⟩ := precond_bounds hR hs2 (lo := σ ^ 2 + 1 / 10 ^ 10) (hi := σ ^ 2 + 1 / 10 ^ 10)
    (fun _ => σ ^ 2 + 1 / 10 ^ 10) (fun _ => le_rfl) (fun _ => le_rfl) hA z w hw
  have hge : 1 ≤ (σ ^ 2 + 1 / 10 ^ 10) / σ ^ 2 := by rw [one_le_div hs2]; norm_num
  rw [min_eq_left hge, one_mul] at h1
  rw [max_eq_right hge] at h2
  refine ⟨h1, h2.trans (le_of_eq ?_)⟩
  congr 1
  field_simp
  ring

/-- **C110.** For every kernel expression with admissible hyperparameters, nonzero noise, dataset of two or more
samples, number of pivots and key: the preconditioner `M` of the iterative fit is built, and for the matrix-free
operator `A` of the fit and every `w`, writing `z = M w`, column by column
`⟨w, z⟩ ≤ ⟨z, A z⟩ ≤ (1 + (tr(K - F Fᵀ) + 1e-10) / sigma²) ⟨w, z⟩`: all eigenvalues of the preconditioned system lie
between `1` and that number, `tr(K - F Fᵀ)` being the error of the pivoted Cholesky factor (C109). -/
theorem C110_fit (ex : la.Exact) {Key : Type} (split : Key → Key × Key) (choice : Key → (Fin n → ℝ) → Fin n)
    (e : KExpr d) (θ : GPParams) (h : Admissible e θ.kernelParams) (hs : θ.sigma ≠ 0)
    (x : Batch n d) (hn : n ≠ 1) (nPivots : ℕ) (key : Key) :
    ∃ (M : Mat n o → Mat n o) (F : Mat n nPivots) (piv : Fin nPivots → ℕ),
      precondRpcholesky la split choice θ e.obj x nPivots key = .ok M ∧
      rpcholesky split choice key x nPivots e.obj θ.kernelParams = .ok (F, piv) ∧
      ∀ (w : Mat n o) (c : Fin o),
        ∑ i, w i c * M w i c ≤ ∑ i, M w i c * axLhsFun θ e.obj true x x (M w) i c ∧
        ∑ i, M w i c * axLhsFun θ e.obj true x x (M w) i c ≤
          (1 + ((Matrix.of (e.obj.k θ.kernelParams x x) - F * F.transpose).trace + 1 / 10 ^ 10) / θ.sigma ^ 2) *
            ∑ i, w i c * M w i c := by
  obtain ⟨⟨F, piv⟩, hr⟩ : ∃ z, rpcholesky split choice key x nPivots e.obj θ.kernelParams = .ok z := by
    unfold rpcholesky
    rw [if_neg hn]
    exact ⟨_, rfl⟩
  obtain ⟨M, hM⟩ : ∃ M : Mat n o → Mat n o, precondRpcholesky la split choice θ e.obj x nPivots key = .ok M := by
    unfold precondRpcholesky
    rw [hr]
    exact ⟨_, rfl⟩
  refine ⟨M, F, piv, hM, hr, fun w c => ?_⟩
  obtain ⟨F', piv', hr', hP, _⟩ := C30_preconditioner ex split choice θ hs e.obj x nPivots key M hM
  rw [hr] at hr'
  obtain ⟨rfl, rfl⟩ := Prod.mk.inj (Except.ok.inj hr')
  have hR := C37_factor_below_kernel e θ.kernelParams h split choice key x nPivots F piv hr
  have hb := precond_bounds_const hR hs
    (A := Matrix.of fun i j => e.obj.k θ.kernelParams x x i j + if i = j then θ.sigma ^ 2 + 1 / 10 ^ 10 else 0)
    (fun i j => rfl) (fun i => M w i c) (fun i => w i c)
    (fun i => by conv_rhs => rw [← hP w, Matrix.mul_apply])
  simp only [((C29_matvec e θ).1 x x (M w)).1]
  exact hb

/-- **C110** for `fit_derivs` (kernels of C65). -/
theorem C110_fit_derivs (ex : la.Exact) {Key : Type} (split : Key → Key × Key)
    (choice : Key → (Fin (n * v) → ℝ) → Fin (n * v)) (e : KExpr d) (θ : GPParams)
    (h : DerivSmooth e θ.kernelParams) (hs : θ.sigma ≠ 0) (x : Batch n d) (J : Jac n d v) (nPivots : ℕ) (key : Key)
    (w : Mat (n * v) o) (c : Fin o) :
    let M := precondRpcholeskyDerivs (o := o) la split choice θ e.obj x J nPivots key
    let F := (rpcholeskyDerivs split choice key x J nPivots e.obj θ.kernelParams).1
    ∑ i, w i c * M w i c ≤ ∑ i, M w i c * axDerivsLhsFun θ e.obj true x J x J (M w) i c ∧
    ∑ i, M w i c * axDerivsLhsFun θ e.obj true x J x J (M w) i c ≤
      (1 + ((Matrix.of (e.obj.d01kj θ.kernelParams x x J J) - F * F.transpose).trace + 1 / 10 ^ 10) / θ.sigma ^ 2) *
        ∑ i, w i c * M w i c := by
  intro M F
  have hP := (C30_preconditioner_derivs (o := o) ex split choice θ hs e.obj x J nPivots key).1
  have hR := C37_factor_below_kernel_derivs e θ.kernelParams split choice key x J
    (C65_gram_partial e θ.kernelParams h x J) nPivots
  have hb := precond_bounds_const hR hs
    (A := Matrix.of fun i j => e.obj.d01kj θ.kernelParams x x J J i j +
      if i = j then θ.sigma ^ 2 + 1 / 10 ^ 10 else 0)
    (fun i j => rfl) (fun i => M w i c) (fun i => w i c)
    (fun i => by conv_rhs => rw [← hP w, Matrix.mul_apply])
  simp only [((C29_matvec_derivs e θ).1 x J x J (M w)).1]
  exact hb

/-- The system of `GPR_TD` is the noise-free covariance plus a diagonal noise. -/
theorem td_noise_entries {I : Type*} [DecidableEq I] (pos : I → Fin N) (hpos : Function.Bijective pos) (A K : Mat N N)
    (C : I → I → ℝ) (nz : I → ℝ) (hK : ∀ a b, K (pos a) (pos b) = C a b)
    (hA : ∀ a b, A (pos a) (pos b) = C a b + if a = b then nz a else 0) (i j : Fin N) :
    A i j = K i j + if i = j then nz ((Equiv.ofBijective pos hpos).symm i) else 0 := by
  obtain ⟨a, rfl⟩ := hpos.2 i
  obtain ⟨b, rfl⟩ := hpos.2 j
  rw [hA, hK, show (Equiv.ofBijective pos hpos).symm (pos a) = a from
    (Equiv.ofBijective pos hpos).symm_apply_apply a]
  simp only [hpos.1.eq_iff]

/-- **C110** for `GPR_TD` with one set of derivatives (kernels of C78), the noise variances lying between `lo` and
`hi`. The preconditioner only knows the noise of the targets, so the smallest eigenvalue is `lo / sigma_targets²`
when that is below `1`. -/
theorem C110_td1 (ex : la.Exact) {Key : Type} (split : Key → Key × Key)
    (choice : Key → (Fin (n + n * v) → ℝ) → Fin (n + n * v)) (e : KExpr d) (θ : TDParams)
    (h : JointSmooth e θ.kernelParams) (hs : θ.sigmaTargets ≠ 0) (x : Batch n d) (J : Jac n d v) (hn : n ≠ 1)
    (nPivots : ℕ) (key : Key) (lo hi : ℝ)
    (hlo : lo ≤ θ.sigmaTargets ^ 2 + 1 / 10 ^ 10 ∧ lo ≤ θ.sigmaDerivs ^ 2 + 1 / 10 ^ 10)
    (hhi : θ.sigmaTargets ^ 2 + 1 / 10 ^ 10 ≤ hi ∧ θ.sigmaDerivs ^ 2 + 1 / 10 ^ 10 ≤ hi) :
    ∃ F piv, rpcholeskyTD1 split choice key x J nPivots e.obj θ.kernelParams = .ok (F, piv) ∧
      ∀ (w : Mat (n + n * v) o) (c : Fin o),
        let z := tdPrecond la θ F w
        min 1 (lo / θ.sigmaTargets ^ 2) * ∑ i, w i c * z i c ≤
          ∑ i, z i c * tdAxLhs1 θ e.obj true x J x J z i c ∧
        ∑ i, z i c * tdAxLhs1 θ e.obj true x J x J z i c ≤
          (max 1 (hi / θ.sigmaTargets ^ 2) +
            (tdALhs1 θ e.obj x J x J - F * F.transpose).trace / θ.sigmaTargets ^ 2) * ∑ i, w i c * z i c := by
  obtain ⟨F, piv, hr, _, _, hR, hP⟩ := C77_preconditioner1 (o := o) ex split choice key e θ hs x J nPivots hn
  refine ⟨F, piv, hr, fun w c => ?_⟩
  intro z
  have hK : (tdALhs1 θ e.obj x J x J).PosSemidef := posSemidef_of_entries pos1 pos1_bij _ _
    (C52_entries1 e.obj θ x J x J).2.1 (C78_joint_partial e θ.kernelParams h x J J).1
  have hnz : ∀ a : Obs1 n v, lo ≤ noise1 θ a ∧ noise1 θ a ≤ hi := by
    rintro (i | i)
    · exact ⟨hlo.1, hhi.1⟩
    · exact ⟨hlo.2, hhi.2⟩
  have hb := precond_bounds (hR hK) (A := tdALhsNoise1 θ e.obj x J x J) (s := θ.sigmaTargets ^ 2) (by positivity)
    (fun i => noise1 θ ((Equiv.ofBijective pos1 pos1_bij).symm i)) (fun i => (hnz _).1) (fun i => (hnz _).2)
    (fun i j => td_noise_entries pos1 pos1_bij _ _ _ (noise1 θ) (C52_entries1 e.obj θ x J x J).2.1
      (C52_entries1 e.obj θ x J x J).2.2 i j) (fun i => z i c) (fun i => w i c)
    (fun i => by conv_rhs => rw [← hP w, Matrix.mul_apply])
  rw [(C52_matvec1 e θ x J x J z).2.2.2]
  simp only [Matrix.mul_apply]
  exact hb

/-- **C110** for `GPR_TD` with two sets of derivatives. -/
theorem C110_td2 (ex : la.Exact) {Key : Type} (split : Key → Key × Key)
    (choice : Key → (Fin (n + n * v + n * v') → ℝ) → Fin (n + n * v + n * v')) (e : KExpr d)
    (θ : TDParams) (h : JointSmooth e θ.kernelParams) (hs : θ.sigmaTargets ≠ 0) (x : Batch n d) (J : Jac n d v)
    (J' : Jac n d v') (hn : n ≠ 1) (nPivots : ℕ) (key : Key) (lo hi : ℝ)
    (hlo : lo ≤ θ.sigmaTargets ^ 2 + 1 / 10 ^ 10 ∧ lo ≤ θ.sigmaDerivs ^ 2 + 1 / 10 ^ 10 ∧
      lo ≤ θ.sigmaDerivs2 ^ 2 + 1 / 10 ^ 10)
    (hhi : θ.sigmaTargets ^ 2 + 1 / 10 ^ 10 ≤ hi ∧ θ.sigmaDerivs ^ 2 + 1 / 10 ^ 10 ≤ hi ∧
      θ.sigmaDerivs2 ^ 2 + 1 / 10 ^ 10 ≤ hi) :
    ∃ F piv, rpcholeskyTD2 split choice key x J J' nPivots e.obj θ.kernelParams = .ok (F, piv) ∧
      ∀ (w : Mat (n + n * v + n * v') o) (c : Fin o),
        let z := tdPrecond la θ F w
        min 1 (lo / θ.sigmaTargets ^ 2) * ∑ i, w i c * z i c ≤
          ∑ i, z i c * tdAxLhs2 θ e.obj true x J J' x J J' z i c ∧
        ∑ i, z i c * tdAxLhs2 θ e.obj true x J J' x J J' z i c ≤
          (max 1 (hi / θ.sigmaTargets ^ 2) +
            (tdALhs2 θ e.obj x J J' x J J' - F * F.transpose).trace / θ.sigmaTargets ^ 2) *
            ∑ i, w i c * z i c := by
  obtain ⟨F, piv, hr, _, _, hR, hP⟩ := C77_preconditioner2 (o := o) ex split choice key e θ hs x J J' nPivots hn
  refine ⟨F, piv, hr, fun w c => ?_⟩
  intro z
  have hK : (tdALhs2 θ e.obj x J J' x J J').PosSemidef := posSemidef_of_entries pos2 pos2_bij _ _
    (C52_entries2 e.obj θ x J J' x J J').2.1 (C78_joint_partial e θ.kernelParams h x J J').2
  have hnz : ∀ a : Obs2 n v v', lo ≤ noise2 θ a ∧ noise2 θ a ≤ hi := by
    rintro ((i | i) | i)
    · exact ⟨hlo.1, hhi.1⟩
    · exact ⟨hlo.2.1, hhi.2.1⟩
    · exact ⟨hlo.2.2, hhi.2.2⟩
  have hb := precond_bounds (hR hK) (A := tdALhsNoise2 θ e.obj x J J' x J J') (s := θ.sigmaTargets ^ 2)
    (by positivity)
    (fun i => noise2 θ ((Equiv.ofBijective pos2 pos2_bij).symm i)) (fun i => (hnz _).1) (fun i => (hnz _).2)
    (fun i j => td_noise_entries pos2 pos2_bij _ _ _ (noise2 θ) (C52_entries2 e.obj θ x J J' x J J').2.1
      (C52_entries2 e.obj θ x J J' x J J').2.2 i j) (fun i => z i c) (fun i => w i c)
    (fun i => by conv_rhs => rw [← hP w, Matrix.mul_apply])
  rw [(C52_matvec2 e θ x J J' x J J' z).2.2.2]
  simp only [Matrix.mul_apply]
  exact hb

/-- The hypotheses of C110 are met together: exact routines, a product kernel, unit noise, two samples. -/
example : LinAlg.ideal.Exact ∧
    Admissible (.prod (.linear none) (.squaredExponential none) : KExpr 2) (fun _ => 1) ∧ (1 : ℝ) ≠ 0 ∧
    (2 : ℕ) ≠ 1 ∧ JointSmooth (.matern52 none : KExpr 2) (fun _ => 1) ∧
    DerivSmooth (.matern52 none : KExpr 2) (fun _ => 1) :=
  ⟨LinAlg.ideal_exact, by norm_num [Admissible, KPar.sub, KPar.val], by norm_num, by norm_num,
    by norm_num [JointSmooth, KPar.val], .joint (by norm_num [JointSmooth, KPar.val])⟩

end GPX.Props
