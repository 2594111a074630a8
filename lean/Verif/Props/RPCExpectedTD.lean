import Verif.Props.RPCExpected
import Verif.Props.GPRTD

/-!
# C109 for the preconditioner of `GPR_TD`
-/

namespace GPX.Props
open GPX GPX.Spec

variable {d n v v' m : ℕ}

/-- A matrix whose entries, through a bijection of the indices, are those of a positive semidefinite matrix. -/
theorem posSemidef_of_entries {N : ℕ} {I : Type*} (pos : I → Fin N) (hpos : Function.Bijective pos)
    (K : Mat N N) (C : I → I → ℝ) (h : ∀ a b, K (pos a) (pos b) = C a b) (hC : (Matrix.of C).PosSemidef) :
    K.PosSemidef := by
  have := hC.submatrix (Equiv.ofBijective pos hpos).symm
  convert this using 1
  ext s t
  rw [Matrix.submatrix_apply, Matrix.of_apply, ← h]
  congr 1
  · exact ((Equiv.ofBijective pos hpos).apply_symm_apply s).symm
  · exact ((Equiv.ofBijective pos hpos).apply_symm_apply t).symm

/-- **C109** for `GPR_TD` with one set of derivatives: the same bound for the factor of the covariance matrix `K` of
all noise-free observations (its entries are given by C52). -/
theorem C109_td1 [NeZero (n + n * v)] (hn : n ≠ 1) (e : KExpr d) (θ : TDParams)
    (h : JointSmooth e θ.kernelParams) (x : Batch n d) (J : Jac n d v) (k : ℕ) (hm : 0 < m)
    (G : Mat (n + n * v) m) (hG : (tdALhs1 θ e.obj x J x J - G * G.transpose).PosSemidef) {η : ℝ} (hη : 0 < η)
    (u₀ : ℝ) (err : List ℝ → ℝ)
    (herr : ∀ us, ∃ F piv,
      rpcholeskyTD1 drawSplit drawChoice (u₀ :: us) x J k e.obj θ.kernelParams = .ok (F, piv) ∧
      err us = (tdALhs1 θ e.obj x J x J - F * F.transpose).trace) :
    unifMean k err ≤
      (1 + η) * (tdALhs1 θ e.obj x J x J - G * G.transpose).trace +
      (1 - 4 * η / ((1 + η) ^ 2 * m)) ^ k * (tdALhs1 θ e.obj x J x J).trace +
      (1 + η) ^ 2 * m / (4 * η) *
        (2 / 10 ^ 6 * Real.sqrt ((n + n * v : ℕ) * (tdALhs1 θ e.obj x J x J).trace)) := by
  have sw := C63_sampleWise e θ.kernelParams
  have hK : (tdALhs1 θ e.obj x J x J).PosSemidef := posSemidef_of_entries pos1 pos1_bij _ _
    (C52_entries1 e.obj θ x J x J).2.1 (C78_joint_partial e θ.kernelParams h x J J).1
  have h1 : tdRpcRow1 e.obj θ.kernelParams x J = fun s a => tdALhs1 θ e.obj x J x J s a := by
    funext s t
    obtain ⟨a, rfl⟩ := pos1_bij.2 s
    obtain ⟨b, rfl⟩ := pos1_bij.2 t
    rw [tdRpcRow1_eq sw, (C52_entries1 e.obj θ x J x J).2.1]
  have h2 : tdRpcDiag1 e.obj θ.kernelParams x J = fun a => tdALhs1 θ e.obj x J x J a a := by
    funext s
    obtain ⟨a, rfl⟩ := pos1_bij.2 s
    rw [tdRpcDiag1_eq sw, (C52_entries1 e.obj θ x J x J).2.1]
  refine le_trans (le_of_eq ?_) (C109_loop (tdALhs1 θ e.obj x J x J) hK k hm G hG hη u₀)
  congr 1
  funext us
  obtain ⟨F, piv, hr, hu⟩ := herr us
  rw [hu]
  unfold rpcholeskyTD1 at hr
  rw [if_neg hn, h1, h2] at hr
  have hF := congrArg Prod.fst (Except.ok.inj hr)
  change (tdALhs1 θ e.obj x J x J - (F, piv).1 * (F, piv).1.transpose).trace = _
  rw [← hF]

/-- **C109** for `GPR_TD` with two sets of derivatives. -/
theorem C109_td2 [NeZero (n + n * v + n * v')] (hn : n ≠ 1) (e : KExpr d) (θ : TDParams)
    (h : JointSmooth e θ.kernelParams) (x : Batch n d) (J : Jac n d v) (J' : Jac n d v') (k : ℕ) (hm : 0 < m)
    (G : Mat (n + n * v + n * v') m) (hG : (tdALhs2 θ e.obj x J J' x J J' - G * G.transpose).PosSemidef)
    {η : ℝ} (hη : 0 < η) (u₀ : ℝ) (err : List ℝ → ℝ)
    (herr : ∀ us, ∃ F piv,
      rpcholeskyTD2 drawSplit drawChoice (u₀ :: us) x J J' k e.obj θ.kernelParams = .ok (F, piv) ∧
      err us = (tdALhs2 θ e.obj x J J' x J J' - F * F.transpose).trace) :
    unifMean k err ≤
      (1 + η) * (tdALhs2 θ e.obj x J J' x J J' - G * G.transpose).trace +
      (1 - 4 * η / ((1 + η) ^ 2 * m)) ^ k * (tdALhs2 θ e.obj x J J' x J J').trace +
      (1 + η) ^ 2 * m / (4 * η) *
        (2 / 10 ^ 6 * Real.sqrt ((n + n * v + n * v' : ℕ) * (tdALhs2 θ e.obj x J J' x J J').trace)) := by
  have sw := C63_sampleWise e θ.kernelParams
  have hK : (tdALhs2 θ e.obj x J J' x J J').PosSemidef := posSemidef_of_entries pos2 pos2_bij _ _
    (C52_entries2 e.obj θ x J J' x J J').2.1 (C78_joint_partial e θ.kernelParams h x J J').2
  have h1 : tdRpcRow2 e.obj θ.kernelParams x J J' = fun s a => tdALhs2 θ e.obj x J J' x J J' s a := by
    funext s t
    obtain ⟨a, rfl⟩ := pos2_bij.2 s
    obtain ⟨b, rfl⟩ := pos2_bij.2 t
    rw [tdRpcRow2_eq sw, (C52_entries2 e.obj θ x J J' x J J').2.1]
  have h2 : tdRpcDiag2 e.obj θ.kernelParams x J J' = fun a => tdALhs2 θ e.obj x J J' x J J' a a := by
    funext s
    obtain ⟨a, rfl⟩ := pos2_bij.2 s
    rw [tdRpcDiag2_eq sw, (C52_entries2 e.obj θ x J J' x J J').2.1]
  refine le_trans (le_of_eq ?_) (C109_loop (tdALhs2 θ e.obj x J J' x J J') hK k hm G hG hη u₀)
  congr 1
  funext us
  obtain ⟨F, piv, hr, hu⟩ := herr us
  rw [hu]
  unfold rpcholeskyTD2 at hr
  rw [if_neg hn, h1, h2] at hr
  have hF := congrArg Prod.fst (Except.ok.inj hr)
  change (tdALhs2 θ e.obj x J J' x J J' - (F, piv).1 * (F, piv).1.transpose).trace = _
  rw [← hF]

/-- The hypotheses are met by `Matern52` on two samples with the zero competitor of one column: the routine succeeds
for every sequence of draws, and the covariance matrix is positive semidefinite. -/
example : ∃ err : List ℝ → ℝ,
    (∀ us, ∃ F piv,
      rpcholeskyTD1 drawSplit drawChoice (1 :: us) exX exJ 2 (KExpr.matern52 none : KExpr 2).obj (fun _ => 1) =
        .ok (F, piv) ∧
      err us = (tdALhs1 ⟨fun _ => 1, 1, 1, 1⟩ (KExpr.matern52 none : KExpr 2).obj exX exJ exX exJ -
        F * F.transpose).trace) ∧
    (tdALhs1 ⟨fun _ => 1, 1, 1, 1⟩ (KExpr.matern52 none : KExpr 2).obj exX exJ exX exJ -
      (0 : Mat _ 1) * (0 : Mat _ 1).transpose).PosSemidef ∧
    JointSmooth (.matern52 none : KExpr 2) (fun _ => 1) := by
  have hex : ∀ us : List ℝ, ∃ z, rpcholeskyTD1 drawSplit drawChoice (1 :: us) exX exJ 2
      (KExpr.matern52 none : KExpr 2).obj (fun _ => 1) = .ok z := fun us => by
    unfold rpcholeskyTD1
    rw [if_neg (by norm_num)]
    exact ⟨_, rfl⟩
  choose z hz using hex
  have hj : JointSmooth (.matern52 none : KExpr 2) (fun _ => 1) := by norm_num [JointSmooth, KPar.val]
  refine ⟨_, fun us => ⟨(z us).1, (z us).2, hz us, rfl⟩, ?_, hj⟩
  rw [Matrix.zero_mul, sub_zero]
  exact posSemidef_of_entries pos1 pos1_bij _ _ (C52_entries1 _ _ exX exJ exX exJ).2.1
    (C78_joint_partial _ _ hj exX exJ exJ).1

end GPX.Props
