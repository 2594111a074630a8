import Verif.Props.LikelihoodAccuracy
import Verif.Props.IterativeAccuracyTD

/-!
# C115: the accuracy of the iterative log marginal likelihood, `GPR_TD`
-/

namespace GPX.Props
open GPX GPX.Spec

variable {d n v v' : ℕ} {la : LinAlg} {KeyL : Type}

/-- A covariance of noisy observations minus a lower bound of the noises is positive semidefinite. -/
theorem psd_minus_noise {I : Type} [Fintype I] [DecidableEq I] {N : ℕ} (pos : I → Fin N) (hpos : Function.Bijective pos)
    (A : Mat N N) (C : I → I → ℝ) (s : I → ℝ) {lo : ℝ} (hs : ∀ a, lo ≤ s a)
    (hA : ∀ a b, A (pos a) (pos b) = C a b + if a = b then s a else 0) (hC : (Matrix.of C).PosSemidef) :
    (A - lo • (1 : Mat N N)).PosSemidef := by
  set f := (Equiv.ofBijective pos hpos).symm with hf
  have hpf : ∀ i, pos (f i) = i := fun i => (Equiv.ofBijective pos hpos).apply_symm_apply i
  have h2 : (Matrix.diagonal (fun i : Fin N => s (f i) - lo)).PosSemidef :=
    Matrix.posSemidef_diagonal_iff.2 fun i => sub_nonneg.2 (hs _)
  have h3 := (hC.submatrix (f : Fin N → I)).add h2
  convert h3 using 1
  ext i j
  have := hA (f i) (f j)
  rw [hpf, hpf] at this
  rw [Matrix.sub_apply, this]
  simp only [Matrix.add_apply, Matrix.of_apply, Matrix.smul_apply, Matrix.one_apply, smul_eq_mul,
    f.injective.eq_iff, Matrix.submatrix_apply, Matrix.diagonal_apply]
  split_ifs <;> ring

/-- The trace left after removing the common part of the noise. -/
theorem trace_minus_noise {N : ℕ} (A : Mat N N) (lo : ℝ) : (A - lo • (1 : Mat N N)).trace = ∑ r, (A r r - lo) := by
  simp [Matrix.trace, Matrix.diag_apply]

/-- **C115.** GPR_TD with one set of derivatives: with `lo ≥ 1e-36` a lower bound of the two noise variances and `C` the
covariance of the stacked noisy observations, the iterative log marginal likelihood returns a value for every draw, and its
mean and mean square error satisfy the bounds of `C115_gpr` with `s = lo` and `t = Σ_r (C_rr - lo)`. -/
theorem C115_td1 (ex : la.Exact) (cg : CG) (tol atol : ℝ) (hcg : CGStops cg tol atol) (eigh : Eigh) (hei : eigh.Exact)
    {Key : Type} (split : Key → Key × Key) (choice : Key → (Fin (n + n * v) → ℝ) → Fin (n + n * v)) (e : KExpr d) (θ : TDParams) (h : JointSmooth e θ.kernelParams) (mf : MeanFun) (x : Batch n d)
    (y : Mat n 1) (J : Jac n d v) (yd : Mat n v) (nPivots : ℕ) (key : Key) (hn : 2 ≤ n) (lo : ℝ)
    (hlo : 1 / 10 ^ 36 ≤ lo) (ht : lo ≤ θ.sigmaTargets ^ 2 + 1 / 10 ^ 10) (hd : lo ≤ θ.sigmaDerivs ^ 2 + 1 / 10 ^ 10)
    {q : ℕ} (hq : 0 < q) (splitL : KeyL → KeyL × KeyL) (normal : KeyL → Vec (n + n * v)) (k : ℕ) (keyL : KeyL)
    (hr : ∀ σ : Fin (n + n * v) → Bool, ExactRun splitL normal (tdALhsNoise1 θ e.obj x J x J).mulVec (k + 1)
      (fun i => (if σ i then 1 else -1) / Real.sqrt (n + n * v : ℕ)) (splitL keyL).2) :
    let C := tdALhsNoise1 θ e.obj x J x J
    let b2 := ∑ i, (y i 0 - mf y) ^ 2 + ∑ i, ∑ u, yd i u ^ 2
    ∃ l : (Fin (n + n * v) → Fin q → Bool) → ℝ,
      (∀ S, tdLmlIter1 la cg split choice (lanczosCols splitL normal (fun _ => signs S) eigh k keyL) θ e.obj mf x y J yd
        nPivots key = .ok (l S)) ∧
      ∀ (Q : Mat (n + n * v) (n + n * v)) (ev : Fin (n + n * v) → ℝ), Q.transpose * Q = 1 →
        C = Q * Matrix.diagonal ev * Q.transpose →
        AccurateInMean l (Real.log (gaussDensity C fun s => tdRhs1 mf y yd s 0) / (n + n * v : ℕ))
          (likelihoodBound (n + n * v) (k + 1) lo (∑ r, (C r r - lo)) b2 (max (tol ^ 2 * b2) (atol ^ 2)))
          (probeError (n + n * v) q (Q * Matrix.diagonal (fun i => Real.log (ev i)) * Q.transpose)) := by
  intro C b2
  have hlo0 : 0 < lo := lt_of_lt_of_le (by norm_num) hlo
  have hpsd := (C78_joint_partial e θ.kernelParams h x J J).1
  have hp := C52_posDef1 e.obj θ x J hpsd
  have hN : n + n * v ≠ 0 := by omega
  have hN' : ((n + n * v : ℕ) : ℝ) ≠ 0 := by exact_mod_cast hN
  have hmv : (tdAxLhs1 θ e.obj true x J x J : Mat (n + n * v) 1 → Mat (n + n * v) 1) =
      fun z : Mat (n + n * v) 1 => tdALhsNoise1 θ e.obj x J x J * z :=
    funext fun z => (C52_matvec1 e θ x J x J z).2.2.2
  obtain ⟨c', hc', h1, -⟩ := C108_td1 ex cg tol atol hcg split choice e θ h mf x y J yd nPivots key (by omega) lo hlo0
    ht hd
  have hb2 : sumSq (tdRhs1 mf y yd) = b2 := by
    simp only [sumSq, Finset.univ_unique, Finset.sum_singleton, Fin.default_eq_zero]
    rw [Fin.sum_univ_add, sum_flat]
    simp [tdRhs1, vcat, centerBy, flatCol, b2]
  have hnoise : ∀ a : Obs1 n v, lo ≤ noise1 θ a := by
    rintro (i | i)
    · exact ht
    · exact hd
  have hG : (C - lo • (1 : Mat (n + n * v) (n + n * v))).PosSemidef :=
    psd_minus_noise pos1 pos1_bij _ _ (noise1 θ) hnoise (C52_entries1 e.obj θ x J x J).2.2 hpsd
  have hCG : C - lo • (1 : Mat (n + n * v) (n + n * v)) + lo • (1 : Mat (n + n * v) (n + n * v)) = C :=
    sub_add_cancel _ _
  have hden : Real.log (gaussDensity C fun s => tdRhs1 mf y yd s 0) / (n + n * v : ℕ) =
      lmlIterTail (Real.log C.det) (tdRhs1 mf y yd) (tdFitDense1 la θ e.obj mf x y J yd).1 := by
    rw [div_eq_iff hN']
    exact ((mul_comm _ _).trans (iterTail_eq ex hp (tdRhs1 mf y yd) hN)).symm
  refine ⟨fun S => lmlIterTail (lanczosCols splitL normal (fun _ => signs S) eigh k keyL
    (fun z : Mat (n + n * v) 1 => C * z)) (tdRhs1 mf y yd) c', fun S => ?_, fun Q ev hQ hC => ?_⟩
  · unfold tdLmlIter1
    rw [hc', hmv]
  · have := tail_accuracy eigh hei (by omega) hq hG hlo splitL normal k keyL (by rw [hCG]; exact hr)
      (tdRhs1 mf y yd) _ c' h1 Q ev hQ (by rw [hCG]; exact hC)
    rw [hCG, trace_minus_noise, hb2] at this
    rw [hden]
    exact this

/-- **C115.** The same with two sets of derivatives; the value estimated is the Gaussian log density per observation,
all observations counted. -/
theorem C115_td2 (ex : la.Exact) (cg : CG) (tol atol : ℝ) (hcg : CGStops cg tol atol) (eigh : Eigh) (hei : eigh.Exact)
    {Key : Type} (split : Key → Key × Key)
    (choice : Key → (Fin (n + n * v + n * v') → ℝ) → Fin (n + n * v + n * v')) (e : KExpr d) (θ : TDParams) (h : JointSmooth e θ.kernelParams) (mf : MeanFun) (x : Batch n d)
    (y : Mat n 1) (J : Jac n d v) (J' : Jac n d v') (yd : Mat n v) (yd' : Mat n v') (nPivots : ℕ) (key : Key)
    (hn : 2 ≤ n) (lo : ℝ) (hlo : 1 / 10 ^ 36 ≤ lo) (ht : lo ≤ θ.sigmaTargets ^ 2 + 1 / 10 ^ 10)
    (hd : lo ≤ θ.sigmaDerivs ^ 2 + 1 / 10 ^ 10) (hd' : lo ≤ θ.sigmaDerivs2 ^ 2 + 1 / 10 ^ 10)
    {q : ℕ} (hq : 0 < q) (splitL : KeyL → KeyL × KeyL) (normal : KeyL → Vec (n + n * v + n * v')) (k : ℕ) (keyL : KeyL)
    (hr : ∀ σ : Fin (n + n * v + n * v') → Bool, ExactRun splitL normal
      (tdALhsNoise2 θ e.obj x J J' x J J').mulVec (k + 1)
      (fun i => (if σ i then 1 else -1) / Real.sqrt (n + n * v + n * v' : ℕ)) (splitL keyL).2) :
    let C := tdALhsNoise2 θ e.obj x J J' x J J'
    let b2 := ∑ i, (y i 0 - mf y) ^ 2 + ∑ i, ∑ u, yd i u ^ 2 + ∑ i, ∑ u, yd' i u ^ 2
    ∃ l : (Fin (n + n * v + n * v') → Fin q → Bool) → ℝ,
      (∀ S, tdLmlIter2 la cg split choice (lanczosCols splitL normal (fun _ => signs S) eigh k keyL) θ e.obj mf x y J J'
        yd yd' nPivots key = .ok (l S)) ∧
      ∀ (Q : Mat (n + n * v + n * v') (n + n * v + n * v')) (ev : Fin (n + n * v + n * v') → ℝ),
        Q.transpose * Q = 1 → C = Q * Matrix.diagonal ev * Q.transpose →
        AccurateInMean l (Real.log (gaussDensity C fun s => tdRhs2 mf y yd yd' s 0) / (n + n * v + n * v' : ℕ))
          (likelihoodBound (n + n * v + n * v') (k + 1) lo (∑ r, (C r r - lo)) b2 (max (tol ^ 2 * b2) (atol ^ 2)))
          (probeError (n + n * v + n * v') q (Q * Matrix.diagonal (fun i => Real.log (ev i)) * Q.transpose)) := by
  intro C b2
  have hlo0 : 0 < lo := lt_of_lt_of_le (by norm_num) hlo
  have hpsd := (C78_joint_partial e θ.kernelParams h x J J').2
  have hp := C52_posDef2 e.obj θ x J J' hpsd
  have hN : n + n * v + n * v' ≠ 0 := by omega
  have hN' : ((n + n * v + n * v' : ℕ) : ℝ) ≠ 0 := by exact_mod_cast hN
  have hmv : (tdAxLhs2 θ e.obj true x J J' x J J' : Mat (n + n * v + n * v') 1 → Mat (n + n * v + n * v') 1) =
      fun z : Mat (n + n * v + n * v') 1 => tdALhsNoise2 θ e.obj x J J' x J J' * z :=
    funext fun z => (C52_matvec2 e θ x J J' x J J' z).2.2.2
  obtain ⟨c', hc', h1, -⟩ := C108_td2 ex cg tol atol hcg split choice e θ h mf x y J J' yd yd' nPivots key (by omega)
    lo hlo0 ht hd hd'
  have hb2 : sumSq (tdRhs2 mf y yd yd') = b2 := by
    simp only [sumSq, Finset.univ_unique, Finset.sum_singleton, Fin.default_eq_zero]
    rw [Fin.sum_univ_add, Fin.sum_univ_add, sum_flat, sum_flat]
    simp [tdRhs2, tdRhs1, vcat, centerBy, flatCol, b2]
  have hnoise : ∀ a : Obs2 n v v', lo ≤ noise2 θ a := by
    rintro ((i | i) | i)
    · exact ht
    · exact hd
    · exact hd'
  have hG : (C - lo • (1 : Mat (n + n * v + n * v') (n + n * v + n * v'))).PosSemidef :=
    psd_minus_noise pos2 pos2_bij _ _ (noise2 θ) hnoise (C52_entries2 e.obj θ x J J' x J J').2.2 hpsd
  have hCG : C - lo • (1 : Mat (n + n * v + n * v') (n + n * v + n * v')) +
      lo • (1 : Mat (n + n * v + n * v') (n + n * v + n * v')) = C := sub_add_cancel _ _
  have hden : Real.log (gaussDensity C fun s => tdRhs2 mf y yd yd' s 0) / (n + n * v + n * v' : ℕ) =
      lmlIterTail (Real.log C.det) (tdRhs2 mf y yd yd') (tdFitDense2 la θ e.obj mf x y J J' yd yd').1 := by
    rw [div_eq_iff hN']
    exact ((mul_comm _ _).trans (iterTail_eq ex hp (tdRhs2 mf y yd yd') hN)).symm
  refine ⟨fun S => lmlIterTail (lanczosCols splitL normal (fun _ => signs S) eigh k keyL
    (fun z : Mat (n + n * v + n * v') 1 => C * z)) (tdRhs2 mf y yd yd') c', fun S => ?_, fun Q ev hQ hC => ?_⟩
  · unfold tdLmlIter2
    rw [hc', hmv]
  · have := tail_accuracy eigh hei (by omega) hq hG hlo splitL normal k keyL (by rw [hCG]; exact hr)
      (tdRhs2 mf y yd yd') _ c' h1 Q ev hQ (by rw [hCG]; exact hC)
    rw [hCG, trace_minus_noise, hb2] at this
    rw [hden]
    exact this

/-- Non-vacuity of `C115_td1` and `C115_td2`: two samples in the plane, three variables and one more, a Matern52 kernel,
noises one of which is zero, one Lanczos step, any number of random vectors. -/
example (splitL : KeyL → KeyL × KeyL) (normal : KeyL → Vec (2 + 2 * 3 + 2 * 1)) (keyL : KeyL) :
    (1 : ℝ) / 10 ^ 36 ≤ 1 / 10 ^ 10 ∧ 1 / 10 ^ 10 ≤ exθ.sigmaTargets ^ 2 + 1 / 10 ^ 10 ∧
    1 / 10 ^ 10 ≤ exθ.sigmaDerivs ^ 2 + 1 / 10 ^ 10 ∧ 1 / 10 ^ 10 ≤ exθ.sigmaDerivs2 ^ 2 + 1 / 10 ^ 10 ∧
    ∀ σ : Fin (2 + 2 * 3 + 2 * 1) → Bool, ExactRun splitL normal
      (tdALhsNoise2 exθ (KExpr.matern52 none : KExpr 2).obj exX exJ exJ' exX exJ exJ').mulVec (0 + 1)
      (fun i => (if σ i then 1 else -1) / Real.sqrt (2 + 2 * 3 + 2 * 1 : ℕ)) (splitL keyL).2 :=
  ⟨by norm_num, by norm_num [exθ], by norm_num [exθ], by norm_num [exθ], fun _ => exactRun_one _ _ _ _ _⟩

end GPX.Props
