import Verif.Model.LikelihoodLanczos
import Verif.Props.LogdetError
import Verif.Props.IterativeAccuracy

/-!
# C115: the accuracy of the iterative log marginal likelihood

Everything that makes the iterative value differ from the dense one is taken into account: conjugate gradients stopped at
its tolerance, the number of Lanczos steps, the number of random vectors.
-/

namespace GPX.Props
open GPX GPX.Spec

variable {d m n v : ℕ} {la : LinAlg} {KeyL : Type}

/-- The trace of a matrix of prior variances bounds its spectrum: a shifted positive semidefinite matrix has eigenvalues
between the shift and the shift plus the trace. -/
theorem shifted_spectrum {G : Mat n n} (hG : G.PosSemidef) (s : ℝ) (Q : Mat n n) (l : Fin n → ℝ)
    (hQ : Q.transpose * Q = 1) (hC : G + s • (1 : Mat n n) = Q * Matrix.diagonal l * Q.transpose) (i : Fin n) :
    s ≤ l i ∧ l i ≤ s + G.trace := by
  have hQ' : Q * Q.transpose = 1 := mul_eq_one_comm.mp hQ
  have hD : Q.transpose * G * Q = Matrix.diagonal (fun i => l i - s) := by
    have : G = Q * Matrix.diagonal l * Q.transpose - s • (1 : Mat n n) := by rw [← hC]; simp
    rw [this, Matrix.mul_sub, Matrix.sub_mul]
    have e1 : Q.transpose * (Q * Matrix.diagonal l * Q.transpose) * Q = Matrix.diagonal l := by
      calc Q.transpose * (Q * Matrix.diagonal l * Q.transpose) * Q
          = (Q.transpose * Q) * Matrix.diagonal l * (Q.transpose * Q) := by simp only [Matrix.mul_assoc]
        _ = _ := by rw [hQ, Matrix.one_mul, Matrix.mul_one]
    rw [e1, Matrix.mul_smul, Matrix.mul_one, Matrix.smul_mul, hQ]
    ext a b
    by_cases h : a = b
    · subst h; simp
    · simp [h]
  have hP : (Q.transpose * G * Q).PosSemidef := by
    have := hG.conjTranspose_mul_mul_same Q
    rwa [Matrix.conjTranspose_eq_transpose_of_trivial] at this
  have hnn : ∀ j, 0 ≤ l j - s := fun j => by
    have := hP.diag_nonneg (i := j)
    rwa [hD, Matrix.diagonal_apply_eq] at this
  have htr : G.trace = ∑ j, (l j - s) := by
    have : (Q.transpose * G * Q).trace = G.trace := by
      rw [Matrix.trace_mul_comm, ← Matrix.mul_assoc, hQ', Matrix.one_mul]
    rw [← this, hD, Matrix.trace_diagonal]
  refine ⟨by linarith [hnn i], ?_⟩
  have := Finset.single_le_sum (f := fun j => l j - s) (fun j _ => hnn j) (Finset.mem_univ i)
  rw [htr]
  linarith

/-- The deterministic part of the error: `k` Lanczos steps and a conjugate gradient tolerance `δ2`, for prior variances of
sum `t`, noise `s` and centred targets of squared norm `b2`. -/
noncomputable def likelihoodBound (n k : ℕ) (s t b2 δ2 : ℝ) : ℝ :=
  (1 / 2) * (2 + t / s) * (t / (2 * s + t)) ^ (2 * k) + Real.sqrt (b2 * δ2) / (2 * n * s)

/-- The random part of the error with `q` random vectors, for the logarithm `L` of the covariance. -/
noncomputable def probeError (n q : ℕ) (L : Mat n n) : ℝ :=
  Real.sqrt (2 / (q : ℝ) * ∑ i, ∑ j, if i = j then 0 else L i j ^ 2) / (2 * n)

/-- `l S` is a random quantity over the sign matrices `S`: its mean is within `B` of `t` and its root mean square deviation
from `t` at most `R + B`. -/
def AccurateInMean {ι : Type} [Fintype ι] (l : ι → ℝ) (t B R : ℝ) : Prop :=
  |(∑ S, l S) / Fintype.card ι - t| ≤ B ∧ (∑ S, (l S - t) ^ 2) / Fintype.card ι ≤ (R + B) ^ 2

theorem tail_accuracy (eigh : Eigh) (he : eigh.Exact) (hn : 0 < n) {q : ℕ} (hq : 0 < q) {G : Mat n n}
    (hG : G.PosSemidef) {s : ℝ} (hs : 1 / 10 ^ 36 ≤ s) (splitL : KeyL → KeyL × KeyL) (normal : KeyL → Vec n) (k : ℕ)
    (keyL : KeyL)
    (hr : ∀ σ : Fin n → Bool, ExactRun splitL normal (G + s • (1 : Mat n n)).mulVec (k + 1)
      (fun i => (if σ i then 1 else -1) / Real.sqrt n) (splitL keyL).2)
    (b c c' : Mat n 1) {δ2 : ℝ} (hres : s ^ 2 * sumSq (c' - c) ≤ δ2) (Q : Mat n n) (l : Fin n → ℝ)
    (hQ : Q.transpose * Q = 1) (hC : G + s • (1 : Mat n n) = Q * Matrix.diagonal l * Q.transpose) :
    AccurateInMean (fun S : Fin n → Fin q → Bool =>
        lmlIterTail (lanczosCols splitL normal (fun _ => signs S) eigh k keyL
          (fun z : Mat n 1 => (G + s • (1 : Mat n n)) * z)) b c')
      (lmlIterTail (Real.log (G + s • (1 : Mat n n)).det) b c)
      (likelihoodBound n (k + 1) s G.trace (sumSq b) δ2)
      (probeError n q (Q * Matrix.diagonal (fun i => Real.log (l i)) * Q.transpose)) := by
  set C := G + s • (1 : Mat n n) with hCdef
  set L := Q * Matrix.diagonal (fun i => Real.log (l i)) * Q.transpose with hL
  set t := G.trace with ht
  have hn' : (0 : ℝ) < n := by exact_mod_cast hn
  have hs0 : 0 < s := lt_of_lt_of_le (by norm_num) hs
  have ht0 : 0 ≤ t := hG.trace_nonneg
  have hl := shifted_spectrum hG s Q l hQ hC
  -- the error of the linear term
  have hb0 : 0 ≤ sumSq b := Finset.sum_nonneg fun i _ => Finset.sum_nonneg fun a _ => sq_nonneg _
  have hquad : (∑ a, ∑ b', (b.transpose * c') a b') - (∑ a, ∑ b', (b.transpose * c) a b') =
      ∑ i, b i 0 * (c' - c) i 0 := by
    simp only [Finset.univ_unique, Finset.sum_singleton, Matrix.mul_apply, Matrix.transpose_apply, Matrix.sub_apply,
      mul_sub, Finset.sum_sub_distrib, Fin.default_eq_zero]
  set D := ∑ i, b i 0 * (c' - c) i 0 with hD
  have hDle : |s * D| ≤ Real.sqrt (sumSq b * δ2) := by
    refine Real.abs_le_sqrt ?_
    have hcs := Finset.sum_mul_sq_le_sq_mul_sq Finset.univ (fun i => b i 0) (fun i => (c' - c) i 0)
    have e1 : ∑ i, b i 0 ^ 2 = sumSq b := by simp [sumSq]
    have e2 : ∑ i, (c' - c) i 0 ^ 2 = sumSq (c' - c) := by simp [sumSq]
    rw [e1, e2] at hcs
    calc (s * D) ^ 2 = s ^ 2 * D ^ 2 := by ring
      _ ≤ s ^ 2 * (sumSq b * sumSq (c' - c)) := mul_le_mul_of_nonneg_left hcs (sq_nonneg _)
      _ = sumSq b * (s ^ 2 * sumSq (c' - c)) := by ring
      _ ≤ _ := mul_le_mul_of_nonneg_left hres hb0
  have hD1 : |D / (2 * n)| ≤ Real.sqrt (sumSq b * δ2) / (2 * n * s) := by
    rw [abs_div, abs_of_pos (show (0 : ℝ) < 2 * n by positivity), div_le_div_iff₀ (by positivity) (by positivity)]
    rw [abs_mul, abs_of_pos hs0] at hDle
    nlinarith
  -- the log-determinant
  set est : (Fin n → Fin q → Bool) → ℝ := fun S =>
    lanczosLogdet splitL normal (fun _ => signs S) eigh C.mulVec k keyL with hest
  have hcols : ∀ S, lanczosCols splitL normal (fun _ => signs S) eigh k keyL (fun z : Mat n 1 => C * z) = est S := by
    intro S
    unfold lanczosCols
    simp only [hest]
    congr 1
  have hbd : n * (1 + (s + t) / s) * ((s + t - s) / (s + t + s)) ^ (2 * (k + 1)) =
      2 * n * ((1 / 2) * (2 + t / s) * (t / (2 * s + t)) ^ (2 * (k + 1))) := by
    have e1 : 1 + (s + t) / s = 2 + t / s := by field_simp; ring
    have e2 : (s + t - s) / (s + t + s) = t / (2 * s + t) := by congr 1 <;> ring
    rw [e1, e2]
    ring
  have hbias := C114_bias eigh he hn hq C Q l hQ hC hs hl splitL normal k keyL hr
  have hms := C114_mean_square eigh he hn hq C Q L l hQ hC hL hs hl splitL normal k keyL hr
  rw [hbd] at hbias hms
  set E := (1 / 2) * (2 + t / s) * (t / (2 * s + t)) ^ (2 * (k + 1)) with hE
  have hdiff : ∀ S, lmlIterTail (lanczosCols splitL normal (fun _ => signs S) eigh k keyL
      (fun z : Mat n 1 => C * z)) b c' - lmlIterTail (Real.log C.det) b c =
      -(est S - Real.log C.det) / (2 * n) - D / (2 * n) := by
    intro S
    rw [hcols, ← hquad]
    unfold lmlIterTail
    simp only
    field_simp
    ring
  have hcard : (0 : ℝ) < Fintype.card (Fin n → Fin q → Bool) := by exact_mod_cast Fintype.card_pos
  have hE0 : 0 ≤ E := by positivity
  constructor
  · have e : (∑ S : Fin n → Fin q → Bool, lmlIterTail (lanczosCols splitL normal (fun _ => signs S) eigh k keyL
        (fun z : Mat n 1 => C * z)) b c') / Fintype.card (Fin n → Fin q → Bool) - lmlIterTail (Real.log C.det) b c =
        -((∑ S, est S) / Fintype.card (Fin n → Fin q → Bool) - Real.log C.det) / (2 * n) - D / (2 * n) := by
      have h1 : ∀ S, lmlIterTail (lanczosCols splitL normal (fun _ => signs S) eigh k keyL
          (fun z : Mat n 1 => C * z)) b c' = lmlIterTail (Real.log C.det) b c - (est S - Real.log C.det) / (2 * n) -
            D / (2 * n) := fun S => by
        have := hdiff S
        linear_combination this
      simp only [h1, Finset.sum_sub_distrib, Finset.sum_const, Finset.card_univ, nsmul_eq_mul, ← Finset.sum_div]
      field_simp
      ring
    rw [e]
    refine (abs_sub _ _).trans ?_
    unfold likelihoodBound
    refine add_le_add ?_ hD1
    rw [abs_div, abs_neg, abs_of_pos (show (0 : ℝ) < 2 * n by positivity), div_le_iff₀ (by positivity), mul_comm]
    exact hbias
  · have h2 : (∑ S : Fin n → Fin q → Bool, (-(est S - Real.log C.det) / (2 * n)) ^ 2) /
        Fintype.card (Fin n → Fin q → Bool) ≤ (probeError n q L + E) ^ 2 := by
      have e1 : ∀ S, (-(est S - Real.log C.det) / (2 * n)) ^ 2 =
          (1 / (2 * n)) ^ 2 * (est S - Real.log C.det) ^ 2 := fun S => by ring
      simp only [e1, ← Finset.mul_sum]
      rw [mul_div_assoc]
      refine (mul_le_mul_of_nonneg_left hms (sq_nonneg _)).trans (le_of_eq ?_)
      rw [← mul_pow]
      congr 1
      unfold probeError
      field_simp
    have hR : 0 ≤ probeError n q L := by unfold probeError; positivity
    have h3 := mean_square_perturb (fun S => -(est S - Real.log C.det) / (2 * n) - D / (2 * n))
      (fun S => -(est S - Real.log C.det) / (2 * n)) (δ := Real.sqrt (sumSq b * δ2) / (2 * n * s)) (by positivity)
      (fun S => by rw [sub_sub_cancel_left, abs_neg]; exact hD1) rfl
    simp only [hdiff]
    refine h3.trans ?_
    unfold likelihoodBound
    rw [← hE]
    refine pow_le_pow_left₀ (by positivity) ?_ 2
    rw [← add_assoc]
    refine add_le_add_left (Real.sqrt_le_iff.mpr ⟨by positivity, h2⟩) _

/-- The dense tail with exact solvers, written as the iterative one. -/
theorem lmlIterTail_dense {C : Mat n n} (hC : C.PosDef) (ex : la.Exact) (b : Mat n 1) :
    lmlIterTail (Real.log C.det) b (la.solve C b) = lmlTail la C b := by
  unfold lmlIterTail lmlTail
  simp only
  rw [quad_sum hC ex, ex.logdet hC, ex.solve_eq (posDef_isUnit hC)]
  simp only [Finset.univ_unique, Finset.sum_singleton, Matrix.mul_apply, Matrix.transpose_apply, Finset.mul_sum]
  simp only [mul_assoc]

/-- The noise is at least `1e-36`. -/
theorem noise_floor (θ : GPParams) : (1 : ℝ) / 10 ^ 36 ≤ θ.sigma ^ 2 + 1 / 10 ^ 10 := by
  have := sq_nonneg θ.sigma
  have h : (1 : ℝ) / 10 ^ 36 ≤ 1 / 10 ^ 10 := by norm_num
  linarith

/-- **C115.** GPR, one output, `n ≥ 2` samples: with conjugate gradients stopped at its tolerance, `k + 1` Lanczos steps
and `q ≥ 1` random vectors, the iterative log marginal likelihood returns a value for every draw. Its mean over the draws
is within `½ (2 + t/s) (t/(2s + t))^(2(k+1)) + ‖y - mu‖ δ/(2 n s)` of the Gaussian log density per sample, where
`s = sigma² + 1e-10` and `t = Σ k(x_i, x_i)`; its root mean square error is at most that plus
`√(2/q Σ_{i≠j} (log C)_ij²)/(2n)`, `C` being the covariance of the data. Any kernel expression, preconditioner, number of
pivots and keys. -/
theorem C115_gpr (ex : la.Exact) (cg : CG) (tol atol : ℝ) (hcg : CGStops cg tol atol) (eigh : Eigh) (hei : eigh.Exact)
    {Key : Type} (split : Key → Key × Key) (choice : Key → (Fin n → ℝ) → Fin n) (e : KExpr d)
    (θ : GPParams) (h : Admissible e θ.kernelParams) (mf : MeanFun) (x : Batch n d) (y : Mat n 1)
    (nPivots : ℕ) (key : Key) (hn : 2 ≤ n) {q : ℕ} (hq : 0 < q) (splitL : KeyL → KeyL × KeyL)
    (normal : KeyL → Vec n) (k : ℕ) (keyL : KeyL)
    (hr : ∀ σ : Fin n → Bool, ExactRun splitL normal (dataCov e.obj θ x).mulVec (k + 1)
      (fun i => (if σ i then 1 else -1) / Real.sqrt n) (splitL keyL).2) :
    let b : Mat n 1 := Matrix.of fun i a => y i a - mf y
    ∃ l : (Fin n → Fin q → Bool) → ℝ,
      (∀ S, lmlIter la cg split choice (lanczosCols splitL normal (fun _ => signs S) eigh k keyL) θ e.obj mf x y
        nPivots key = .ok (l S)) ∧
      ∀ (Q : Mat n n) (ev : Fin n → ℝ), Q.transpose * Q = 1 →
        dataCov e.obj θ x = Q * Matrix.diagonal ev * Q.transpose →
        AccurateInMean l (Real.log (gaussDensity (dataCov e.obj θ x) fun i => y i 0 - mf y) / n)
          (likelihoodBound n (k + 1) (θ.sigma ^ 2 + 1 / 10 ^ 10) (∑ i, e.obj.k θ.kernelParams x x i i) (sumSq b)
            (cgTarget tol atol b))
          (probeError n q (Q * Matrix.diagonal (fun i => Real.log (ev i)) * Q.transpose)) := by
  intro b
  have hn0 : (n : ℝ) ≠ 0 := by
    have : n ≠ 0 := by omega
    exact_mod_cast this
  have hp := aLhsNoise_posDef e θ h x
  obtain ⟨c', hc', h1, -⟩ := C108_fit ex cg tol atol hcg split choice e θ h mf x y nPivots key (by omega)
  have hmv : (axLhsFun θ e.obj true x x : Mat n 1 → Mat n 1) = fun z : Mat n 1 => aLhsNoise θ e.obj x x * z :=
    funext fun z => (axLhsFun_eq θ (C63_sampleWise e θ.kernelParams)).2 x x z
  have hden : Real.log (gaussDensity (dataCov e.obj θ x) fun i => y i 0 - mf y) / n =
      lmlIterTail (Real.log (dataCov e.obj θ x).det) b (fitDense la θ e.obj mf x y).1 := by
    rw [← (C34_single_output_partial ex e θ h mf x y).1, mul_div_cancel_left₀ _ hn0]
    exact (lmlIterTail_dense hp ex _).symm
  refine ⟨fun S => lmlIterTail (lanczosCols splitL normal (fun _ => signs S) eigh k keyL
    (fun z : Mat n 1 => dataCov e.obj θ x * z)) b c', fun S => ?_, fun Q ev hQ hC => ?_⟩
  · unfold lmlIter
    rw [hc', hmv]
    rfl
  · rw [hden]
    exact tail_accuracy eigh hei (by omega) hq (C22_gram_posSemidef e θ.kernelParams h x) (noise_floor θ) splitL normal k
      keyL hr b _ c' h1 Q ev hQ hC

/-- **C115.** The same for the likelihood of derivatives, `n * n_variables ≥ 1` of them, for kernels with positive
semidefinite derivative Gram matrices (C65). -/
theorem C115_gpr_derivs (ex : la.Exact) (cg : CG) (tol atol : ℝ) (hcg : CGStops cg tol atol) (eigh : Eigh)
    (hei : eigh.Exact) {Key : Type} (split : Key → Key × Key) (choice : Key → (Fin (n * v) → ℝ) → Fin (n * v))
    (e : KExpr d) (θ : GPParams) (h : DerivSmooth e θ.kernelParams) (mf : MeanFun) (x : Batch n d)
    (J : Jac n d v) (y : Mat n v) (nPivots : ℕ) (key : Key) (hn : 0 < n * v) {q : ℕ} (hq : 0 < q)
    (splitL : KeyL → KeyL × KeyL) (normal : KeyL → Vec (n * v)) (k : ℕ) (keyL : KeyL)
    (hr : ∀ σ : Fin (n * v) → Bool, ExactRun splitL normal (dataCovDerivs e.obj θ x J).mulVec (k + 1)
      (fun i => (if σ i then 1 else -1) / Real.sqrt (n * v : ℕ)) (splitL keyL).2)
    (Q : Mat (n * v) (n * v)) (ev : Fin (n * v) → ℝ) (hQ : Q.transpose * Q = 1)
    (hC : dataCovDerivs e.obj θ x J = Q * Matrix.diagonal ev * Q.transpose) :
    let b : Mat (n * v) 1 := Matrix.of fun r a => flatCol y r a - mf (flatCol y)
    AccurateInMean
      (fun S : Fin (n * v) → Fin q → Bool => lmlDerivsIter la cg split choice
        (lanczosCols splitL normal (fun _ => signs S) eigh k keyL) θ e.obj mf x J y nPivots key)
      (Real.log (gaussDensity (dataCovDerivs e.obj θ x J) fun r => flatCol y r 0 - mf (flatCol y)) / (n * v : ℕ))
      (likelihoodBound (n * v) (k + 1) (θ.sigma ^ 2 + 1 / 10 ^ 10)
        (∑ r, e.obj.d01kj θ.kernelParams x x J J r r) (sumSq b) (cgTarget tol atol b))
      (probeError (n * v) q (Q * Matrix.diagonal (fun i => Real.log (ev i)) * Q.transpose)) := by
  intro b
  have hn0 : ((n * v : ℕ) : ℝ) ≠ 0 := by exact_mod_cast hn.ne'
  have hg := C65_gram_partial e θ.kernelParams h x J
  have hp : (aDerivsLhsNoise θ e.obj x J x J).PosDef := posDef_add_smul_one hg (noise_pos θ)
  obtain ⟨hmu, h1, -⟩ := C108_fit_derivs ex cg tol atol hcg split choice e θ h mf x J y nPivots key
  have hmv : (axDerivsLhsFun θ e.obj true x J x J : Mat (n * v) 1 → Mat (n * v) 1) =
      fun z : Mat (n * v) 1 => aDerivsLhsNoise θ e.obj x J x J * z :=
    funext fun z => (axDerivsLhsFun_eq θ (C63_sampleWise e θ.kernelParams)).2 x J x J z
  have hden : Real.log (gaussDensity (dataCovDerivs e.obj θ x J) fun r => flatCol y r 0 - mf (flatCol y)) /
      (n * v : ℕ) = lmlIterTail (Real.log (dataCovDerivs e.obj θ x J).det) b
        (fitDerivsDense la θ e.obj mf x J y).1 := by
    rw [← (C34_derivs ex e θ mf x J y hg).1, mul_div_cancel_left₀ _ hn0]
    exact (lmlIterTail_dense hp ex _).symm
  rw [hden]
  have hval : ∀ S : Fin (n * v) → Fin q → Bool, lmlDerivsIter la cg split choice
      (lanczosCols splitL normal (fun _ => signs S) eigh k keyL) θ e.obj mf x J y nPivots key =
      lmlIterTail (lanczosCols splitL normal (fun _ => signs S) eigh k keyL
        (fun z : Mat (n * v) 1 => dataCovDerivs e.obj θ x J * z)) b
        (fitDerivsIter la cg split choice θ e.obj mf x J y nPivots key).1 := by
    intro S
    unfold lmlDerivsIter
    simp only
    rw [hmu, hmv]
    rfl
  simp only [hval]
  exact tail_accuracy eigh hei hn hq hg (noise_floor θ) splitL normal k keyL hr b _ _ h1 Q ev hQ hC

/-- **C115.** The same for SGPR, whose covariance is `K_nm (K_mm + 1e-10 I)⁻¹ K_mn + (sigma² + 1e-10) I`; no
preconditioner is used. -/
theorem C115_sgpr (ex : la.Exact) (cg : CG) (tol atol : ℝ) (hcg : CGStops cg tol atol) (eigh : Eigh)
    (hei : eigh.Exact) (e : KExpr d) (θ : GPParams) (h : Admissible e θ.kernelParams)
    (mf : MeanFun) (xl : Batch m d) (x : Batch n d) (y : Mat n 1) (hn : 0 < n) {q : ℕ} (hq : 0 < q)
    (splitL : KeyL → KeyL × KeyL) (normal : KeyL → Vec n) (k : ℕ) (keyL : KeyL)
    (hr : ∀ σ : Fin n → Bool, ExactRun splitL normal (sparseCov e.obj θ xl x).mulVec (k + 1)
      (fun i => (if σ i then 1 else -1) / Real.sqrt n) (splitL keyL).2)
    (Q : Mat n n) (ev : Fin n → ℝ) (hQ : Q.transpose * Q = 1)
    (hC : sparseCov e.obj θ xl x = Q * Matrix.diagonal ev * Q.transpose) :
    let b : Mat n 1 := Matrix.of fun i a => y i a - mf y
    AccurateInMean
      (fun S : Fin n → Fin q → Bool => sgprLmlIter la cg
        (lanczosCols splitL normal (fun _ => signs S) eigh k keyL) θ e.obj mf xl x y)
      (Real.log (gaussDensity (sparseCov e.obj θ xl x) fun i => y i 0 - mf y) / n)
      (likelihoodBound n (k + 1) (θ.sigma ^ 2 + 1 / 10 ^ 10)
        (∑ i, (sparseCov e.obj θ xl x i i - (θ.sigma ^ 2 + 1 / 10 ^ 10))) (sumSq b) (cgTarget tol atol b))
      (probeError n q (Q * Matrix.diagonal (fun i => Real.log (ev i)) * Q.transpose)) := by
  intro b
  have hn0 : (n : ℝ) ≠ 0 := by exact_mod_cast hn.ne'
  have hk := posDef_add_smul_one (C22_gram_posSemidef e θ.kernelParams h xl) jitter_pos'
  obtain ⟨G, hG⟩ : ∃ G : Mat n n, G = (Matrix.of (e.obj.k θ.kernelParams xl x) : Mat m n).transpose *
      ((Matrix.of (e.obj.k θ.kernelParams xl xl) : Mat m m) + (1 / 10 ^ 10 : ℝ) • (1 : Mat m m))⁻¹ *
        (Matrix.of (e.obj.k θ.kernelParams xl x) : Mat m n) := ⟨_, rfl⟩
  have hGp : G.PosSemidef := by
    rw [hG]
    exact psd_sandwich (show ((Matrix.of (e.obj.k θ.kernelParams xl xl) : Mat m m) +
      (1 / 10 ^ 10 : ℝ) • (1 : Mat m m))⁻¹.PosSemidef from hk.inv.posSemidef) _
  have hcov : sparseCov e.obj θ xl x = G + (θ.sigma ^ 2 + 1 / 10 ^ 10) • (1 : Mat n n) := by
    rw [hG]
    rfl
  have hp : (sparseCov e.obj θ xl x).PosDef := hcov ▸ posDef_add_smul_one hGp (noise_pos θ)
  have htr : ∑ i, (sparseCov e.obj θ xl x i i - (θ.sigma ^ 2 + 1 / 10 ^ 10)) = G.trace := by
    rw [hcov]
    simp [Matrix.trace, Matrix.diag_apply]
  have hmv : (sgprHx la θ e.obj xl x : Mat n 1 → Mat n 1) = fun z : Mat n 1 => sparseCov e.obj θ xl x * z :=
    funext fun z => C48_likelihood_operator ex e θ h xl x z
  have e1 : sgprLmlDense la θ e.obj mf xl x y = lmlTail la (sparseCov e.obj θ xl x) b := by
    unfold sgprLmlDense
    simp only
    rw [ex.gram hk, add_assoc, ← add_smul]
    rfl
  have hden : Real.log (gaussDensity (sparseCov e.obj θ xl x) fun i => y i 0 - mf y) / n =
      lmlIterTail (Real.log (sparseCov e.obj θ xl x).det) b (la.solve (sparseCov e.obj θ xl x) b) := by
    rw [lmlIterTail_dense hp ex, div_eq_iff hn0, mul_comm, lmlTail_eq hp ex, log_gaussDensity hp]
    simp only [Finset.univ_unique, Finset.sum_singleton]
    rfl
  have hsol : sparseCov e.obj θ xl x * la.solve (sparseCov e.obj θ xl x) b = b := ex.solve _ _ (posDef_isUnit hp)
  have hstop := hcg (sparseCov e.obj θ xl x) b id hp
  have hval : ∀ S : Fin n → Fin q → Bool, sgprLmlIter la cg
      (lanczosCols splitL normal (fun _ => signs S) eigh k keyL) θ e.obj mf xl x y =
      lmlIterTail (lanczosCols splitL normal (fun _ => signs S) eigh k keyL
        (fun z : Mat n 1 => sparseCov e.obj θ xl x * z)) b
        (cg (fun z : Mat n 1 => sparseCov e.obj θ xl x * z) b id) := by
    intro S
    unfold sgprLmlIter
    simp only
    rw [hmv]
    rfl
  rw [hden, htr]
  simp only [hval]
  rw [hcov] at hr hC hsol hstop ⊢
  exact tail_accuracy eigh hei hn hq hGp (noise_floor θ) splitL normal k keyL hr b _ _
    (((residual_bound hGp (noise_pos θ) hsol).1).trans hstop) Q ev hQ hC

/-- Non-vacuity: every symmetric matrix has the spectral decomposition assumed, every run of one step is exact, an exact
`eigh` and a conjugate gradient routine that stops early exist. -/
example (C : Mat n n) (hC : C.IsHermitian) (splitL : KeyL → KeyL × KeyL) (normal : KeyL → Vec n) (keyL : KeyL) :
    (∃ (Q : Mat n n) (ev : Fin n → ℝ), Q.transpose * Q = 1 ∧ C = Q * Matrix.diagonal ev * Q.transpose) ∧
    (∀ σ : Fin n → Bool, ExactRun splitL normal C.mulVec (0 + 1)
      (fun i => (if σ i then 1 else -1) / Real.sqrt n) (splitL keyL).2) ∧
    Eigh.Exact idealEigh ∧ CGStops (earlyCG (1 - 1 / 10 ^ 5)) (1 / 10 ^ 5) (1 / 10 ^ 7) :=
  ⟨⟨(idealEigh C).2, (idealEigh C).1, idealEigh_exact C hC⟩, fun _ => exactRun_one _ _ _ _ _, idealEigh_exact,
    earlyCG_stops (by norm_num [abs_of_nonneg])⟩

end GPX.Props
