import Verif.Lemmas.StrictKernels
import Verif.Props.TrainingPoints

/-!
# C161: kernels that tell inputs apart

`Spec.TellsApart e p x` (Spec/Strict.lean) says when the kernel expression tells the samples of `x` apart from each other: for a
squared exponential or Matern kernel, when no two samples have the same active features.
-/

namespace GPX.Props
open GPX GPX.Spec Matrix

variable {d m n o : ℕ} {la : LinAlg}

/-- Strict Schur complement with noise on one block. -/
theorem schur_noise_pd {K : Mat m m} {B : Mat m n} {D : Mat n n} {t : ℝ} (ht : 0 < t)
    (h : (Matrix.fromBlocks K B B.transpose D).PosSemidef) (hD : D.PosDef) :
    (D - B.transpose * (K + t • (1 : Mat m m))⁻¹ * B).PosDef := by
  have hK : K.PosSemidef := by
    have := h.submatrix (Sum.inl : Fin m → Fin m ⊕ Fin n)
    refine (congrArg Matrix.PosSemidef ?_).mp this
    ext i j; rfl
  set A := K + t • (1 : Mat m m) with hA
  have hAp : A.PosDef := posDef_add_smul_one hK ht
  have hu := posDef_isUnit hAp
  have hS := schur_psd hAp B D (blocks_noise ht.le h)
  refine posDef_iff_dotProduct_mulVec.mpr ⟨hS.1, fun {c} hc => ?_⟩
  set w := A⁻¹ *ᵥ (B *ᵥ c) with hw
  have hAw : A *ᵥ w = B *ᵥ c := by
    rw [hw, Matrix.mulVec_mulVec, Matrix.mul_nonsing_inv _ hu, Matrix.one_mulVec]
  have e1 : star c ⬝ᵥ ((D - B.transpose * A⁻¹ * B) *ᵥ c) = c ⬝ᵥ (D *ᵥ c) - w ⬝ᵥ (A *ᵥ w) := by
    have h1 : (B.transpose * A⁻¹ * B) *ᵥ c = B.transpose *ᵥ w := by
      rw [hw, Matrix.mulVec_mulVec, Matrix.mulVec_mulVec, Matrix.mul_assoc]
    rw [star_trivial, Matrix.sub_mulVec, dotProduct_sub, h1, Matrix.dotProduct_mulVec c B.transpose,
      Matrix.vecMul_transpose, ← hAw, dotProduct_comm (A *ᵥ w) w]
  have e2 : 0 ≤ w ⬝ᵥ (K *ᵥ w) - 2 * (w ⬝ᵥ (A *ᵥ w)) + c ⬝ᵥ (D *ᵥ c) := by
    have h1 := h.dotProduct_mulVec_nonneg (Sum.elim (-w) c)
    rw [star_trivial, Matrix.fromBlocks_mulVec, sumElim_dotProduct_sumElim] at h1
    simp only [Sum.elim_comp_inl, Sum.elim_comp_inr, Matrix.mulVec_neg, dotProduct_add, neg_dotProduct,
      dotProduct_neg, neg_neg] at h1
    rw [Matrix.dotProduct_mulVec c B.transpose, Matrix.vecMul_transpose, ← hAw, dotProduct_comm (A *ᵥ w) w] at h1
    linarith
  have e3 : w ⬝ᵥ (A *ᵥ w) = w ⬝ᵥ (K *ᵥ w) + t * (w ⬝ᵥ w) := by
    rw [hA, Matrix.add_mulVec, Matrix.smul_mulVec, Matrix.one_mulVec, dotProduct_add, dotProduct_smul, smul_eq_mul]
  rw [e1]
  by_cases hw0 : w = 0
  · have := (posDef_iff_dotProduct_mulVec.mp hD).2 hc
    rw [star_trivial] at this
    rw [hw0]
    simpa using this
  · have h0 : 0 < w ⬝ᵥ w := by
      have := dotProduct_star_self_pos_iff.mpr hw0
      simpa using this
    nlinarith [mul_pos ht h0]

/-- **C161.** For every kernel expression and every set of samples that it tells apart, the Gram matrix is positive definite,
not only semidefinite: it is invertible without noise. -/
theorem C161_gram (e : KExpr d) (p : KPar) (x : Batch n d) (h : TellsApart e p x) :
    (Matrix.of (e.obj.k p x x) : Mat n n).PosDef := by
  obtain ⟨R, hR, hx⟩ := h
  obtain ⟨S, L, hS, hL, hk⟩ := strict_of_resolves hR
  refine (congrArg Matrix.PosDef ?_).mp (hL.pd x fun i j hij => hx i j (hS _ _ hij))
  ext i j
  exact (hk x x i j).symm

/-- The condition is needed: with a repeated sample the Gram matrix of no kernel expression is positive definite. -/
theorem C161_repeated (e : KExpr d) (p : KPar) (ha : Admissible e p) (x : Batch n d) (i j : Fin n) (hij : i ≠ j)
    (h : x i = x j) : ¬ (Matrix.of (e.obj.k p x x) : Mat n n).PosDef := by
  intro hp
  obtain ⟨L, -, hk⟩ := e.psd p ha
  have hu := posDef_isUnit hp
  have h0 : (Matrix.of (e.obj.k p x x) : Mat n n).det = 0 :=
    Matrix.det_zero_of_row_eq hij (funext fun l => by
      simp only [Matrix.of_apply]
      rw [hk, hk, h])
  rw [h0] at hu
  exact not_isUnit_zero hu

/-- **C161**, predictions at the training inputs. With a fixed mean, for every table of values there is exactly one table of targets
for which the trained model predicts these values: every table of values is reached, and different targets never give the same
predictions. -/
theorem C161_predictions (ex : la.Exact) (e : KExpr d) (θ : GPParams) (mf : MeanFun) (c₀ : ℝ) (x : Batch n d)
    (hmf : ∀ y : Mat n o, mf y = c₀) (h : TellsApart e θ.kernelParams x) (z : Mat n o) :
    ∃! y : Mat n o, predictDense θ e.obj x x (fitDense la θ e.obj mf x y).1 (fitDense la θ e.obj mf x y).2 = z := by
  have hG := C161_gram e θ.kernelParams x h
  obtain ⟨R, hR, -⟩ := h
  have ha := hR.admissible
  set K : Mat n n := Matrix.of (e.obj.k θ.kernelParams x x) with hK
  have hu := posDef_isUnit hG
  have hsym : K.transpose = K := posDef_transpose hG.posSemidef
  have hpred : ∀ y : Mat n o, predictDense θ e.obj x x (fitDense la θ e.obj mf x y).1 (fitDense la θ e.obj mf x y).2 =
      addScalar c₀ (K * (fitDense la θ e.obj mf x y).1) := by
    intro y
    have h1 : (fitDense la θ e.obj mf x y).2 = c₀ := hmf y
    rw [h1]
    change addScalar c₀ (K.transpose * _) = _
    rw [hsym]
  have hsys : ∀ y : Mat n o, (K + θ.noise • (1 : Mat n n)) * (fitDense la θ e.obj mf x y).1 = centerBy y c₀ := by
    intro y
    have h1 := ex.solve (aLhsNoise θ e.obj x x) (centerBy y (mf y))
      (posDef_isUnit (posDef_add_smul_one hG.posSemidef (noise_pos θ)))
    rw [hmf y] at h1
    have h2 : (fitDense la θ e.obj mf x y).1 = la.solve (aLhsNoise θ e.obj x x) (centerBy y c₀) := by
      simp only [fitDense, hmf y]
    rw [h2]
    exact h1
  have hN := posDef_isUnit (posDef_add_smul_one hG.posSemidef (noise_pos θ))
  refine ⟨Matrix.of fun i a => c₀ + ((K + θ.noise • (1 : Mat n n)) * (K⁻¹ * centerBy z c₀)) i a, ?_, fun y hy => ?_⟩
  · simp only
    set y : Mat n o := Matrix.of fun i a => c₀ + ((K + θ.noise • (1 : Mat n n)) * (K⁻¹ * centerBy z c₀)) i a with hy
    have h1 : centerBy y c₀ = (K + θ.noise • (1 : Mat n n)) * (K⁻¹ * centerBy z c₀) := by
      ext i a
      simp [hy, centerBy]
    have h2 : (fitDense la θ e.obj mf x y).1 = K⁻¹ * centerBy z c₀ := by
      have := hsys y
      rw [h1] at this
      exact solve_unique hN this rfl
    rw [hpred, h2, ← Matrix.mul_assoc, Matrix.mul_nonsing_inv _ hu, Matrix.one_mul]
    ext i a
    simp [addScalar, centerBy]
  · have h1 : K * (fitDense la θ e.obj mf x y).1 = centerBy z c₀ := by
      rw [← hy, hpred]
      ext i a
      simp [addScalar, centerBy]
    have h2 : (fitDense la θ e.obj mf x y).1 = K⁻¹ * centerBy z c₀ := by
      rw [← h1, ← Matrix.mul_assoc, Matrix.nonsing_inv_mul _ hu, Matrix.one_mul]
    ext i a
    rw [← h2, Matrix.of_apply, hsys]
    simp [centerBy]

/-- **C161**, training error. There is a number `κ > 0` that depends only on kernel, hyperparameters and training inputs such that
for every noise, mean function and targets the squared training error is at most the square of
`(sigma² + 1e-10) / (κ + sigma² + 1e-10)` times the squared deviations of the targets from the mean. -/
theorem C161_training_error (ex : la.Exact) (e : KExpr d) (p : KPar) (x : Batch n d) (h : TellsApart e p x) :
    ∃ κ : ℝ, 0 < κ ∧ ∀ (sigma : ℝ) (mf : MeanFun) (o : ℕ) (y : Mat n o) (a : Fin o),
      let θ : GPParams := ⟨p, sigma⟩
      let fit := fitDense la θ e.obj mf x y
      let noise := sigma ^ 2 + 1 / 10 ^ 10
      ∑ i, (y i a - predictDense θ e.obj x x fit.1 fit.2 i a) ^ 2 ≤
        (noise / (κ + noise)) ^ 2 * ∑ i, (y i a - mf y) ^ 2 := by
  obtain ⟨κ, hκ, hlow⟩ := posDef_lower (C161_gram e p x h)
  obtain ⟨R, hR, -⟩ := h
  have ha := hR.admissible
  refine ⟨κ, hκ, ?_⟩
  intro sigma mf o y a θ fit noise
  have hc := fit_column ex e θ ha mf x y a
  have hp := (C31_fit_solves ex e θ ha mf x y).2.2.2
  have := ridge_contracts hκ.le (noise_pos θ) hlow (fun i => fit.1 i a) (fun i => y i a - mf y) hc
  refine le_trans (le_of_eq ?_) this
  refine Finset.sum_congr rfl fun i _ => ?_
  have : predictDense θ e.obj x x fit.1 fit.2 i a = _ := hp i a
  rw [this, noise_val]
  ring

/-- **C161**, signal to noise. Put a variance in front of the kernel: for every tolerance, when the variance is large enough the
predictions at the training inputs reproduce all targets, whatever they are, within the tolerance times their deviations from the
mean. -/
theorem C161_reproduces (ex : la.Exact) (e : KExpr d) (q : KPar) (x : Batch n d) (h : TellsApart e q x) (b : Option (Dims d))
    (sigma ε : ℝ) (hε : 0 < ε) :
    ∃ v₀ : ℝ, 0 < v₀ ∧ ∀ (p : KPar), v₀ ≤ (p.sub "kernel1").val "variance" → p.sub "kernel2" = q →
      ∀ (mf : MeanFun) (o : ℕ) (y : Mat n o) (a : Fin o),
      let κ := (KExpr.prod (.constant b) e).obj
      let fit := fitDense la ⟨p, sigma⟩ κ mf x y
      ∑ i, (y i a - predictDense ⟨p, sigma⟩ κ x x fit.1 fit.2 i a) ^ 2 ≤ ε * ∑ i, (y i a - mf y) ^ 2 := by
  obtain ⟨κ, hκ, hlow⟩ := posDef_lower (C161_gram e q x h)
  obtain ⟨R, hR, -⟩ := h
  set t := (⟨q, sigma⟩ : GPParams).noise with ht
  have ht0 : 0 < t := noise_pos _
  refine ⟨t / (κ * min ε 1), by positivity, ?_⟩
  intro p hv hq mf o y a K fit
  set v := (p.sub "kernel1").val "variance" with hvd
  have hv0 : 0 < v := lt_of_lt_of_le (by positivity) hv
  have ha : Admissible (KExpr.prod (.constant b) e) p := ⟨hv0.le, hq ▸ hR.admissible⟩
  set θ : GPParams := ⟨p, sigma⟩
  have hlow' : ∀ c : Fin n → ℝ, (v * κ) * ∑ i, c i ^ 2 ≤
      ∑ i, ∑ j, c i * (Matrix.of (K.k p x x) : Mat n n) i j * c j := by
    intro c
    have e1 : ∑ i, ∑ j, c i * (Matrix.of (K.k p x x) : Mat n n) i j * c j =
        v * ∑ i, ∑ j, c i * (Matrix.of (e.obj.k q x x) : Mat n n) i j * c j := by
      rw [Finset.mul_sum]
      refine Finset.sum_congr rfl fun i _ => ?_
      rw [Finset.mul_sum]
      refine Finset.sum_congr rfl fun j _ => ?_
      have : K.k p x x i j = v * e.obj.k q x x i j := by
        have h1 : K.k p x x i j = (KExpr.constant b).obj.k (p.sub "kernel1") x x i j * e.obj.k (p.sub "kernel2") x x i j := rfl
        have h2 : (KExpr.constant b).obj.k (p.sub "kernel1") x x i j = v := (closed_constant b (p.sub "kernel1")).k x x i j
        rw [h1, h2, hq]
      simp only [Matrix.of_apply, this]
      ring
    rw [e1, mul_assoc]
    exact mul_le_mul_of_nonneg_left (hlow c) hv0.le
  have hc := fit_column ex (KExpr.prod (.constant b) e) θ ha mf x y a
  have hp := (C31_fit_solves ex (KExpr.prod (.constant b) e) θ ha mf x y).2.2.2
  have key := ridge_contracts (mul_pos hv0 hκ).le (noise_pos θ) hlow' (fun i => fit.1 i a) (fun i => y i a - mf y) hc
  have e2 : ∑ i, (y i a - predictDense θ K x x fit.1 fit.2 i a) ^ 2 = ∑ i, (θ.noise * fit.1 i a) ^ 2 := by
    refine Finset.sum_congr rfl fun i _ => ?_
    have : predictDense θ K x x fit.1 fit.2 i a = _ := hp i a
    rw [this, noise_val]
    ring
  rw [e2]
  refine key.trans (mul_le_mul_of_nonneg_right ?_ (Finset.sum_nonneg fun i _ => sq_nonneg _))
  have hn : θ.noise = t := rfl
  have hm : 0 < min ε 1 := lt_min hε one_pos
  have h1 : t ≤ v * κ * min ε 1 := by
    have := (div_le_iff₀ (by positivity)).mp hv
    linarith
  have h2 : t / (v * κ + t) ≤ min ε 1 := by
    rw [div_le_iff₀ (by positivity)]
    nlinarith
  have h3 : 0 ≤ t / (v * κ + t) := by positivity
  rw [hn]
  calc (t / (v * κ + t)) ^ 2 ≤ (min ε 1) ^ 2 := pow_le_pow_left₀ h3 h2 2
    _ ≤ min ε 1 * 1 := by rw [sq]; exact mul_le_mul_of_nonneg_left (min_le_right _ _) hm.le
    _ ≤ ε := by rw [mul_one]; exact min_le_left _ _

/-- **C161**, new inputs. Whatever the training inputs (duplicates allowed) and the noise, the covariance predicted at inputs that the
kernel tells apart is positive definite: training never makes the model certain of anything at a new input, nor of any combination of
values at different inputs. -/
theorem C161_posterior (ex : la.Exact) (e : KExpr d) (θ : GPParams) (xt : Batch m d) (x : Batch n d)
    (h : TellsApart e θ.kernelParams x) : (predictDenseCov la θ e.obj xt x).PosDef := by
  have hD := C161_gram e θ.kernelParams x h
  obtain ⟨R, hR, -⟩ := h
  rw [predictDenseCov_eq ex e θ hR.admissible]
  exact schur_noise_pd (noise_pos θ) (joint_psd e θ.kernelParams hR.admissible xt x) hD

/-! ## Non-vacuity -/

/-- A squared exponential over all features tells apart exactly the samples that are different. -/
theorem tellsApart_se (p : KPar) (hp : 0 < p.val "lengthscale") (x : Batch n d) (hx : Function.Injective x) :
    TellsApart (.squaredExponential none) p x :=
  ⟨_, .squaredExponential hp, fun _ _ h => hx (funext fun f => h f)⟩

/-- A product of a Matern kernel of the first feature, a periodic kernel of the second and a variance, plus a linear trend, tells the
samples `(0, 0)`, `(0, 1)`, `(1, 0)` apart; neither of the two factors does. -/
example : TellsApart (.sum (.prod (.constant none) (.prod (.matern32 (some ⟨1, fun _ => 0⟩)) (.expSinSquared (some ⟨1, fun _ => 1⟩))))
    (.linear none) : KExpr 2) (fun _ => 2) (![![0, 0], ![0, 1], ![1, 0]] : Batch 3 2) := by
  refine ⟨_, .sum_left (.prod (.constant (by norm_num [KPar.val, KPar.sub])) (.prod (.matern32 (by norm_num [KPar.val, KPar.sub]))
    (.expSinSquared (by norm_num [KPar.val, KPar.sub]) (by norm_num [KPar.val, KPar.sub])))) trivial, fun i j h => ?_⟩
  obtain ⟨-, h1, h2⟩ := h
  have h1 : (![![0, 0], ![0, 1], ![1, 0]] : Batch 3 2) i 0 = (![![0, 0], ![0, 1], ![1, 0]] : Batch 3 2) j 0 := h1 (0 : Fin 1)
  obtain ⟨z, hz⟩ : ∃ z : ℤ, (![![0, 0], ![0, 1], ![1, 0]] : Batch 3 2) i 1 - (![![0, 0], ![0, 1], ![1, 0]] : Batch 3 2) j 1 =
    z * 2 := h2 (0 : Fin 1)
  have hpar : ∀ z : ℤ, (1 : ℝ) ≠ z * 2 := fun z hz => by
    have : (1 : ℤ) = z * 2 := by exact_mod_cast hz
    omega
  have hpar' : ∀ z : ℤ, (-1 : ℝ) ≠ z * 2 := fun z hz => by
    have : (-1 : ℤ) = z * 2 := by exact_mod_cast hz
    omega
  fin_cases i <;> fin_cases j <;> simp_all

example : (Matrix.of ((KExpr.matern12 none : KExpr 1).obj.k (fun _ => 1) (![![0], ![1]] : Batch 2 1) ![![0], ![1]]) : Mat 2 2).PosDef :=
  C161_gram _ _ _ ⟨_, .matern12 (by norm_num [KPar.val]), fun i j h => by
    have : (![![0], ![1]] : Batch 2 1) i 0 = (![![0], ![1]] : Batch 2 1) j 0 := h (0 : Fin 1)
    fin_cases i <;> fin_cases j <;> simp_all⟩

end GPX.Props
