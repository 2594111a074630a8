import Verif.Props.Likelihood
import Verif.Props.TrainingPoints
import Verif.Lemmas.GPRTD
import Mathlib.LinearAlgebra.Matrix.SchurComplement

/-!
# C144: adding observations to a trained model
-/

namespace GPX.Props
open GPX GPX.Spec

variable {d m n o q p : ℕ} {la : LinAlg}

theorem hcat_mul_vcat {r a b : ℕ} (A : Mat r a) (B : Mat r b) (x : Mat a o) (y : Mat b o) :
    hcat A B * vcat x y = A * x + B * y := by
  ext i c
  simp [Matrix.mul_apply, Fin.sum_univ_add]

theorem vcat_transpose_mul_vcat {a b : ℕ} (P : Mat a n) (Q : Mat b n) (x : Mat a o) (y : Mat b o) :
    (vcat P Q).transpose * vcat x y = P.transpose * x + Q.transpose * y := by
  ext i c
  simp [Matrix.mul_apply, Fin.sum_univ_add]

/-- Solving a system that has been extended by rows and columns. -/
theorem extended_solve {A : Mat m m} (hA : A.PosDef) {B : Mat m q} {D S : Mat q q} (hS : S.PosDef)
    (hSdef : S = D - B.transpose * A⁻¹ * B) (r1 : Mat m p) (r2 : Mat q p) :
    vcat (hcat A B) (hcat B.transpose D) *
      vcat (A⁻¹ * r1 - A⁻¹ * B * (S⁻¹ * (r2 - B.transpose * A⁻¹ * r1))) (S⁻¹ * (r2 - B.transpose * A⁻¹ * r1)) =
      vcat r1 r2 := by
  have hA' := Matrix.mul_nonsing_inv _ (posDef_isUnit hA)
  set t := S⁻¹ * (r2 - B.transpose * A⁻¹ * r1) with ht
  have hSt : S * t = r2 - B.transpose * A⁻¹ * r1 := by
    rw [ht, ← Matrix.mul_assoc, Matrix.mul_nonsing_inv _ (posDef_isUnit hS), Matrix.one_mul]
  rw [vcat_mul, hcat_mul_vcat, hcat_mul_vcat]
  congr 1
  · have h1 : A * (A⁻¹ * r1) = r1 := by rw [← Matrix.mul_assoc, hA', Matrix.one_mul]
    have h2 : A * (A⁻¹ * B * t) = B * t := by
      rw [Matrix.mul_assoc A⁻¹ B t, ← Matrix.mul_assoc A, hA', Matrix.one_mul]
    rw [Matrix.mul_sub, h1, h2, sub_add_cancel]
  · have : D = S + B.transpose * A⁻¹ * B := by rw [hSdef]; abel
    rw [this, Matrix.add_mul, hSt, Matrix.mul_sub]
    simp only [Matrix.mul_assoc]
    abel

/-- What the extended system gives: the old value plus a correction proportional to the surprise. -/
theorem extended_value {A : Mat m m} (hA : A.PosDef) {B : Mat m q} {D S : Mat q q} (hS : S.PosDef)
    (hSdef : S = D - B.transpose * A⁻¹ * B) (hA' : (vcat (hcat A B) (hcat B.transpose D)).PosDef) (K1 : Mat m n)
    (K2 : Mat q n) (r1 : Mat m p) (r2 : Mat q p) (c : Mat (m + q) p)
    (hc : vcat (hcat A B) (hcat B.transpose D) * c = vcat r1 r2) :
    (vcat K1 K2).transpose * c = K1.transpose * (A⁻¹ * r1) +
      (K2 - B.transpose * A⁻¹ * K1).transpose * S⁻¹ * (r2 - B.transpose * A⁻¹ * r1) := by
  have hsymm : (A⁻¹).transpose = A⁻¹ := hA.inv.isHermitian
  rw [solve_unique (posDef_isUnit hA') hc (extended_solve hA hS hSdef r1 r2), vcat_transpose_mul_vcat]
  rw [Matrix.transpose_sub, Matrix.transpose_mul, Matrix.transpose_mul, hsymm, Matrix.transpose_transpose,
    Matrix.mul_sub]
  simp only [Matrix.mul_assoc, Matrix.sub_mul]
  abel

theorem extended_det {A : Mat m m} (hA : A.PosDef) {B : Mat m q} {D S : Mat q q}
    (hSdef : S = D - B.transpose * A⁻¹ * B) :
    (vcat (hcat A B) (hcat B.transpose D)).det = A.det * S.det := by
  have e : vcat (hcat A B) (hcat B.transpose D) =
      (Matrix.fromBlocks A B B.transpose D).submatrix finSumFinEquiv.symm finSumFinEquiv.symm := by
    ext i j
    refine Fin.addCases (fun i => ?_) (fun i => ?_) i <;> refine Fin.addCases (fun j => ?_) (fun j => ?_) j <;> simp
  have := Matrix.invertibleOfIsUnitDet A (posDef_isUnit hA)
  rw [e, Matrix.det_submatrix_equiv_self, Matrix.det_fromBlocks₁₁, Matrix.invOf_eq_nonsing_inv, hSdef]

/-- The matrices of the extended dataset. -/
theorem appended_lhs (e : KExpr d) (θ : GPParams) (h : Admissible e θ.kernelParams) (xt : Batch m d) (xs : Batch q d) :
    aLhsNoise θ e.obj (Fin.append xt xs) (Fin.append xt xs) =
      vcat (hcat (aLhsNoise θ e.obj xt xt) (aLhs θ e.obj xt xs))
        (hcat (aLhs θ e.obj xt xs).transpose (aLhsNoise θ e.obj xs xs)) := by
  obtain ⟨L, hL, hk⟩ := e.psd θ.kernelParams h
  ext i j
  refine Fin.addCases (fun i => ?_) (fun i => ?_) i <;> refine Fin.addCases (fun j => ?_) (fun j => ?_) j
  · simp [aLhsNoise, aLhs, hk, Matrix.one_apply]
  · have : Fin.castAdd q i ≠ Fin.natAdd m j := by
      intro hh; have := congrArg Fin.val hh; simp at this; omega
    simp [aLhsNoise, aLhs, hk, Matrix.one_apply, this]
  · have : Fin.natAdd m i ≠ Fin.castAdd q j := by
      intro hh; have := congrArg Fin.val hh; simp at this; omega
    simp [aLhsNoise, aLhs, hk, Matrix.one_apply, this, hL.symm (xs i) (xt j)]
  · simp [aLhsNoise, aLhs, hk, Matrix.one_apply]

theorem appended_rows (e : KExpr d) (θ : GPParams) (h : Admissible e θ.kernelParams) (xt : Batch m d) (xs : Batch q d)
    (x : Batch n d) : aLhs θ e.obj (Fin.append xt xs) x = vcat (aLhs θ e.obj xt x) (aLhs θ e.obj xs x) := by
  obtain ⟨L, hL, hk⟩ := e.psd θ.kernelParams h
  ext i j
  refine Fin.addCases (fun i => ?_) (fun i => ?_) i <;> simp [aLhs, hk]

theorem appended_center (yt : Mat m o) (ys : Mat q o) (mu : ℝ) :
    centerBy (vcat yt ys) mu = vcat (centerBy yt mu) (centerBy ys mu) := by
  ext i j
  refine Fin.addCases (fun i => ?_) (fun i => ?_) i <;> simp [centerBy]

/-- Blocks of the covariance of a trained model at two sets of inputs. -/
theorem cov_blocks (ex : la.Exact) (e : KExpr d) (θ : GPParams) (h : Admissible e θ.kernelParams) (xt : Batch m d)
    (xs : Batch q d) (x : Batch n d) :
    let C := predictDenseCov la θ e.obj xt (Fin.append xs x)
    C.submatrix (Fin.castAdd n) (Fin.castAdd n) = predictDenseCov la θ e.obj xt xs ∧
    C.submatrix (Fin.castAdd n) (Fin.natAdd q) = aLhs θ e.obj xs x -
      (aLhs θ e.obj xt xs).transpose * (aLhsNoise θ e.obj xt xt)⁻¹ * aLhs θ e.obj xt x := by
  obtain ⟨L, hL, hk⟩ := e.psd θ.kernelParams h
  intro C
  have hC : C = _ := predictDenseCov_eq ex e θ h xt (Fin.append xs x)
  rw [predictDenseCov_eq ex e θ h xt xs, hC]
  constructor <;> ext i j <;> simp [aLhs, hk, Matrix.mul_apply]

/-- **C144.** Adding observations. A model trained on `(xt, yt)` predicts means and a joint covariance `C` of the new
samples `xs` and of any other inputs `x`. Training it again on all the data, `(xt, yt)` and `(xs, ys)`, gives what the
first model implies:

* the prediction at `x` moves by `C(x, xs) (C(xs, xs) + noise)⁻¹ (ys - old prediction at xs)`;
* the covariance at `x` becomes `C(x, x) - C(x, xs) (C(xs, xs) + noise)⁻¹ C(xs, x)`;
* targets equal to the predictions change no prediction;

for every kernel expression, data and mean function with the same value on both datasets (`zero_mean` always). -/
theorem C144_update (ex : la.Exact) (e : KExpr d) (θ : GPParams) (h : Admissible e θ.kernelParams) (mf : MeanFun)
    (xt : Batch m d) (yt : Mat m o) (xs : Batch q d) (ys : Mat q o) (hmf : mf (vcat yt ys) = mf yt) (x : Batch n d) :
    let old := fitDense la θ e.obj mf xt yt
    let new := fitDense la θ e.obj mf (Fin.append xt xs) (vcat yt ys)
    let C := predictDenseCov la θ e.obj xt (Fin.append xs x)
    let Css := C.submatrix (Fin.castAdd n) (Fin.castAdd n)
    let Csx := C.submatrix (Fin.castAdd n) (Fin.natAdd q)
    let gain : Mat n q := Csx.transpose * (Css + (θ.sigma ^ 2 + 1 / 10 ^ 10) • (1 : Mat q q))⁻¹
    let oldAt : ∀ {k : ℕ}, Batch k d → Mat k o := fun x => predictDense θ e.obj xt x old.1 old.2
    predictDense θ e.obj (Fin.append xt xs) x new.1 new.2 = oldAt x + gain * (ys - oldAt xs) ∧
    predictDenseCov la θ e.obj (Fin.append xt xs) x = predictDenseCov la θ e.obj xt x - gain * Csx ∧
    (ys = oldAt xs → predictDense θ e.obj (Fin.append xt xs) x new.1 new.2 = oldAt x) := by
  intro old new C Css Csx gain oldAt
  obtain ⟨hss, hsx⟩ := cov_blocks ex e θ h xt xs x
  have hA := aLhsNoise_posDef e θ h xt
  have hA' := aLhsNoise_posDef e θ h (Fin.append xt xs)
  rw [appended_lhs e θ h] at hA'
  have hS : (Css + θ.noise • (1 : Mat q q)).PosDef := by
    have : Css = predictDenseCov la θ e.obj xt xs := hss
    rw [this]
    exact posDef_add_smul_one (C33_posterior_covariance ex e θ h xt xs).1 (noise_pos θ)
  have hSdef : Css + θ.noise • (1 : Mat q q) = aLhsNoise θ e.obj xs xs -
      (aLhs θ e.obj xt xs).transpose * (aLhsNoise θ e.obj xt xt)⁻¹ * aLhs θ e.obj xt xs := by
    have : Css = predictDenseCov la θ e.obj xt xs := hss
    rw [this, predictDenseCov_eq ex e θ h,
      show aLhsNoise θ e.obj xs xs = aLhs θ e.obj xs xs + θ.noise • (1 : Mat q q) from rfl]
    abel
  have hgain : gain = (aLhs θ e.obj xs x - (aLhs θ e.obj xt xs).transpose * (aLhsNoise θ e.obj xt xt)⁻¹ *
      aLhs θ e.obj xt x).transpose * (Css + θ.noise • (1 : Mat q q))⁻¹ := by
    rw [noise_val, ← hsx]
  have hold : old.1 = (aLhsNoise θ e.obj xt xt)⁻¹ * centerBy yt (mf yt) := by
    refine solve_unique (posDef_isUnit hA) (ex.solve _ _ (posDef_isUnit hA)) ?_
    rw [← Matrix.mul_assoc, Matrix.mul_nonsing_inv _ (posDef_isUnit hA), Matrix.one_mul]
  have hnew : vcat (hcat (aLhsNoise θ e.obj xt xt) (aLhs θ e.obj xt xs))
      (hcat (aLhs θ e.obj xt xs).transpose (aLhsNoise θ e.obj xs xs)) * new.1 =
      vcat (centerBy yt (mf yt)) (centerBy ys (mf yt)) := by
    rw [← appended_lhs e θ h, ← appended_center, ← hmf]
    exact ex.solve _ _ (posDef_isUnit (aLhsNoise_posDef e θ h (Fin.append xt xs)))
  have hmain : predictDense θ e.obj (Fin.append xt xs) x new.1 new.2 = oldAt x + gain * (ys - oldAt xs) := by
    have key := extended_value hA hS hSdef hA' (aLhs θ e.obj xt x) (aLhs θ e.obj xs x) _ _ _ hnew
    rw [← hgain, ← appended_rows e θ h] at key
    have e1 : predictDense θ e.obj (Fin.append xt xs) x new.1 new.2 =
        addScalar (mf (vcat yt ys)) ((aLhs θ e.obj (Fin.append xt xs) x).transpose * new.1) := rfl
    have e2 : ∀ {k : ℕ} (x : Batch k d), oldAt x = addScalar (mf yt) ((aLhs θ e.obj xt x).transpose * old.1) :=
      fun x => rfl
    have e3 : ys - oldAt xs = centerBy ys (mf yt) -
        (aLhs θ e.obj xt xs).transpose * (aLhsNoise θ e.obj xt xt)⁻¹ * centerBy yt (mf yt) := by
      rw [e2, hold, ← Matrix.mul_assoc]
      ext i c
      simp only [addScalar, centerBy, Matrix.sub_apply, Matrix.of_apply]
      ring
    rw [e1, e2, key, hmf, e3, hold]
    ext i c
    simp only [addScalar, Matrix.add_apply, Matrix.of_apply]
    ring
  refine ⟨hmain, ?_, fun hy => ?_⟩
  · have hinv : vcat (hcat (aLhsNoise θ e.obj xt xt) (aLhs θ e.obj xt xs))
        (hcat (aLhs θ e.obj xt xs).transpose (aLhsNoise θ e.obj xs xs)) *
        ((vcat (hcat (aLhsNoise θ e.obj xt xt) (aLhs θ e.obj xt xs))
          (hcat (aLhs θ e.obj xt xs).transpose (aLhsNoise θ e.obj xs xs)))⁻¹ *
          vcat (aLhs θ e.obj xt x) (aLhs θ e.obj xs x)) = vcat (aLhs θ e.obj xt x) (aLhs θ e.obj xs x) := by
      rw [← Matrix.mul_assoc, Matrix.mul_nonsing_inv _ (posDef_isUnit hA'), Matrix.one_mul]
    have key := extended_value hA hS hSdef hA' (aLhs θ e.obj xt x) (aLhs θ e.obj xs x) _ _ _ hinv
    rw [predictDenseCov_eq ex e θ h, predictDenseCov_eq ex e θ h, appended_rows e θ h, appended_lhs e θ h,
      Matrix.mul_assoc, key, ← hgain, ← hsx, ← Matrix.mul_assoc]
    abel
  · rw [hmain, hy, sub_self, Matrix.mul_zero, add_zero]

/-- **C144**, likelihood: the likelihood of all the data is the likelihood of the first part times the density of the
new targets under the predictions of the model trained on the first part (mean the predictions, covariance the
predictive covariance plus the noise). `log_marginal_likelihood` is per sample, hence the factors. -/
theorem C144_chain_rule (ex : la.Exact) (e : KExpr d) (θ : GPParams) (h : Admissible e θ.kernelParams) (mf : MeanFun)
    (xt : Batch m d) (yt : Mat m 1) (xs : Batch q d) (ys : Mat q 1) (hmf : mf (vcat yt ys) = mf yt) :
    let old := fitDense la θ e.obj mf xt yt
    ((m + q : ℕ) : ℝ) * lmlDense la θ e.obj mf (Fin.append xt xs) (vcat yt ys) =
      m * lmlDense la θ e.obj mf xt yt +
      Real.log (gaussDensity (predictDenseCov la θ e.obj xt xs + (θ.sigma ^ 2 + 1 / 10 ^ 10) • (1 : Mat q q))
        fun i => ys i 0 - predictDense θ e.obj xt xs old.1 old.2 i 0) := by
  intro old
  have hA := aLhsNoise_posDef e θ h xt
  have hA' := aLhsNoise_posDef e θ h (Fin.append xt xs)
  set S := predictDenseCov la θ e.obj xt xs + θ.noise • (1 : Mat q q) with hSd
  have hS : S.PosDef := posDef_add_smul_one (C33_posterior_covariance ex e θ h xt xs).1 (noise_pos θ)
  have hSdef : S = aLhsNoise θ e.obj xs xs -
      (aLhs θ e.obj xt xs).transpose * (aLhsNoise θ e.obj xt xt)⁻¹ * aLhs θ e.obj xt xs := by
    rw [hSd, predictDenseCov_eq ex e θ h,
      show aLhsNoise θ e.obj xs xs = aLhs θ e.obj xs xs + θ.noise • (1 : Mat q q) from rfl]
    abel
  have hold : old.1 = (aLhsNoise θ e.obj xt xt)⁻¹ * centerBy yt (mf yt) := by
    refine solve_unique (posDef_isUnit hA) (ex.solve _ _ (posDef_isUnit hA)) ?_
    rw [← Matrix.mul_assoc, Matrix.mul_nonsing_inv _ (posDef_isUnit hA), Matrix.one_mul]
  have l1 := lmlTail_eq hA' ex (centerBy (vcat yt ys) (mf (vcat yt ys)))
  have l2 := lmlTail_eq hA ex (centerBy yt (mf yt))
  have l3 := log_gaussDensity hS fun i => ys i 0 - predictDense θ e.obj xt xs old.1 old.2 i 0
  rw [noise_val] at hSd
  rw [hSd] at l3
  -- quadratic forms as matrix products
  have quad : ∀ {k : ℕ} (M : Mat k k) (r : Mat k 1), ∑ c, ∑ i, ∑ j, r i c * M i j * r j c =
      (r.transpose * (M * r)) 0 0 := by
    intro k M r
    simp only [Fin.sum_univ_one, Matrix.mul_apply, Matrix.transpose_apply, Finset.mul_sum, Fin.isValue]
    exact Finset.sum_congr rfl fun i _ => Finset.sum_congr rfl fun j _ => by ring
  set r : Mat q 1 := centerBy ys (mf yt) -
    (aLhs θ e.obj xt xs).transpose * (aLhsNoise θ e.obj xt xt)⁻¹ * centerBy yt (mf yt) with hr
  have hres : ∀ i, ys i 0 - predictDense θ e.obj xt xs old.1 old.2 i 0 = r i 0 := fun i => by
    have e2 : predictDense θ e.obj xt xs old.1 old.2 i 0 =
      mf yt + ((aLhs θ e.obj xt xs).transpose * old.1) i 0 := rfl
    rw [e2, hold, ← Matrix.mul_assoc, hr]
    simp only [centerBy, Matrix.sub_apply, Matrix.of_apply]
    ring
  have hq := quad (aLhsNoise θ e.obj (Fin.append xt xs) (Fin.append xt xs))⁻¹ (centerBy (vcat yt ys) (mf yt))
  have hsol : vcat (hcat (aLhsNoise θ e.obj xt xt) (aLhs θ e.obj xt xs))
      (hcat (aLhs θ e.obj xt xs).transpose (aLhsNoise θ e.obj xs xs)) *
      ((aLhsNoise θ e.obj (Fin.append xt xs) (Fin.append xt xs))⁻¹ * centerBy (vcat yt ys) (mf yt)) =
      vcat (centerBy yt (mf yt)) (centerBy ys (mf yt)) := by
    rw [← appended_lhs e θ h, ← Matrix.mul_assoc, Matrix.mul_nonsing_inv _ (posDef_isUnit hA'), Matrix.one_mul,
      appended_center]
  have key := extended_value hA hS hSdef (appended_lhs e θ h xt xs ▸ hA') (centerBy yt (mf yt)) (centerBy ys (mf yt))
    _ _ _ hsol
  rw [← appended_center, ← hr, Matrix.mul_assoc] at key
  rw [key, Matrix.add_apply, ← quad, ← quad] at hq
  have hdet : Real.log (aLhsNoise θ e.obj (Fin.append xt xs) (Fin.append xt xs)).det =
      Real.log (aLhsNoise θ e.obj xt xt).det + Real.log S.det := by
    rw [appended_lhs e θ h, extended_det hA hSdef, Real.log_mul hA.det_pos.ne' hS.det_pos.ne']
  rw [hmf, hq, hdet] at l1
  change ((m + q : ℕ) : ℝ) * lmlTail la (aLhsNoise θ e.obj (Fin.append xt xs) (Fin.append xt xs))
      (centerBy (vcat yt ys) (mf (vcat yt ys))) = m * lmlTail la (aLhsNoise θ e.obj xt xt) (centerBy yt (mf yt)) + _
  rw [hmf, l1, l2, l3, ← hSd]
  simp only [hres, Fin.sum_univ_one, Nat.cast_add, Fin.isValue]
  ring

/-- Non-vacuity: `zero_mean` has the same value on all datasets, `data_mean` on some; and an admissible kernel. -/
example : (∀ (yt : Mat 3 1) (ys : Mat 2 1), zeroMean (vcat yt ys) = zeroMean yt) ∧
    dataMean (vcat (Matrix.of fun i _ => (i.val : ℝ) : Mat 3 1) (Matrix.of fun i _ => (2 * i.val : ℝ) : Mat 2 1)) =
      dataMean (Matrix.of fun i _ => (i.val : ℝ) : Mat 3 1) ∧
    Admissible (.prod (.matern52 none) (.constant none) : KExpr 2) (fun _ => 1) := by
  refine ⟨fun _ _ => rfl, ?_, by simp [Admissible, KPar.val, KPar.sub]⟩
  simp only [dataMean, Fin.sum_univ_add]
  simp [Fin.sum_univ_succ]
  norm_num

end GPX.Props
