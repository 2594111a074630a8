import Verif.Model.GPR
import Verif.Lemmas.Operations
import Verif.Props.KernelLocal

/-!
# C29: matrix-free products
-/

namespace GPX.Props
open GPX GPX.Spec

variable {d m n o v w : ℕ}

/-- One row of a kernel matrix computed from one sample. -/
theorem k_row {κ : KernelObj d} {p : KPar} (h : SampleWise κ p) (x1 : Batch m d) (x2 : Batch n d)
    (i : Fin m) (q : Fin 1) (j : Fin n) :
    κ.k p (recoverFirstAxis (x1 i)) x2 q j = κ.k p x1 x2 i j :=
  h.k x1 x2 (fun _ : Fin 1 => i) id q j

theorem d01kj_row {κ : KernelObj d} {p : KPar} (h : SampleWise κ p) (x1 : Batch m d) (x2 : Batch n d)
    (J1 : Jac m d v) (J2 : Jac n d w) (i : Fin m) (q : Fin 1) (u : Fin v) (c : Fin (n * w)) :
    κ.d01kj p (recoverFirstAxis (x1 i)) x2 (recoverFirstAxis (J1 i)) J2 (flat q u) c =
      κ.d01kj p x1 x2 J1 J2 (flat i u) c := by
  obtain ⟨j, t, rfl⟩ := flat_surj c
  exact h.d01kj x1 x2 J1 J2 (fun _ : Fin 1 => i) id q u j t

theorem d1kj_row {κ : KernelObj d} {p : KPar} (h : SampleWise κ p) (x1 : Batch m d) (x2 : Batch n d)
    (J2 : Jac n d w) (i : Fin m) (q : Fin 1) (c : Fin (n * w)) :
    κ.d1kj p (recoverFirstAxis (x1 i)) x2 J2 q c = κ.d1kj p x1 x2 J2 i c := by
  obtain ⟨j, t, rfl⟩ := flat_surj c
  exact h.d1kj x1 x2 J2 (fun _ : Fin 1 => i) id q j t

theorem cast_flat_one (i : Fin n) : Fin.cast (mul_one n).symm i = flat i (0 : Fin 1) := by
  apply Fin.ext; simp [flat]

theorem cast_flat_mul (i : Fin n) (u : Fin v) (h : n * v = n * (1 * v)) :
    Fin.cast h (flat i u) = flat i (flat (0 : Fin 1) u) := by
  apply Fin.ext; simp [flat]

theorem smul_one_mul (c : ℝ) (z : Mat n o) (i : Fin n) (a : Fin o) :
    ((c • (1 : Mat n n)) * z) i a = c * z i a := by
  simp

/-- The helper form of C29, for any kernel object that works sample by sample. -/
theorem axLhsFun_eq {κ : KernelObj d} (θ : GPParams) (h : SampleWise κ θ.kernelParams) :
    (∀ {m n o : ℕ} (x1 : Batch m d) (x2 : Batch n d) (z : Mat n o),
      axLhsFun θ κ false x1 x2 z = aLhs θ κ x1 x2 * z) ∧
    (∀ {n o : ℕ} (x1 x2 : Batch n d) (z : Mat n o),
      axLhsFun θ κ true x1 x2 z = aLhsNoise θ κ x1 x2 * z) := by
  refine ⟨fun {m n o} x1 x2 z => ?_, fun {n o} x1 x2 z => ?_⟩
  · ext i c
    simp only [axLhsFun, dropOne, Matrix.submatrix_apply, cast_flat_one, id, Bool.false_eq_true,
      if_false, rowfunToMatvec_none, k_row h x1 x2, Matrix.mul_apply, aLhs, Matrix.of_apply]
  · ext i c
    simp only [axLhsFun, dropOne, Matrix.submatrix_apply, cast_flat_one, id, if_true]
    rw [rowfunToMatvec_some' (mul_one n).symm]
    rw [aLhsNoise, Matrix.add_mul, Matrix.add_apply, smul_one_mul, Matrix.mul_apply]
    simp only [k_row h x1 x2, aLhs, Matrix.of_apply, GPParams.noise]
    rw [← cast_flat_one]
    rfl

theorem axDerivsLhsFun_eq {κ : KernelObj d} (θ : GPParams) (h : SampleWise κ θ.kernelParams) :
    (∀ {m n o v w : ℕ} (x1 : Batch m d) (J1 : Jac m d v) (x2 : Batch n d) (J2 : Jac n d w)
      (z : Mat (n * w) o),
      axDerivsLhsFun θ κ false x1 J1 x2 J2 z = aDerivsLhs θ κ x1 J1 x2 J2 * z) ∧
    (∀ {n o v : ℕ} (x1 : Batch n d) (J1 : Jac n d v) (x2 : Batch n d) (J2 : Jac n d v)
      (z : Mat (n * v) o),
      axDerivsLhsFun θ κ true x1 J1 x2 J2 z = aDerivsLhsNoise θ κ x1 J1 x2 J2 * z) := by
  refine ⟨fun {m n o v w} x1 J1 x2 J2 z => ?_, fun {n o v} x1 J1 x2 J2 z => ?_⟩
  · ext r c
    obtain ⟨i, u, rfl⟩ := flat_surj r
    simp only [axDerivsLhsFun, Matrix.submatrix_apply, cast_flat_mul, id, Bool.false_eq_true,
      if_false, rowfunToMatvec_none, d01kj_row h x1 x2, Matrix.mul_apply, aDerivsLhs,
      Matrix.of_apply]
  · ext r c
    obtain ⟨i, u, rfl⟩ := flat_surj r
    simp only [axDerivsLhsFun, Matrix.submatrix_apply, cast_flat_mul, id, if_true]
    rw [rowfunToMatvec_some' (by rw [one_mul])]
    rw [aDerivsLhsNoise, Matrix.add_mul, Matrix.add_apply, smul_one_mul, Matrix.mul_apply]
    simp only [d01kj_row h x1 x2, aDerivsLhs, Matrix.of_apply, GPParams.noise]
    rw [← cast_flat_mul i u (by rw [one_mul])]
    rfl

theorem kxDerivs1Fun_eq {κ : KernelObj d} (θ : GPParams) (h : SampleWise κ θ.kernelParams)
    (x1 : Batch m d) (x2 : Batch n d) (J2 : Jac n d w) (z : Mat (n * w) o) :
    kxDerivs1Fun θ κ x1 x2 J2 z = Matrix.of (κ.d1kj θ.kernelParams x1 x2 J2) * z := by
  ext i c
  simp only [kxDerivs1Fun, dropOne, Matrix.submatrix_apply, cast_flat_one, id,
    rowfunToMatvec_none, d1kj_row h x1 x2, Matrix.mul_apply, Matrix.of_apply]

/-- **C29.** For every kernel expression, all hyperparameters, datasets and right-hand sides with any number of
columns: the matrix-free product used by the iterative solvers is, entry by entry, the product with the kernel
matrix plus `sigma² + 1e-10` on the diagonal, and this is the matrix the dense solver builds; without noise it
is the product with the plain (possibly rectangular) kernel matrix. -/
theorem C29_matvec (e : KExpr d) (θ : GPParams) :
    (∀ {n o : ℕ} (x1 x2 : Batch n d) (z : Mat n o),
      (∀ i c, axLhsFun θ e.obj true x1 x2 z i c =
        ∑ j, (e.obj.k θ.kernelParams x1 x2 i j +
          if i = j then θ.sigma ^ 2 + 1 / 10 ^ 10 else 0) * z j c) ∧
      axLhsFun θ e.obj true x1 x2 z = aLhsNoise θ e.obj x1 x2 * z) ∧
    (∀ {m n o : ℕ} (x1 : Batch m d) (x2 : Batch n d) (z : Mat n o),
      (∀ i c, axLhsFun θ e.obj false x1 x2 z i c =
        ∑ j, e.obj.k θ.kernelParams x1 x2 i j * z j c) ∧
      axLhsFun θ e.obj false x1 x2 z = aLhs θ e.obj x1 x2 * z) := by
  obtain ⟨h1, h2⟩ := axLhsFun_eq θ (C63_sampleWise e θ.kernelParams)
  refine ⟨fun x1 x2 z => ⟨fun i c => ?_, h2 x1 x2 z⟩, fun x1 x2 z => ⟨fun i c => ?_, h1 x1 x2 z⟩⟩
  · rw [h2, Matrix.mul_apply]
    refine Finset.sum_congr rfl fun j _ => ?_
    simp [aLhsNoise, aLhs, GPParams.noise, noiseJitter, Matrix.one_apply]
  · rw [h1, Matrix.mul_apply]
    rfl

/-- **C29** for derivatives: the same for the jacobian-contracted Hessian kernel, any number of derivative
components, and for the target/derivative kernel used to predict targets. -/
theorem C29_matvec_derivs (e : KExpr d) (θ : GPParams) :
    (∀ {n o v : ℕ} (x1 : Batch n d) (J1 : Jac n d v) (x2 : Batch n d) (J2 : Jac n d v)
      (z : Mat (n * v) o),
      (∀ r c, axDerivsLhsFun θ e.obj true x1 J1 x2 J2 z r c =
        ∑ s, (e.obj.d01kj θ.kernelParams x1 x2 J1 J2 r s +
          if r = s then θ.sigma ^ 2 + 1 / 10 ^ 10 else 0) * z s c) ∧
      axDerivsLhsFun θ e.obj true x1 J1 x2 J2 z = aDerivsLhsNoise θ e.obj x1 J1 x2 J2 * z) ∧
    (∀ {m n o v w : ℕ} (x1 : Batch m d) (J1 : Jac m d v) (x2 : Batch n d) (J2 : Jac n d w)
      (z : Mat (n * w) o),
      (∀ r c, axDerivsLhsFun θ e.obj false x1 J1 x2 J2 z r c =
        ∑ s, e.obj.d01kj θ.kernelParams x1 x2 J1 J2 r s * z s c) ∧
      axDerivsLhsFun θ e.obj false x1 J1 x2 J2 z = aDerivsLhs θ e.obj x1 J1 x2 J2 * z) ∧
    (∀ {m n o w : ℕ} (x1 : Batch m d) (x2 : Batch n d) (J2 : Jac n d w) (z : Mat (n * w) o) i c,
      kxDerivs1Fun θ e.obj x1 x2 J2 z i c =
        ∑ s, e.obj.d1kj θ.kernelParams x1 x2 J2 i s * z s c) := by
  have hs := C63_sampleWise e θ.kernelParams
  obtain ⟨h1, h2⟩ := axDerivsLhsFun_eq θ hs
  refine ⟨fun x1 J1 x2 J2 z => ⟨fun i c => ?_, h2 x1 J1 x2 J2 z⟩,
    fun x1 J1 x2 J2 z => ⟨fun i c => ?_, h1 x1 J1 x2 J2 z⟩, fun x1 x2 J2 z i c => ?_⟩
  · rw [h2, Matrix.mul_apply]
    refine Finset.sum_congr rfl fun j _ => ?_
    simp [aDerivsLhsNoise, aDerivsLhs, GPParams.noise, noiseJitter, Matrix.one_apply]
  · rw [h1, Matrix.mul_apply]
    rfl
  · rw [kxDerivs1Fun_eq θ hs, Matrix.mul_apply]
    rfl

/-- A kernel expression with a repeated feature, and no noise at all beside the jitter. -/
example (x : Batch 5 4) (z : Mat 5 2) (i : Fin 5) (c : Fin 2) :
    let e : KExpr 4 := .sum (.matern52 none) (.prod (.linear (some ⟨3, ![1, 3, 1]⟩)) (.constant none))
    axLhsFun ⟨fun _ => 1, 0⟩ e.obj true x x z i c =
      ∑ j, (e.obj.k (fun _ => 1) x x i j + if i = j then (0 : ℝ) ^ 2 + 1 / 10 ^ 10 else 0) * z j c :=
  ((C29_matvec _ ⟨fun _ => 1, 0⟩).1 x x z).1 i c

end GPX.Props
