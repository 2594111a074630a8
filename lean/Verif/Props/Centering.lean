import Verif.Model.Centering
import Mathlib.Analysis.InnerProductSpace.Basic
import Mathlib.Analysis.Matrix.PosDef
import Mathlib.Tactic.FieldSimp
import Mathlib.Tactic.Linarith
import Mathlib.Tactic.LinearCombination

/-!
# C41: kernel centering
-/

namespace GPX.Props
open GPX

variable {n m : ℕ} {E : Type} [NormedAddCommGroup E] [InnerProductSpace ℝ E]

/-- **C41**, means: for every square matrix (symmetric or not) with at least one row, the columns of the matrix centered
with its own column means have zero mean; for a symmetric matrix so do the rows. -/
theorem C41_zero_means (hn : 0 < n) (k : Arr2 n n) :
    (∀ j, ∑ i, kernelCenter k (meanAxis0 k) i j = 0) ∧
    ((∀ i j, k i j = k j i) → ∀ i, ∑ j, kernelCenter k (meanAxis0 k) i j = 0) := by
  have hn' : (n : ℝ) ≠ 0 := by exact_mod_cast hn.ne'
  have h1 : ∀ j, ∑ i, kernelCenter k (meanAxis0 k) i j = 0 := by
    intro j
    simp only [kernelCenter, meanAxis0, vecMean, Finset.sum_add_distrib, Finset.sum_sub_distrib, Finset.sum_const,
      Finset.card_univ, Fintype.card_fin, nsmul_eq_mul]
    field_simp
    ring
  refine ⟨h1, fun hs i => ?_⟩
  rw [← h1 i]
  refine Finset.sum_congr rfl fun j _ => ?_
  simp only [kernelCenter]
  rw [hs i j]
  ring

/-- The mean feature vector of the training points. -/
noncomputable def meanFeature (φ : Fin n → E) : E := (1 / (n : ℝ)) • ∑ l, φ l

theorem inner_meanFeature (φ : Fin n → E) (x : E) :
    inner ℝ (meanFeature φ) x = (∑ l, inner ℝ (φ l) x) / n := by
  rw [meanFeature, real_inner_smul_left, sum_inner]
  ring

/-- **C41**, train/test block: for every feature map into a real inner product space, every training set and every test
set, centering `k(x_train, x_test)` with the training mean gives the inner products of the features centered at the
mean training feature. The training block is the case `ψ = φ`. -/
theorem C41_train_test (φ : Fin n → E) (ψ : Fin m → E) :
    kernelCenter (fun i j => inner ℝ (φ i) (ψ j)) (meanAxis0 fun i j => inner ℝ (φ i) (φ j)) =
      fun i j => inner ℝ (φ i - meanFeature φ) (ψ j - meanFeature φ) := by
  funext i j
  have e1 := inner_meanFeature φ (ψ j)
  have e2 := inner_meanFeature φ (φ i)
  have e3 : inner ℝ (meanFeature φ) (meanFeature φ) =
      vecMean (meanAxis0 fun i j => (inner ℝ (φ i) (φ j) : ℝ)) := by
    rw [inner_meanFeature]
    unfold vecMean meanAxis0
    congr 1
    exact Finset.sum_congr rfl fun l _ => by rw [real_inner_comm, inner_meanFeature]
  rw [inner_sub_left, inner_sub_right, inner_sub_right, e1, real_inner_comm (meanFeature φ) (φ i), e2, e3]
  simp only [kernelCenter, meanAxis0]
  ring

/-- **C41**, test block: centering `k(x_test, x_test)` with the training means gives the inner products of the test
features centered at the mean training feature. -/
theorem C41_test_test (φ : Fin n → E) (ψ : Fin m → E) :
    kernelCenterTestTest (fun i j => inner ℝ (ψ i) (ψ j)) (meanAxis0 fun i j => inner ℝ (φ i) (φ j))
        (meanAxis0 fun i j => inner ℝ (φ i) (ψ j)) =
      fun i j => inner ℝ (ψ i - meanFeature φ) (ψ j - meanFeature φ) := by
  funext i j
  have e1 := inner_meanFeature φ (ψ j)
  have e2 := inner_meanFeature φ (ψ i)
  have e3 : inner ℝ (meanFeature φ) (meanFeature φ) =
      vecMean (meanAxis0 fun i j => (inner ℝ (φ i) (φ j) : ℝ)) := by
    rw [inner_meanFeature]
    unfold vecMean meanAxis0
    congr 1
    exact Finset.sum_congr rfl fun l _ => by rw [real_inner_comm, inner_meanFeature]
  rw [inner_sub_left, inner_sub_right, inner_sub_right, e1, real_inner_comm (meanFeature φ) (ψ i), e2, e3]
  simp only [kernelCenterTestTest, meanAxis0]
  ring

/-- **C41**, consequence: centering a symmetric positive semidefinite matrix gives a symmetric positive semidefinite
matrix, of any size. -/
theorem C41_posSemidef (K : Matrix (Fin n) (Fin n) ℝ) (hK : K.PosSemidef) :
    (Matrix.of (kernelCenter K (meanAxis0 K))).PosSemidef := by
  have hsym : ∀ i j, K i j = K j i := fun i j => by
    have := congrFun (congrFun hK.isHermitian i) j
    simpa using this.symm
  let H : Matrix (Fin n) (Fin n) ℝ := Matrix.of fun i a => (if i = a then 1 else 0) - 1 / (n : ℝ)
  have hH : ∀ (i : Fin n) (v : Fin n → ℝ), ∑ a, H i a * v a = v i - (∑ a, v a) / n := by
    intro i v
    simp only [H, Matrix.of_apply, sub_mul, ite_mul, one_mul, zero_mul, Finset.sum_sub_distrib, Finset.sum_ite_eq,
      Finset.mem_univ, if_true, ← Finset.mul_sum]
    ring
  have e : Matrix.of (kernelCenter K (meanAxis0 K)) = H * K * H.conjTranspose := by
    ext i j
    rw [Matrix.mul_apply]
    have h1 : ∀ b, (H * K) i b = K i b - (∑ a, K a b) / n := fun b => by
      rw [Matrix.mul_apply, hH i fun a => K a b]
    have h2 : ∑ b, (H * K) i b * H.conjTranspose b j = ∑ b, H j b * (H * K) i b :=
      Finset.sum_congr rfl fun b _ => by rw [Matrix.conjTranspose_apply, star_trivial, mul_comm]
    rw [h2, hH j, h1]
    simp only [h1, Matrix.of_apply, kernelCenter, meanAxis0, vecMean, Finset.sum_sub_distrib, ← Finset.sum_div]
    rw [Finset.sum_congr rfl fun b _ => hsym i b]
    ring
  rw [e]
  exact hK.mul_mul_conjTranspose_same H

/-- Without the training mean the identity fails: passing the mean of the test rows instead changes the result. Concrete
instance of the objects: one training feature `1`, one test feature `3` in `ℝ`. -/
example : kernelCenter (fun i j => inner ℝ ((fun _ => 1 : Fin 1 → ℝ) i) ((fun _ => 3 : Fin 1 → ℝ) j))
    (meanAxis0 fun i j => inner ℝ ((fun _ => 1 : Fin 1 → ℝ) i) ((fun _ => 1 : Fin 1 → ℝ) j)) 0 0 = 0 ∧
    kernelCenterTestTest (n := 1) (fun i j => inner ℝ ((fun _ => 3 : Fin 1 → ℝ) i) ((fun _ => 3 : Fin 1 → ℝ) j))
      (meanAxis0 fun i j => inner ℝ ((fun _ => 1 : Fin 1 → ℝ) i) ((fun _ => 1 : Fin 1 → ℝ) j))
      (meanAxis0 fun i j => inner ℝ ((fun _ => 1 : Fin 1 → ℝ) i) ((fun _ => 3 : Fin 1 → ℝ) j)) 0 0 = 4 := by
  simp [kernelCenter, kernelCenterTestTest, meanAxis0, vecMean]
  norm_num

end GPX.Props
