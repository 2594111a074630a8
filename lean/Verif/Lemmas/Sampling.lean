import Verif.Model.Sampling
import Verif.Spec.Sampling
import Verif.Lemmas.LinAlg

namespace GPX
open GPX.Spec

variable {d m n o v w N : ℕ} {Key : Type}

theorem multivariateNormal_ok (la : LinAlg) (normal : Key → (r n : ℕ) → Arr2 r n) (key : Key) (mean : Fin n → ℝ)
    (cov : Mat n n) (nS : ℕ) :
    multivariateNormal la normal key mean cov nS =
      .ok fun s i => mean i + ∑ j, la.cholesky cov i j * normal key nS n s j := by
  unfold multivariateNormal
  rw [dif_pos rfl]
  rfl

theorem multivariateNormal_err (la : LinAlg) (normal : Key → (r n : ℕ) → Arr2 r n) (key : Key) (mean : Fin n → ℝ)
    (cov : Mat N N) (nS : ℕ) (h : n ≠ N) :
    multivariateNormal la normal key mean cov nS = .error .valueError := by
  unfold multivariateNormal
  rw [dif_neg h]

/-- The key after `i` iterations of the loop. -/
def loopKey (split : Key → Key × Key) (key : Key) (i : ℕ) : Key := (fun k => (split k).2)^[i] key

theorem foldlM_step (la : LinAlg) (split : Key → Key × Key) (normal : Key → (r n : ℕ) → Arr2 r n)
    (mean : Mat n o) (cov : Mat n n) (nS : ℕ) :
    ∀ (l : List (Fin o)) (a : Fin o) (key : Key) (st : Option (Arr2 nS n)),
      (l ++ [a]).foldlM (sampleStep la split normal mean cov nS) (key, st) =
        .ok (loopKey split key (l.length + 1), some fun s i => mean i a + ∑ j, la.cholesky cov i j *
          normal (loopKey split key (l.length + 1)) nS n s j) := by
  intro l
  induction l with
  | nil =>
    intro a key st
    simp only [List.nil_append, List.foldlM_cons, List.foldlM_nil, sampleStep, multivariateNormal_ok]
    rfl
  | cons b l ih =>
    intro a key st
    simp only [List.cons_append, List.foldlM_cons, sampleStep, multivariateNormal_ok]
    refine (ih a _ _).trans ?_
    simp only [loopKey, List.length_cons, Function.iterate_succ_apply]

theorem sample_succ (la : LinAlg) (split : Key → Key × Key) (normal : Key → (r n : ℕ) → Arr2 r n) (key : Key)
    (mean : Mat n (o + 1)) (cov : Mat n n) (nS : ℕ) :
    sample la split normal key mean cov nS =
      .ok fun s i => mean i (Fin.last o) + ∑ j, la.cholesky cov i j *
        normal (loopKey split key (o + 1)) nS n s j := by
  unfold sample
  rw [List.finRange_succ_last, foldlM_step]
  simp

theorem sample_zero (la : LinAlg) (split : Key → Key × Key) (normal : Key → (r n : ℕ) → Arr2 r n) (key : Key)
    (mean : Mat n 0) (cov : Mat N N) (nS : ℕ) :
    sample la split normal key mean cov nS = .error .nameError := rfl

theorem sample_shape (la : LinAlg) (split : Key → Key × Key) (normal : Key → (r n : ℕ) → Arr2 r n) (key : Key)
    (mean : Mat n (o + 1)) (cov : Mat N N) (nS : ℕ) (h : n ≠ N) :
    sample la split normal key mean cov nS = .error .valueError := by
  unfold sample
  rw [List.finRange_succ, List.foldlM_cons]
  simp only [sampleStep, multivariateNormal_err la normal _ _ cov nS h]
  rfl

/-- A sum under an expectation. -/
theorem Spec.Expectation.sum (E : Expectation Key) {ι : Type} (s : Finset ι) (f : ι → Key → ℝ) :
    E.E (fun k => ∑ i ∈ s, f i k) = ∑ i ∈ s, E.E (f i) := by
  classical
  induction s using Finset.induction_on with
  | empty => simpa using E.const 0
  | insert a s ha ih =>
    simp only [Finset.sum_insert ha]
    rw [E.add, ih]

theorem affine_moments (E : Expectation Key) {r : ℕ} (z : Key → Arr2 r n) (hz : Standard E z) (mean : Fin n → ℝ)
    (L : Mat n n) :
    (∀ s i, E.E (fun k => mean i + ∑ j, L i j * z k s j) = mean i) ∧
    ∀ s i t j, E.E (fun k => ((mean i + ∑ a, L i a * z k s a) - mean i) *
      ((mean j + ∑ a, L j a * z k t a) - mean j)) = if s = t then (L * L.transpose) i j else 0 := by
  refine ⟨fun s i => ?_, fun s i t j => ?_⟩
  · rw [E.add, E.const, E.sum]
    simp only [E.smul, hz.1, mul_zero, Finset.sum_const_zero, add_zero]
  · simp only [add_sub_cancel_left, Finset.sum_mul_sum]
    rw [E.sum]
    simp only [E.sum]
    have : ∀ a b, E.E (fun k => L i a * z k s a * (L j b * z k t b)) =
        L i a * L j b * if s = t ∧ a = b then 1 else 0 := by
      intro a b
      rw [← hz.2, ← E.smul]
      congr 1
      funext k
      ring
    simp only [this]
    by_cases h : s = t
    · simp [h, Matrix.mul_apply]
    · simp [h]

end GPX
