import Verif.Lemmas.KernelPSD

/-!
# C22: Gram matrices are positive semidefinite
-/

namespace GPX.Props
open GPX GPX.Spec

variable {d : ℕ}

/-- **C22.** For every kernel expression (leaves with or without `active_dims`, sums, products), admissible
hyperparameters and dataset of any size (duplicates allowed), `k(x, x)` is positive semidefinite. -/
theorem C22_gram_posSemidef (e : KExpr d) (p : KPar) (h : Admissible e p) {n : ℕ} (x : Batch n d) :
    (Matrix.of (e.obj.k p x x)).PosSemidef := by
  obtain ⟨L, hL, hk⟩ := e.psd p h
  have : Matrix.of (e.obj.k p x x) = Matrix.of fun i j => L (x i) (x j) := by
    ext i j; exact hk x x i j
  rw [this]
  exact hL n x

/-- **C22**, consequence: adding `sigma² + 1e-10` to the diagonal gives a positive definite (hence
invertible) matrix, for every `sigma`. -/
theorem C22_regularized_posDef (e : KExpr d) (p : KPar) (h : Admissible e p) {n : ℕ} (x : Batch n d)
    (sigma : ℝ) :
    (Matrix.of (e.obj.k p x x) + (sigma ^ 2 + 1 / 10 ^ 10) • (1 : Matrix (Fin n) (Fin n) ℝ)).PosDef :=
  ((Matrix.PosDef.one).smul (show (0 : ℝ) < sigma ^ 2 + 1 / 10 ^ 10 by positivity)).posSemidef_add
    (C22_gram_posSemidef e p h x)

/-- Non-vacuity: a Matern times a polynomial plus a periodic kernel, all hyperparameters equal to 2. -/
example : Admissible (.sum (.prod (.matern52 none) (.polynomial (some ⟨1, ![1]⟩) true))
    (.expSinSquared none) : KExpr 3) (fun _ => 2) := by
  refine ⟨⟨?_, ⟨2, ?_⟩, ?_⟩, ?_, ?_⟩ <;> norm_num [Admissible, KPar.val, KPar.sub]

end GPX.Props
