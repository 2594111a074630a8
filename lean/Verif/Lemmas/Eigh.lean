import Verif.Model.Lanczos
import Mathlib.Analysis.Matrix.Spectrum

/-! A witness of the contract of `jnp.linalg.eigh`. -/

namespace GPX
open Classical in
/-- A witness of the contract of `eigh`: the spectral theorem. -/
noncomputable def idealEigh : Eigh := fun {m} T =>
  if h : T.IsHermitian then (h.eigenvalues, (h.eigenvectorUnitary : Matrix (Fin m) (Fin m) ℝ)) else (0, 1)

theorem idealEigh_exact : Eigh.Exact idealEigh := by
  intro m T h
  have e : idealEigh T = (h.eigenvalues, (h.eigenvectorUnitary : Matrix (Fin m) (Fin m) ℝ)) := dif_pos h
  beta_reduce
  rw [e]
  refine ⟨?_, ?_⟩
  · have := Unitary.coe_star_mul_self h.eigenvectorUnitary
    rwa [Matrix.star_eq_conjTranspose, Matrix.conjTranspose_eq_transpose_of_trivial] at this
  · have := h.spectral_theorem
    rw [Unitary.conjStarAlgAut_apply, Matrix.star_eq_conjTranspose, Matrix.conjTranspose_eq_transpose_of_trivial] at this
    exact this
end GPX
