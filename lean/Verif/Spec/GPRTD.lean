import Verif.Model.GPRTD
import Verif.Spec.Kernels

/-!
# Specification for joint training on targets and derivatives

An observation is a target of a sample, or a derivative component of a sample (from the first or the second set of
derivatives). The specification says what the covariance of two observations is and at which position of the stacked
arrays an observation sits.
-/

namespace GPX.Spec
open GPX

variable {d m n v w v' w' : ℕ}

/-- Observations with one set of derivatives: target of a sample, or component `u` of the derivatives of a sample. -/
abbrev Obs1 (n v : ℕ) := Fin n ⊕ Fin n × Fin v

/-- Observations with two sets of derivatives. -/
abbrev Obs2 (n v v' : ℕ) := (Fin n ⊕ Fin n × Fin v) ⊕ Fin n × Fin v'

/-- Stacking order: all targets, then the derivatives sample by sample. -/
def pos1 : Obs1 n v → Fin (n + n * v)
  | .inl i => Fin.castAdd (n * v) i
  | .inr (i, u) => Fin.natAdd n (flat i u)

/-- Stacking order with two sets: all targets, first derivatives sample by sample, second derivatives. -/
def pos2 : Obs2 n v v' → Fin (n + n * v + n * v')
  | .inl a => Fin.castAdd (n * v') (pos1 a)
  | .inr (i, u) => Fin.natAdd (n + n * v) (flat i u)

/-- Covariance of two observations: kernel values for targets, kernel derivatives contracted with the jacobians
where an observation is a derivative. -/
def cov1 (κ : KernelObj d) (p : KPar) (x1 : Batch m d) (J1 : Jac m d v) (x2 : Batch n d) (J2 : Jac n d w) :
    Obs1 m v → Obs1 n w → ℝ
  | .inl i, .inl j => κ.k p x1 x2 i j
  | .inl i, .inr (j, t) => κ.d1kj p x1 x2 J2 i (flat j t)
  | .inr (i, u), .inl j => κ.d0kj p x1 x2 J1 (flat i u) j
  | .inr (i, u), .inr (j, t) => κ.d01kj p x1 x2 J1 J2 (flat i u) (flat j t)

/-- The same with two sets of derivatives. -/
def cov2 (κ : KernelObj d) (p : KPar) (x1 : Batch m d) (J1 : Jac m d v) (J1' : Jac m d v') (x2 : Batch n d)
    (J2 : Jac n d w) (J2' : Jac n d w') : Obs2 m v v' → Obs2 n w w' → ℝ
  | .inl a, .inl b => cov1 κ p x1 J1 x2 J2 a b
  | .inl (.inl i), .inr (j, t) => κ.d1kj p x1 x2 J2' i (flat j t)
  | .inl (.inr (i, u)), .inr (j, t) => κ.d01kj p x1 x2 J1 J2' (flat i u) (flat j t)
  | .inr (i, u), .inl (.inl j) => κ.d0kj p x1 x2 J1' (flat i u) j
  | .inr (i, u), .inl (.inr (j, t)) => κ.d01kj p x1 x2 J1' J2 (flat i u) (flat j t)
  | .inr (i, u), .inr (j, t) => κ.d01kj p x1 x2 J1' J2' (flat i u) (flat j t)

/-- Noise variance of an observation. -/
noncomputable def noise1 (θ : TDParams) : Obs1 n v → ℝ
  | .inl _ => θ.sigmaTargets ^ 2 + 1 / 10 ^ 10
  | .inr _ => θ.sigmaDerivs ^ 2 + 1 / 10 ^ 10

/-- The same with two sets of derivatives. -/
noncomputable def noise2 (θ : TDParams) : Obs2 n v v' → ℝ
  | .inl a => noise1 θ a
  | .inr _ => θ.sigmaDerivs2 ^ 2 + 1 / 10 ^ 10

/-- Covariance of the noisy observations of a dataset. -/
noncomputable def dataCov1 (κ : KernelObj d) (θ : TDParams) (x : Batch n d) (J : Jac n d v) (a b : Obs1 n v) : ℝ :=
  cov1 κ θ.kernelParams x J x J a b + if a = b then noise1 θ a else 0

/-- The same with two sets of derivatives. -/
noncomputable def dataCov2 (κ : KernelObj d) (θ : TDParams) (x : Batch n d) (J : Jac n d v) (J' : Jac n d v')
    (a b : Obs2 n v v') : ℝ :=
  cov2 κ θ.kernelParams x J J' x J J' a b + if a = b then noise2 θ a else 0

/-- What is fitted: the targets minus the mean, the derivatives as they are. -/
def residual1 (mu : ℝ) (y : Mat n 1) (yd : Mat n v) : Obs1 n v → ℝ
  | .inl i => y i 0 - mu
  | .inr (i, u) => yd i u

/-- The same with two sets of derivatives. -/
def residual2 (mu : ℝ) (y : Mat n 1) (yd : Mat n v) (yd' : Mat n v') : Obs2 n v v' → ℝ
  | .inl a => residual1 mu y yd a
  | .inr (i, u) => yd' i u

end GPX.Spec
