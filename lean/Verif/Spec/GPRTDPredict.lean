import Verif.Spec.GPRTD
import Verif.Model.GPRTDPredict

/-!
# Specification for predictions after joint training

The predicted mean of an observation at a new sample (its target, or a component of its derivatives along given jacobians)
is the covariance with all the training observations times their coefficients: with those of one set of derivatives, or
with those of both.
-/

namespace GPX.Spec
open GPX

variable {d m n v w : ℕ}

/-- Predicted mean (without the constant mean of the targets) of the observation `b` of the samples `x` with jacobians
`J`. -/
noncomputable def tdMean (κ : KernelObj d) (p : KPar) (xt : Batch m d) (tr : TDTrained m d v) (x : Batch n d)
    (J : Jac n d w) (b : Obs1 n w) : ℝ :=
  match tr with
  | .one Jt c => ∑ a, cov1 κ p xt Jt x J a b * c (pos1 a) 0
  | .two Jt Jt' c => ∑ a, cov2 κ p xt Jt Jt' x J (fun _ _ => (Fin.elim0 : Fin 0 → ℝ)) a (.inl b) * c (pos2 a) 0

/-- A prediction says about the samples `x` what the trained model implies: the targets, the derivatives along `J` and,
when asked for, the derivatives along `J'`. -/
def TDPredicts (κ : KernelObj d) (p : KPar) (xt : Batch m d) (tr : TDTrained m d v) (mu : ℝ) (x : Batch n d)
    (J : Jac n d w) (J' : Option (Σ w', Jac n d w')) (r : TDPrediction n w) : Prop :=
  (∀ i, r.1 i 0 = mu + tdMean κ p xt tr x J (.inl i)) ∧
  (∀ i u, r.2.1 i u = tdMean κ p xt tr x J (.inr (i, u))) ∧
  match J' with
  | none => r.2.2 = none
  | some J' => ∃ M : Mat n J'.1, r.2.2 = some ⟨J'.1, M⟩ ∧ ∀ i u, M i u = tdMean κ p xt tr x J'.2 (.inr (i, u))

end GPX.Spec
