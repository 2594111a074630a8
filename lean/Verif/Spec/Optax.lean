import Verif.Model.Optim
import Verif.Spec.Params

/-!
# Specification vocabulary: Optax optimisers
-/

namespace GPX.Spec
open GPX
variable {K M C O : Type}

/-- The optimiser's updates have the shapes of the parameters, and a parameter that receives no gradient
(a frozen one) is not moved. -/
def GoodUpdates (s : ModelState K M C) (us : List Arr) : Prop :=
  List.Forall₂ (fun (p : Param) (u : Arr) => u.data.length = p.value.data.length ∧
    (p.trainable = false → ∀ x ∈ u.data, x = 0)) s.params.treeLeaves us

/-- The states and optimiser states that occur in a run of the optimiser, whatever the number of steps. -/
inductive InRun (opt : Optimizer K M C O) : ModelState K M C → O → Prop
  | start (s : ModelState K M C) : ParamsOK s.params → InRun opt s (opt.init s)
  | step (s s' : ModelState K M C) (o : O) : InRun opt s o → applyUpdates s (opt.update s o).1 = .ok s' →
      InRun opt s' (opt.update s o).2

/-- An optimiser that, in all its runs, does not move parameters without gradient. -/
def Quiet (opt : Optimizer K M C O) : Prop := ∀ s o, InRun opt s o → GoodUpdates s (opt.update s o).1

end GPX.Spec
