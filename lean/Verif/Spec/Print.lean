import Verif.Model.Print
import Verif.Spec.Params

/-!
# What the printed table of parameters should contain
-/

namespace GPX.Spec
open GPX

/-- The name under which the parameter at a key path is listed: `kernel a:b` for the kernel parameter
`a`, `b`, and the bare name otherwise. -/
def rowName : List Key → Key
  | [] => []
  | k :: ks => if k = "kernel_params".toList then "kernel ".toList ++ List.intercalate [':'] ks else k

/-- The row shows this parameter under this name. -/
def Shows (row : ParamRow) (name : Key) (p : Param) : Prop :=
  row.name = name ∧ row.trainable = p.trainable ∧ row.bijector = p.bijector ∧ row.prior = p.prior ∧
    row.dtype = p.value.dtype ∧ row.shape = p.value.shape ∧ row.value = p.value.data

/-- The dictionary has the form every model gives its parameters: kernel parameters in a dictionary
of their own, all others directly. -/
def ModelShaped (d : Dict Param) : Prop :=
  lookup ["kernel_params".toList] d = some (.inr ()) ∧
    ∀ k, k ≠ "kernel_params".toList → lookup [k] d ≠ some (.inr ())

/-- Key paths in the order of the table: kernel parameters before all others, each group
alphabetically, key by key. -/
def TableOrder (p q : List Key) : Prop :=
  (p.head? = some "kernel_params".toList ∧ q.head? ≠ some "kernel_params".toList) ∨
  ((p.head? = some "kernel_params".toList ↔ q.head? = some "kernel_params".toList) ∧ p < q)

end GPX.Spec
