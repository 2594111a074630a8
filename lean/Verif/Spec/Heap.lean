import Verif.Model.Heap
import Verif.Spec.Params

/-!
# Vocabulary for programs that change states in place
-/

namespace GPX.Spec
open GPX
variable {K M C : Type}

/-- What the `i`-th state shows. -/
noncomputable def shows (H : Heap K M C) (i : ℕ) : Option (ModelState K M C) := (H.states[i]?).map H.view

/-- The parameter object `r` is among those of the `i`-th state. -/
def Held (H : Heap K M C) (i : ℕ) (r : ℕ) : Prop := ∃ o, H.states[i]? = some o ∧ r ∈ o.params.leaves

/-- The operation changes the `i`-th state in place: an attribute of one of its parameters, an item of its dictionary of
parameters, or one of its own attributes. -/
def ChangesInPlace (H : Heap K M C) (i : ℕ) : HeapOp K M C → Prop
  | .setAttr r _ => Held H i r
  | .assign j _ _ => j = i
  | .setParams j _ => j = i
  | .setKernel j _ => j = i
  | .setMean j _ => j = i
  | .setOpt j _ _ => j = i
  | _ => False

/-- The program does not itself put one parameter object into two states. -/
def KeepsApart (H : Heap K M C) : HeapOp K M C → Prop
  | .assign i _ r => r < H.next ∧ ∀ j, j ≠ i → ¬ Held H j r
  | _ => True

/-- A run of a program: operations that raise have no effect and the program goes on. All operations that take effect
satisfy `P` when they do. -/
inductive Runs (P : Heap K M C → HeapOp K M C → Prop) : Heap K M C → List (HeapOp K M C) → Heap K M C → Prop
  | done (H) : Runs P H [] H
  | ok {H H1 H2 op ops} : P H op → H.step op = .ok H1 → Runs P H1 ops H2 → Runs P H (op :: ops) H2
  | raised {H H2 op ops} (e : Err) : H.step op = .error e → Runs P H ops H2 → Runs P H (op :: ops) H2

/-- The memory at the start of a program: no objects. -/
def Heap.start (cells : ℕ → Param) : Heap K M C := ⟨cells, 0, []⟩

/-- A memory some program arrives at. -/
def Reached (H : Heap K M C) : Prop := ∃ cells ops, Runs KeepsApart (Heap.start cells) ops H

/-- The same flag, bijector and prior. -/
def SameKind (p q : Param) : Prop := p.trainable = q.trainable ∧ p.bijector = q.bijector ∧ p.prior = q.prior

/-- As far as the parameters of the `i`-th state are concerned, the operation does nothing else in place than giving
them other values, or replacing them all. -/
def OnlyValues (H : Heap K M C) (i : ℕ) : HeapOp K M C → Prop
  | .setAttr r p => Held H i r → SameKind p (H.cells r)
  | .assign j path r => j = i → ∃ o r0, H.states[i]? = some o ∧ lookup path o.params = some (.inl r0) ∧
      SameKind (H.cells r) (H.cells r0)
  | _ => True

end GPX.Spec
