import Verif.Model.Params
import Verif.Spec.Dict
import Verif.Spec.Bijectors

/-!
# Specification vocabulary for parameters and model states

Two Python dictionaries are equal when the same key paths lead to the same things, whatever the
order of the keys. `lookup` follows a key path.
-/

namespace GPX.Spec
open GPX

/-- What a key path leads to: nothing, a leaf, or a sub-dictionary. -/
def lookup {α : Type} : List Key → Dict α → Option (α ⊕ Unit)
  | [], _ => some (.inr ())
  | k :: ks, d =>
    match d.get? k with
    | none => none
    | some (.inl a) => if ks = [] then some (.inl a) else none
    | some (.inr s) => lookup ks s

/-- The same dictionary as far as Python's `==` and indexing can tell. -/
def SameDict {α : Type} (d d' : Dict α) : Prop := ∀ path, lookup path d = lookup path d'

/-- The two dictionaries have the same key paths, and leaves at the same path are related by `R`. -/
def AtEveryPath {α β : Type} (R : α → β → Prop) (d : Dict α) (d' : Dict β) : Prop :=
  ∀ path, match lookup path d, lookup path d' with
    | none, none => True
    | some (.inl a), some (.inl b) => R a b
    | some (.inr _), some (.inr _) => True
    | _, _ => False

/-- What holds of every `Parameter` object: value and prior agree in shape and dtype. -/
def ParamOK (p : Param) : Prop := p.value.shape = p.prior.shape ∧ p.value.dtype = p.prior.dtype

/-- Every parameter of the dictionary is a valid `Parameter` object. -/
def ParamsOK (d : Dict Param) : Prop := ∀ p ∈ d.leaves, ParamOK p

/-- The observable content of a model state. -/
structure View (K M C : Type) where
  kernel : K
  meanFn : M
  params : List Key → Option (Param ⊕ Unit)
  opts : Key → Option (OptVal C)

/-- Read off the content of a state; numbers are compared after `jnp.asarray`. -/
noncomputable def viewOf {K M C : Type} (s : ModelState K M C) : View K M C :=
  ⟨s.kernel, s.meanFn, fun path => lookup path s.params, fun k => (assocGet k s.opts).map OptVal.norm⟩

/-- Overlay an update on a view: what is given replaces, the rest stays. -/
noncomputable def overlay {K M C : Type} (v : View K M C) (u : StateUpdate K M C) : View K M C where
  kernel := u.kernel.getD v.kernel
  meanFn := u.meanFn.getD v.meanFn
  params := match u.params with
    | some d => fun path => lookup path d
    | none => v.params
  opts := fun k => match assocGet k u.opts with
    | some x => some x.norm
    | none => v.opts k

/-- A legal update: its parameters are valid `Parameter` objects, and its keys are distinct (it is a
Python dictionary). -/
def UpdateOK {K M C : Type} (u : StateUpdate K M C) : Prop :=
  (∀ d, u.params = some d → ParamsOK d) ∧ (u.opts.map Prod.fst).Nodup

/-- Where `backward` of a bijector is defined (see C02): the declared range, minus for the two-sided
bijector a sliver of relative width `1e-300` at the bottom. -/
noncomputable def invertibleAt : Bijector → ℝ → Prop
  | .softMinMax m M, v => m < M ∧ v < M ∧ m + spJitter * (M - m) / GPX.softplus (M - m) < v
  | b, v => v ∈ range b

/-- The documented accuracy of `forward ∘ backward`: the jitter. -/
noncomputable def tol : Bijector → ℝ
  | .softMinMax m M => 2 * spJitter * (M - m) / GPX.softplus (M - m)
  | .identity => 0
  | _ => spJitter

/-- A value is close to another one, entry by entry, within the jitter of the bijector. -/
def closeUnder (b : Bijector) (old new : Arr) : Prop :=
  new.shape = old.shape ∧ new.dtype = old.dtype ∧
    List.Forall₂ (fun x x' => |x' - x| ≤ tol b) old.data new.data

end GPX.Spec
