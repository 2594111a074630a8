import Verif.Model.LossCalls

/-!
# When Python accepts a call
-/

namespace GPX.Spec
open GPX

/-- A function accepts `npos` positional arguments and the keywords `kw`: not too many positional ones, every keyword
is the name of a parameter that is not given by position, and the parameters without default are given. -/
structure Accepts (f : Sig) (npos : ℕ) (kw : List Key) : Prop where
  positional : npos ≤ f.params.length
  once : ∀ k ∈ kw, ∀ p ∈ f.params.take npos, p.1 ≠ k
  known : ∀ k ∈ kw, ∃ p ∈ f.params, p.1 = k
  given : ∀ p ∈ f.params.drop npos, p.2 = false → p.1 ∈ kw

/-- The names of the parameters with a default. -/
def optionalNames (f : Sig) : List Key := (f.params.filter (fun p => p.2)).map (fun p => p.1)

/-- The names in `loss_kwargs` (none when it is not given). -/
def names {V : Type} (kw : Option (List (Key × V))) : List Key := (kw.getD []).map (fun e => e.1)

end GPX.Spec
