import Verif.Model.Dict

/-!
# Specification vocabulary for nested dictionaries
-/

namespace GPX.Spec
open GPX

/-- A key the flat encoding can carry: not empty and free of the separator `":"`. -/
def goodKey (k : Key) : Prop := k ≠ [] ∧ ':' ∉ k

/-- Every key at every depth is encodable, and no leaf is called `"NULL"` (the name the encoding
reserves for empty dictionaries). -/
def WellKeyed {α : Type} : Dict α → Prop
  | .nil => True
  | .leaf k _ r => goodKey k ∧ k ≠ "NULL".toList ∧ WellKeyed r
  | .node k s r => goodKey k ∧ WellKeyed s ∧ WellKeyed r

/-- Keys under which a leaf is stored, at any depth. -/
def leafKeys {α : Type} : Dict α → List Key
  | .nil => []
  | .leaf k _ r => k :: leafKeys r
  | .node _ s r => leafKeys s ++ leafKeys r

/-- No one-character sub-dictionary name is repeated as the name of a leaf below it. -/
def NoShortShadow {α : Type} : Dict α → Prop
  | .nil => True
  | .leaf _ _ r => NoShortShadow r
  | .node k s r => (k.length = 1 → k ∉ leafKeys s) ∧ NoShortShadow s ∧ NoShortShadow r

end GPX.Spec
