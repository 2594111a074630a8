import Mathlib.Data.List.Basic

/-!
# Specification vocabulary: names of checkpoint files
-/

namespace GPX.Spec

/-- The name `p` is cut into `stem` and `ext` as `os.path.splitext` documents it: the last path component is `lead`
(dots only) followed by `body` (not starting with a dot); the extension starts at the last dot of `body` and is empty
if `body` has no dot. -/
def IsSplitExt (p stem ext : List Char) : Prop :=
  ∃ dir lead body, p = dir ++ lead ++ body ∧ (dir = [] ∨ ∃ t, dir = t ++ ['/']) ∧ '/' ∉ lead ++ body ∧
    (∀ c ∈ lead, c = '.') ∧ body.head? ≠ some '.' ∧
    ((ext = [] ∧ '.' ∉ body ∧ stem = p) ∨
      ∃ a t, body = a ++ '.' :: t ∧ '.' ∉ t ∧ stem = dir ++ lead ++ a ∧ ext = '.' :: t)

/-- The way to write a text inside a format string: every brace is doubled. -/
def escapeBraces (s : List Char) : List Char :=
  s.flatMap fun c => if c = '{' ∨ c = '}' then [c, c] else [c]

end GPX.Spec
