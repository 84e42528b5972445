import Verif.Spec.Edit
import Verif.Spec.De
/-! # The name of the entry in which a place is, and values that agree elsewhere -/
set_option autoImplicit false

namespace Verif.Spec

/-- The name of the attribute, or the type of the outermost block, in which the place is. -/
def ElementPlace.name : ElementPlace → Str
  | .attribute k _ => k.str
  | .block i _ _ _ _ => i.str

/-- The two lists of entries have the same names, and the same value under every name other than `k`. -/
def AgreeExcept (k : Str) (vs vs' : List (Str × DVal)) : Prop :=
  (∀ j, j ∈ vs.map Prod.fst ↔ j ∈ vs'.map Prod.fst) ∧ ∀ j w, j ≠ k → ((j, w) ∈ vs ↔ (j, w) ∈ vs')

/-- A place in a value that was read: what is around it. `fixed`: nothing of what is put there is kept. -/
inductive ReadPlace where
  | here
  | fixed (v : DVal)
  | some (p : ReadPlace)
  | item (before : List DVal) (p : ReadPlace) (after : List DVal)
  | entry (before : List (Str × DVal)) (k : Str) (p : ReadPlace) (after : List (Str × DVal))

/-- The value with `w` at this place. -/
def ReadPlace.fill : ReadPlace → DVal → DVal
  | .here, w => w
  | .fixed v, _ => v
  | .some p, w => .some (p.fill w)
  | .item before p after, w => .seq (before ++ p.fill w :: after)
  | .entry before k p after, w => .entries (before ++ (k, p.fill w) :: after)

end Verif.Spec
