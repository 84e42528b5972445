import Verif.Spec.OldLaid
/-!
# Places in the values of a legacy document

As `Spec/Edit`, for the values that the legacy parser gives (without merging).
-/
set_option autoImplicit false

namespace Verif.Spec

/-- A place in a value: itself, or inside an item of a list, a value of an object, or a value in the body of a block with
labels. -/
inductive OldPlace where
  | here
  | item (before : List Value) (p : OldPlace) (after : List Value)
  | entry (before : List (Key × Value)) (k : Key) (p : OldPlace) (after : List (Key × Value))
  | inBlock (ls : List Str) (before : List (Key × Value)) (k : Key) (p : OldPlace) (after : List (Key × Value))

/-- The value with `v` at this place. -/
def OldPlace.fill : OldPlace → Value → Value
  | .here, v => v
  | .item before p after, v => .list (before ++ p.fill v :: after)
  | .entry before k p after, v => .object [.unmerged (before ++ (k, p.fill v) :: after)]
  | .inBlock ls before k p after, v => .block (.unmerged [(ls, .unmerged (before ++ (k, p.fill v) :: after))])

/-- A place for a value in a document. -/
structure OldDocPlace where
  before : List (Key × Value)
  key : Key
  place : OldPlace
  after : List (Key × Value)

/-- The entries with `v` at this place. -/
def OldDocPlace.fill (p : OldDocPlace) (v : Value) : List (Key × Value) := p.before ++ (p.key, p.place.fill v) :: p.after

/-- Neither an object nor a block: these may be written without `=`. -/
def NeedsEquals (v : Value) : Prop := (∀ o, v ≠ .object o) ∧ ∀ b, v ≠ .block b

/-- A place for entries: between the entries of a document, or in an object or a block with labels. -/
inductive EntriesPlace where
  | between (before after : List (Key × Value))
  | inObject (before : List (Key × Value)) (k : Key) (p : EntriesPlace) (after : List (Key × Value))
  | inBlock (before : List (Key × Value)) (k : Key) (ls : List Str) (p : EntriesPlace) (after : List (Key × Value))

/-- The entries with the entries `es` at this place. -/
def EntriesPlace.fill : EntriesPlace → List (Key × Value) → List (Key × Value)
  | .between before after, es => before ++ es ++ after
  | .inObject before k p after, es => before ++ (k, .object [.unmerged (p.fill es)]) :: after
  | .inBlock before k ls p after, es => before ++ (k, .block (.unmerged [(ls, .unmerged (p.fill es))])) :: after

/-- `x` is a text of the value `v` when `post` follows. -/
def OldWrittenBefore (U : CharClass) (P : F64Parse) (x : Str) (v : Value) (post : Str) : Prop :=
  ∃ h, LaidValue U P h v x ∧ Next h post

end Verif.Spec
