import Verif.Spec.OldLaid
import Verif.Model.ErrorAt
/-! # Outcomes with more elements in front -/
set_option autoImplicit false

namespace Verif.Spec

/-- The outcome `x` with the elements `b` in front of those of a successful result; other outcomes are not changed. -/
def withFront (b : Body) : Res Err Body → Res Err Body
  | .ok c => .ok (b ++ c)
  | .error e => .error e
  | .panic => .panic
  | .diverge => .diverge

/-- `p` consists of complete elements (each with its line end) and layout. -/
def CompleteLines (U : CharClass) (p : Str) : Prop := ∃ b, LaidBody U b p

/-- `p` is the longest beginning of `s` that consists of complete elements and layout. -/
def LongestLines (U : CharClass) (p s : Str) : Prop :=
  CompleteLines U p ∧ p <+: s ∧ ∀ q, q <+: s → CompleteLines U q → q.length ≤ p.length

/-- The outcome `x` of the legacy `from_str` without merging with the entries `es` in front. -/
def withEntries (es : List (Key × Value)) : Res FromErr MapValues → Res FromErr MapValues
  | .ok (.unmerged c) => .ok (.unmerged (es ++ c))
  | .ok (.merged c) => .ok (.merged c)
  | .error e => .error e
  | .panic => .panic
  | .diverge => .diverge

/-- `p` consists of complete entries (each with its line end or comma) and layout. -/
def CompleteEntries (U : CharClass) (P : F64Parse) (p : Str) : Prop := ∃ es, LaidEntries U P es p

/-- `p` is the longest beginning of `s` that consists of complete entries and layout. -/
def LongestEntries (U : CharClass) (P : F64Parse) (p s : Str) : Prop :=
  CompleteEntries U P p ∧ p <+: s ∧ ∀ q, q <+: s → CompleteEntries U P q → q.length ≤ p.length

/-- After layout, the text begins with a comma. -/
def StartsWithComma (t : Str) : Prop := ∃ l z, AnyLayout l ∧ t = l ++ ',' :: z

end Verif.Spec
