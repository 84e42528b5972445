import Verif.Model.Display
/-! # What it takes for a message to be readable (C76) -/
set_option autoImplicit false

namespace Verif.Spec
open Verif

/-- The text has no space. -/
def OneWord (s : Str) : Prop := ' ' ∉ s

/-- The names of types and variants in the error are single words (they are fixed names in the code; the keys, texts and
causes can be anything). -/
def Named : PubErr → Prop
  | .illegalMultipleEntries _ variant => OneWord variant
  | .errorMergingKeys _ existing incoming => OneWord existing ∧ OneWord incoming
  | .unexpectedVariant enumType expected actual => OneWord enumType ∧ OneWord expected ∧ OneWord actual
  | _ => True

/-- What the error is about: the texts it carries (bytes are not texts). -/
def Carries : PubErr → List Str
  | .invalidUnicodeCodePoint s => [s]
  | .invalidNumber s => [s]
  | .invalidUnicode _ => []
  | .parseError s => [s]
  | .illegalMultipleEntries key variant => [key, variant]
  | .errorMergingKeys key existing incoming => [key, existing, incoming]
  | .unexpectedVariant enumType expected actual => [enumType, expected, actual]
  | .ioError cause => [cause]
  | .invalidUnicodeToParse cause => [cause]
  | .unexpectedRemainingInput s => [s]
  | .bug s => [s]

end Verif.Spec
