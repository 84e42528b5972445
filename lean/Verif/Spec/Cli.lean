import Verif.Model.Cli
import Verif.Spec.OwnedValue
import Verif.Props.Sources
/-! # What the command line program should do -/
set_option autoImplicit false

namespace Verif.Spec
open Verif Props

/-- The bytes that the input argument stands for (`none`: they cannot be read). -/
inductive InputGives (os : Os) (w : World) : Str → Option (List Nat) → Prop
  | stdin (r : Option (List Nat)) : Delivers w.stdin r → InputGives os w ['-'] r
  | file (path : Str) (content : List Nat) (r : Option (List Nat)) : path ≠ ['-'] → w.files path = some content →
      os.canOpen path = true → Delivers (os.reads path content) r → InputGives os w path r
  | unreadable (path : Str) : path ≠ ['-'] → (w.files path = none ∨ os.canOpen path = false) → InputGives os w path none

/-- The input is the UTF-8 encoding of a text that parses (and, unless `--no-merge` is given, merges) to `m`. -/
def Parsed (U : CharClass) (P : F64Parse) (os : Os) (w : World) (input : Str) (noMerge : Bool) (m : MapValues) : Prop :=
  ∃ s m', InputGives os w input (some (utf8 s)) ∧
    (noMerge = true ∧ fromStr U P s none = .ok m' ∨ noMerge = false ∧ fromStr U P s (some .error) = .ok m') ∧ m = ownMap m'

/-- Between the two worlds only the output changed, and it now is `bytes` (appended, for the standard output). -/
def OutputIs (w w' : World) (output : Str) (bytes : List Nat) : Prop :=
  w'.stdin = w.stdin ∧
  (output = ['-'] ∧ w'.files = w.files ∧ w'.stdout = w.stdout ++ bytes ∨
   output ≠ ['-'] ∧ w'.files output = some bytes ∧ (∀ p, p ≠ output → w'.files p = w.files p) ∧ w'.stdout = w.stdout)

/-- The output can be opened. -/
def Writable (os : Os) (output : Str) : Prop := output = ['-'] ∨ os.canCreate output = true

end Verif.Spec
