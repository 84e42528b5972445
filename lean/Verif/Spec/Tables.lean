import Verif.Model.Lex
/-!
# Two versions of the Unicode tables

Which characters may stand in an identifier, and in the marker of a heredoc, depends on tables of Unicode that come
with the compiler (`char::is_alphanumeric`) and a dependency (`unic_ucd_ident`), and that grow with every version of Unicode.
-/
set_option autoImplicit false

namespace Verif.Spec

/-- The two tables say the same of every character of `s`. -/
def SameOn (U U' : CharClass) (s : Str) : Prop :=
  ∀ c ∈ s, U.idStart c = U'.idStart c ∧ U.idContinue c = U'.idContinue c ∧ U.alnum c = U'.alnum c

/-- The second table has every character that the first one has: a later version of Unicode. -/
structure Extends (U U' : CharClass) : Prop where
  idStart : ∀ c, U.idStart c = true → U'.idStart c = true
  idContinue : ∀ c, U.idContinue c = true → U'.idContinue c = true
  alnum : ∀ c, U.alnum c = true → U'.alnum c = true

/-- Every character is an ASCII character. -/
def Ascii (s : Str) : Prop := ∀ c ∈ s, c.toNat < 128

end Verif.Spec
