import Verif.Spec.Lex
/-! # Texts that end where a line should end -/
set_option autoImplicit false

namespace Verif.Spec

/-- The text ends where a line should end, or after the `\r` of that line end. -/
def CutEnd (s : Str) : Prop := s = [] ∨ s = ['\r']

/-- The closing line of a heredoc, cut off where it should end. -/
def CutTerminator (marker s : Str) : Prop :=
  ∃ v b e, Eol v ∧ s = v ++ b ++ marker ++ e ∧ (∀ c ∈ b, c = ' ' ∨ c = '\t') ∧ CutEnd e

end Verif.Spec
