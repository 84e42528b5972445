import Verif.Spec.Laid
/-! # How values and elements begin -/
set_option autoImplicit false

namespace Verif.Spec

/-- The characters with which a value other than `null`, `true`, `false` begins: numbers, strings, heredocs, tuples, objects,
parentheses. -/
def ValueStart (c : Char) : Prop :=
  ('0' ≤ c ∧ c ≤ '9') ∨ c = '+' ∨ c = '-' ∨ c = '.' ∨ c = '"' ∨ c = '<' ∨ c = '[' ∨ c = '{' ∨ c = '('

instance (c : Char) : Decidable (ValueStart c) := by unfold ValueStart; infer_instance

/-- The three words that are values. -/
def valueWords : List Str := [['n', 'u', 'l', 'l'], ['t', 'r', 'u', 'e'], ['f', 'a', 'l', 's', 'e']]

/-- Characters with which layout can begin. -/
def LayoutChar (c : Char) : Prop := c = ' ' ∨ c = '\t' ∨ c = '\r' ∨ c = '\n' ∨ c = '#' ∨ c = '/'

instance (c : Char) : Decidable (LayoutChar c) := by unfold LayoutChar; infer_instance

/-- `x` does not make a longer number literal of the number literal `t`. -/
def NotLonger (t x : Str) : Prop := ∀ n, IsNumber t n → ∀ p, p <+: x → p ≠ [] → ∀ m, ¬ IsNumber (t ++ p) m

end Verif.Spec
