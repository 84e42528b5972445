import Verif.Spec.OldGrammar
/-!
# What may be read from a text that was cut off

The text was `p ++ r`, and only `p` is left.
-/
set_option autoImplicit false

namespace Verif.Spec

/-- The text `p` ends in a number literal, `n'`, which goes on in `r`: the whole literal was `n`. -/
def CutNumber (p r : Str) (n' n : Number) : Prop :=
  ∃ t q, t <:+ p ∧ q <+: r ∧ q ≠ [] ∧ IsNumber t n' ∧ IsNumber (t ++ q) n

/-- The elements `b'` are the first of the elements `b`; except that the last of them may be an attribute the number of
which was cut. -/
inductive CutOff (p r : Str) : Body → Body → Prop
  | between (b' rest : Body) : CutOff p r b' (b' ++ rest)
  | number (front rest : Body) (k : CowStr) (n' n : Number) : CutNumber p r n' n →
      CutOff p r (front ++ [.attribute k (.number n')]) (front ++ .attribute k (.number n) :: rest)

/-- The same for entries of legacy documents. -/
inductive CutEntries (P : F64Parse) (p r : Str) : List (Key × Value) → List (Key × Value) → Prop
  | between (es rest : List (Key × Value)) : CutEntries P p r es (es ++ rest)
  | number (front rest : List (Key × Value)) (k : Key) (v' v : Value) (t q : Str) (n' n : Number) : t <:+ p → q <+: r → q ≠ [] →
      IsNumber t n' → IsNumber (t ++ q) n → NumberValue P t v' → NumberValue P (t ++ q) v →
      CutEntries P p r (front ++ [(k, v')]) (front ++ (k, v) :: rest)

/-- Characters that a number may go on with: digits, `.`, `e` and `E`. -/
def NumberGoesOn (c : Char) : Prop := ('0' ≤ c ∧ c ≤ '9') ∨ c = '.' ∨ c = 'e' ∨ c = 'E'

end Verif.Spec
