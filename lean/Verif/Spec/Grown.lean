import Verif.Spec.Value
import Verif.Spec.Truncate
/-! # What a key of a merged map carries in a part of a document, and in the whole -/
set_option autoImplicit false

namespace Verif.Spec

/-- The second value carries what the first carries: it is the same, or the list of objects goes on, or further blocks
came after the blocks (the last one with given labels counts). -/
inductive Grown : Value → Value → Prop
  | same (v : Value) : Grown v v
  | objects (l more : List MapValues) : Grown (.object l) (.object (l ++ more))
  | blocks (m more n : List (List Str × MapValues)) : LastWins (m ++ more) n →
      Grown (.block (.merged m)) (.block (.merged n))

/-- A literal of a number was cut: `p` ends in the first part, `r` begins with the rest, and both the part and the whole
literal are numbers. -/
inductive CutLiteral (P : F64Parse) (p r : Str) : Value → Value → Prop
  | mk (v' v : Value) (t q : Str) (n' n : Number) : t <:+ p → q <+: r → q ≠ [] → IsNumber t n' → IsNumber (t ++ q) n →
      NumberValue P t v' → NumberValue P (t ++ q) v → CutLiteral P p r v' v

/-- What a merged map of a document that was cut off carries, compared with that of the whole: all of it has only grown,
except for one key whose number was cut. -/
def MergedCutOff (P : F64Parse) (p r : Str) (m' m : List (Key × Value)) : Prop :=
  (∀ k v', HashMap.get Key.norm k m' = some v' → ∃ v, HashMap.get Key.norm k m = some v ∧ Grown v' v) ∨
  ∃ key x' x, CutLiteral P p r x' x ∧ HashMap.get Key.norm key m' = some x' ∧ HashMap.get Key.norm key m = some x ∧
    ∀ k, k ≠ key → ∀ v', HashMap.get Key.norm k m' = some v' → ∃ v, HashMap.get Key.norm k m = some v ∧ Grown v' v

end Verif.Spec
