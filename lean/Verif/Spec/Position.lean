import Verif.Spec.Grammar
/-!
# Positions inside a document at which an expression or label is expected

`ExprAt U s u`: an expression is expected at `s`, and reading it leads to an expression expected at `u` (a
suffix of `s`): `u` is `s` itself or the value of a nested element. Everything before `u` is well formed;
nothing is said about the text after the point reached.
-/
set_option autoImplicit false

namespace Verif.Spec

mutual
/-- From an expression to an expression. -/
inductive ExprAt (U : CharClass) : Str → Str → Prop
  | here (s : Str) : ExprAt U s s
  | tuple (s u : Str) : TupleAt U s u → ExprAt U ('[' :: s) u
  | object (s t u : Str) : SkipLayout s ('{' :: t) → ObjectAt U t u → ExprAt U s u
  | bracket (s t v u : Str) : SkipLayout s ('(' :: t) → SkipLayout t v → ExprAt U v u → ExprAt U s u

/-- From what follows `[` or a comma in a tuple. -/
inductive TupleAt (U : CharClass) : Str → Str → Prop
  | elem (s t u : Str) : SkipLayout s t → ExprAt U t u → TupleAt U s u
  | next (s t v w u : Str) (e : Expr) : SkipLayout s t → IsExpr U t e v → SkipLayout v (',' :: w) →
      TupleAt U w u → TupleAt U s u

/-- From what follows `{`, or the separator after an element, in an object. -/
inductive ObjectAt (U : CharClass) : Str → Str → Prop
  | key (s t u : Str) : SkipLayout s t → ¬ Head (IdentStart U) t → ExprAt U t u → ObjectAt U s u
  | value (s t v w x u : Str) (k : ObjKey) : SkipLayout s t → IsObjectKey U t k v → SkipInline v ('=' :: w) →
      SkipInline w x → ExprAt U x u → ObjectAt U s u
  | next (s t v w x y z a u : Str) (k : ObjKey) (e : Expr) : SkipLayout s t → IsObjectKey U t k v →
      SkipInline v ('=' :: w) → SkipInline w x → IsExpr U x e y → SkipInline y z → IsObjectSep z a →
      ObjectAt U a u → ObjectAt U s u
end

/-- From the text after a block type to a label. -/
inductive LabelAt (U : CharClass) : Str → Str → Prop
  | here (s u : Str) : SkipInline s u → LabelAt U s u
  | next (s t v u : Str) (l : BlockLabel) : SkipInline s t → IsLabel U t l v → LabelAt U v u → LabelAt U s u

/-- From `name = value` to an expression in the value. -/
inductive AttributeAt (U : CharClass) : Str → Str → Prop
  | mk (s i t v w u : Str) : Ident U s i t → SkipInline t ('=' :: v) → SkipInline v w → ExprAt U w u →
      AttributeAt U s u

/-- What is expected at a position. -/
inductive Kind where
  | expression
  | label

/-- From a body to an expression or a label in it, at any depth. -/
inductive BodyAt (U : CharClass) : Kind → Str → Str → Prop
  | attribute (s t u : Str) : SkipLayout s t → AttributeAt U t u → BodyAt U .expression s u
  | label (s t i v u : Str) : SkipLayout s t → Ident U t i v → LabelAt U v u → BodyAt U .label s u
  | oneLine (s t i v w x u : Str) (ls : List BlockLabel) : SkipLayout s t → Ident U t i v → IsLabels U v ls w →
      SkipInline w x → AttributeAt U x u → BodyAt U .expression s u
  | block (k : Kind) (s t i v w x y u : Str) (ls : List BlockLabel) : SkipLayout s t → Ident U t i v →
      IsLabels U v ls w → SkipInline w x → Newlines x y → BodyAt U k y u → BodyAt U k s u
  | next (k : Kind) (s t v w u : Str) (el : BodyElement) : SkipLayout s t → IsElement U t el v →
      IsElementEnd v w → BodyAt U k w u → BodyAt U k s u

/-- A double-quoted string with a backslash (reached after well-formed content) that begins no valid escape. -/
def BadEscape (u : Str) : Prop :=
  ∃ src v t, u = '"' :: src ++ '\\' :: t ∧ Content Plain src v ('\\' :: t) ∧
    ¬ ∃ e c r, t = e ++ r ∧ Escape e c r

/-- A double-quoted string whose content (of characters `plain` and escapes) is well formed up to a backslash that begins
no valid escape; `t` is the text after that backslash. -/
def EscapeError (plain : Char → Prop) (u t : Str) : Prop :=
  t ≠ [] ∧ ∃ src v, u = '"' :: src ++ '\\' :: t ∧ Content plain src v ('\\' :: t) ∧ ¬ ∃ e c r, t = e ++ r ∧ Escape e c r

/-- `EscapeError` for the strings allowed at a position: labels are single-line. -/
def EscapeErrorAt : Kind → Str → Str → Prop
  | .expression => EscapeError Plain
  | .label => EscapeError PlainLine

end Verif.Spec
