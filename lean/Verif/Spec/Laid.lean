import Verif.Spec.Grammar
/-!
# Writing a tree with any layout

`LaidX … s`: `s` is a text of the given thing, with layout chosen freely wherever layout may stand. Unlike in
`Spec/Grammar`, nothing is said about maximal munch: texts are just put together. The only care needed is that a heredoc
must be followed by the end of its line (`Eol`), and an identifier not directly by more of an identifier.
-/
set_option autoImplicit false

namespace Verif.Spec

/-- Any layout, possibly none: blanks, line ends, comments. -/
abbrev AnyLayout := Seq LayoutItem
/-- Any layout within a line, possibly none: blanks, `/* */` comments. -/
abbrev AnyInline := Seq InlineItem
/-- At least one line end; comments at the ends of lines, and empty lines, may be included. -/
inductive LineEnds : Str → Prop
  | mk (i l : Str) : NewlineItem i → Seq NewlineItem l → LineEnds (i ++ l)

/-- What must come next: nothing in particular, or the end of line that ends a heredoc. -/
def Next (h : Option Str) (s : Str) : Prop := ∀ e, h = some e → e <+: s

/-- The end of a tuple: an optional comma, and `]`. -/
inductive LaidTupleEnd : Str → Prop
  | close (l : Str) : AnyLayout l → LaidTupleEnd (l ++ [']'])
  | comma (l m : Str) : AnyLayout l → AnyLayout m → LaidTupleEnd (l ++ ',' :: m ++ [']'])

mutual
/-- A text of an expression. `h` is what must come next. -/
inductive LaidExpr (U : CharClass) : Option Str → Expr → Str → Prop
  | null : LaidExpr U none .null ['n', 'u', 'l', 'l']
  | true : LaidExpr U none (.boolean true) ['t', 'r', 'u', 'e']
  | false : LaidExpr U none (.boolean false) ['f', 'a', 'l', 's', 'e']
  | number (t : Str) (n : Number) : IsNumber t n → LaidExpr U none (.number n) t
  | quoted (src v : Str) : Content Plain src v ['"'] → LaidExpr U none (.string (.ownedS v)) ('"' :: src ++ ['"'])
  | heredoc (t e : Str) (v : CowStr) : Eol e → Heredoc U (t ++ e) v e → LaidExpr U (some e) (.string v) t
  | tuple (es : List Expr) (s : Str) : LaidTuple U es s → LaidExpr U none (.tuple es) ('[' :: s)
  | object (l : Str) (es : List (ObjKey × Expr)) (s : Str) : AnyLayout l → LaidObject U es s →
      LaidExpr U none (.object es) (l ++ '{' :: s)
  | bracket (l m n t : Str) (h : Option Str) (e : Expr) : AnyLayout l → AnyLayout m → LaidExpr U h e t → AnyLayout n →
      Next h (n ++ [')']) → LaidExpr U none e (l ++ '(' :: m ++ t ++ n ++ [')'])
/-- What follows `[`. -/
inductive LaidTuple (U : CharClass) : List Expr → Str → Prop
  | empty (s : Str) : LaidTupleEnd s → LaidTuple U [] s
  | elems (l t s : Str) (h : Option Str) (e : Expr) (es : List Expr) : AnyLayout l → LaidExpr U h e t → LaidTail U es s →
      Next h s → LaidTuple U (e :: es) (l ++ t ++ s)
/-- What follows an element of a tuple. -/
inductive LaidTail (U : CharClass) : List Expr → Str → Prop
  | last (s : Str) : LaidTupleEnd s → LaidTail U [] s
  | more (l m t s : Str) (h : Option Str) (e : Expr) (es : List Expr) : AnyLayout l → AnyLayout m → LaidExpr U h e t →
      LaidTail U es s → Next h s → LaidTail U (e :: es) (l ++ ',' :: m ++ t ++ s)
/-- A key: an identifier; or an expression, which is kept as it is written. -/
inductive LaidKey (U : CharClass) : ObjKey → Str → Prop
  | ident (i : Str) : IsIdent U i → LaidKey U (.ident (.borrowed i)) i
  | expr (t : Str) (e : Expr) : ¬ Head (IdentStart U) t → ¬ Starts LayoutItem t → LaidExpr U none e t →
      LaidKey U (.expr (.borrowed t)) t
/-- `key = expression` -/
inductive LaidPair (U : CharClass) : Option Str → ObjKey → Expr → Str → Prop
  | mk (l ks m n t : Str) (h : Option Str) (k : ObjKey) (e : Expr) : AnyLayout l → LaidKey U k ks → AnyInline m → AnyInline n →
      LaidExpr U h e t → LaidPair U h k e (l ++ ks ++ m ++ '=' :: n ++ t)
/-- What follows `{` in an object: pairs, each followed by a comma, line ends or the closing brace. -/
inductive LaidObject (U : CharClass) : List (ObjKey × Expr) → Str → Prop
  | close (l : Str) : AnyLayout l → LaidObject U [] (l ++ ['}'])
  | comma (p l s : Str) (k : ObjKey) (e : Expr) (es : List (ObjKey × Expr)) : LaidPair U none k e p → AnyInline l →
      LaidObject U es s → LaidObject U ((k, e) :: es) (p ++ l ++ ',' :: s)
  | newline (p l n s : Str) (h : Option Str) (k : ObjKey) (e : Expr) (es : List (ObjKey × Expr)) : LaidPair U h k e p →
      AnyInline l → LineEnds n → Next h (l ++ n) → LaidObject U es s → LaidObject U ((k, e) :: es) (p ++ l ++ n ++ s)
  | last (p l : Str) (k : ObjKey) (e : Expr) : LaidPair U none k e p → AnyInline l → LaidObject U [(k, e)] (p ++ l ++ ['}'])
end

/-- `name = expression`, and layout to the end of the line -/
inductive LaidAttribute (U : CharClass) : Option Str → CowStr → Expr → Str → Prop
  | mk (i l m t n : Str) (h : Option Str) (e : Expr) : IsIdent U i → AnyInline l → AnyInline m → LaidExpr U h e t → AnyInline n →
      (h ≠ none → n = []) → LaidAttribute U h (.borrowed i) e (i ++ l ++ '=' :: m ++ t ++ n)

/-- Labels and `{`. -/
inductive LaidLabels (U : CharClass) : List BlockLabel → Str → Prop
  | open (l : Str) : AnyInline l → LaidLabels U [] (l ++ ['{'])
  | ident (l i s : Str) (ls : List BlockLabel) : AnyInline l → IsIdent U i → ¬ Head (IdentChar U) s → LaidLabels U ls s →
      LaidLabels U (.identifier (.borrowed i) :: ls) (l ++ i ++ s)
  | string (l src v s : Str) (ls : List BlockLabel) : AnyInline l → Content PlainLine src v ['"'] → LaidLabels U ls s →
      LaidLabels U (.stringLiteral v :: ls) (l ++ '"' :: src ++ '"' :: s)

/-- The type of a block, its labels and `{`. -/
inductive LaidHeader (U : CharClass) : CowStr → List BlockLabel → Str → Prop
  | mk (i s : Str) (ls : List BlockLabel) : IsIdent U i → ¬ Head (IdentChar U) s → LaidLabels U ls s →
      LaidHeader U (.borrowed i) ls (i ++ s)

mutual
/-- An element and layout to the end of the line. -/
inductive LaidElement (U : CharClass) : Option Str → BodyElement → Str → Prop
  | attribute (h : Option Str) (k : CowStr) (e : Expr) (s : Str) : LaidAttribute U h k e s → LaidElement U h (.attribute k e) s
  | emptyBlock (i : CowStr) (ls : List BlockLabel) (s l m : Str) : LaidHeader U i ls s → AnyInline l → AnyInline m →
      LaidElement U none (.block i ls []) (s ++ l ++ '}' :: m)
  | oneLineBlock (i : CowStr) (ls : List BlockLabel) (s l a m : Str) (k : CowStr) (e : Expr) : LaidHeader U i ls s → AnyInline l →
      LaidAttribute U none k e a → AnyInline m → LaidElement U none (.block i ls [.attribute k e]) (s ++ l ++ a ++ '}' :: m)
  | block (i : CowStr) (ls : List BlockLabel) (s l n t m : Str) (b : Body) : LaidHeader U i ls s → AnyInline l → LineEnds n →
      LaidBody U b t → AnyInline m → LaidElement U none (.block i ls b) (s ++ l ++ n ++ t ++ '}' :: m)
/-- A body whose elements all end with line ends. -/
inductive LaidBody (U : CharClass) : Body → Str → Prop
  | done (l : Str) : AnyLayout l → LaidBody U [] l
  | elem (l s n t : Str) (h : Option Str) (el : BodyElement) (b : Body) : AnyLayout l → LaidElement U h el s → LineEnds n →
      Next h n → LaidBody U b t → LaidBody U (el :: b) (l ++ s ++ n ++ t)
end

/-- A document: a body, the last element of which need not end with a line end. -/
inductive LaidDocument (U : CharClass) : Body → Str → Prop
  | lines (b : Body) (s : Str) : LaidBody U b s → LaidDocument U b s
  | last (b : Body) (s : Str) (el : BodyElement) (t : Str) : LaidBody U b s → LaidElement U none el t →
      LaidDocument U (b ++ [el]) (s ++ t)

end Verif.Spec
