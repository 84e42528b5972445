import Verif.Spec.Lex
/-!
# Grammar of expressions, bodies and documents

`X s v rest` reads: the text `s` begins with an `X` denoting `v`, and `rest` follows it.
-/
set_option autoImplicit false

namespace Verif.Spec

/-- String expressions: a double-quoted string (owned) or a heredoc. -/
inductive StringTok (U : CharClass) : Str → CowStr → Str → Prop
  | quoted (s v rest : Str) : Quoted Plain s v rest → StringTok U s (.ownedS v) rest
  | heredoc (s : Str) (v : CowStr) (rest : Str) : Heredoc U s v rest → StringTok U s v rest

/-- Optional comma and the closing bracket. -/
inductive IsTupleEnd : Str → Str → Prop
  | close (s r : Str) : SkipLayout s (']' :: r) → IsTupleEnd s r
  | comma (s t r : Str) : SkipLayout s (',' :: t) → SkipLayout t (']' :: r) → IsTupleEnd s r

/-- Separator after an object element. -/
inductive IsObjectSep : Str → Str → Prop
  | comma (r : Str) : IsObjectSep (',' :: r) r
  | newline (s r : Str) : Newlines s r → IsObjectSep s r
  | close (r : Str) : IsObjectSep ('}' :: r) ('}' :: r)
mutual
/-- Expressions. Objects and parenthesised expressions may be preceded by layout. -/
inductive IsExpr (U : CharClass) : Str → Expr → Str → Prop
  | null (r : Str) : IsExpr U ('n' :: 'u' :: 'l' :: 'l' :: r) .null r
  | true (r : Str) : IsExpr U ('t' :: 'r' :: 'u' :: 'e' :: r) (.boolean true) r
  | false (r : Str) : IsExpr U ('f' :: 'a' :: 'l' :: 's' :: 'e' :: r) (.boolean false) r
  | number (s : Str) (n : Number) (r : Str) : NumberTok s n r → IsExpr U s (.number n) r
  | string (s : Str) (v : CowStr) (r : Str) : StringTok U s v r → IsExpr U s (.string v) r
  | tuple (s : Str) (es : List Expr) (r : Str) : IsTupleBody U s es r → IsExpr U ('[' :: s) (.tuple es) r
  | object (s t : Str) (es : List (ObjKey × Expr)) (r : Str) : SkipLayout s ('{' :: t) →
      IsObjectBody U t es r → IsExpr U s (.object es) r
  | bracket (s t u v : Str) (e : Expr) (r : Str) : SkipLayout s ('(' :: t) → SkipLayout t u →
      IsExpr U u e v → SkipLayout v (')' :: r) → IsExpr U s e r

/-- What follows `[`: comma separated expressions, an optional trailing comma, `]`. (The code also
accepts a lone comma.) -/
inductive IsTupleBody (U : CharClass) : Str → List Expr → Str → Prop
  | empty (s r : Str) : IsTupleEnd s r → IsTupleBody U s [] r
  | elems (s t u : Str) (e : Expr) (es : List Expr) (r : Str) : SkipLayout s t → IsExpr U t e u →
      IsTupleTail U u es r → IsTupleBody U s (e :: es) r

/-- What follows an element of a tuple. -/
inductive IsTupleTail (U : CharClass) : Str → List Expr → Str → Prop
  | last (s r : Str) : IsTupleEnd s r → IsTupleTail U s [] r
  | more (s t u v : Str) (e : Expr) (es : List Expr) (r : Str) : SkipLayout s (',' :: t) →
      SkipLayout t u → IsExpr U u e v → IsTupleTail U v es r → IsTupleTail U s (e :: es) r

/-- Keys of object elements: an identifier, else an expression kept as its source text. -/
inductive IsObjectKey (U : CharClass) : Str → ObjKey → Str → Prop
  | ident (s i r : Str) : Ident U s i r → IsObjectKey U s (.ident (.borrowed i)) r
  | expr (t : Str) (e : Expr) (r : Str) : ¬ Head (IdentStart U) (t ++ r) → IsExpr U (t ++ r) e r →
      IsObjectKey U (t ++ r) (.expr (.borrowed t)) r

/-- What follows `{` in an object: elements `key = expression`, each followed by `,`, line ends, or the
closing `}`. -/
inductive IsObjectBody (U : CharClass) : Str → List (ObjKey × Expr) → Str → Prop
  | close (s r : Str) : SkipLayout s ('}' :: r) → IsObjectBody U s [] r
  | elem (s t u v w x y z : Str) (k : ObjKey) (e : Expr) (es : List (ObjKey × Expr)) (r : Str) :
      SkipLayout s t → IsObjectKey U t k u → SkipInline u ('=' :: v) → SkipInline v w → IsExpr U w e x →
      SkipInline x y → IsObjectSep y z → IsObjectBody U z es r → IsObjectBody U s ((k, e) :: es) r
end

/-- Attribute: `identifier = expression` on one line. Trailing inline layout belongs to it. -/
inductive IsAttribute (U : CharClass) : Str → CowStr → Expr → Str → Prop
  | mk (s i t u v w r : Str) (e : Expr) : Ident U s i t → SkipInline t ('=' :: u) → SkipInline u v →
      IsExpr U v e w → SkipInline w r → IsAttribute U s (.borrowed i) e r

/-- A block label: identifier or single-line string literal. -/
inductive IsLabel (U : CharClass) : Str → BlockLabel → Str → Prop
  | ident (s i r : Str) : Ident U s i r → IsLabel U s (.identifier (.borrowed i)) r
  | string (s v r : Str) : Quoted PlainLine s v r → IsLabel U s (.stringLiteral v) r

/-- Block header: type, labels and `{`; `rest` is what follows the brace. -/
inductive IsLabels (U : CharClass) : Str → List BlockLabel → Str → Prop
  | open (s r : Str) : SkipInline s ('{' :: r) → IsLabels U s [] r
  | label (s t u : Str) (l : BlockLabel) (ls : List BlockLabel) (r : Str) : SkipInline s t →
      IsLabel U t l u → IsLabels U u ls r → IsLabels U s (l :: ls) r

/-- What must follow a body element: line ends, or the end of the input. -/
inductive IsElementEnd : Str → Str → Prop
  | newline (s r : Str) : Newlines s r → IsElementEnd s r
  | eof : IsElementEnd [] []
mutual
/-- Bodies: elements each followed by line ends or the end of the input. `rest` is what follows the body
and its trailing layout. -/
inductive IsBody (U : CharClass) : Str → Body → Str → Prop
  | done (s r : Str) : SkipLayout s r → IsBody U s [] r
  | elem (s t u v : Str) (el : BodyElement) (els : Body) (r : Str) : SkipLayout s t →
      IsElement U t el u → IsElementEnd u v → IsBody U v els r → IsBody U s (el :: els) r

/-- A body element. -/
inductive IsElement (U : CharClass) : Str → BodyElement → Str → Prop
  | attribute (s : Str) (k : CowStr) (e : Expr) (r : Str) : IsAttribute U s k e r →
      IsElement U s (.attribute k e) r
  | emptyBlock (s i t u v r : Str) (ls : List BlockLabel) : Ident U s i t → IsLabels U t ls u →
      SkipInline u ('}' :: v) → SkipInline v r → IsElement U s (.block (.borrowed i) ls []) r
  | oneLineBlock (s i t u u' v r : Str) (ls : List BlockLabel) (k : CowStr) (e : Expr) :
      Ident U s i t → IsLabels U t ls u → SkipInline u u' → IsAttribute U u' k e ('}' :: v) →
      SkipInline v r → IsElement U s (.block (.borrowed i) ls [.attribute k e]) r
  | block (s i t u u' v w r : Str) (ls : List BlockLabel) (b : Body) : Ident U s i t →
      IsLabels U t ls u → SkipInline u u' → Newlines u' v → IsBody U v b ('}' :: w) → SkipInline w r →
      IsElement U s (.block (.borrowed i) ls b) r
end

/-- A document: a body that is followed by nothing. -/
def Document (U : CharClass) (s : Str) (b : Body) : Prop := IsBody U s b []

end Verif.Spec
