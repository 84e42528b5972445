import Verif.Model.Ast
/-!
# The expression / body grammar (parse_str, Expression::parse)

Recursive named parsers are modelled by open recursion: each production takes the parser `e` for nested
expressions (or `b` for nested bodies); the knot is tied with fuel in `exprN` / `bodyN`.
-/
set_option autoImplicit false

namespace Verif

/-- The sign of a number: `opt!(s, alt!(char!('+') | char!('-')))` and the match after it
(number.rs:227-233); result = `positive`. -/
def numSign : Parser Bool := fun s =>
  (opt (tag ['+'] <//> tag ['-']) s).map fun o => match o with
    | none => true
    | some c => c == ['+']

/-- nom `digit` -/
def digit : Parser Str := takeWhile1 Char.isDigit

/-- number.rs:235-246: the mantissa alternatives -/
def mantissa : Parser (Option Str × Option Str) :=
  (do
    let d ← digit
    let dec ← opt (do let _ ← tag ['.']; opt digit)
    pure (some d, match dec with
      | none => none
      | some none => some []
      | some (some f) => some f))
  <//> (do
    let _ ← tag ['.']
    let f ← digit
    pure (none, some f))

/-- number.rs:262-287, the body of `exponent`'s `opt!` -/
def exponentBody : Parser Exponent := do
  let _ ← tag ['e'] <//> tag ['E']
  let pos ← numSign
  let d ← digit
  pure ⟨pos, .borrowed d⟩

/-- number.rs:262-287 `exponent` -/
def exponentP : Parser (Option Exponent) := opt exponentBody

/-- number.rs:224-260 `number` -/
def number : Parser Number := fun s =>
  (numSign s).bind fun s1 pos =>
  (mantissa s1).bind fun s2 wf =>
  (exponentP s2).bind fun r ex =>
  .ok r {
    input := .borrowed (s.take (s.length - r.length))
    positive := pos
    whole := wf.1.map CowStr.borrowed
    fraction := wf.2.map CowStr.borrowed
    exponent := ex }

/-- tuple.rs:33-50, separator of the tuple's list: `whitespace!(separated_list!(..))` skips layout before
every separator -/
def tupleSep : Parser Str := do
  let _ ← ws
  tag [',']

/-- tuple.rs:33-50, element of the tuple's list, with the layout skipped before it -/
def tupleElem (e : Parser Expr) : Parser Expr := do
  let _ ← ws
  e

/-- tuple.rs:33-50, what follows the elements: layout (skipped at the end of `whitespace!`), an optional
comma, `]` -/
def tupleEnd : Parser Unit := do
  let _ ← ws
  let _ ← wsAround (opt (tag [',']))
  let _ ← tag [']']
  pure ()

/-- tuple.rs:33-50 `tuple` -/
def tuple (e : Parser Expr) : Parser (List Expr) := do
  let _ ← tag ['[']
  let es ← separatedList tupleSep (tupleElem e)
  let _ ← tupleEnd
  pure es

/-- object.rs:100-110 `object_element_identifier` -/
def objectElementIdentifier (U : CharClass) (e : Parser Expr) : Parser ObjKey :=
  mapP (fun s => .ident (.borrowed s)) (identifier U)
  <//> mapP (fun s => .expr (.borrowed s)) (recognize e)

/-- object.rs:112-122 `object_element` -/
def objectElement (U : CharClass) (e : Parser Expr) : Parser (ObjKey × Expr) := do
  let _ ← inlineWs
  let k ← objectElementIdentifier U e
  let _ ← inlineWs
  let _ ← tag ['=']
  let _ ← inlineWs
  let v ← e
  let _ ← inlineWs
  pure (k, v)

/-- object.rs:134-141 `object_separator` -/
def objectSeparator : Parser Unit :=
  mapP (fun _ => ()) (tag [','])
  <//> mapP (fun _ => ()) newline
  <//> mapP (fun _ => ()) (peek (tag ['}']))

/-- object.rs:124-127 `object_begin` -/
def objectBegin : Parser Str := tag ['{']

/-- object.rs:129-132 `object_end` -/
def objectEnd : Parser Str := tag ['}']

/-- object.rs:134-141 `object_separator` with its value, which the other parsers drop -/
def objectSeparatorText : Parser Str :=
  tag [','] <//> mapP (fun _ => []) newline <//> mapP (fun _ => []) (peek objectEnd)

/-- object.rs:143-156, one iteration of `object_body` (layout, element, separator) -/
def objectItem (U : CharClass) (e : Parser Expr) : Parser (ObjKey × Expr) := do
  let _ ← ws
  let el ← objectElement U e
  let _ ← objectSeparator
  pure el

/-- object.rs:143-156 `object_body` -/
def objectBody (U : CharClass) (e : Parser Expr) : Parser (List (ObjKey × Expr)) := do
  let vs ← many0 (objectItem U e)
  let _ ← ws
  pure vs

/-- object.rs:158-166 `object` -/
def object (U : CharClass) (e : Parser Expr) : Parser (List (ObjKey × Expr)) := do
  let _ ← wsAround (tag ['{'])
  let vs ← wsAround (objectBody U e)
  let _ ← tag ['}']
  pure vs

/-- expression.rs:177-185 `bracket_expression` -/
def bracketExpression (e : Parser Expr) : Parser Expr := do
  let _ ← wsAround (tag ['('])
  let v ← wsAround e
  let _ ← tag [')']
  pure v

/-- expression.rs:187-212 `expression`, one unfolding -/
def exprStep (U : CharClass) (e : Parser Expr) : Parser Expr :=
  mapP (fun _ => .null) null
  <//> mapP .number number
  <//> mapP .boolean boolean
  <//> mapP .string (string U)
  <//> mapP .tuple (tuple e)
  <//> mapP .object (object U e)
  <//> bracketExpression e

/-- `expression` with recursion depth bounded by `n` -/
def exprN (U : CharClass) : Nat → Parser Expr
  | 0 => fun _ => .diverge
  | n + 1 => exprStep U (exprN U n)

/-- expression.rs:187-212 `expression`. Nested calls are on strictly shorter inputs, so `length + 1`
levels suffice (theorem `c74_expression_depth`). -/
def expression (U : CharClass) : Parser Expr := fun s => exprN U (s.length + 1) s

/-- attribute.rs:14-24 `attribute` -/
def attributeP (U : CharClass) : Parser Attribute := do
  let _ ← inlineWs
  let i ← identifier U
  let _ ← inlineWs
  let _ ← tag ['=']
  let _ ← inlineWs
  let v ← expression U
  let _ ← inlineWs
  pure (.borrowed i, v)

/-- block.rs:135-143 `block_label` -/
def blockLabel (U : CharClass) : Parser BlockLabel :=
  mapP (fun s => .identifier (.borrowed s)) (identifier U)
  <//> mapP .stringLiteral stringLiteral

/-- block.rs:145-150 `block_labels` -/
def blockLabels (U : CharClass) : Parser (List BlockLabel) :=
  many0 (inlineWsAround (blockLabel U))

/-- block.rs:42-57 `Block::new_one_line` -/
def newOneLine (t : CowStr) (ls : List BlockLabel) (a : Option Attribute) : BodyElement :=
  .block t ls (match a with
    | none => []
    | some (k, v) => [.attribute k v])

/-- block.rs:152-155 `one_line_block_body` -/
def oneLineBlockBody (U : CharClass) : Parser (Option Attribute) := opt (attributeP U)

/-- block.rs:152-169 `one_line_block` (with `one_line_block_body`) -/
def oneLineBlock (U : CharClass) : Parser BodyElement := do
  let _ ← inlineWs
  let t ← identifier U
  let _ ← inlineWs
  let ls ← blockLabels U
  let _ ← inlineWs
  let _ ← tag ['{']
  let _ ← inlineWs
  let a ← opt (attributeP U)
  let _ ← inlineWs
  let _ ← tag ['}']
  let _ ← inlineWs
  pure (newOneLine (.borrowed t) ls a)

/-- block.rs:171-184 `block` -/
def block (U : CharClass) (b : Parser Body) : Parser BodyElement := do
  let _ ← inlineWs
  let t ← identifier U
  let _ ← inlineWs
  let ls ← blockLabels U
  let _ ← inlineWs
  let _ ← tag ['{']
  let _ ← inlineWs
  let _ ← newline
  let _ ← inlineWs
  let body ← b
  let _ ← inlineWs
  let _ ← tag ['}']
  let _ ← inlineWs
  pure (.block (.borrowed t) ls body)

/-- body.rs:89-102 `body_element` -/
def bodyElement (U : CharClass) (b : Parser Body) : Parser BodyElement :=
  mapP (fun a => .attribute a.1 a.2) (attributeP U)
  <//> oneLineBlock U
  <//> block U b

/-- body.rs:104-126, one iteration of `body`: layout, element, then line ends or the end of the input -/
def bodyItem (U : CharClass) (b : Parser Body) : Parser BodyElement := do
  let _ ← ws
  let el ← bodyElement U b
  let _ ← mapP (fun _ => ()) newline <//> eof
  pure el

/-- body.rs:104-126 `body`, one unfolding -/
def bodyStep (U : CharClass) (b : Parser Body) : Parser Body := do
  let vs ← many0 (bodyItem U b)
  let _ ← ws
  pure vs

/-- `body` with nesting depth bounded by `n` -/
def bodyN (U : CharClass) : Nat → Parser Body
  | 0 => fun _ => .diverge
  | n + 1 => bodyStep U (bodyN U n)

/-- body.rs:104-126 `body` -/
def body (U : CharClass) : Parser Body := fun s => bodyN U (s.length + 1) s

/-- parser.rs:165-178 `config_file` -/
def configFile (U : CharClass) : Parser Body := exact (body U)

/-- Outcome of a public API call returning `Result<T, Error>`; the errors are the public error classes
that the theorems need to distinguish (errors.rs). -/
inductive Err where
  | parse
  | invalidUnicodeCodePoint (s : Str)
  | bug
  | unexpectedRemaining (s : Str)
  | utf8
  | io
  deriving Repr, DecidableEq

/-- Outcome of a public API call: a value, an `Err`, a panic, or non-termination. -/
inductive Res (ε α : Type) where
  | ok (v : α)
  | error (e : ε)
  | panic
  | diverge
  deriving Repr, DecidableEq

/-- `.map_err(|e| Error::from_err_str(&e))?` on a parser result: `Err::Error` becomes a
`ParseError`; the only `return_error!` in the parsers (string.rs:107-122) has the code of `InvalidUnicodeCodePoint`, and
`Err::Failure` becomes that error with the remaining input (errors.rs:99-111, 149-167, 210-231, see `Model/Errors.lean`). -/
def PRes.toRes {α β : Type} (x : PRes α) (k : Str → α → Res Err β) : Res Err β :=
  match x with
  | .ok r v => k r v
  | .err => .error .parse
  | .fail t => .error (.invalidUnicodeCodePoint t)
  | .panic => .panic
  | .diverge => .diverge

/-- parser.rs:182-197 `parse_str` -/
def parseStr (U : CharClass) (s : Str) : Res Err Body :=
  (configFile U s).toRes fun r b => if r.isEmpty then .ok b else .error .bug

/-- expression.rs:74-80 `Expression::parse` -/
def Expr.parse (U : CharClass) (s : Str) : Res Err Expr :=
  (expression U s).toRes fun r e => if r.isEmpty then .ok e else .error (.unexpectedRemaining r)

end Verif
