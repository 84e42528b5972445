import Verif.Model.Parser
/-!
# How often the recursive parsers are called

The parsers of `Model/Parser.lean` again, each together with the number of calls of the recursive parsers `expression`
(expression.rs:187-212) and `body` (body.rs:104-126) that it makes on an input. The parser itself (`run`) is the one of
`Model/Parser.lean`: `Proofs/Calls.lean` shows `(exprC U n).run = exprN U n` and `(bodyC U n).run = bodyN U n`. A call
counts whether it succeeds or not, so this measures backtracking. The work done by the other parsers (tokens and layout)
is not counted.
-/
set_option autoImplicit false

namespace Verif

/-- A parser and the number of counted calls it makes on each input. -/
structure CParser (α : Type) where
  run : Parser α
  cost : Str → Nat

namespace CParser
variable {α β : Type}

/-- A parser that makes no counted call. -/
def lift (p : Parser α) : CParser α := ⟨p, fun _ => 0⟩

/-- nom `do_parse!`: the second parser runs where the first succeeded. -/
def bind (p : CParser α) (f : α → CParser β) : CParser β :=
  ⟨p.run >>= fun v => (f v).run, fun s => p.cost s + match p.run s with
    | .ok r v => (f v).cost r
    | _ => 0⟩

instance : Monad CParser where
  pure v := lift (Pure.pure v)
  bind := bind

/-- nom `alt!`: the second alternative runs if the first gave `Err::Error`. -/
def orElse (p q : CParser α) : CParser α :=
  ⟨p.run <//> q.run, fun s => p.cost s + match p.run s with
    | .err => q.cost s
    | _ => 0⟩

/-- nom `map!` -/
def map (g : α → β) (p : CParser α) : CParser β := ⟨mapP g p.run, p.cost⟩

/-- nom `opt!` -/
def opt (p : CParser α) : CParser (Option α) := ⟨Verif.opt p.run, p.cost⟩

/-- nom `recognize!` -/
def recognize (p : CParser α) : CParser Str := ⟨Verif.recognize p.run, p.cost⟩

/-- nom `many0!`: the calls made by the iterations of `many0Aux`. -/
def many0Cost (p : CParser α) : Nat → Str → Nat
  | 0, _ => 0
  | n + 1, s => p.cost s + match p.run s with
    | .ok r _ => if r.length < s.length then many0Cost p n r else 0
    | _ => 0

/-- nom `many0!` -/
def many0 (p : CParser α) : CParser (List α) := ⟨Verif.many0 p.run, fun s => many0Cost p (s.length + 1) s⟩

/-- nom `separated_list!` after the first element: the calls made by the iterations of `sepTailAux`. -/
def sepTailCost (sep : Parser β) (p : CParser α) : Nat → Str → Nat
  | 0, _ => 0
  | n + 1, s => match sep s with
    | .ok r _ => p.cost r + match p.run r with
      | .ok r' _ => if r'.length < s.length then sepTailCost sep p n r' else 0
      | _ => 0
    | _ => 0

/-- nom `separated_list!` with a separator that makes no counted call -/
def separatedList (sep : Parser β) (p : CParser α) : CParser (List α) :=
  ⟨Verif.separatedList sep p.run, fun s => p.cost s + match p.run s with
    | .ok r _ => if r.length < s.length then sepTailCost sep p (r.length + 1) r else 0
    | _ => 0⟩

/-- A call of a counted parser. -/
def call (p : CParser α) : CParser α := ⟨p.run, fun s => 1 + p.cost s⟩

end CParser

open CParser

@[inherit_doc] infixr:20 " <///> " => CParser.orElse

/-- whitespace.rs:117-136, as `wsAround` -/
def wsAroundC {α : Type} (p : CParser α) : CParser α := do
  let _ ← lift ws
  let v ← p
  let _ ← lift ws
  pure v

/-- tuple.rs:33-50, as `tupleElem` -/
def tupleElemC (e : CParser Expr) : CParser Expr := do
  let _ ← lift ws
  e

/-- tuple.rs:33-50, as `tuple` -/
def tupleC (e : CParser Expr) : CParser (List Expr) := do
  let _ ← lift (tag ['['])
  let es ← CParser.separatedList tupleSep (tupleElemC e)
  let _ ← lift tupleEnd
  pure es

/-- object.rs:100-110, as `objectElementIdentifier` -/
def objectElementIdentifierC (U : CharClass) (e : CParser Expr) : CParser ObjKey :=
  lift (mapP (fun s => .ident (.borrowed s)) (identifier U))
  <///> map (fun s => .expr (.borrowed s)) (CParser.recognize e)

/-- object.rs:112-122, as `objectElement` -/
def objectElementC (U : CharClass) (e : CParser Expr) : CParser (ObjKey × Expr) := do
  let _ ← lift inlineWs
  let k ← objectElementIdentifierC U e
  let _ ← lift inlineWs
  let _ ← lift (tag ['='])
  let _ ← lift inlineWs
  let v ← e
  let _ ← lift inlineWs
  pure (k, v)

/-- object.rs:143-156, as `objectItem` -/
def objectItemC (U : CharClass) (e : CParser Expr) : CParser (ObjKey × Expr) := do
  let _ ← lift ws
  let el ← objectElementC U e
  let _ ← lift objectSeparator
  pure el

/-- object.rs:143-156, as `objectBody` -/
def objectBodyC (U : CharClass) (e : CParser Expr) : CParser (List (ObjKey × Expr)) := do
  let vs ← CParser.many0 (objectItemC U e)
  let _ ← lift ws
  pure vs

/-- object.rs:158-166, as `object` -/
def objectC (U : CharClass) (e : CParser Expr) : CParser (List (ObjKey × Expr)) := do
  let _ ← lift (wsAround (tag ['{']))
  let vs ← wsAroundC (objectBodyC U e)
  let _ ← lift (tag ['}'])
  pure vs

/-- expression.rs:177-185, as `bracketExpression` -/
def bracketExpressionC (e : CParser Expr) : CParser Expr := do
  let _ ← lift (wsAround (tag ['(']))
  let v ← wsAroundC e
  let _ ← lift (tag [')'])
  pure v

/-- expression.rs:187-212, as `exprStep` -/
def exprStepC (U : CharClass) (e : CParser Expr) : CParser Expr :=
  lift (mapP (fun _ => .null) null)
  <///> lift (mapP .number number)
  <///> lift (mapP .boolean boolean)
  <///> lift (mapP .string (string U))
  <///> map .tuple (tupleC e)
  <///> map .object (objectC U e)
  <///> bracketExpressionC e

/-- expression.rs:187-212, as `exprN`; each call is counted -/
def exprC (U : CharClass) : Nat → CParser Expr
  | 0 => call (lift fun _ => .diverge)
  | n + 1 => call (exprStepC U (exprC U n))

/-- expression.rs:187-212, as `expression` -/
def expressionC (U : CharClass) : CParser Expr :=
  ⟨expression U, fun s => (exprC U (s.length + 1)).cost s⟩

/-- attribute.rs:14-24, as `attributeP` -/
def attributeC (U : CharClass) : CParser Attribute := do
  let _ ← lift inlineWs
  let i ← lift (identifier U)
  let _ ← lift inlineWs
  let _ ← lift (tag ['='])
  let _ ← lift inlineWs
  let v ← expressionC U
  let _ ← lift inlineWs
  pure (.borrowed i, v)

/-- block.rs:152-169, as `oneLineBlock` -/
def oneLineBlockC (U : CharClass) : CParser BodyElement := do
  let _ ← lift inlineWs
  let t ← lift (identifier U)
  let _ ← lift inlineWs
  let ls ← lift (blockLabels U)
  let _ ← lift inlineWs
  let _ ← lift (tag ['{'])
  let _ ← lift inlineWs
  let a ← CParser.opt (attributeC U)
  let _ ← lift inlineWs
  let _ ← lift (tag ['}'])
  let _ ← lift inlineWs
  pure (newOneLine (.borrowed t) ls a)

/-- block.rs:171-184, as `block` -/
def blockC (U : CharClass) (b : CParser Body) : CParser BodyElement := do
  let _ ← lift inlineWs
  let t ← lift (identifier U)
  let _ ← lift inlineWs
  let ls ← lift (blockLabels U)
  let _ ← lift inlineWs
  let _ ← lift (tag ['{'])
  let _ ← lift inlineWs
  let _ ← lift newline
  let _ ← lift inlineWs
  let body ← b
  let _ ← lift inlineWs
  let _ ← lift (tag ['}'])
  let _ ← lift inlineWs
  pure (.block (.borrowed t) ls body)

/-- body.rs:89-102, as `bodyElement` -/
def bodyElementC (U : CharClass) (b : CParser Body) : CParser BodyElement :=
  map (fun a => .attribute a.1 a.2) (attributeC U)
  <///> oneLineBlockC U
  <///> blockC U b

/-- body.rs:104-126, as `bodyItem` -/
def bodyItemC (U : CharClass) (b : CParser Body) : CParser BodyElement := do
  let _ ← lift ws
  let el ← bodyElementC U b
  let _ ← lift (mapP (fun _ => ()) newline <//> eof)
  pure el

/-- body.rs:104-126, as `bodyStep` -/
def bodyStepC (U : CharClass) (b : CParser Body) : CParser Body := do
  let vs ← CParser.many0 (bodyItemC U b)
  let _ ← lift ws
  pure vs

/-- body.rs:104-126, as `bodyN`; each call is counted -/
def bodyC (U : CharClass) : Nat → CParser Body
  | 0 => call (lift fun _ => .diverge)
  | n + 1 => call (bodyStepC U (bodyC U n))

/-- The number of calls of `body` and `expression` that parser.rs:182-197 `parse_str` makes. -/
def parseStrCalls (U : CharClass) (s : Str) : Nat := (bodyC U (s.length + 1)).cost s

/-- The number of calls of `expression` that expression.rs:74-80 `Expression::parse` makes. -/
def exprParseCalls (U : CharClass) (s : Str) : Nat := (exprC U (s.length + 1)).cost s

end Verif
