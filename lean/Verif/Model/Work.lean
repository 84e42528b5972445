import Verif.Model.Calls
/-!
# How much work the HCL 2 parsers do

The parsers of `Model/Lex.lean` and `Model/Parser.lean` again, now each with the number of steps it makes on an input: `cost` of
`CParser` is here one step for every token parser that is tried and one for every character that it looks at, also where the
parser gives up and another alternative is tried on the same text. Copying what was found counts as looking at it again. The
parsers themselves (`run`) are the ones of `Model/Parser.lean` (`Proofs/Work.lean`).
-/
set_option autoImplicit false

namespace Verif
namespace CParser
variable {α β : Type}

/-- nom `tag!`: compares as many characters as both texts have -/
def tagW (t : Str) : CParser Str := ⟨tag t, fun s => 1 + min t.length s.length⟩

/-- nom `eof!` -/
def eofW : CParser Unit := ⟨eof, fun _ => 1⟩

/-- nom `take_while!`: looks at the characters that it takes and at the next one -/
def takeWhileW (f : Char → Bool) : CParser Str := ⟨takeWhile f, fun s => 2 + (s.takeWhile f).length⟩

/-- nom `take_while1!` -/
def takeWhile1W (f : Char → Bool) : CParser Str := ⟨takeWhile1 f, fun s => 2 + (s.takeWhile f).length⟩

/-- nom `take_while_m_n!` -/
def takeWhileMNW (m n : Nat) (f : Char → Bool) : CParser Str := ⟨takeWhileMN m n f, fun s => 2 + ((s.take n).takeWhile f).length⟩

/-- nom `take_until!`: compares at every position up to the first occurrence -/
def takeUntilCost (t : Str) : Str → Nat
  | [] => 1 + t.length
  | c :: s => 1 + t.length + if t.isPrefixOf (c :: s) then 0 else takeUntilCost t s

/-- nom `take_until!` -/
def takeUntilW (t : Str) : CParser Str := ⟨takeUntil t, takeUntilCost t⟩

/-- nom `peek!` -/
def peek (p : CParser α) : CParser α := ⟨Verif.peek p.run, p.cost⟩

/-- nom `verify!`, with a test of one character -/
def verify (p : CParser α) (ok? : α → Bool) : CParser α := ⟨Verif.verify p.run ok?, fun s => p.cost s + 1⟩

/-- nom `map_res!`, with a conversion that makes `n` steps -/
def mapRes (n : Nat) (p : CParser α) (g : α → Option β) : CParser β := ⟨Verif.mapRes p.run g, fun s => p.cost s + n⟩

/-- nom `return_error!` -/
def returnError (p : CParser α) : CParser α := ⟨Verif.returnError p.run, p.cost⟩

/-- nom `many1!` -/
def many1 (p : CParser α) : CParser (List α) := ⟨Verif.many1 p.run, fun s => p.cost s + match p.run s with
  | .ok r _ => (many0 p).cost r
  | _ => 0⟩

/-- nom `separated_list!` after the first element, with a separator that makes steps as well -/
def sepTailWork (sep : CParser β) (p : CParser α) : Nat → Str → Nat
  | 0, _ => 0
  | n + 1, s => sep.cost s + match sep.run s with
    | .ok r _ => p.cost r + match p.run r with
      | .ok r' _ => if r'.length < s.length then sepTailWork sep p n r' else 0
      | _ => 0
    | _ => 0

/-- nom `separated_list!`, with a separator that makes steps as well -/
def separatedListW (sep : CParser β) (p : CParser α) : CParser (List α) :=
  ⟨Verif.separatedList sep.run p.run, fun s => p.cost s + match p.run s with
    | .ok r _ => if r.length < s.length then sepTailWork sep p (r.length + 1) r else 0
    | _ => 0⟩

end CParser

open CParser

/-! ## Layout -/

/-- nom `eol`, as `eol` -/
def eolW : CParser Str := tagW ['\n'] <///> tagW ['\r', '\n']

/-- whitespace.rs:37-40, as `inlineComment` -/
def inlineCommentW : CParser Str := do
  let _ ← tagW ['/', '*']
  let v ← takeUntilW ['*', '/']
  let _ ← tagW ['*', '/']
  pure v

/-- whitespace.rs:42-45, as `hashComment` -/
def hashCommentW : CParser Str := do
  let _ ← tagW ['#']
  let v ← takeWhileW notEol
  let _ ← eolW
  pure v

/-- whitespace.rs:47-50, as `slashComment` -/
def slashCommentW : CParser Str := do
  let _ ← tagW ['/', '/']
  let v ← takeWhileW notEol
  let _ ← eolW
  pure v

/-- whitespace.rs:59-66, as `inlineWs` -/
def inlineWsW : CParser (List Str) := CParser.many0 (inlineCommentW <///> takeWhileW isBlank)

/-- whitespace.rs:68-77, as `ws` -/
def wsW : CParser (List Str) :=
  CParser.many0 (hashCommentW <///> slashCommentW <///> inlineCommentW <///> takeWhileW isSpace)

/-- whitespace.rs:79-93, as `newlineItem` -/
def newlineItemW : CParser Str :=
  hashCommentW <///> slashCommentW
    <///> (do let c ← inlineCommentW; let _ ← eolW; pure c)
    <///> eolW

/-- whitespace.rs:79-93, as `newline` -/
def newlineW : CParser (List Str) := CParser.many1 newlineItemW

/-- whitespace.rs:117-136, as `wsAround` -/
def wsAroundW {α : Type} (p : CParser α) : CParser α := do
  let _ ← wsW
  let v ← p
  let _ ← wsW
  pure v

/-- whitespace.rs:95-115, as `inlineWsAround` -/
def inlineWsAroundW {α : Type} (p : CParser α) : CParser α := do
  let _ ← inlineWsW
  let v ← p
  let _ ← inlineWsW
  pure v

/-! ## Tokens -/

/-- identifier.rs:35-52, as `identifier` -/
def identifierW (U : CharClass) : CParser Str :=
  CParser.verify (takeWhile1W (identChar U)) fun s => match s with
    | [] => false
    | c :: _ => identStart U c

/-- boolean.rs:5-10, as `boolean` -/
def booleanW : CParser Bool :=
  map (fun _ => true) (tagW ['t', 'r', 'u', 'e']) <///> map (fun _ => false) (tagW ['f', 'a', 'l', 's', 'e'])

/-- null.rs:4-12, as `null` -/
def nullW : CParser Unit := map (fun _ => ()) (tagW ['n', 'u', 'l', 'l'])

/-- string.rs:114-117, as `hexArm` -/
def hexArmW (k : Char) (n : Nat) : CParser Str :=
  CParser.mapRes 8 (do let _ ← tagW [k]; takeWhileMNW 1 n isHexDigit) hexToString

/-- string.rs:107-122, as `hexToUnicode` -/
def hexToUnicodeW : CParser Str :=
  CParser.returnError (hexArmW 'x' 2 <///> hexArmW 'u' 4 <///> hexArmW 'U' 8)

/-- string.rs:89-105, as `unescape` -/
def unescapeW : CParser Str :=
  map (fun _ => ['\x07']) (tagW ['a'])
  <///> map (fun _ => ['\x08']) (tagW ['b'])
  <///> map (fun _ => ['\x0c']) (tagW ['f'])
  <///> map (fun _ => ['\n']) (tagW ['n'])
  <///> map (fun _ => ['\r']) (tagW ['r'])
  <///> map (fun _ => ['\t']) (tagW ['t'])
  <///> map (fun _ => ['\x0b']) (tagW ['v'])
  <///> map (fun _ => ['\\']) (tagW ['\\'])
  <///> map (fun _ => ['"']) (tagW ['"'])
  <///> map (fun _ => ['?']) (tagW ['?'])
  <///> CParser.mapRes 3 (takeWhileMNW 1 3 isOctDigit) octalToString
  <///> hexToUnicodeW

/-- nom `escaped_transform!`: the steps of the iterations of `escapedAux`; what is taken is also copied -/
def escapedCost (normal : Char → Bool) (un : CParser Str) : Nat → Str → Nat
  | 0, _ => 0
  | n + 1, s => match s with
    | [] => 1
    | c :: cs => 2 + 2 * ((c :: cs).takeWhile normal).length + match takeWhile1 normal (c :: cs) with
      | .ok r _ => escapedCost normal un n r
      | _ => if c == '\\' then
          match cs with
          | [] => 0
          | _ => un.cost cs + match un.run cs with
              | .ok r _ => if r.length < cs.length then 4 + escapedCost normal un n r else 0
              | _ => 0
        else 0

/-- nom `escaped_transform!`, as `escapedTransform` -/
def escapedTransformW (normal : Char → Bool) (un : CParser Str) : CParser Str :=
  ⟨escapedTransform normal un.run, fun s => escapedCost normal un (s.length + 1) s⟩

/-- string.rs:134-141, as `quotedString` -/
def quotedStringW : CParser Str := do
  let _ ← tagW ['"']
  let v ← escapedTransformW legalChar unescapeW
  let _ ← tagW ['"']
  pure v

/-- string.rs:152-159, as `stringLiteral` -/
def stringLiteralW : CParser Str := do
  let _ ← tagW ['"']
  let v ← escapedTransformW legalSingleLineChar unescapeW
  let _ ← tagW ['"']
  pure v

/-- string.rs:170-182, as `heredocBegin` -/
def heredocBeginW (U : CharClass) : CParser HereDoc := do
  let _ ← tagW ['<', '<']
  let ind ← CParser.opt (tagW ['-'])
  let id ← takeWhile1W (heredocChar U)
  let _ ← CParser.peek eolW
  pure ⟨id, ind == some ['-']⟩

/-- string.rs:188-206, as `heredocEnd` -/
def heredocEndW (h : HereDoc) : CParser Nat := do
  let _ ← eolW
  let ind ← takeWhileW isBlank
  let _ ← tagW h.identifier
  let _ ← CParser.peek eolW
  pure (if h.indented then ind.length else 0)

/-- utils.rs:112-152 `take_till_match!`: the parser is tried at every position up to the first match -/
def takeTillMatchCost {α : Type} (p : CParser α) : Str → Nat
  | [] => 1
  | c :: s => 1 + p.cost (c :: s) + match p.run (c :: s) with
    | .err | .fail _ => takeTillMatchCost p s
    | _ => 0

/-- utils.rs:112-152, as `takeTillMatch` -/
def takeTillMatchW {α : Type} (p : CParser α) : CParser (Str × α) := ⟨takeTillMatch p.run, takeTillMatchCost p⟩

/-- string.rs:213-220, as `heredocContent` -/
def heredocContentW (h : HereDoc) : CParser (Str × Nat) :=
  map (fun _ => (([] : Str), 0)) (heredocEndW h)
    <///> (do let _ ← eolW; takeTillMatchW (heredocEndW h))

/-- string.rs:221, as `heredocFinish`: `unindent_heredoc` splits the text into lines, looks at the beginnings of the lines, and
copies them -/
def heredocFinishW (c : Str × Nat) : CParser CowStr := ⟨heredocFinish c, fun _ => 1 + 4 * (c.1.length + 1)⟩

/-- string.rs:208-223, as `heredocString` -/
def heredocStringW (U : CharClass) : CParser CowStr := do
  let h ← heredocBeginW U
  let c ← heredocContentW h
  heredocFinishW c

/-- string.rs:225-231, as `string` -/
def stringW (U : CharClass) : CParser CowStr := map CowStr.ownedS quotedStringW <///> heredocStringW U

/-- number.rs:227-233, as `numSign` -/
def numSignW : CParser Bool := map (fun o => match o with
    | none => true
    | some c => c == ['+']) (CParser.opt (tagW ['+'] <///> tagW ['-']))

/-- nom `digit` -/
def digitW : CParser Str := takeWhile1W Char.isDigit

/-- number.rs:235-246, as `mantissa` -/
def mantissaW : CParser (Option Str × Option Str) :=
  (do
    let d ← digitW
    let dec ← CParser.opt (do let _ ← tagW ['.']; CParser.opt digitW)
    pure (some d, match dec with
      | none => none
      | some none => some []
      | some (some f) => some f))
  <///> (do
    let _ ← tagW ['.']
    let f ← digitW
    pure (none, some f))

/-- number.rs:262-287, as `exponentP` -/
def exponentW : CParser (Option Exponent) := CParser.opt (do
  let _ ← tagW ['e'] <///> tagW ['E']
  let pos ← numSignW
  let d ← digitW
  pure ⟨pos, .borrowed d⟩)

/-- number.rs:224-260, as `number`: the steps of its three parts -/
def numberW : CParser Number := ⟨number, (do
  let _ ← numSignW
  let _ ← mantissaW
  let _ ← exponentW
  pure () : CParser Unit).cost⟩

/-! ## Expressions -/

/-- tuple.rs:33-50, as `tupleSep` -/
def tupleSepW : CParser Str := do
  let _ ← wsW
  tagW [',']

/-- tuple.rs:33-50, as `tupleElem` -/
def tupleElemW (e : CParser Expr) : CParser Expr := do
  let _ ← wsW
  e

/-- tuple.rs:33-50, as `tupleEnd` -/
def tupleEndW : CParser Unit := do
  let _ ← wsW
  let _ ← wsAroundW (CParser.opt (tagW [',']))
  let _ ← tagW [']']
  pure ()

/-- tuple.rs:33-50, as `tuple` -/
def tupleW (e : CParser Expr) : CParser (List Expr) := do
  let _ ← tagW ['[']
  let es ← separatedListW tupleSepW (tupleElemW e)
  let _ ← tupleEndW
  pure es

/-- object.rs:100-110, as `objectElementIdentifier` -/
def objectElementIdentifierW (U : CharClass) (e : CParser Expr) : CParser ObjKey :=
  map (fun s => .ident (.borrowed s)) (identifierW U)
  <///> map (fun s => .expr (.borrowed s)) (CParser.recognize e)

/-- object.rs:112-122, as `objectElement` -/
def objectElementW (U : CharClass) (e : CParser Expr) : CParser (ObjKey × Expr) := do
  let _ ← inlineWsW
  let k ← objectElementIdentifierW U e
  let _ ← inlineWsW
  let _ ← tagW ['=']
  let _ ← inlineWsW
  let v ← e
  let _ ← inlineWsW
  pure (k, v)

/-- object.rs:134-141, as `objectSeparator` -/
def objectSeparatorW : CParser Unit :=
  map (fun _ => ()) (tagW [','])
  <///> map (fun _ => ()) newlineW
  <///> map (fun _ => ()) (CParser.peek (tagW ['}']))

/-- object.rs:143-156, as `objectItem` -/
def objectItemW (U : CharClass) (e : CParser Expr) : CParser (ObjKey × Expr) := do
  let _ ← wsW
  let el ← objectElementW U e
  let _ ← objectSeparatorW
  pure el

/-- object.rs:143-156, as `objectBody` -/
def objectBodyW (U : CharClass) (e : CParser Expr) : CParser (List (ObjKey × Expr)) := do
  let vs ← CParser.many0 (objectItemW U e)
  let _ ← wsW
  pure vs

/-- object.rs:158-166, as `object` -/
def objectW (U : CharClass) (e : CParser Expr) : CParser (List (ObjKey × Expr)) := do
  let _ ← wsAroundW (tagW ['{'])
  let vs ← wsAroundW (objectBodyW U e)
  let _ ← tagW ['}']
  pure vs

/-- expression.rs:177-185, as `bracketExpression` -/
def bracketExpressionW (e : CParser Expr) : CParser Expr := do
  let _ ← wsAroundW (tagW ['('])
  let v ← wsAroundW e
  let _ ← tagW [')']
  pure v

/-- expression.rs:187-212, as `exprStep` -/
def exprStepW (U : CharClass) (e : CParser Expr) : CParser Expr :=
  map (fun _ => .null) nullW
  <///> map .number numberW
  <///> map .boolean booleanW
  <///> map .string (stringW U)
  <///> map .tuple (tupleW e)
  <///> map .object (objectW U e)
  <///> bracketExpressionW e

/-- expression.rs:187-212, as `exprN`; a call is one step more -/
def exprW (U : CharClass) : Nat → CParser Expr
  | 0 => call (lift fun _ => .diverge)
  | n + 1 => call (exprStepW U (exprW U n))

/-- expression.rs:187-212, as `expression` -/
def expressionW (U : CharClass) : CParser Expr :=
  ⟨expression U, fun s => (exprW U (s.length + 1)).cost s⟩

/-! ## Bodies -/

/-- attribute.rs:14-24, as `attributeP` -/
def attributeW (U : CharClass) : CParser Attribute := do
  let _ ← inlineWsW
  let i ← identifierW U
  let _ ← inlineWsW
  let _ ← tagW ['=']
  let _ ← inlineWsW
  let v ← expressionW U
  let _ ← inlineWsW
  pure (.borrowed i, v)

/-- block.rs:135-143, as `blockLabel` -/
def blockLabelW (U : CharClass) : CParser BlockLabel :=
  map (fun s => .identifier (.borrowed s)) (identifierW U)
  <///> map .stringLiteral stringLiteralW

/-- block.rs:145-150, as `blockLabels` -/
def blockLabelsW (U : CharClass) : CParser (List BlockLabel) :=
  CParser.many0 (inlineWsAroundW (blockLabelW U))

/-- block.rs:152-169, as `oneLineBlock` -/
def oneLineBlockW (U : CharClass) : CParser BodyElement := do
  let _ ← inlineWsW
  let t ← identifierW U
  let _ ← inlineWsW
  let ls ← blockLabelsW U
  let _ ← inlineWsW
  let _ ← tagW ['{']
  let _ ← inlineWsW
  let a ← CParser.opt (attributeW U)
  let _ ← inlineWsW
  let _ ← tagW ['}']
  let _ ← inlineWsW
  pure (newOneLine (.borrowed t) ls a)

/-- block.rs:171-184, as `block` -/
def blockW (U : CharClass) (b : CParser Body) : CParser BodyElement := do
  let _ ← inlineWsW
  let t ← identifierW U
  let _ ← inlineWsW
  let ls ← blockLabelsW U
  let _ ← inlineWsW
  let _ ← tagW ['{']
  let _ ← inlineWsW
  let _ ← newlineW
  let _ ← inlineWsW
  let body ← b
  let _ ← inlineWsW
  let _ ← tagW ['}']
  let _ ← inlineWsW
  pure (.block (.borrowed t) ls body)

/-- body.rs:89-102, as `bodyElement` -/
def bodyElementW (U : CharClass) (b : CParser Body) : CParser BodyElement :=
  map (fun a => .attribute a.1 a.2) (attributeW U)
  <///> oneLineBlockW U
  <///> blockW U b

/-- body.rs:104-126, as `bodyItem` -/
def bodyItemW (U : CharClass) (b : CParser Body) : CParser BodyElement := do
  let _ ← wsW
  let el ← bodyElementW U b
  let _ ← map (fun _ => ()) newlineW <///> eofW
  pure el

/-- body.rs:104-126, as `bodyStep` -/
def bodyStepW (U : CharClass) (b : CParser Body) : CParser Body := do
  let vs ← CParser.many0 (bodyItemW U b)
  let _ ← wsW
  pure vs

/-- body.rs:104-126, as `bodyN`; a call is one step more -/
def bodyW (U : CharClass) : Nat → CParser Body
  | 0 => call (lift fun _ => .diverge)
  | n + 1 => call (bodyStepW U (bodyW U n))

/-- The number of steps that parser.rs:182-197 `parse_str` makes; the last ones are the tests for the end of input. -/
def parseStrSteps (U : CharClass) (s : Str) : Nat := (bodyW U (s.length + 1)).cost s + 2

/-- The number of steps that expression.rs:74-80 `Expression::parse` makes. -/
def exprParseSteps (U : CharClass) (s : Str) : Nat := (exprW U (s.length + 1)).cost s + 1

end Verif
