import Verif.Model.Work
import Verif.Model.OldCalls
/-!
# How much work the legacy parser does

As `Model/Work.lean`, for the parsers of `Model/OldParser.lean`: `cost` is one step for every token parser that is tried and one
for every character that it looks at or copies. The parsers themselves (`run`) are the ones of `Model/OldParser.lean`
(`Proofs/OldWork.lean`).
-/
set_option autoImplicit false

namespace Verif
open CParser

/-- nom `recognize_float`, as `recognizeFloat` -/
def recognizeFloatW : CParser Str := CParser.recognize (do
  let _ ← CParser.opt (tagW ['+'] <///> tagW ['-'])
  let _ ← (do
      let _ ← digitW
      let _ ← CParser.opt (do let _ ← tagW ['.']; CParser.opt digitW)
      pure ())
    <///> (do
      let _ ← tagW ['.']
      let _ ← digitW
      pure ())
  CParser.opt (do
    let _ ← tagW ['e'] <///> tagW ['E']
    let _ ← CParser.opt (tagW ['+'] <///> tagW ['-'])
    digitW))

/-- literals/number.rs:26-40, 56-58, as `oldNumber`: the text that was recognised is read once as an integer and once as a float
(std's arithmetic for floats is not counted) -/
def oldNumberW (P : F64Parse) : CParser Value := ⟨oldNumber P, fun s => recognizeFloatW.cost s + match recognizeFloat s with
  | .ok _ t => 2 * (t.length + 1)
  | _ => 0⟩

/-- literals/key.rs:97-104, as `oldKey` -/
def oldKeyW (U : CharClass) : CParser Key :=
  map (fun s => .identifier (.borrowed s)) (identifierW U)
  <///> map (fun s => .string (.ownedS s)) stringLiteralW

/-- parser.rs:62-77, as `listElem` -/
def listElemW (v : CParser Value) : CParser Value := do
  let _ ← wsW
  v

/-- parser.rs:50-77, as `list` -/
def listW (v : CParser Value) : CParser (List Value) := do
  let _ ← tagW ['[']
  let vs ← separatedListW tupleSepW (listElemW v)
  let _ ← tupleEndW
  pure vs

/-- parser.rs:91-99, as `mapExpression` -/
def mapExpressionW (m : CParser MapValues) : CParser MapValues := do
  let _ ← wsAroundW (tagW ['{'])
  let es ← wsAroundW m
  let _ ← tagW ['}']
  pure es

/-- parser.rs:79-89, as `valueStep` -/
def valueStepW (U : CharClass) (P : F64Parse) (v : CParser Value) (m : CParser MapValues) : CParser Value :=
  map (fun _ => .null) nullW
  <///> oldNumberW P
  <///> map .boolean booleanW
  <///> map (fun s : CowStr => .string s.str) (stringW U)
  <///> map .list (listW v)
  <///> map (fun x => .object [x]) (mapExpressionW m)

/-- parser.rs:107-112, as `attributeEq` -/
def attributeEqW (U : CharClass) (v : CParser Value) : CParser (Key × Value) := do
  let _ ← inlineWsW
  let k ← oldKeyW U
  let _ ← inlineWsW
  let _ ← tagW ['=']
  let _ ← inlineWsW
  let x ← v
  pure (k, x)

/-- parser.rs:113-118, as `attributeMap` -/
def attributeMapW (U : CharClass) (m : CParser MapValues) : CParser (Key × Value) := do
  let _ ← inlineWsW
  let i ← identifierW U
  let _ ← inlineWsW
  let _ ← CParser.opt (tagW ['='])
  let _ ← inlineWsW
  let x ← mapExpressionW m
  pure (.identifier (.borrowed i), .object [x])

/-- parser.rs:119-124, as `attributeBlock` -/
def attributeBlockW (U : CharClass) (m : CParser MapValues) : CParser (Key × Value) := do
  let _ ← inlineWsW
  let i ← identifierW U
  let ls ← CParser.many0 (do let _ ← inlineWsW; stringLiteralW)
  let _ ← inlineWsW
  let x ← mapExpressionW m
  pure (.identifier (.borrowed i), .block (.unmerged [(ls, x)]))

/-- parser.rs:103-128, as `oldAttribute` -/
def oldAttributeW (U : CharClass) (v : CParser Value) (m : CParser MapValues) : CParser (Key × Value) := do
  let a ← attributeEqW U v <///> attributeMapW U m <///> attributeBlockW U m
  let _ ← inlineWsW
  pure a

/-- parser.rs:138-142, as `attributeEnd` -/
def attributeEndW : CParser Unit :=
  map (fun _ => ()) (wsAroundW (tagW [',']))
  <///> map (fun _ => ()) newlineW
  <///> eofW

/-- parser.rs:130-147, as `mapItem` -/
def mapItemW (U : CharClass) (v : CParser Value) (m : CParser MapValues) : CParser (Key × Value) := do
  let _ ← wsW
  let a ← oldAttributeW U v m
  let _ ← attributeEndW
  pure a

/-- parser.rs:130-147, as `mapStep` -/
def mapStepW (U : CharClass) (v : CParser Value) (m : CParser MapValues) : CParser MapValues := do
  let es ← CParser.many0 (mapItemW U v m)
  let _ ← wsW
  pure (.unmerged es)

/-- parser.rs:79-89 and parser.rs:130-147, as `oldN`; a call is one step more -/
def oldW (U : CharClass) (P : F64Parse) : Nat → CParser Value × CParser MapValues
  | 0 => (call (lift fun _ => .diverge), call (lift fun _ => .diverge))
  | n + 1 => (call (valueStepW U P (oldW U P n).1 (oldW U P n).2), call (mapStepW U (oldW U P n).1 (oldW U P n).2))

/-- The number of steps that the parser of value.rs:893-917 `from_str` makes; the last ones are the tests for the end of input. -/
def fromStrSteps (U : CharClass) (P : F64Parse) (s : Str) : Nat := (oldW U P (s.length + 1)).2.cost s + 2

end Verif
