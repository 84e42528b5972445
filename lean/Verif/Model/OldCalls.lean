import Verif.Model.Calls
import Verif.Model.OldParser
/-!
# How often the recursive parsers of the legacy grammar are called

As `Model/Calls.lean`, for `single_value` (parser.rs:79-89) and `map_values` (parser.rs:130-147); `Proofs/OldCalls.lean`
shows that `run` is the parser of `Model/OldParser.lean`.
-/
set_option autoImplicit false

namespace Verif
open CParser

/-- parser.rs:62-77, as `listElem` -/
def listElemC (v : CParser Value) : CParser Value := do
  let _ ← lift ws
  v

/-- parser.rs:50-77, as `list` -/
def listC (v : CParser Value) : CParser (List Value) := do
  let _ ← lift (tag ['['])
  let vs ← CParser.separatedList tupleSep (listElemC v)
  let _ ← lift tupleEnd
  pure vs

/-- parser.rs:91-99, as `mapExpression` -/
def mapExpressionC (m : CParser MapValues) : CParser MapValues := do
  let _ ← lift (wsAround (tag ['{']))
  let es ← wsAroundC m
  let _ ← lift (tag ['}'])
  pure es

/-- parser.rs:79-89, as `valueStep` -/
def valueStepC (U : CharClass) (P : F64Parse) (v : CParser Value) (m : CParser MapValues) : CParser Value :=
  lift (mapP (fun _ => .null) null)
  <///> lift (oldNumber P)
  <///> lift (mapP .boolean boolean)
  <///> lift (mapP (fun s : CowStr => .string s.str) (string U))
  <///> map .list (listC v)
  <///> map (fun x => .object [x]) (mapExpressionC m)

/-- parser.rs:107-112, as `attributeEq` -/
def attributeEqC (U : CharClass) (v : CParser Value) : CParser (Key × Value) := do
  let _ ← lift inlineWs
  let k ← lift (oldKey U)
  let _ ← lift inlineWs
  let _ ← lift (tag ['='])
  let _ ← lift inlineWs
  let x ← v
  pure (k, x)

/-- parser.rs:113-118, as `attributeMap` -/
def attributeMapC (U : CharClass) (m : CParser MapValues) : CParser (Key × Value) := do
  let _ ← lift inlineWs
  let i ← lift (identifier U)
  let _ ← lift inlineWs
  let _ ← lift (Verif.opt (tag ['=']))
  let _ ← lift inlineWs
  let x ← mapExpressionC m
  pure (.identifier (.borrowed i), .object [x])

/-- parser.rs:119-124, as `attributeBlock` -/
def attributeBlockC (U : CharClass) (m : CParser MapValues) : CParser (Key × Value) := do
  let _ ← lift inlineWs
  let i ← lift (identifier U)
  let ls ← lift (Verif.many0 (do let _ ← inlineWs; stringLiteral))
  let _ ← lift inlineWs
  let x ← mapExpressionC m
  pure (.identifier (.borrowed i), .block (.unmerged [(ls, x)]))

/-- parser.rs:103-128, as `oldAttribute` -/
def oldAttributeC (U : CharClass) (v : CParser Value) (m : CParser MapValues) : CParser (Key × Value) := do
  let a ← attributeEqC U v <///> attributeMapC U m <///> attributeBlockC U m
  let _ ← lift inlineWs
  pure a

/-- parser.rs:130-147, as `mapItem` -/
def mapItemC (U : CharClass) (v : CParser Value) (m : CParser MapValues) : CParser (Key × Value) := do
  let _ ← lift ws
  let a ← oldAttributeC U v m
  let _ ← lift attributeEnd
  pure a

/-- parser.rs:130-147, as `mapStep` -/
def mapStepC (U : CharClass) (v : CParser Value) (m : CParser MapValues) : CParser MapValues := do
  let es ← CParser.many0 (mapItemC U v m)
  let _ ← lift ws
  pure (.unmerged es)

/-- parser.rs:79-89 and parser.rs:130-147, as `oldN`; each call is counted -/
def oldC (U : CharClass) (P : F64Parse) : Nat → CParser Value × CParser MapValues
  | 0 => (call (lift fun _ => .diverge), call (lift fun _ => .diverge))
  | n + 1 => (call (valueStepC U P (oldC U P n).1 (oldC U P n).2), call (mapStepC U (oldC U P n).1 (oldC U P n).2))

/-- The number of calls of `single_value` and `map_values` that value.rs:893-917 `from_str` makes. -/
def fromStrCalls (U : CharClass) (P : F64Parse) (s : Str) : Nat := (oldC U P (s.length + 1)).2.cost s

end Verif
