import Verif.Model.Value
import Verif.Model.Number
/-!
# The legacy `Value` grammar (value::from_str and friends)

lib/src/parser.rs:50-152, lib/src/parser/literals/*.rs, lib/src/value.rs:891-942. Recursion as in
`Model/Parser.lean`: each production takes the parsers for nested values (`v`) and nested map contents (`m`); the
knot is tied with fuel in `oldN`.
-/
set_option autoImplicit false

namespace Verif

/-- std `<f64 as FromStr>::from_str`: not modelled further (`none` = `Err`). -/
abbrev F64Parse := Str → Option F64

/-- `i64` -/
def i64 : IntTy := ⟨true, 64⟩

/-- literals/number.rs:26-40 `Number::from_str` and literals/number.rs:13-22 `From<Number> for Value`: integer if it
parses as `i64`, else float, else an error -/
def numberValue (P : F64Parse) (t : Str) : Option Value :=
  match parseInt i64 t with
  | some i => some (.integer i)
  | none => match P t with
    | some f => some (.float f)
    | none => none

/-- nom 4.2.3 `recognize_float` (called in literals/number.rs:57): a sign, `digit` with an optional `.` and `digit`, or `.` and
`digit`; an exponent. It is the same as the text of number.rs `number` (`recognizeFloat_eq`). -/
def recognizeFloat : Parser Str := recognize (do
  let _ ← opt (tag ['+'] <//> tag ['-'])
  let _ ← (do
      let _ ← digit
      let _ ← opt (do let _ ← tag ['.']; opt digit)
      pure ())
    <//> (do
      let _ ← tag ['.']
      let _ ← digit
      pure ())
  opt (do
    let _ ← tag ['e'] <//> tag ['E']
    let _ ← opt (tag ['+'] <//> tag ['-'])
    digit))

/-- literals/number.rs:56-58 `number`: `flat_map!(call!(recognize_float), parse_to!(Number))` -/
def oldNumber (P : F64Parse) : Parser Value := mapRes recognizeFloat (numberValue P)

/-- literals/key.rs:97-104 `key` -/
def oldKey (U : CharClass) : Parser Key :=
  mapP (fun s => .identifier (.borrowed s)) (identifier U)
  <//> mapP (fun s => .string (.ownedS s)) stringLiteral

/-- parser.rs:62-77, an element of `list` with the layout skipped before it by `whitespace!(separated_list!(..))` -/
def listElem (v : Parser Value) : Parser Value := do
  let _ ← ws
  v

/-- parser.rs:50-77 `list` (separator and end are those of `tuple`, tuple.rs:33-50: the same macros) -/
def list (v : Parser Value) : Parser (List Value) := do
  let _ ← tag ['[']
  let vs ← separatedList tupleSep (listElem v)
  let _ ← tupleEnd
  pure vs

/-- parser.rs:91-99 `map_expression` -/
def mapExpression (m : Parser MapValues) : Parser MapValues := do
  let _ ← wsAround (tag ['{'])
  let es ← wsAround m
  let _ ← tag ['}']
  pure es

/-- parser.rs:79-89 `single_value`, one unfolding -/
def valueStep (U : CharClass) (P : F64Parse) (v : Parser Value) (m : Parser MapValues) : Parser Value :=
  mapP (fun _ => .null) null
  <//> oldNumber P
  <//> mapP .boolean boolean
  <//> mapP (fun s : CowStr => .string s.str) (string U)
  <//> mapP .list (list v)
  <//> mapP (fun x => .object [x]) (mapExpression m)

/-- parser.rs:107-112, first alternative of `attribute` -/
def attributeEq (U : CharClass) (v : Parser Value) : Parser (Key × Value) := do
  let _ ← inlineWs
  let k ← oldKey U
  let _ ← inlineWs
  let _ ← tag ['=']
  let _ ← inlineWs
  let x ← v
  pure (k, x)

/-- parser.rs:113-118, second alternative of `attribute`; value.rs:579-583 `From<MapValues>` -/
def attributeMap (U : CharClass) (m : Parser MapValues) : Parser (Key × Value) := do
  let _ ← inlineWs
  let i ← identifier U
  let _ ← inlineWs
  let _ ← opt (tag ['='])
  let _ ← inlineWs
  let x ← mapExpression m
  pure (.identifier (.borrowed i), .object [x])

/-- parser.rs:119-124, third alternative of `attribute`; value.rs:770-778 `FromIterator` for `Block` (unmerged) -/
def attributeBlock (U : CharClass) (m : Parser MapValues) : Parser (Key × Value) := do
  let _ ← inlineWs
  let i ← identifier U
  let ls ← many0 (do let _ ← inlineWs; stringLiteral)
  let _ ← inlineWs
  let x ← mapExpression m
  pure (.identifier (.borrowed i), .block (.unmerged [(ls, x)]))

/-- parser.rs:103-128 `attribute` -/
def oldAttribute (U : CharClass) (v : Parser Value) (m : Parser MapValues) : Parser (Key × Value) := do
  let a ← attributeEq U v <//> attributeMap U m <//> attributeBlock U m
  let _ ← inlineWs
  pure a

/-- parser.rs:138-142, what ends an attribute -/
def attributeEnd : Parser Unit :=
  mapP (fun _ => ()) (wsAround (tag [',']))
  <//> mapP (fun _ => ()) newline
  <//> eof

/-- parser.rs:130-147, one iteration of `map_values` -/
def mapItem (U : CharClass) (v : Parser Value) (m : Parser MapValues) : Parser (Key × Value) := do
  let _ ← ws
  let a ← oldAttribute U v m
  let _ ← attributeEnd
  pure a

/-- parser.rs:130-147 `map_values`, one unfolding; value.rs:885-889 `FromIterator` for `MapValues` (unmerged) -/
def mapStep (U : CharClass) (v : Parser Value) (m : Parser MapValues) : Parser MapValues := do
  let es ← many0 (mapItem U v m)
  let _ ← ws
  pure (.unmerged es)

/-- `single_value` and `map_values` with nesting depth bounded by `n` -/
def oldN (U : CharClass) (P : F64Parse) : Nat → Parser Value × Parser MapValues
  | 0 => (fun _ => .diverge, fun _ => .diverge)
  | n + 1 => (valueStep U P (oldN U P n).1 (oldN U P n).2, mapStep U (oldN U P n).1 (oldN U P n).2)

/-- parser.rs:79-89 `single_value` -/
def singleValue (U : CharClass) (P : F64Parse) : Parser Value := fun s => (oldN U P (s.length + 1)).1 s

/-- parser.rs:130-147 `map_values` -/
def mapValues (U : CharClass) (P : F64Parse) : Parser MapValues := fun s => (oldN U P (s.length + 1)).2 s

/-- parser.rs:149-152 `body` -/
def oldBody (U : CharClass) (P : F64Parse) : Parser MapValues := exact (mapValues U P)

/-- lib.rs:80-96 `MergeBehaviour` -/
inductive MergeBehaviour where
  | error
  | takeFirst
  | takeLast
  deriving Repr, DecidableEq

/-- Errors of value::from_str (errors.rs) -/
inductive FromErr where
  | parse
  | invalidUnicodeCodePoint (s : Str)
  | bug
  | utf8
  | io
  | value (e : ValueErr)
  deriving Repr, DecidableEq

/-- value.rs:893-917 `from_str`, after the parser: the emptiness check, then merging -/
def finishFromStr (merge : Option MergeBehaviour) (r : Str) (m : MapValues) : Res FromErr MapValues :=
  if r.isEmpty then
    match merge with
    | none => .ok m
    | some .error => match Value.mergeMap m with
      | .ok m' => .ok m'
      | .error e => .error (.value e)
    | some _ => .panic
  else .error .bug

/-- value.rs:893-917 `from_str` -/
def fromStr (U : CharClass) (P : F64Parse) (s : Str) (merge : Option MergeBehaviour) : Res FromErr MapValues :=
  match oldBody U P s with
  | .ok r m => finishFromStr merge r m
  | .err => .error .parse
  | .fail t => .error (.invalidUnicodeCodePoint t)
  | .panic => .panic
  | .diverge => .diverge

/-- value.rs:938-942 `from_slice` -/
def fromSlice (U : CharClass) (P : F64Parse) (bytes : List Nat) (merge : Option MergeBehaviour) :
    Res FromErr MapValues :=
  match fromUtf8 bytes with
  | none => .error .utf8
  | some s => fromStr U P s merge

/-- value.rs:919-936 `from_reader` (`read_to_string` reports invalid UTF-8 as an I/O error) -/
def fromReader (U : CharClass) (P : F64Parse) (es : List ReadEvent) (merge : Option MergeBehaviour) :
    Res FromErr MapValues :=
  match readToEnd es with
  | none => .error .io
  | some bytes => match fromUtf8 bytes with
    | none => .error .io
    | some s => match fromStr U P s merge with
      | .ok m => .ok (Value.asOwnedMap m)
      | .error e => .error e
      | .panic => .panic
      | .diverge => .diverge

end Verif
