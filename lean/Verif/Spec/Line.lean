import Verif.Model.Ast
import Verif.Model.Blocks
import Verif.Model.Value
/-!
# Trees as Rust terms on one line

Directly from the trees: variants by their names, `Vec`s as `[a, b]`, hash maps as `{k: v}` (in iteration order), tuples as `(a, b)`,
structs as `Name { field: x, other: y }`. How strings, integers and floats are written is given.
-/
set_option autoImplicit false

namespace Verif.Spec
open Verif

/-- How strings, integers and floats are written. -/
structure Texts where
  str : Str → Str
  int : Int → Str
  float : F64 → Str

/-- `a, b, c` -/
def commas (l : List Str) : Str := (", ".toList).intercalate l

/-- `name(x)` -/
def callLine (name : String) (x : Str) : Str := name.toList ++ "(".toList ++ x ++ ")".toList

/-- `[a, b, c]` -/
def listLine (l : List Str) : Str := "[".toList ++ commas l ++ "]".toList

/-- `{a, b, c}` -/
def mapLine (l : List Str) : Str := "{".toList ++ commas l ++ "}".toList

/-- `(a, b)` -/
def coupleLine (a b : Str) : Str := "(".toList ++ a ++ ", ".toList ++ b ++ ")".toList

/-- `a: b` -/
def colonLine (a b : Str) : Str := a ++ ": ".toList ++ b

/-- `name { a, b, c }` -/
def recordLine (name : String) (l : List Str) : Str := name.toList ++ " { ".toList ++ commas l ++ " }".toList

/-- `true` or `false` -/
def boolLine (b : Bool) : Str := if b then "true".toList else "false".toList

section
variable (T : Texts)

/-- `None` or `Some("…")` -/
def optLine : Option CowStr → Str
  | none => "None".toList
  | some s => callLine "Some" (T.str s.str)

/-- Exponents. -/
def exponentLine (e : Exponent) : Str :=
  recordLine "Exponent" [colonLine "positive".toList (boolLine e.positive), colonLine "exponent".toList (T.str e.exponent.str)]

/-- Numbers: their text, and its parts. -/
def numberLine (n : Number) : Str :=
  recordLine "Number" [colonLine "input".toList (T.str n.input.str), colonLine "positive".toList (boolLine n.positive),
    colonLine "whole".toList (optLine T n.whole), colonLine "fraction".toList (optLine T n.fraction),
    colonLine "exponent".toList (match n.exponent with
      | none => "None".toList
      | some e => callLine "Some" (exponentLine T e))]

/-- Keys of objects. -/
def objKeyLine : ObjKey → Str
  | .ident s => callLine "Identifier" (T.str s.str)
  | .expr s => callLine "Expression" (T.str s.str)

mutual
/-- Expressions. -/
def exprLine : Expr → Str
  | .null => "Null".toList
  | .number n => callLine "Number" (numberLine T n)
  | .boolean b => callLine "Boolean" (boolLine b)
  | .string s => callLine "String" (T.str s.str)
  | .tuple es => callLine "Tuple" (listLine (exprLines es))
  | .object es => callLine "Object" (listLine (pairLines es))
/-- one by one -/
def exprLines : List Expr → List Str
  | [] => []
  | e :: es => exprLine e :: exprLines es
/-- one by one -/
def pairLines : List (ObjKey × Expr) → List Str
  | [] => []
  | (k, e) :: es => coupleLine (objKeyLine T k) (exprLine e) :: pairLines es
end

/-- Labels. -/
def labelLine : BlockLabel → Str
  | .stringLiteral s => callLine "StringLiteral" (T.str s)
  | .identifier s => callLine "Identifier" (T.str s.str)

mutual
/-- Attributes and blocks. -/
def elementLine : BodyElement → Str
  | .attribute k e => callLine "Attribute" (coupleLine (T.str k.str) (exprLine T e))
  | .block t ls b => callLine "Block" (recordLine "Block" [colonLine "type".toList (T.str t.str),
      colonLine "labels".toList (listLine (ls.map (labelLine T))), colonLine "body".toList (listLine (elementLines b))])
/-- one by one -/
def elementLines : List BodyElement → List Str
  | [] => []
  | e :: b => elementLine e :: elementLines b
end

/-- Bodies. -/
def bodyLine (b : Body) : Str := listLine (elementLines T b)

mutual
/-- Indexed block bodies. -/
def blockBodyLine : BlockBody → Str
  | .body bs => callLine "Body" (listLine (bs.map (bodyLine T)))
  | .labels empty m => recordLine "Labels" [colonLine "empty".toList (listLine (empty.map (bodyLine T))),
      colonLine "labels".toList (mapLine (labelMapLines m))]
/-- one by one -/
def labelMapLines : List (BlockLabel × BlockBody) → List Str
  | [] => []
  | (l, b) :: m => colonLine (labelLine T l) (blockBodyLine b) :: labelMapLines m
end

/-- Indexed blocks. -/
def blocksLine (b : Blocks) : Str :=
  recordLine "Blocks" [colonLine "blocks".toList (mapLine (b.map fun x => colonLine (T.str x.1.str) (blockBodyLine T x.2)))]

/-- Keys of legacy maps. -/
def keyLine : Key → Str
  | .identifier s => callLine "Identifier" (T.str s.str)
  | .string s => callLine "String" (T.str s.str)

/-- Labels of legacy blocks. -/
def labelsLine (ls : List Str) : Str := listLine (ls.map T.str)

mutual
/-- Legacy values. -/
def valueLine : Value → Str
  | .null => "Null".toList
  | .integer i => callLine "Integer" (T.int i)
  | .float x => callLine "Float" (T.float x)
  | .boolean b => callLine "Boolean" (boolLine b)
  | .string s => callLine "String" (T.str s)
  | .list l => callLine "List" (listLine (valueLines l))
  | .object l => callLine "Object" (listLine (mapsLines l))
  | .block (.merged l) => callLine "Block" (callLine "Merged" (mapLine (bodyEntryLines l)))
  | .block (.unmerged l) => callLine "Block" (callLine "Unmerged" (listLine (bodyCoupleLines l)))
/-- one by one -/
def valueLines : List Value → List Str
  | [] => []
  | v :: l => valueLine v :: valueLines l
/-- Legacy maps. -/
def mapValuesLine : KVP Key Value → Str
  | .merged l => callLine "Merged" (mapLine (entryLines l))
  | .unmerged l => callLine "Unmerged" (listLine (entryCoupleLines l))
/-- one by one -/
def mapsLines : List (KVP Key Value) → List Str
  | [] => []
  | m :: l => mapValuesLine m :: mapsLines l
/-- one by one -/
def entryLines : List (Key × Value) → List Str
  | [] => []
  | (k, v) :: l => colonLine (keyLine T k) (valueLine v) :: entryLines l
/-- one by one -/
def entryCoupleLines : List (Key × Value) → List Str
  | [] => []
  | (k, v) :: l => coupleLine (keyLine T k) (valueLine v) :: entryCoupleLines l
/-- one by one -/
def bodyEntryLines : List (List Str × KVP Key Value) → List Str
  | [] => []
  | (ls, m) :: l => colonLine (labelsLine T ls) (mapValuesLine m) :: bodyEntryLines l
/-- one by one -/
def bodyCoupleLines : List (List Str × KVP Key Value) → List Str
  | [] => []
  | (ls, m) :: l => coupleLine (labelsLine T ls) (mapValuesLine m) :: bodyCoupleLines l
end
end

end Verif.Spec
