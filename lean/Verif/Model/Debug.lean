import Verif.Model.Value
import Verif.Model.Number
import Verif.Model.Display
/-!
# `{:#?}` of legacy values, as printed by the command line program (cli/src/main.rs:52)

`Value`, `KeyValuePairs` and `Key` derive `Debug` (value.rs:12, lib.rs:149, literals/key.rs:12). The derived code and
std's implementations for `Vec`, `HashMap`, tuples, `String`, `Cow<str>` and numbers go through std's `DebugTuple`,
`DebugList`, `DebugMap` and `PadAdapter` (core::fmt::builders), transcribed here for the alternate (pretty) form; a
tree (`DTree`) is what these builders are given.
-/
set_option autoImplicit false

namespace Verif

/-- std's choices: which characters are shown as themselves, whether `'` and NUL have an escape of their own (this differs
between releases), and how a float is shown. -/
structure DebugStyle where
  printable : Char → Bool
  escapesQuote : Bool
  escapesNul : Bool
  f64 : F64 → Str

/-- a lower-case hexadecimal digit -/
def hexDigit (n : Nat) : Char := if n < 10 then Char.ofNat (48 + n) else Char.ofNat (87 + n)

/-- std `{:x}` with fuel: no leading zeros -/
def hexAux : Nat → Nat → Str
  | 0, n => [hexDigit (n % 16)]
  | fuel + 1, n => if n < 16 then [hexDigit n] else hexAux fuel (n / 16) ++ [hexDigit (n % 16)]

/-- std `{:x}` -/
def hexText (n : Nat) : Str := hexAux n n

/-- std `char::escape_debug` -/
def escapeDebug (D : DebugStyle) (c : Char) : Str :=
  if c = '\t' then ['\\', 't']
  else if c = '\r' then ['\\', 'r']
  else if c = '\n' then ['\\', 'n']
  else if c = '\\' then ['\\', '\\']
  else if c = '"' then ['\\', '"']
  else if c = '\'' ∧ D.escapesQuote then ['\\', '\'']
  else if c = '\x00' ∧ D.escapesNul then ['\\', '0']
  else if D.printable c then [c]
  else ['\\', 'u', '{'] ++ hexText c.toNat ++ ['}']

/-- std `Debug for str` -/
def debugStr (D : DebugStyle) (s : Str) : Str := '"' :: (s.map (escapeDebug D)).flatten ++ ['"']

/-- What the builders of std are given: a word (numbers, booleans, variants without fields), a string, a (named) tuple with at
least one field, a struct (or variant with named fields) with at least one field, whose names are words, a list, a map. -/
inductive DTree where
  | word (s : Str)
  | str (s : Str)
  | tuple (name : Str) (fields : List DTree)
  | struct (name : Str) (fields : List (DTree × DTree))
  | list (items : List DTree)
  | map (entries : List (DTree × DTree))

/-- std `PadAdapter`: four spaces at the start of each line; `nl`: at the start of a line -/
def pad (nl : Bool) : Str → Str
  | [] => []
  | c :: s => (if nl then [' ', ' ', ' ', ' '] else []) ++ c :: pad (c == '\n') s

mutual
/-- std `fmt` with `{:#?}` -/
def DTree.pretty (D : DebugStyle) : DTree → Str
  | .word s => s
  | .str s => debugStr D s
  | .tuple name fields => name ++ ['(', '\n'] ++ prettyItems D fields ++ [')']
  | .struct name fields => name ++ [' ', '{', '\n'] ++ prettyEntries D fields ++ ['}']
  | .list [] => ['[', ']']
  | .list (t :: ts) => ['[', '\n'] ++ (pad true (t.pretty D ++ [',', '\n']) ++ prettyItems D ts) ++ [']']
  | .map [] => ['{', '}']
  | .map ((k, v) :: es) =>
    ['{', '\n'] ++ (pad true (k.pretty D ++ [':', ' '] ++ v.pretty D ++ [',', '\n']) ++ prettyEntries D es) ++ ['}']
/-- std `DebugTuple::field`, `DebugList::entry` -/
def DTree.prettyItems (D : DebugStyle) : List DTree → Str
  | [] => []
  | t :: ts => pad true (t.pretty D ++ [',', '\n']) ++ prettyItems D ts
/-- std `DebugMap::entry`, `DebugStruct::field` (a name, a colon and a space, the value, a comma) -/
def DTree.prettyEntries (D : DebugStyle) : List (DTree × DTree) → Str
  | [] => []
  | (k, v) :: es => pad true (k.pretty D ++ [':', ' '] ++ v.pretty D ++ [',', '\n']) ++ prettyEntries D es
end

/-- literals/key.rs:12-16 derived `Debug` -/
def Key.debug : Key → DTree
  | .identifier s => .tuple (lit "Identifier") [.str s.str]
  | .string s => .tuple (lit "String") [.str s.str]

/-- `Debug` of the labels of a block, a `Vec<String>` -/
def debugLabels (ls : List Str) : DTree := .list (ls.map .str)

mutual
/-- value.rs:12-23 derived `Debug` -/
def Value.debug (D : DebugStyle) : Value → DTree
  | .null => .word (lit "Null")
  | .integer i => .tuple (lit "Integer") [.word (decimalInt i)]
  | .float f => .tuple (lit "Float") [.word (D.f64 f)]
  | .boolean b => .tuple (lit "Boolean") [.word (lit (if b then "true" else "false"))]
  | .string s => .tuple (lit "String") [.str s]
  | .list l => .tuple (lit "List") [.list (Value.debugList D l)]
  | .object l => .tuple (lit "Object") [.list (Value.debugMaps D l)]
  | .block (.merged l) => .tuple (lit "Block") [.tuple (lit "Merged") [.map (Value.debugBodies D l)]]
  | .block (.unmerged l) => .tuple (lit "Block") [.tuple (lit "Unmerged") [.list (Value.debugBodyPairs D l)]]
/-- elements of a `Vec<Value>` -/
def Value.debugList (D : DebugStyle) : List Value → List DTree
  | [] => []
  | v :: l => v.debug D :: Value.debugList D l
/-- elements of a `Vec<MapValues>` -/
def Value.debugMaps (D : DebugStyle) : List (KVP Key Value) → List DTree
  | [] => []
  | m :: l => Value.debugMap D m :: Value.debugMaps D l
/-- lib.rs:149-156 derived `Debug` (`MapValues`) -/
def Value.debugMap (D : DebugStyle) : KVP Key Value → DTree
  | .merged l => .tuple (lit "Merged") [.map (Value.debugEntries D l)]
  | .unmerged l => .tuple (lit "Unmerged") [.list (Value.debugPairs D l)]
/-- entries of a `HashMap<Key, Value>`, in iteration order -/
def Value.debugEntries (D : DebugStyle) : List (Key × Value) → List (DTree × DTree)
  | [] => []
  | (k, v) :: l => (k.debug, v.debug D) :: Value.debugEntries D l
/-- elements of a `Vec<(Key, Value)>` -/
def Value.debugPairs (D : DebugStyle) : List (Key × Value) → List DTree
  | [] => []
  | (k, v) :: l => .tuple [] [k.debug, v.debug D] :: Value.debugPairs D l
/-- entries of a `HashMap<Vec<String>, MapValues>`, in iteration order -/
def Value.debugBodies (D : DebugStyle) : List (List Str × KVP Key Value) → List (DTree × DTree)
  | [] => []
  | (ls, m) :: l => (debugLabels ls, Value.debugMap D m) :: Value.debugBodies D l
/-- elements of a `Vec<(Vec<String>, MapValues)>` -/
def Value.debugBodyPairs (D : DebugStyle) : List (List Str × KVP Key Value) → List DTree
  | [] => []
  | (ls, m) :: l => .tuple [] [debugLabels ls, Value.debugMap D m] :: Value.debugBodyPairs D l
end

/-- cli/src/main.rs:52 `format!("{:#?}\n", parsed)` -/
def printedValue (D : DebugStyle) (m : MapValues) : Str := (Value.debugMap D m).pretty D ++ ['\n']

end Verif
