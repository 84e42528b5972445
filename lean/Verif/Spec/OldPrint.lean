import Verif.Spec.OldGrammar
import Verif.Spec.OwnedValue
import Verif.Spec.Print
/-!
# How to write legacy values

`I` writes integers and `F` writes floats.
-/
set_option autoImplicit false

namespace Verif.Spec

/-- Identifiers are written as they are, strings in quotes. -/
def printOldKey : Key → Str
  | .identifier s => s.str
  | .string s => quoteLine s.str

mutual
/-- A value: `null`, `true`, `12`, `1.5`, `"text"`, `[a, b]`, or a map in braces, each entry on its own line. -/
def printValue (I : Int → Str) (F : F64 → Str) : Value → Str
  | .null => ['n', 'u', 'l', 'l']
  | .integer i => I i
  | .float f => F f
  | .boolean true => ['t', 'r', 'u', 'e']
  | .boolean false => ['f', 'a', 'l', 's', 'e']
  | .string s => quote s
  | .list l => '[' :: printValues I F l ++ [']']
  | .object [.unmerged es] => '{' :: '\n' :: printEntries I F es ++ ['}']
  | .object _ => []
  | .block _ => []
/-- The elements of a list, separated by a comma and a space. -/
def printValues (I : Int → Str) (F : F64 → Str) : List Value → Str
  | [] => []
  | [v] => printValue I F v
  | v :: w :: l => printValue I F v ++ ',' :: ' ' :: printValues I F (w :: l)
/-- Entries on lines of their own: `key = value`, or `type "label" … {`, entries, `}`. -/
def printEntries (I : Int → Str) (F : F64 → Str) : List (Key × Value) → Str
  | [] => []
  | (k, .block (.unmerged [(ls, .unmerged es)])) :: l =>
    printOldKey k ++ ls.flatMap (fun t => ' ' :: quoteLine t) ++ ' ' :: '{' :: '\n' :: printEntries I F es ++
      '}' :: '\n' :: printEntries I F l
  | (k, v) :: l => printOldKey k ++ ' ' :: '=' :: ' ' :: printValue I F v ++ '\n' :: printEntries I F l
end

/-- Keys that can be written: identifiers, and any string. -/
def WritableKey (U : CharClass) : Key → Prop
  | .identifier s => IsIdent U s.str
  | .string _ => True

mutual
/-- Values that can be written: numbers for which the writer gives a literal denoting them; a map is the only map of its
object and is unmerged. Blocks are not values of attributes or elements of lists. -/
inductive WritableValue (U : CharClass) (P : F64Parse) (I : Int → Str) (F : F64 → Str) : Value → Prop
  | null : WritableValue U P I F .null
  | integer (i : Int) : IntLit (I i) i → InI64 i → WritableValue U P I F (.integer i)
  | float (f : F64) : (∃ n, IsNumber (F f) n) → NumberValue P (F f) (.float f) → WritableValue U P I F (.float f)
  | boolean (b : Bool) : WritableValue U P I F (.boolean b)
  | string (s : Str) : WritableValue U P I F (.string s)
  | list (l : List Value) : WritableList U P I F l → WritableValue U P I F (.list l)
  | map (es : List (Key × Value)) : WritableEntries U P I F es → WritableValue U P I F (.object [.unmerged es])
/-- Lists element by element. -/
inductive WritableList (U : CharClass) (P : F64Parse) (I : Int → Str) (F : F64 → Str) : List Value → Prop
  | nil : WritableList U P I F []
  | cons (v : Value) (l : List Value) : WritableValue U P I F v → WritableList U P I F l → WritableList U P I F (v :: l)
/-- Entries: values, or single unmerged blocks with at least one label and an identifier as type. -/
inductive WritableEntries (U : CharClass) (P : F64Parse) (I : Int → Str) (F : F64 → Str) : List (Key × Value) → Prop
  | nil : WritableEntries U P I F []
  | value (k : Key) (v : Value) (l : List (Key × Value)) : WritableKey U k → WritableValue U P I F v →
      WritableEntries U P I F l → WritableEntries U P I F ((k, v) :: l)
  | block (s : CowStr) (ls : List Str) (es l : List (Key × Value)) : IsIdent U s.str → ls ≠ [] →
      WritableEntries U P I F es → WritableEntries U P I F l →
      WritableEntries U P I F ((.identifier s, .block (.unmerged [(ls, .unmerged es)])) :: l)
end

mutual
/-- Values that both parsers can read: no blocks inside maps. -/
inductive CommonValue : Value → Prop
  | null : CommonValue .null
  | integer (i : Int) : CommonValue (.integer i)
  | float (f : F64) : CommonValue (.float f)
  | boolean (b : Bool) : CommonValue (.boolean b)
  | string (s : Str) : CommonValue (.string s)
  | list (l : List Value) : CommonList l → CommonValue (.list l)
  | map (es : List (Key × Value)) : CommonMap es → CommonValue (.object [.unmerged es])
/-- Lists element by element. -/
inductive CommonList : List Value → Prop
  | nil : CommonList []
  | cons (v : Value) (l : List Value) : CommonValue v → CommonList l → CommonList (v :: l)
/-- Maps entry by entry. -/
inductive CommonMap : List (Key × Value) → Prop
  | nil : CommonMap []
  | cons (k : Key) (v : Value) (l : List (Key × Value)) : CommonValue v → CommonMap l → CommonMap ((k, v) :: l)
end

/-- Documents that both parsers can read: keys are identifiers, blocks are entries of the document or of blocks. -/
inductive CommonEntries : List (Key × Value) → Prop
  | nil : CommonEntries []
  | value (s : CowStr) (v : Value) (l : List (Key × Value)) : CommonValue v → CommonEntries l →
      CommonEntries ((.identifier s, v) :: l)
  | block (s : CowStr) (ls : List Str) (es l : List (Key × Value)) : CommonEntries es → CommonEntries l →
      CommonEntries ((.identifier s, .block (.unmerged [(ls, .unmerged es)])) :: l)

end Verif.Spec
