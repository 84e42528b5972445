import Verif.Model.Container
import Verif.Model.Owned
/-!
# The `Value` tree and merging (lib/src/value.rs, lib/src/parser/literals/key.rs)
-/
set_option autoImplicit false

namespace Verif

/-- literals/key.rs:13-16 `Key` -/
inductive Key where
  | identifier (s : CowStr)
  | string (s : CowStr)
  deriving Repr, DecidableEq

/-- literals/key.rs:62-71, 85-89 `Deref`/`Borrow<str>`: the text of the key -/
def Key.text : Key → Str
  | .identifier s => s.str
  | .string s => s.str

/-- literals/key.rs:12 derived `Eq`: what equality of keys compares, the variant and the text -/
def Key.norm : Key → Bool × Str
  | .identifier s => (false, s.str)
  | .string s => (true, s.str)

/-- literals/key.rs:51-60 `as_owned` -/
def Key.asOwned : Key → Key
  | .identifier s => .identifier s.asOwned
  | .string s => .string s.asOwned

/-- `f64` by its bit pattern; no arithmetic on it is modelled. -/
structure F64 where
  bits : Nat
  deriving Repr, DecidableEq

/-- value.rs:14-23 `Value`; `List = Vec<Value>`, `Object = Vec<MapValues>`, `Block = KeyValuePairs<Vec<String>,
MapValues>`, `MapValues = KeyValuePairs<Key, Value>` (value.rs:28-38). Integers are `i64`; the range is a theorem of
the parser, not part of the type. -/
inductive Value where
  | null
  | integer (i : Int)
  | float (f : F64)
  | boolean (b : Bool)
  | string (s : Str)
  | list (l : List Value)
  | object (l : List (KVP Key Value))
  | block (b : KVP (List Str) (KVP Key Value))
  deriving Repr

/-- value.rs:36 `MapValues` -/
abbrev MapValues := KVP Key Value
/-- value.rs:32 `Block` -/
abbrev VBlock := KVP (List Str) MapValues

/-- value.rs:79-90 `variant_name` with constants.rs:1-10 -/
inductive Variant where
  | null | integer | float | boolean | string | list | object | block
  deriving Repr, DecidableEq

/-- value.rs:79-90 `variant_name` -/
def Value.variant : Value → Variant
  | .null => .null
  | .integer _ => .integer
  | .float _ => .float
  | .boolean _ => .boolean
  | .string _ => .string
  | .list _ => .list
  | .object _ => .object
  | .block _ => .block

/-- value.rs:92-97 `is_scalar` (Null is not a scalar) -/
def Value.isScalar : Value → Bool
  | .integer _ | .float _ | .boolean _ | .string _ => true
  | _ => false

/-- value.rs:99-101 `is_aggregate` -/
def Value.isAggregate (v : Value) : Bool := !v.isScalar

/-- value.rs:104-115 `len` (`none` = panic `unreachable!`) -/
def Value.len (v : Value) : Option Nat :=
  if v.isScalar then some 1 else
    match v with
    | .list l => some l.length
    | .object l => some l.length
    | .block b => some b.len
    | _ => none

/-- value.rs:118-120 `is_empty` (`none` = panic) -/
def Value.isEmpty (v : Value) : Option Bool := v.len.map (· == 0)

/-- Errors of the value API (errors.rs:25-50). -/
inductive ValueErr where
  | illegalMultipleEntries (key : Str) (variant : Variant)
  | errorMergingKeys (key : Str) (existing incoming : Variant)
  | unexpectedVariant (expected actual : Variant)
  deriving Repr, DecidableEq

/-! ## typed accessors (value.rs:122-402) -/

/-- value.rs:126-130 and its copies: the error of an accessor -/
def Value.unexpected {α : Type} (v : Value) (expected : Variant) : Except ValueErr α :=
  .error (.unexpectedVariant expected v.variant)

/-- value.rs:122-132 `integer` -/
def Value.getInteger (v : Value) : Except ValueErr Int :=
  match v with
  | .integer i => .ok i
  | _ => v.unexpected .integer
/-- value.rs:140-150 `float` -/
def Value.getFloat (v : Value) : Except ValueErr F64 :=
  match v with
  | .float i => .ok i
  | _ => v.unexpected .float
/-- value.rs:158-168 `boolean` -/
def Value.getBoolean (v : Value) : Except ValueErr Bool :=
  match v with
  | .boolean i => .ok i
  | _ => v.unexpected .boolean
/-- value.rs:176-186 `borrow_str`, 194-204 `borrow_string_mut`, 212-225 `string` (which also gives the value back on
error: `self`, unchanged) -/
def Value.getString (v : Value) : Except ValueErr Str :=
  match v with
  | .string i => .ok i
  | _ => v.unexpected .string
/-- value.rs:233-243 `borrow_list`, 251-261 `borrow_list_mut`, 269-282 `list` -/
def Value.getList (v : Value) : Except ValueErr (List Value) :=
  match v with
  | .list i => .ok i
  | _ => v.unexpected .list
/-- value.rs:290-300 `borrow_map`, 308-318 `borrow_map_mut`, 326-339 `map` -/
def Value.getMap (v : Value) : Except ValueErr (List MapValues) :=
  match v with
  | .object i => .ok i
  | _ => v.unexpected .object
/-- value.rs:347-357 `borrow_block`, 365-375 `borrow_block_mut`, 383-396 `block` -/
def Value.getBlock (v : Value) : Except ValueErr VBlock :=
  match v with
  | .block i => .ok i
  | _ => v.unexpected .block

/-- value.rs:136-138 and the other `unwrap_*` accessors (`none` = panic) -/
def unwrapR {α : Type} : Except ValueErr α → Option α
  | .ok v => some v
  | .error _ => none

/-- value.rs:433-491 `is_null` … `is_block` -/
def Value.is (v : Value) (x : Variant) : Bool :=
  match v, x with
  | .null, .null => true
  | .integer _, .integer => true
  | .float _, .float => true
  | .boolean _, .boolean => true
  | .string _, .string => true
  | .list _, .list => true
  | .object _, .object => true
  | .block _, .block => true
  | _, _ => false

/-! ## lengths and merge state -/

/-- lib.rs:285 `fold(0, |acc, v| acc + v.len_scalar())` where a panic aborts the sum (`usize` overflow is not modelled) -/
def addPanic (a b : Option Nat) : Option Nat := a.bind fun x => b.map fun y => x + y

/-- `iter.all(..)` one step: `false` stops, a panic propagates (`none` = panic) -/
def andPanic (a b : Option Bool) : Option Bool := a.bind fun x => if x then b else some false

mutual
/-- value.rs:494-507 `len_scalar` (`none` = panic `unreachable!`) -/
def Value.lenScalar : Value → Option Nat
  | .integer _ | .float _ | .boolean _ | .string _ => some 1
  | .list l => Value.lenScalarList l
  | .object l => Value.lenScalarMaps l
  | .block b => Value.lenScalarBlock b
  | .null => none
/-- lib.rs:280-287 (`Vec`) -/
def Value.lenScalarList : List Value → Option Nat
  | [] => some 0
  | v :: l => addPanic v.lenScalar (Value.lenScalarList l)
/-- lib.rs:280-287 (`Vec`) -/
def Value.lenScalarMaps : List (KVP Key Value) → Option Nat
  | [] => some 0
  | v :: l => addPanic (Value.lenScalarMap v) (Value.lenScalarMaps l)
/-- lib.rs:254-269 (`KeyValuePairs`) -/
def Value.lenScalarMap : KVP Key Value → Option Nat
  | .merged l => Value.lenScalarEntries l
  | .unmerged l => Value.lenScalarEntries l
/-- lib.rs:262, 265: the fold over the pairs -/
def Value.lenScalarEntries : List (Key × Value) → Option Nat
  | [] => some 0
  | (_, v) :: l => addPanic v.lenScalar (Value.lenScalarEntries l)
/-- lib.rs:254-269 (`KeyValuePairs`) -/
def Value.lenScalarBlock : KVP (List Str) (KVP Key Value) → Option Nat
  | .merged l => Value.lenScalarBodies l
  | .unmerged l => Value.lenScalarBodies l
/-- lib.rs:262, 265: the fold over the pairs -/
def Value.lenScalarBodies : List (List Str × KVP Key Value) → Option Nat
  | [] => some 0
  | (_, v) :: l => addPanic (Value.lenScalarMap v) (Value.lenScalarBodies l)
end

mutual
/-- value.rs:510-521 `is_merged` (`none` = panic `unreachable!`) -/
def Value.isMerged : Value → Option Bool
  | .integer _ | .float _ | .boolean _ | .string _ => some true
  | .list l => Value.isMergedList l
  | .object l => Value.isMergedMaps l
  | .block b => Value.isMergedBlock b
  | .null => none
/-- lib.rs:376-378 (`Vec`) -/
def Value.isMergedList : List Value → Option Bool
  | [] => some true
  | v :: l => andPanic v.isMerged (Value.isMergedList l)
/-- lib.rs:376-378 (`Vec`) -/
def Value.isMergedMaps : List (KVP Key Value) → Option Bool
  | [] => some true
  | v :: l => andPanic (Value.isMergedMap v) (Value.isMergedMaps l)
/-- lib.rs:357-362 (`KeyValuePairs`) -/
def Value.isMergedMap : KVP Key Value → Option Bool
  | .merged l => Value.isMergedEntries l
  | .unmerged _ => some false
/-- lib.rs:391-393 (`HashMap`) -/
def Value.isMergedEntries : List (Key × Value) → Option Bool
  | [] => some true
  | (_, v) :: l => andPanic v.isMerged (Value.isMergedEntries l)
/-- lib.rs:357-362 (`KeyValuePairs`) -/
def Value.isMergedBlock : KVP (List Str) (KVP Key Value) → Option Bool
  | .merged l => Value.isMergedBodies l
  | .unmerged _ => some false
/-- lib.rs:391-393 (`HashMap`) -/
def Value.isMergedBodies : List (List Str × KVP Key Value) → Option Bool
  | [] => some true
  | (_, v) :: l => andPanic (Value.isMergedMap v) (Value.isMergedBodies l)
end

mutual
/-- value.rs:523-534 `is_unmerged` (`none` = panic `unreachable!`) -/
def Value.isUnmerged : Value → Option Bool
  | .integer _ | .float _ | .boolean _ | .string _ => some true
  | .list l => Value.isUnmergedList l
  | .object l => Value.isUnmergedMaps l
  | .block b => Value.isUnmergedBlock b
  | .null => none
/-- lib.rs:380-382 (`Vec`) -/
def Value.isUnmergedList : List Value → Option Bool
  | [] => some true
  | v :: l => andPanic v.isUnmerged (Value.isUnmergedList l)
/-- lib.rs:380-382 (`Vec`) -/
def Value.isUnmergedMaps : List (KVP Key Value) → Option Bool
  | [] => some true
  | v :: l => andPanic (Value.isUnmergedMap v) (Value.isUnmergedMaps l)
/-- lib.rs:364-369 (`KeyValuePairs`) -/
def Value.isUnmergedMap : KVP Key Value → Option Bool
  | .merged _ => some false
  | .unmerged l => Value.isUnmergedEntries l
/-- lib.rs:380-382 with 400-411 (`Vec` of pairs) -/
def Value.isUnmergedEntries : List (Key × Value) → Option Bool
  | [] => some true
  | (_, v) :: l => andPanic v.isUnmerged (Value.isUnmergedEntries l)
/-- lib.rs:364-369 (`KeyValuePairs`) -/
def Value.isUnmergedBlock : KVP (List Str) (KVP Key Value) → Option Bool
  | .merged _ => some false
  | .unmerged l => Value.isUnmergedBodies l
/-- lib.rs:380-382 with 400-411 (`Vec` of pairs) -/
def Value.isUnmergedBodies : List (List Str × KVP Key Value) → Option Bool
  | [] => some true
  | (_, v) :: l => andPanic (Value.isUnmergedMap v) (Value.isUnmergedBodies l)
end

/-! ## merging -/

/-- value.rs:795-835, the occupied entry of `MapValues::new_merged`: the value stored under the key afterwards -/
def combineValues (key : Str) (old new : Value) : Except ValueErr Value :=
  match old with
  | .object m => match new with
    | .object i => .ok (.object (m ++ i))
    | v => .error (.errorMergingKeys key .object v.variant)
  | .block b => match new with
    | .block i => .ok (.block (b.extend id i.entries))
    | v => .error (.errorMergingKeys key .block v.variant)
  | illegal => .error (.illegalMultipleEntries key illegal.variant)

/-- value.rs:791-836, one iteration of `MapValues::new_merged` on an already merged value -/
def addEntry (m : HashMap Key Value) (k : Key) (v : Value) : Except ValueErr (HashMap Key Value) :=
  match m with
  | [] => .ok [(k, v)]
  | (k', v') :: m =>
    if k'.norm = k.norm then (combineValues k'.text v' v).map fun w => (k', w) :: m
    else (addEntry m k v).map fun m => (k', v') :: m

mutual
/-- value.rs:405-431 `Value::merge`. For a block the bodies are merged first (424-426) and then `Block::new_merged`
merges them again (427, 622-625): on a `Merged` map that is the identity (848-854), and it is left out here;
`Value.merge_block` proves that this is equal to the transcription. -/
def Value.merge : Value → Except ValueErr Value
  | .null => .ok .null
  | .integer i => .ok (.integer i)
  | .float f => .ok (.float f)
  | .boolean b => .ok (.boolean b)
  | .string s => .ok (.string s)
  | .list l => (Value.mergeList l).map .list
  | .object l => (Value.mergeMaps l).map .object
  | .block b => (Value.mergeBlock b).map fun es => .block (.merged (HashMap.collect id es))
/-- value.rs:413-415: all elements, stopping at the first error -/
def Value.mergeList : List Value → Except ValueErr (List Value)
  | [] => .ok []
  | v :: l => match v.merge with
    | .error e => .error e
    | .ok v => (Value.mergeList l).map (v :: ·)
/-- value.rs:418-420: all maps, stopping at the first error -/
def Value.mergeMaps : List (KVP Key Value) → Except ValueErr (List (KVP Key Value))
  | [] => .ok []
  | v :: l => match Value.mergeMap v with
    | .error e => .error e
    | .ok v => (Value.mergeMaps l).map (v :: ·)
/-- value.rs:848-854 `MapValues::merge` -/
def Value.mergeMap : KVP Key Value → Except ValueErr (KVP Key Value)
  | .merged m => .ok (.merged m)
  | .unmerged l => (Value.mergeEntries [] l).map .merged
/-- value.rs:788-838, the loop of `MapValues::new_merged` from the map `acc` -/
def Value.mergeEntries (acc : HashMap Key Value) : List (Key × Value) → Except ValueErr (HashMap Key Value)
  | [] => .ok acc
  | (k, v) :: l => match v.merge with
    | .error e => .error e
    | .ok v => match addEntry acc k v with
      | .error e => .error e
      | .ok acc => Value.mergeEntries acc l
/-- value.rs:423-424 `block.into_iter()` -/
def Value.mergeBlock : KVP (List Str) (KVP Key Value) → Except ValueErr (List (List Str × KVP Key Value))
  | .merged l => Value.mergeBodies l
  | .unmerged l => Value.mergeBodies l
/-- value.rs:424-426: the bodies, stopping at the first error -/
def Value.mergeBodies : List (List Str × KVP Key Value) → Except ValueErr (List (List Str × KVP Key Value))
  | [] => .ok []
  | (k, v) :: l => match Value.mergeMap v with
    | .error e => .error e
    | .ok v => (Value.mergeBodies l).map ((k, v) :: ·)
end

/-- value.rs:782-839 `MapValues::new_merged` -/
def MapValues.newMerged (es : List (Key × Value)) : Except ValueErr MapValues :=
  (Value.mergeEntries [] es).map .merged

/-- value.rs:848-854 `MapValues::merge`; 856-862 `as_merged` is the same on a copy -/
def MapValues.merge (m : MapValues) : Except ValueErr MapValues := Value.mergeMap m

/-- value.rs:864-870 `MapValues::unmerge`; 872-882 `as_unmerged` is the same on a copy -/
def MapValues.unmerge : MapValues → MapValues
  | .merged m => .unmerged m
  | .unmerged l => .unmerged l

/-- value.rs:620-627, the loop of `Block::new_merged` from the map `acc` -/
def VBlock.mergeInto (acc : HashMap (List Str) MapValues) :
    List (List Str × MapValues) → Except ValueErr (HashMap (List Str) MapValues)
  | [] => .ok acc
  | (k, v) :: l => match MapValues.merge v with
    | .error e => .error e
    | .ok v => VBlock.mergeInto (HashMap.insert id k v acc) l

/-- value.rs:614-628 `Block::new_merged` (labels are strings already) -/
def VBlock.newMerged (es : List (List Str × MapValues)) : Except ValueErr VBlock :=
  (VBlock.mergeInto [] es).map .merged

/-- value.rs:643-649 `Block::merge`; 651-657 `as_merged` is the same on a copy -/
def VBlock.merge : VBlock → Except ValueErr VBlock
  | .merged m => .ok (.merged m)
  | .unmerged l => VBlock.newMerged l

/-- value.rs:659-665 `Block::unmerge`; 667-677 `as_unmerged` is the same on a copy -/
def VBlock.unmerge : VBlock → VBlock
  | .merged m => .unmerged m
  | .unmerged l => .unmerged l

/-- value.rs:753-767 `borrow_keys` (the labels as string slices: the same texts) -/
def VBlock.borrowKeys : VBlock → VBlock
  | .merged m => .merged (HashMap.collect id m)
  | .unmerged l => .unmerged l

/-! ## as_owned -/

mutual
/-- value.rs:595-610 `as_owned` -/
def Value.asOwned : Value → Value
  | .null => .null
  | .integer i => .integer i
  | .float f => .float f
  | .boolean b => .boolean b
  | .string s => .string s
  | .list l => .list (Value.asOwnedList l)
  | .object l => .object (Value.asOwnedMaps l)
  | .block b => .block (Value.asOwnedBlock b)
/-- lib.rs:469-479 (`Vec`) -/
def Value.asOwnedList : List Value → List Value
  | [] => []
  | v :: l => v.asOwned :: Value.asOwnedList l
/-- lib.rs:469-479 (`Vec`) -/
def Value.asOwnedMaps : List (KVP Key Value) → List (KVP Key Value)
  | [] => []
  | v :: l => Value.asOwnedMap v :: Value.asOwnedMaps l
/-- lib.rs:426-441 (`KeyValuePairs`), 481-494 (`HashMap`, collected into a new map) -/
def Value.asOwnedMap : KVP Key Value → KVP Key Value
  | .merged l => .merged (HashMap.collect Key.norm (Value.asOwnedEntries l))
  | .unmerged l => .unmerged (Value.asOwnedEntries l)
/-- lib.rs:455-467 (pairs) -/
def Value.asOwnedEntries : List (Key × Value) → List (Key × Value)
  | [] => []
  | (k, v) :: l => (k.asOwned, v.asOwned) :: Value.asOwnedEntries l
/-- lib.rs:426-441 (`KeyValuePairs`), 481-494 (`HashMap`) -/
def Value.asOwnedBlock : KVP (List Str) (KVP Key Value) → KVP (List Str) (KVP Key Value)
  | .merged l => .merged (HashMap.collect id (Value.asOwnedBodies l))
  | .unmerged l => .unmerged (Value.asOwnedBodies l)
/-- lib.rs:455-467 (pairs) -/
def Value.asOwnedBodies : List (List Str × KVP Key Value) → List (List Str × KVP Key Value)
  | [] => []
  | (k, v) :: l => (k, Value.asOwnedMap v) :: Value.asOwnedBodies l
end

end Verif
