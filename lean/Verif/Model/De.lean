import Verif.Model.Blocks
import Verif.Model.OldParser
/-!
# Deserialization (lib/src/serde/de.rs, lib/src/serde/de/{expression,object,body,block}.rs)

A `serde::de::Deserializer` method is modelled by the call it makes on the visitor (`Call`): `deserialize_foo(self,
visitor)` is `visitor.call`, or an error, or a panic, before any call. The map and sequence accesses handed to a visitor
are state machines (`ObjectMapAccess`, `BodyMapAccess`), a sequence access is the list of the elements to come.
-/
set_option autoImplicit false

namespace Verif

/-- serde/de.rs:29-62 `Error`. Messages of `Custom` are not modelled. -/
inductive DeErr where
  | parse (e : Err)
  | parseInt
  | parseFloat
  | invalidTupleLength (expected actual : Nat)
  | objectDuplicateKey (k : Str)
  | bodyDuplicateKey (k : Str)
  | custom
  deriving Repr, DecidableEq

/-- Which `deserialize_*` method is called; `forward` is every method other than the ones named (`deserialize_bool`,
`_i8`, …, `_str`, `_unit`, `_map`, `_struct`, `_identifier`, `_ignored_any`), which `forward_to_deserialize_any!`
handles in all four deserializers. -/
inductive Hint where
  | any
  | option
  | newtypeStruct
  | seq
  | tuple (len : Nat)
  | tupleStruct (len : Nat)
  | enum
  | forward
  deriving Repr, DecidableEq

/-- serde/de/body.rs:15-19 `BodyValue` -/
inductive BodyValue where
  | expression (e : Expr)
  | block (b : BlockBody)

/-- serde/de/object.rs:10-19 `ObjectMapAccess`; the set of keys seen is a list, only membership is used. -/
structure ObjectMapAccess where
  iterator : List (ObjKey × Expr)
  expression : Option Expr
  seen : List Str

/-- serde/de/body.rs:86-94 `MapAccess` -/
structure BodyMapAccess where
  elements : List (CowStr × BodyValue)
  value : Option BodyValue
  seen : List Str

/-- What can be deserialized: an expression, a body, the blocks of a type, or a map key (serde's deserializer for
`Cow<str>`). -/
inductive Node where
  | expr (e : Expr)
  | body (b : Body)
  | block (b : BlockBody)
  | key (s : CowStr)

/-- The call made on the visitor, with its argument. -/
inductive Call where
  | unit
  | bool (b : Bool)
  | f64 (x : F64)
  | i64 (k : Int)
  | u64 (k : Int)
  | borrowedStr (s : Str)
  | string (s : Str)
  | str (s : Str)
  | none
  | some (n : Node)
  | newtype (n : Node)
  | seq (ns : List Node)
  /-- `visit_enum` with a deserializer of the name of a variant -/
  | enum (s : Str)
  | mapObject (a : ObjectMapAccess)
  | mapBody (a : BodyMapAccess)

/-! ## Objects -/

/-- serde/de/object.rs:21-28 `new` -/
def ObjectMapAccess.new (o : List (ObjKey × Expr)) : ObjectMapAccess := ⟨o, none, []⟩

/-- object.rs:40-51 `ObjectElementIdentifier::as_str` (`none` = the `unimplemented!` panic) -/
def ObjKey.asStr : ObjKey → Option CowStr
  | .ident s => some s
  | .expr _ => none

/-- serde/de/object.rs:34-51 `next_key_seed`: the seed gets the key's deserializer -/
def ObjectMapAccess.nextKey {α : Type} (a : ObjectMapAccess) (seed : CowStr → Res DeErr α) :
    Res DeErr (Option α) × ObjectMapAccess :=
  match a.iterator with
  | [] => (.ok none, a)
  | (key, value) :: rest =>
    match key.asStr with
    | none => (.panic, { a with iterator := rest })
    | some key =>
      if a.seen.contains key.str then (.error (.objectDuplicateKey key.str), { a with iterator := rest })
      else (match seed key with
        | .ok v => .ok (some v)
        | .error e => .error e
        | .panic => .panic
        | .diverge => .diverge, ⟨rest, some value, key.str :: a.seen⟩)

/-- serde/de/object.rs:53-59 `next_value_seed` -/
def ObjectMapAccess.nextValue {α : Type} (a : ObjectMapAccess) (seed : Node → Res DeErr α) :
    Res DeErr α × ObjectMapAccess :=
  match a.expression with
  | none => (.panic, a)
  | some e => (seed (.expr e), { a with expression := none })

/-- serde/de/object.rs:61-65 `size_hint` -/
def ObjectMapAccess.sizeHint (a : ObjectMapAccess) : Option Nat := some a.iterator.length

/-! ## Bodies -/

/-- body.rs:34-40, 50-56: the attributes of a body (`partition(is_attribute)`, `unwrap_attribute`) -/
def attributesOf : Body → List (CowStr × Expr)
  | [] => []
  | .attribute k e :: b => (k, e) :: attributesOf b
  | .block _ _ _ :: b => attributesOf b

/-- body.rs:58-64: the blocks of a body (the other part, `unwrap_block`) -/
def blocksOf : Body → List Block
  | [] => []
  | .attribute _ _ :: b => blocksOf b
  | .block t ls x :: b => ⟨t, ls, x⟩ :: blocksOf b

/-- The unspecified order in which a hash map of blocks is iterated. -/
structure HashOrder where
  order : Blocks → Blocks
  perm : ∀ m, (order m).Perm m

/-- serde/de/body.rs:106-122 `build_map_acces_iter` -/
def mapAccessIter (ord : HashOrder) (b : Body) : List (CowStr × BodyValue) :=
  (attributesOf b).map (fun p => (p.1, .expression p.2)) ++
    (ord.order (Blocks.new (blocksOf b))).map fun p => (p.1, .block p.2)

/-- serde/de/body.rs:96-104 `new` -/
def BodyMapAccess.new (ord : HashOrder) (b : Body) : BodyMapAccess := ⟨mapAccessIter ord b, none, []⟩

/-- serde/de/body.rs:127-156 `next_key_seed` -/
def BodyMapAccess.nextKey {α : Type} (a : BodyMapAccess) (seed : CowStr → Res DeErr α) :
    Res DeErr (Option α) × BodyMapAccess :=
  match a.elements with
  | [] => (.ok none, a)
  | (ident, value) :: rest =>
    if a.seen.contains ident.str then
      match value with
      | .expression _ => (.error (.bodyDuplicateKey ident.str), { a with elements := rest })
      | .block _ => (.panic, { a with elements := rest })
    else (match seed ident with
      | .ok v => .ok (some v)
      | .error e => .error e
      | .panic => .panic
      | .diverge => .diverge, ⟨rest, some value, ident.str :: a.seen⟩)

/-- serde/de/body.rs:158-166 `next_value_seed` -/
def BodyMapAccess.nextValue {α : Type} (a : BodyMapAccess) (seed : Node → Res DeErr α) :
    Res DeErr α × BodyMapAccess :=
  match a.value with
  | none => (.panic, a)
  | some (.expression e) => (seed (.expr e), { a with value := none })
  | some (.block b) => (seed (.block b), { a with value := none })

/-- serde/de/body.rs:168-172 `size_hint` -/
def BodyMapAccess.sizeHint (a : BodyMapAccess) : Option Nat := some a.elements.length

/-! ## Deserializers -/

/-- serde/de.rs:133-141 `deserialize_string` -/
def deserializeString (s : CowStr) : Call := if s.owned then .string s.str else .borrowedStr s.str

/-- serde/de.rs:143-157 `deserialize_number` -/
def deserializeNumber (P : F64Parse) (n : Number) : Res DeErr Call :=
  if n.isFloat then
    match P n.input.str with
    | some x => .ok (.f64 x)
    | none => .error .parseFloat
  else if n.isSigned then
    match n.asInt ⟨true, 64⟩ with
    | some k => .ok (.i64 k)
    | none => .error .parseInt
  else
    match n.asInt ⟨false, 64⟩ with
    | some k => .ok (.u64 k)
    | none => .error .parseInt

/-- serde/de.rs:159-178 `deserialize_tuple` -/
def deserializeTuple (es : List Expr) (checkLength : Option Nat) : Res DeErr Call :=
  match checkLength with
  | some len => if es.length ≠ len then .error (.invalidTupleLength len es.length) else .ok (.seq (es.map .expr))
  | none => .ok (.seq (es.map .expr))

/-- serde/de/expression.rs:11-24 `deserialize_any` -/
def Expr.deserializeAny (P : F64Parse) : Expr → Res DeErr Call
  | .null => .ok .unit
  | .number n => deserializeNumber P n
  | .boolean b => .ok (.bool b)
  | .string s => .ok (deserializeString s)
  | .tuple es => deserializeTuple es none
  | .object o => .ok (.mapObject (.new o))

/-- serde/de/expression.rs:8-78, all methods -/
def Expr.deserialize (P : F64Parse) (h : Hint) (e : Expr) : Res DeErr Call :=
  match h with
  | .option => match e with
    | .null => .ok .none
    | other => .ok (.some (.expr other))
  | .newtypeStruct => .ok (.newtype (.expr e))
  | .tuple len | .tupleStruct len => match e with
    | .tuple es => deserializeTuple es (some len)
    | other => other.deserializeAny P
  | .any | .seq | .enum | .forward => e.deserializeAny P

/-- serde/de/body.rs:50-75: every method treats a body as a map -/
def Body.deserialize (ord : HashOrder) (b : Body) : Res DeErr Call := .ok (.mapBody (.new ord b))

/-- serde/de/block.rs:12-23 `deserialize_body_seq` -/
def deserializeBodySeq (bs : List Body) : Res DeErr Call := .ok (.seq (bs.map .body))

/-- serde/de/block.rs:42-67 `deserialize_any` (`deserialize_map` 25-30 is the body's) -/
def BlockBody.deserializeAny (ord : HashOrder) : BlockBody → Res DeErr Call
  | .body [b] => Body.deserialize ord b
  | .body bs => deserializeBodySeq bs
  | .labels e m =>
    if m.isEmpty then
      match e with
      | [b] => Body.deserialize ord b
      | bs => deserializeBodySeq bs
    else .panic

/-- serde/de/block.rs:39-113, all methods -/
def BlockBody.deserialize (ord : HashOrder) (h : Hint) (b : BlockBody) : Res DeErr Call :=
  match h with
  | .option => if b.lenBlocks = 0 then .ok .none else .ok (.some (.block b))
  | .seq => match b with
    | .body bs => deserializeBodySeq bs
    | .labels e m =>
      if m.isEmpty then
        match e with
        | [b] => Body.deserialize ord b
        | bs => deserializeBodySeq bs
      else .panic
  | .any | .newtypeStruct | .tuple _ | .tupleStruct _ | .enum | .forward => b.deserializeAny ord

/-- serde `CowStrDeserializer` (serde 1.0.101, not in /repo): `visit_str` for borrowed text, `visit_string` for owned,
`visit_enum` if an enum is asked for; all other methods forward to the first two -/
def keyDeserialize (h : Hint) (s : CowStr) : Res DeErr Call := match h with
  | .enum => .ok (.enum s.str)
  | _ => .ok (if s.owned then .string s.str else .str s.str)

/-- Deserialization of any node. -/
def Node.deserialize (P : F64Parse) (ord : HashOrder) (h : Hint) : Node → Res DeErr Call
  | .expr e => e.deserialize P h
  | .body b => Body.deserialize ord b
  | .block b => b.deserialize ord h
  | .key s => keyDeserialize h s

end Verif
