import Verif.Model.De
/-!
# Target types of deserialization

`T::deserialize` for the types users deserialize into: serde's implementations for standard types and the ones generated
by `#[derive(Deserialize)]` (serde 1.0.101, serde_derive 1.0.93; not in /repo, transcribed from their documented
behaviour). Each type calls one `deserialize_*` method with a visitor that accepts some of the calls and rejects the
others with a `custom` error ("invalid type", "invalid value", "invalid length", "missing field").
-/
set_option autoImplicit false

namespace Verif

/-- `u8` -/
structure U8 where
  ty : IntTy
  isU8 : ty = ⟨false, 8⟩

/-- `str::as_bytes`: the UTF-8 encoding -/
def strBytes (s : Str) : List Nat := (s.flatMap String.utf8EncodeChar).map UInt8.toNat

/-- A Rust type to deserialize into. -/
inductive Ty where
  /-- `()` -/
  | unit
  /-- `bool` -/
  | bool
  /-- `i8` … `i128`, `u8` … `u128` -/
  | int (T : IntTy)
  /-- `f64` -/
  | f64
  /-- `f32` -/
  | f32
  /-- `String` -/
  | string
  /-- `&'de str` -/
  | str
  /-- `char` -/
  | char
  /-- `Option<T>` -/
  | option (t : Ty)
  /-- `Vec<T>` -/
  | seq (t : Ty)
  /-- `(T1, …, Tn)` -/
  | tuple (ts : List Ty)
  /-- `HashMap<String, T>` -/
  | map (t : Ty)
  /-- a struct with named fields, `#[derive(Deserialize)]` without attributes -/
  | struct (fs : List (Str × Ty))
  /-- `struct N(T)`, `#[derive(Deserialize)]` -/
  | newtype (t : Ty)
  /-- `struct U;`, `#[derive(Deserialize)]` -/
  | unitStruct
  /-- `struct N(T1, …, Tn)` with n ≠ 1, `#[derive(Deserialize)]` -/
  | tupleStruct (ts : List Ty)
  /-- an enum, `#[derive(Deserialize)]`: the names of the variants, and whether they are without fields. Its visitor
  accepts `visit_enum` only. -/
  | enum (vs : List (Str × Bool))
  /-- `serde::de::IgnoredAny` -/
  | ignored
  /-- a self-describing value (as in JSON or TOML libraries): a type whose `deserialize` calls `deserialize_any`, with a visitor
  that keeps what it is given: units, booleans, integers, floats, strings, sequences and maps with string keys -/
  | any
  /-- `serde_bytes::ByteBuf` (tested in serde/de/expression.rs:176-205). The argument has one value only: it is the type of an
  item. -/
  | bytes (u : U8)

/-- A deserialized value. -/
inductive DVal where
  | unit
  | bool (b : Bool)
  | int (k : Int)
  | f64 (x : F64)
  /-- an `f32`, as the `f64` of the same value -/
  | f32 (x : F64)
  | string (s : Str)
  | char (c : Char)
  | none
  | some (v : DVal)
  | seq (vs : List DVal)
  /-- the entries of a map or struct, in the order in which they were inserted (for a struct: declared) -/
  | entries (es : List (Str × DVal))
  /-- a variant without fields -/
  | variant (s : Str)
  | ignored

/-- `as` conversions to floats; an `f32` is identified with the `f64` of the same value -/
structure F64OfInt where
  /-- `as f64` on integers -/
  f64 : Int → F64
  /-- `as f32` on integers -/
  f32 : Int → F64
  /-- `as f32` on `f64` -/
  narrow : F64 → F64

instance : CoeFun F64OfInt fun _ => Int → F64 := ⟨F64OfInt.f64⟩

/-- sequencing -/
def Res.bind {ε α β : Type} (x : Res ε α) (f : α → Res ε β) : Res ε β :=
  match x with
  | .ok v => f v
  | .error e => .error e
  | .panic => .panic
  | .diverge => .diverge

/-- `Result::map` -/
def Res.map {ε α β : Type} (f : α → β) (x : Res ε α) : Res ε β := x.bind fun v => .ok (f v)

/-- The method that the type's `deserialize` calls. -/
def Ty.hint : Ty → Hint
  | .option _ => .option
  | .seq _ => .seq
  | .tuple ts => .tuple ts.length
  | .tupleStruct ts => .tupleStruct ts.length
  | .enum _ => .enum
  | .newtype _ => .newtypeStruct
  | .any => .any
  | _ => .forward

/-- Elements of a sequence, one after another; the first error ends it. -/
def deAll (f : Node → Res DeErr DVal) : List Node → Res DeErr (List DVal)
  | [] => .ok []
  | n :: ns => (f n).bind fun v => (deAll f ns).map (v :: ·)

/-- The first elements of a sequence as the fields of a tuple; too few is an error, the rest is not looked at. -/
def deFields (f : Ty → Node → Res DeErr DVal) : List Ty → List Node → Res DeErr (List DVal)
  | [], _ => .ok []
  | _ :: _, [] => .error .custom
  | t :: ts, n :: ns => (f t n).bind fun v => (deFields f ts ns).map (v :: ·)

/-- A map access of either kind. -/
inductive MapAcc where
  | object (a : ObjectMapAccess)
  | body (a : BodyMapAccess)

/-- `next_key_seed` -/
def MapAcc.nextKey {α : Type} (a : MapAcc) (seed : CowStr → Res DeErr α) : Res DeErr (Option α) × MapAcc :=
  match a with
  | .object a => let r := a.nextKey seed; (r.1, .object r.2)
  | .body a => let r := a.nextKey seed; (r.1, .body r.2)

/-- `next_value_seed` -/
def MapAcc.nextValue {α : Type} (a : MapAcc) (seed : Node → Res DeErr α) : Res DeErr α × MapAcc :=
  match a with
  | .object a => let r := a.nextValue seed; (r.1, .object r.2)
  | .body a => let r := a.nextValue seed; (r.1, .body r.2)

/-- The number of entries to come. -/
def MapAcc.remaining : MapAcc → Nat
  | .object a => a.iterator.length
  | .body a => a.elements.length

/-- `while let Some((k, v)) = map.next_entry()? { … }`: the value seed may depend on the key. -/
def entryLoop (f : Str → Node → Res DeErr DVal) : Nat → MapAcc → Res DeErr (List (Str × DVal))
  | 0, _ => .diverge
  | fuel + 1, a =>
    let r := a.nextKey fun k => Res.ok k.str
    r.1.bind fun
      | none => .ok []
      | some k =>
        let r' := r.2.nextValue (f k)
        r'.1.bind fun v => (entryLoop f fuel r'.2).map ((k, v) :: ·)

/-- The first entry of a list with this key. -/
def field? {α : Type} (k : Str) : List (Str × α) → Option α
  | [] => none
  | (k', v) :: l => if k' = k then some v else field? k l

/-- derived struct: the values of the declared fields in order; a missing field is `None` for `Option` types and an
error otherwise. (A field cannot be set twice: the map accesses reject repeated keys.) -/
def structFields (found : List (Str × DVal)) : List (Str × Ty) → Res DeErr (List (Str × DVal))
  | [] => .ok []
  | (k, t) :: fs =>
    match field? k found, t with
    | some v, _ => (structFields found fs).map ((k, v) :: ·)
    | none, .option _ => (structFields found fs).map ((k, .none) :: ·)
    | none, _ => .error .custom

/-- derived enum, `visit_enum` with the name of a variant and nothing else: `unit_variant` succeeds for a variant without
fields, an unknown name is an error, as is a name of a variant with fields ("invalid type: unit variant") -/
def visitVariant (s : Str) (vs : List (Str × Bool)) : Res DeErr DVal :=
  match field? s vs with
  | some true => .ok (.variant s)
  | _ => .error .custom

/-- `T`'s visitor; `f` deserializes nested values. -/
def visit (I : F64OfInt) (f : Ty → Node → Res DeErr DVal) (t : Ty) (c : Call) : Res DeErr DVal :=
  let loop (g : Str → Node → Res DeErr DVal) (a : MapAcc) := entryLoop g (a.remaining + 1) a
  match t, c with
  | .unit, .unit => .ok .unit
  | .unitStruct, .unit => .ok .unit
  | .bool, .bool b => .ok (.bool b)
  | .int T, .i64 k => if T.inRange k then .ok (.int k) else .error .custom
  | .int T, .u64 k => if T.inRange k then .ok (.int k) else .error .custom
  | .f64, .f64 x => .ok (.f64 x)
  | .f64, .i64 k => .ok (.f64 (I k))
  | .f64, .u64 k => .ok (.f64 (I k))
  | .f32, .f64 x => .ok (.f32 (I.narrow x))
  | .f32, .i64 k => .ok (.f32 (I.f32 k))
  | .f32, .u64 k => .ok (.f32 (I.f32 k))
  | .string, .borrowedStr s => .ok (.string s)
  | .string, .string s => .ok (.string s)
  | .string, .str s => .ok (.string s)
  | .str, .borrowedStr s => .ok (.string s)
  | .char, .borrowedStr [c] => .ok (.char c)
  | .char, .string [c] => .ok (.char c)
  | .char, .str [c] => .ok (.char c)
  | .enum vs, .enum s => visitVariant s vs
  | .option _, .none => .ok .none
  | .option _, .unit => .ok .none
  | .option t, .some n => (f t n).map .some
  | .seq t, .seq ns => (deAll (f t) ns).map .seq
  | .tuple ts, .seq ns => (deFields f ts ns).map .seq
  | .tupleStruct ts, .seq ns => (deFields f ts ns).map .seq
  | .map t, .mapObject a => (loop (fun _ => f t) (.object a)).map .entries
  | .map t, .mapBody a => (loop (fun _ => f t) (.body a)).map .entries
  | .struct fs, .mapObject a =>
    (loop (fun k => f ((field? k fs).getD .ignored)) (.object a)).bind fun es => (structFields es fs).map .entries
  | .struct fs, .mapBody a =>
    (loop (fun k => f ((field? k fs).getD .ignored)) (.body a)).bind fun es => (structFields es fs).map .entries
  | .struct fs, .seq ns => (deFields f (fs.map Prod.snd) ns).map fun vs => .entries ((fs.map Prod.fst).zip vs)
  | .newtype t, .newtype n => f t n
  | .newtype t, .seq ns => match ns with
    | [] => .error .custom
    | n :: _ => f t n
  | .ignored, .some n => f .ignored n
  | .ignored, .newtype n => f .ignored n
  | .ignored, .seq ns => (deAll (f .ignored) ns).map fun _ => .ignored
  | .ignored, .mapObject a => (loop (fun _ => f .ignored) (.object a)).map fun _ => .ignored
  | .ignored, .mapBody a => (loop (fun _ => f .ignored) (.body a)).map fun _ => .ignored
  | .ignored, .enum _ => .error .custom
  | .ignored, _ => .ok .ignored
  | .any, .unit => .ok .unit
  | .any, .bool b => .ok (.bool b)
  | .any, .i64 k => .ok (.int k)
  | .any, .u64 k => .ok (.int k)
  | .any, .f64 x => .ok (.f64 x)
  | .any, .borrowedStr s => .ok (.string s)
  | .any, .string s => .ok (.string s)
  | .any, .str s => .ok (.string s)
  | .any, .seq ns => (deAll (f .any) ns).map .seq
  | .any, .mapObject a => (loop (fun _ => f .any) (.object a)).map .entries
  | .any, .mapBody a => (loop (fun _ => f .any) (.body a)).map .entries
  | .bytes u, .seq ns => (deAll (f (.int u.ty)) ns).map .seq
  | .bytes _, .borrowedStr s => .ok (.seq ((strBytes s).map fun b : Nat => .int b))
  | .bytes _, .string s => .ok (.seq ((strBytes s).map fun b : Nat => .int b))
  | .bytes _, .str s => .ok (.seq ((strBytes s).map fun b : Nat => .int b))
  | _, _ => .error .custom

/-- `T::deserialize(node)` with nesting bounded by fuel -/
def deN (P : F64Parse) (I : F64OfInt) (ord : HashOrder) : Nat → Ty → Node → Res DeErr DVal
  | 0, _, _ => .diverge
  | fuel + 1, t, n => (n.deserialize P ord t.hint).bind (visit I (deN P I ord fuel) t)

/-- the largest of the bodies -/
noncomputable def maxSize : List Body → Nat
  | [] => 0
  | b :: bs => max (sizeOf b) (maxSize bs)

/-- a measure that decreases from a node to its parts -/
noncomputable def Node.measure : Node → Nat
  | .expr e => sizeOf e
  | .body b => sizeOf b
  | .block c => maxSize (c.flatIter.map Prod.snd) + 1
  | .key _ => 0

/-- `T::deserialize(node)`; the fuel is enough (`deserialize_eq` in `Proofs/DeTypes.lean` is the equation without it) -/
noncomputable def deserialize (P : F64Parse) (I : F64OfInt) (ord : HashOrder) (t : Ty) (n : Node) : Res DeErr DVal :=
  deN P I ord (sizeOf t + n.measure + 1) t n

/-- literals/key.rs:114-127: a legacy `Key` as a deserializer: every method shows the visitor the text -/
def Key.deserialize (k : Key) (_ : Hint) : Res DeErr Call := .ok (.str k.text)

/-- `T::deserialize(key)` of a legacy `Key`; there is nothing nested to deserialize -/
def deserializeKey (I : F64OfInt) (t : Ty) (k : Key) : Res DeErr DVal :=
  (k.deserialize t.hint).bind (visit I (fun _ _ => .diverge) t)

/-- serde/de/body.rs:197-203 `from_str` -/
noncomputable def deFromStr (U : CharClass) (P : F64Parse) (I : F64OfInt) (ord : HashOrder) (t : Ty) (s : Str) :
    Res DeErr DVal :=
  match parseStr U s with
  | .ok b => deserialize P I ord t (.body b)
  | .error e => .error (.parse e)
  | .panic => .panic
  | .diverge => .diverge

end Verif
