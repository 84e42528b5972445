import Verif.Model.DeTypes
/-!
# Structs with serde attributes

`#[derive(Deserialize)]` on a struct with `#[serde(default)]`, `#[serde(rename)]`, `#[serde(alias)]` on its fields and
`#[serde(deny_unknown_fields)]` on itself (serde_derive 1.0.93; not in /repo, transcribed from the code it generates). The map
accesses that the visitor drives are those of /repo (serde/de/object.rs:33-59, serde/de/body.rs:128-166).
-/
set_option autoImplicit false

namespace Verif

/-- A field. How its type is deserialized is a parameter, so it can be any type of `Ty`, a struct with attributes again, or a
`deserialize_with` function. -/
structure FieldSpec where
  /-- the name, after `#[serde(rename)]` -/
  name : Str
  /-- the names given by `#[serde(alias)]` -/
  aliases : List Str
  /-- `T::deserialize` -/
  read : Node → Res DeErr DVal
  /-- the value of the function of `#[serde(default)]` -/
  default : Option DVal
  /-- whether the type is an `Option` -/
  optional : Bool

/-- all names under which the field is accepted -/
def FieldSpec.names (f : FieldSpec) : List Str := f.name :: f.aliases

/-- A struct. -/
structure StructSpec where
  fields : List FieldSpec
  /-- `#[serde(deny_unknown_fields)]` -/
  deny : Bool

/-- the generated `match value { "a" | "b" => Field0, … }`: the first arm that matches -/
def fieldFor (k : Str) : List FieldSpec → Option FieldSpec
  | [] => none
  | f :: fs => if k ∈ f.names then some f else fieldFor k fs

/-- the generated visitor of field names: an unknown one is an error or is ignored -/
def StructSpec.identify (S : StructSpec) (k : CowStr) : Res DeErr (Option FieldSpec) :=
  match fieldFor k.str S.fields with
  | some f => .ok (some f)
  | none => if S.deny then .error .custom else .ok none

/-- the generated `while let Some(key) = map.next_key()? { match key { … } }`; `found` are the variables of the fields that have
been set; a field that is set already is a `duplicate_field` error, before its value is read -/
def attrLoop (S : StructSpec) (ignore : Node → Res DeErr DVal) : Nat → MapAcc → List (Str × DVal) → Res DeErr (List (Str × DVal))
  | 0, _, _ => .diverge
  | fuel + 1, a, found =>
    let r := a.nextKey S.identify
    r.1.bind fun
      | none => .ok found
      | some (some f) =>
        if (field? f.name found).isSome then .error .custom
        else
          let r' := r.2.nextValue f.read
          r'.1.bind fun v => attrLoop S ignore fuel r'.2 (found ++ [(f.name, v)])
      | some none =>
        let r' := r.2.nextValue ignore
        r'.1.bind fun _ => attrLoop S ignore fuel r'.2 found

/-- what is done for a field that was not given: the default, else `None` for `Option` types, else `missing_field` -/
def FieldSpec.missing (f : FieldSpec) : Res DeErr DVal :=
  match f.default with
  | some d => .ok d
  | none => if f.optional then .ok .none else .error .custom

/-- the value of one field at the end of the generated `visit_map` -/
def FieldSpec.value (f : FieldSpec) (found : List (Str × DVal)) : Res DeErr DVal :=
  match field? f.name found with
  | some v => .ok v
  | none => f.missing

/-- the end of the generated `visit_map`: the values of the fields, in the order of declaration -/
def fillFields (found : List (Str × DVal)) : List FieldSpec → Res DeErr (List (Str × DVal))
  | [] => .ok []
  | f :: fs => (f.value found).bind fun v => (fillFields found fs).map ((f.name, v) :: ·)

/-- the generated `visit_seq`: the fields by position; a missing one is its default, or else an `invalid_length` error (also for
`Option` types); what is left over is not looked at -/
def seqFields : List FieldSpec → List Node → Res DeErr (List (Str × DVal))
  | [], _ => .ok []
  | f :: fs, [] =>
    match f.default with
    | some d => (seqFields fs []).map ((f.name, d) :: ·)
    | none => .error .custom
  | f :: fs, n :: ns => (f.read n).bind fun v => (seqFields fs ns).map ((f.name, v) :: ·)

/-- `S::deserialize(node)`: `deserialize_struct`, which all deserializers forward to `deserialize_any`
(serde/de/expression.rs:72-76, serde/de/body.rs:72-76) -/
noncomputable def deserializeAttr (P : F64Parse) (I : F64OfInt) (ord : HashOrder) (S : StructSpec) (n : Node) : Res DeErr DVal :=
  let run (a : MapAcc) := (attrLoop S (deserialize P I ord .ignored) (a.remaining + 1) a []).bind fun found =>
    (fillFields found S.fields).map .entries
  (n.deserialize P ord .forward).bind fun
    | .mapObject a => run (.object a)
    | .mapBody a => run (.body a)
    | .seq ns => (seqFields S.fields ns).map .entries
    | _ => .error .custom

/-- serde/de/body.rs:197-203 `from_str` into a struct with attributes -/
noncomputable def deFromStrAttr (U : CharClass) (P : F64Parse) (I : F64OfInt) (ord : HashOrder) (S : StructSpec) (s : Str) :
    Res DeErr DVal :=
  match parseStr U s with
  | .ok b => deserializeAttr P I ord S (.body b)
  | .error e => .error (.parse e)
  | .panic => .panic
  | .diverge => .diverge

end Verif
