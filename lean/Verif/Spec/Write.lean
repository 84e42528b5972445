import Verif.Spec.Alike
import Verif.Spec.Print
/-!
# Writing a Rust value as a document

The crate has no serializer: this is the obvious one, used to say which values `from_str` can give.
-/
set_option autoImplicit false

namespace Verif.Spec

/-- The number literal of an integer: its decimal text. -/
def intNumber (k : Int) : Number :=
  ⟨.borrowed (decimalInt k), decide (0 ≤ k), some (.borrowed (decimal k.natAbs)), none, none⟩

/-- How floats are written. -/
structure FloatWriter where
  f64 : F64 → Number
  f32 : F64 → Number

mutual
/-- A value as an expression: `null` for `()` and `None`, tuples for sequences, objects for maps and structs. Floats are
written by `F`. (`IgnoredAny` can be written in any way. Enum variants cannot be written, see `Expressible`.) -/
def toExpr (F : FloatWriter) : DVal → Expr
  | .unit => .null
  | .bool b => .boolean b
  | .int k => .number (intNumber k)
  | .f64 x => .number (F.f64 x)
  | .f32 x => .number (F.f32 x)
  | .string s => .string (.borrowed s)
  | .char c => .string (.borrowed [c])
  | .none => .null
  | .some v => toExpr F v
  | .seq vs => .tuple (toExprs F vs)
  | .entries es => .object (toObject F es)
  | .variant _ => .null
  | .ignored => .boolean true
/-- the elements of a sequence -/
def toExprs (F : FloatWriter) : List DVal → List Expr
  | [] => []
  | v :: vs => toExpr F v :: toExprs F vs
/-- the entries of a map or struct -/
def toObject (F : FloatWriter) : List (Str × DVal) → List (ObjKey × Expr)
  | [] => []
  | (k, v) :: es => (.ident (.borrowed k), toExpr F v) :: toObject F es
end

/-- The document of a map or struct: one attribute for each entry. -/
def toBody (F : FloatWriter) : DVal → Body
  | .entries es => es.map fun p => .attribute (.borrowed p.1) (toExpr F p.2)
  | _ => []

/-- The number literal `n` gives the float `x`. -/
def GivesFloat (P : F64Parse) (I : F64OfInt) (n : Number) (x : F64) : Prop :=
  IsFloat P n x ∨ ∃ k, IsInteger n k ∧ x = I k

/-- The number literal `n` gives the `f32` float `x`. -/
def GivesFloat32 (P : F64Parse) (I : F64OfInt) (n : Number) (x : F64) : Prop :=
  (∃ y, IsFloat P n y ∧ x = I.narrow y) ∨ ∃ k, IsInteger n k ∧ x = I.f32 k

/-- Some number literal gives the `f32` float. -/
def Float32Text (P : F64Parse) (I : F64OfInt) (x : F64) : Prop :=
  ∃ n : Number, IsNumber n.input.str (forgetNumber n) ∧ GivesFloat32 P I n x

/-- Some number literal gives the float. -/
def FloatText (P : F64Parse) (I : F64OfInt) (x : F64) : Prop :=
  ∃ n : Number, IsNumber n.input.str (forgetNumber n) ∧ GivesFloat P I n x

/-- Some float literal (not an integer literal) gives the float. -/
def FloatLit (P : F64Parse) (x : F64) : Prop :=
  ∃ n : Number, IsNumber n.input.str (forgetNumber n) ∧ IsFloat P n x

/-- `F` writes every float that can be written, and with a float literal if there is one. -/
def WritesFloats (P : F64Parse) (I : F64OfInt) (F : FloatWriter) : Prop :=
  (∀ x, FloatText P I x → IsNumber (F.f64 x).input.str (forgetNumber (F.f64 x)) ∧ GivesFloat P I (F.f64 x) x) ∧
  (∀ x, FloatLit P x → IsFloat P (F.f64 x) x) ∧
  ∀ x, Float32Text P I x → IsNumber (F.f32 x).input.str (forgetNumber (F.f32 x)) ∧ GivesFloat32 P I (F.f32 x) x

/-- The values of a type that a document can give. -/
inductive Expressible (U : CharClass) (P : F64Parse) (I : F64OfInt) : Ty → DVal → Prop
  | unit : Expressible U P I .unit .unit
  | unitStruct : Expressible U P I .unitStruct .unit
  | bool (b : Bool) : Expressible U P I .bool (.bool b)
  /-- in the range of the type and of `i64` -/
  | int (T : IntTy) (k : Int) : T.min ≤ k → k ≤ T.max → -2 ^ 63 ≤ k → k < 2 ^ 63 → Expressible U P I (.int T) (.int k)
  | float (x : F64) : FloatText P I x → Expressible U P I .f64 (.f64 x)
  | float32 (x : F64) : Float32Text P I x → Expressible U P I .f32 (.f32 x)
  | string (s : Str) : Expressible U P I .string (.string s)
  | char (c : Char) : Expressible U P I .char (.char c)
  | none (t : Ty) : Expressible U P I (.option t) .none
  /-- not `Some(())` and not `Some(None)` -/
  | some (t : Ty) (v : DVal) : v ≠ .unit → v ≠ .none → Expressible U P I t v → Expressible U P I (.option t) (.some v)
  | seq (t : Ty) (vs : List DVal) : (∀ v ∈ vs, Expressible U P I t v) → Expressible U P I (.seq t) (.seq vs)
  | tuple (ts : List Ty) (vs : List DVal) : vs.length = ts.length → (∀ p ∈ ts.zip vs, Expressible U P I p.1 p.2) →
      Expressible U P I (.tuple ts) (.seq vs)
  | tupleStruct (ts : List Ty) (vs : List DVal) : vs.length = ts.length → (∀ p ∈ ts.zip vs, Expressible U P I p.1 p.2) →
      Expressible U P I (.tupleStruct ts) (.seq vs)
  /-- the keys are different identifiers -/
  | map (t : Ty) (es : List (Str × DVal)) : (es.map Prod.fst).Nodup → (∀ p ∈ es, IsIdent U p.1) →
      (∀ p ∈ es, Expressible U P I t p.2) → Expressible U P I (.map t) (.entries es)
  | struct (fs : List (Str × Ty)) (vs : List DVal) : (∀ f ∈ fs, IsIdent U f.1) → vs.length = fs.length →
      (∀ p ∈ fs.zip vs, Expressible U P I p.1.2 p.2) → Expressible U P I (.struct fs) (.entries ((fs.map Prod.fst).zip vs))
  | newtype (t : Ty) (v : DVal) : Expressible U P I t v → Expressible U P I (.newtype t) v
  | ignored : Expressible U P I .ignored .ignored
  /-- a self-describing value: `()`, booleans, integers of `i64`, floats that have a float literal, strings, sequences, and maps
  whose keys are different identifiers -/
  | anyUnit : Expressible U P I .any .unit
  | anyBool (b : Bool) : Expressible U P I .any (.bool b)
  | anyInt (k : Int) : -2 ^ 63 ≤ k → k < 2 ^ 63 → Expressible U P I .any (.int k)
  | anyFloat (x : F64) : FloatLit P x → Expressible U P I .any (.f64 x)
  | anyString (s : Str) : Expressible U P I .any (.string s)
  | anySeq (vs : List DVal) : (∀ v ∈ vs, Expressible U P I .any v) → Expressible U P I .any (.seq vs)
  | anyMap (es : List (Str × DVal)) : (es.map Prod.fst).Nodup → (∀ p ∈ es, IsIdent U p.1) →
      (∀ p ∈ es, Expressible U P I .any p.2) → Expressible U P I .any (.entries es)
  /-- bytes -/
  | bytes (u : U8) (vs : List DVal) : (∀ v ∈ vs, ∃ k : Int, v = .int k ∧ 0 ≤ k ∧ k < 256) → Expressible U P I (.bytes u) (.seq vs)

/-- The field names of all structs, at any depth, are identifiers. -/
inductive NamedTy (U : CharClass) : Ty → Prop
  | leaf (t : Ty) : LeafTy t → NamedTy U t
  | option (t : Ty) : NamedTy U t → NamedTy U (.option t)
  | seq (t : Ty) : NamedTy U t → NamedTy U (.seq t)
  | tuple (ts : List Ty) : (∀ t ∈ ts, NamedTy U t) → NamedTy U (.tuple ts)
  | map (t : Ty) : NamedTy U t → NamedTy U (.map t)
  | struct (fs : List (Str × Ty)) : (∀ f ∈ fs, IsIdent U f.1) → (∀ f ∈ fs, NamedTy U f.2) → NamedTy U (.struct fs)
  | newtype (t : Ty) : NamedTy U t → NamedTy U (.newtype t)
  | tupleStruct (ts : List Ty) : (∀ t ∈ ts, NamedTy U t) → NamedTy U (.tupleStruct ts)
  | ignored : NamedTy U .ignored
  | any : NamedTy U .any
  | bytes (u : U8) : NamedTy U (.bytes u)

/-- The types and values a whole document can have: structs, maps, `IgnoredAny`, and self-describing values that are maps. -/
def IsDocument (t : Ty) (v : DVal) : Prop :=
  (∃ fs, t = .struct fs) ∨ (∃ t', t = .map t') ∨ t = .ignored ∨ (t = .any ∧ ∃ es, v = .entries es)

end Verif.Spec
