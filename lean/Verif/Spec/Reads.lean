import Verif.Spec.De
import Verif.Spec.Utf8
/-!
# What deserialization into a type means

`Reads t n v`: the node `n` (an expression, a body, the blocks of one type, a map key) read as the Rust type `t` is the
value `v`. The rules mention neither visitors nor calls nor hash order.
-/
set_option autoImplicit false

namespace Verif.Spec

/-- A number literal that is an integer in the range of `i64`, with its value (`Number::as_i64`). -/
def IsInteger (n : Number) (k : Int) : Prop := n.isFloat = false ∧ n.asInt ⟨true, 64⟩ = some k

/-- A float literal and the float it denotes for the standard library. -/
def IsFloat (P : F64Parse) (n : Number) (x : F64) : Prop := n.isFloat = true ∧ P n.input.str = some x

/-- The object has identifier keys only, all different; these are its entries, in order. -/
def ObjectEntries (o : List (ObjKey × Expr)) (ns : List (Str × Node)) : Prop :=
  ∃ l : List (CowStr × Expr), o = l.map (fun p => (.ident p.1, p.2)) ∧ Distinct l ∧
    ns = l.map fun p => (p.1.str, .expr p.2)

/-- The body has no repeated attribute and no attribute with the name of a block; these are its entries, in any order:
one for each attribute, one for each type of blocks. -/
def BodyEntries (b : Body) (ns : List (Str × Node)) : Prop :=
  Distinct (attrs b) ∧ ¬ NameClash b ∧ (ns.map Prod.fst).Nodup ∧ ∀ k n, (k, n) ∈ ns ↔ EntryOf b k n

/-- The bodies of blocks without labels. -/
inductive Unlabelled : BlockBody → List Body → Prop
  | body (bs : List Body) : Unlabelled (.body bs) bs
  | labels (bs : List Body) : Unlabelled (.labels bs []) bs

/-- `Vec<T>` of a single block asks for a sequence, which a `BlockBody::Labels` with one body does not offer. -/
def SeqRefused (t : Ty) (c : BlockBody) : Prop := (∃ t', t = .seq t') ∧ ∃ b m, c = .labels [b] m

mutual
/-- A node read as a type. -/
inductive Reads (P : F64Parse) (I : F64OfInt) : Ty → Node → DVal → Prop
  | unit : Reads P I .unit (.expr .null) .unit
  | unitStruct : Reads P I .unitStruct (.expr .null) .unit
  | bool (b : Bool) : Reads P I .bool (.expr (.boolean b)) (.bool b)
  | int (T : IntTy) (n : Number) (k : Int) : IsInteger n k → T.min ≤ k → k ≤ T.max →
      Reads P I (.int T) (.expr (.number n)) (.int k)
  | float (n : Number) (x : F64) : IsFloat P n x → Reads P I .f64 (.expr (.number n)) (.f64 x)
  | floatOfInt (n : Number) (k : Int) : IsInteger n k → Reads P I .f64 (.expr (.number n)) (.f64 (I k))
  | float32 (n : Number) (x : F64) : IsFloat P n x → Reads P I .f32 (.expr (.number n)) (.f32 (I.narrow x))
  | float32OfInt (n : Number) (k : Int) : IsInteger n k → Reads P I .f32 (.expr (.number n)) (.f32 (I.f32 k))
  | string (s : CowStr) : Reads P I .string (.expr (.string s)) (.string s.str)
  | str (s : Str) : Reads P I .str (.expr (.string (.borrowed s))) (.string s)
  | char (s : CowStr) (c : Char) : s.str = [c] → Reads P I .char (.expr (.string s)) (.char c)
  | none (t : Ty) : Reads P I (.option t) (.expr .null) .none
  | some (t : Ty) (e : Expr) (v : DVal) : e ≠ .null → Reads P I t (.expr e) v →
      Reads P I (.option t) (.expr e) (.some v)
  | newtype (t : Ty) (e : Expr) (v : DVal) : Reads P I t (.expr e) v → Reads P I (.newtype t) (.expr e) v
  /-- tuples are read as sequences; a Rust tuple or tuple struct must have the same length; for a newtype struct the rule
  above applies instead -/
  | tuple (t : Ty) (es : List Expr) (v : DVal) : (∀ ts, t = .tuple ts ∨ t = .tupleStruct ts → es.length = ts.length) →
      (∀ t', t ≠ .newtype t') → ReadsSeq P I t (es.map .expr) v → Reads P I t (.expr (.tuple es)) v
  | object (t : Ty) (o : List (ObjKey × Expr)) (ns : List (Str × Node)) (v : DVal) : ObjectEntries o ns →
      ReadsMap P I t ns v → Reads P I t (.expr (.object o)) v
  | body (t : Ty) (b : Body) (ns : List (Str × Node)) (v : DVal) : BodyEntries b ns → ReadsMap P I t ns v →
      Reads P I t (.body b) v
  /-- a single block is its body, except for `Vec` and `Option` -/
  | block (t : Ty) (c : BlockBody) (b : Body) (v : DVal) : Unlabelled c [b] → (∀ t', t ≠ .seq t') →
      Reads P I t (.body b) v → Reads P I t (.block c) v
  /-- several blocks of one type are a sequence of bodies, and so is a single one for `Vec` -/
  | blocks (t : Ty) (c : BlockBody) (bs : List Body) (v : DVal) : Unlabelled c bs →
      (bs.length ≠ 1 ∨ (∃ t', t = .seq t')) → ¬ SeqRefused t c → ReadsSeq P I t (bs.map .body) v → Reads P I t (.block c) v
  | someBlock (t : Ty) (c : BlockBody) (v : DVal) : c.lenBlocks ≠ 0 → Reads P I t (.block c) v →
      Reads P I (.option t) (.block c) (.some v)
  | noBlock (t : Ty) (c : BlockBody) : c.lenBlocks = 0 → Reads P I (.option t) (.block c) .none
  | keyString (s : CowStr) : Reads P I .string (.key s) (.string s.str)
  | keyChar (s : CowStr) (c : Char) : s.str = [c] → Reads P I .char (.key s) (.char c)
  | keyEnum (s : CowStr) (vs : List (Str × Bool)) : field? s.str vs = Option.some true →
      Reads P I (.enum vs) (.key s) (.variant s.str)
  | ignoredNull : Reads P I .ignored (.expr .null) .ignored
  | ignoredBool (b : Bool) : Reads P I .ignored (.expr (.boolean b)) .ignored
  | ignoredInt (n : Number) (k : Int) : IsInteger n k → Reads P I .ignored (.expr (.number n)) .ignored
  | ignoredFloat (n : Number) (x : F64) : IsFloat P n x → Reads P I .ignored (.expr (.number n)) .ignored
  | ignoredString (s : CowStr) : Reads P I .ignored (.expr (.string s)) .ignored
  | ignoredKey (s : CowStr) : Reads P I .ignored (.key s) .ignored
  /-- a self-describing value keeps what is there -/
  | anyNull : Reads P I .any (.expr .null) .unit
  | anyBool (b : Bool) : Reads P I .any (.expr (.boolean b)) (.bool b)
  | anyInt (n : Number) (k : Int) : IsInteger n k → Reads P I .any (.expr (.number n)) (.int k)
  | anyFloat (n : Number) (x : F64) : IsFloat P n x → Reads P I .any (.expr (.number n)) (.f64 x)
  | anyString (s : CowStr) : Reads P I .any (.expr (.string s)) (.string s.str)
  | anyKey (s : CowStr) : Reads P I .any (.key s) (.string s.str)
  /-- a byte buffer is given by a text, as its UTF-8 encoding … -/
  | bytesString (u : U8) (s : CowStr) : Reads P I (.bytes u) (.expr (.string s)) (.seq ((utf8 s.str).map fun b : Nat => .int b))
  | bytesKey (u : U8) (s : CowStr) : Reads P I (.bytes u) (.key s) (.seq ((utf8 s.str).map fun b : Nat => .int b))

/-- A sequence read as a type: `Vec` takes all elements, tuples and structs (by position) the first ones, a newtype
struct the first. -/
inductive ReadsSeq (P : F64Parse) (I : F64OfInt) : Ty → List Node → DVal → Prop
  | seq (t : Ty) (ns : List Node) (vs : List DVal) : ReadsAll P I t ns vs → ReadsSeq P I (.seq t) ns (.seq vs)
  | tuple (ts : List Ty) (ns rest : List Node) (vs : List DVal) : ReadsFields P I ts ns vs →
      ReadsSeq P I (.tuple ts) (ns ++ rest) (.seq vs)
  | tupleStruct (ts : List Ty) (ns rest : List Node) (vs : List DVal) : ReadsFields P I ts ns vs →
      ReadsSeq P I (.tupleStruct ts) (ns ++ rest) (.seq vs)
  | struct (fs : List (Str × Ty)) (ns rest : List Node) (vs : List DVal) :
      ReadsFields P I (fs.map Prod.snd) ns vs →
      ReadsSeq P I (.struct fs) (ns ++ rest) (.entries ((fs.map Prod.fst).zip vs))
  | newtype (t : Ty) (n : Node) (rest : List Node) (v : DVal) : Reads P I t n v →
      ReadsSeq P I (.newtype t) (n :: rest) v
  | ignored (ns : List Node) (vs : List DVal) : ReadsAll P I .ignored ns vs → ReadsSeq P I .ignored ns .ignored
  | any (ns : List Node) (vs : List DVal) : ReadsAll P I .any ns vs → ReadsSeq P I .any ns (.seq vs)
  /-- … or by its bytes, one by one -/
  | bytes (u : U8) (ns : List Node) (vs : List DVal) : ReadsAll P I (.int ⟨false, 8⟩) ns vs → ReadsSeq P I (.bytes u) ns (.seq vs)

/-- Named entries read as a type. -/
inductive ReadsMap (P : F64Parse) (I : F64OfInt) : Ty → List (Str × Node) → DVal → Prop
  | map (t : Ty) (ns : List (Str × Node)) (vs : List (Str × DVal)) : ReadsEach P I t ns vs →
      ReadsMap P I (.map t) ns (.entries vs)
  | struct (fs : List (Str × Ty)) (ns : List (Str × Node)) (vs : List (Str × DVal)) : ReadsStruct P I fs ns vs →
      ReadsExtra P I fs ns → ReadsMap P I (.struct fs) ns (.entries vs)
  | ignored (ns : List (Str × Node)) (vs : List (Str × DVal)) : ReadsEach P I .ignored ns vs →
      ReadsMap P I .ignored ns .ignored
  | any (ns : List (Str × Node)) (vs : List (Str × DVal)) : ReadsEach P I .any ns vs →
      ReadsMap P I .any ns (.entries vs)

/-- All nodes, in order, read as one type. -/
inductive ReadsAll (P : F64Parse) (I : F64OfInt) : Ty → List Node → List DVal → Prop
  | nil (t : Ty) : ReadsAll P I t [] []
  | cons (t : Ty) (n : Node) (v : DVal) (ns : List Node) (vs : List DVal) : Reads P I t n v → ReadsAll P I t ns vs →
      ReadsAll P I t (n :: ns) (v :: vs)

/-- Nodes, in order, read as one type each. -/
inductive ReadsFields (P : F64Parse) (I : F64OfInt) : List Ty → List Node → List DVal → Prop
  | nil : ReadsFields P I [] [] []
  | cons (t : Ty) (n : Node) (v : DVal) (ts : List Ty) (ns : List Node) (vs : List DVal) : Reads P I t n v →
      ReadsFields P I ts ns vs → ReadsFields P I (t :: ts) (n :: ns) (v :: vs)

/-- All entries read as one type, with their names. -/
inductive ReadsEach (P : F64Parse) (I : F64OfInt) : Ty → List (Str × Node) → List (Str × DVal) → Prop
  | nil (t : Ty) : ReadsEach P I t [] []
  | cons (t : Ty) (k : Str) (n : Node) (v : DVal) (ns : List (Str × Node)) (vs : List (Str × DVal)) : Reads P I t n v →
      ReadsEach P I t ns vs → ReadsEach P I t ((k, n) :: ns) ((k, v) :: vs)

/-- The declared fields, in order: the entry of this name, or `None` if there is none and the field is an `Option`. -/
inductive ReadsStruct (P : F64Parse) (I : F64OfInt) : List (Str × Ty) → List (Str × Node) → List (Str × DVal) → Prop
  | nil (ns : List (Str × Node)) : ReadsStruct P I [] ns []
  | present (k : Str) (t : Ty) (n : Node) (v : DVal) (fs : List (Str × Ty)) (ns : List (Str × Node))
      (vs : List (Str × DVal)) : (k, n) ∈ ns → Reads P I t n v → ReadsStruct P I fs ns vs →
      ReadsStruct P I ((k, t) :: fs) ns ((k, v) :: vs)
  | absent (k : Str) (t : Ty) (fs : List (Str × Ty)) (ns : List (Str × Node)) (vs : List (Str × DVal)) :
      k ∉ ns.map Prod.fst → ReadsStruct P I fs ns vs →
      ReadsStruct P I ((k, .option t) :: fs) ns ((k, .none) :: vs)

/-- The entries that are not declared are well-formed. -/
inductive ReadsExtra (P : F64Parse) (I : F64OfInt) : List (Str × Ty) → List (Str × Node) → Prop
  | nil (fs : List (Str × Ty)) : ReadsExtra P I fs []
  | declared (fs : List (Str × Ty)) (k : Str) (n : Node) (ns : List (Str × Node)) : k ∈ fs.map Prod.fst →
      ReadsExtra P I fs ns → ReadsExtra P I fs ((k, n) :: ns)
  | extra (fs : List (Str × Ty)) (k : Str) (n : Node) (v : DVal) (ns : List (Str × Node)) : k ∉ fs.map Prod.fst →
      Reads P I .ignored n v → ReadsExtra P I fs ns → ReadsExtra P I fs ((k, n) :: ns)
end

/-- No struct in the type, at any depth, declares a field twice (Rust does not allow it). -/
inductive ProperTy : Ty → Prop
  | unit : ProperTy .unit
  | bool : ProperTy .bool
  | int (T : IntTy) : ProperTy (.int T)
  | f64 : ProperTy .f64
  | f32 : ProperTy .f32
  | string : ProperTy .string
  | str : ProperTy .str
  | char : ProperTy .char
  | option (t : Ty) : ProperTy t → ProperTy (.option t)
  | seq (t : Ty) : ProperTy t → ProperTy (.seq t)
  | tuple (ts : List Ty) : (∀ t ∈ ts, ProperTy t) → ProperTy (.tuple ts)
  | map (t : Ty) : ProperTy t → ProperTy (.map t)
  | struct (fs : List (Str × Ty)) : (fs.map Prod.fst).Nodup → (∀ f ∈ fs, ProperTy f.2) → ProperTy (.struct fs)
  | newtype (t : Ty) : ProperTy t → ProperTy (.newtype t)
  | unitStruct : ProperTy .unitStruct
  | tupleStruct (ts : List Ty) : (∀ t ∈ ts, ProperTy t) → ProperTy (.tupleStruct ts)
  | enum (vs : List (Str × Bool)) : ProperTy (.enum vs)
  | ignored : ProperTy .ignored
  | any : ProperTy .any
  | bytes (u : U8) : ProperTy (.bytes u)

/-- Types without parts -/
def LeafTy : Ty → Prop
  | .unit | .unitStruct | .bool | .int _ | .f64 | .f32 | .string | .str | .char | .enum _ => True
  | _ => False

end Verif.Spec
