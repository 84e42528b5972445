import Verif.Spec.Debug
import Verif.Spec.Number
/-!
# Rust terms for legacy values

`Term D t v`: `t` is `v` written as a Rust term (variants by their names, vectors as `[a, b,]`, hash maps as `{k: v,}`, tuples as
`(a, b,)`, strings as string literals), with white space after opening brackets and commas. (Hash maps have no literals in Rust:
`{k: v,}` is the usual notation.)
-/
set_option autoImplicit false

namespace Verif.Spec
open Verif

/-- White space. -/
def Ws (s : Str) : Prop := ∀ c ∈ s, c = ' ' ∨ c = '\n'

/-- `name(x,)` -/
inductive Applied (name x : Str) : Str → Prop
  | mk (w w' : Str) : Ws w → Ws w' → Applied name x (name ++ '(' :: w ++ x ++ ',' :: w' ++ [')'])

/-- `(x, y,)` -/
inductive Couple (x y : Str) : Str → Prop
  | mk (w w' w'' : Str) : Ws w → Ws w' → Ws w'' → Couple x y ('(' :: w ++ x ++ ',' :: w' ++ y ++ ',' :: w'' ++ [')'])

/-- `t` between brackets -/
inductive Between (a b : Char) (t : Str) : Str → Prop
  | mk (w : Str) : Ws w → Between a b t (a :: w ++ t ++ [b])

/-- one item, the comma behind it, and more text -/
inductive Item (t rest : Str) : Str → Prop
  | mk (w w' : Str) : Ws w → Ws w' → Item t rest (w ++ t ++ ',' :: w' ++ rest)

/-- A string literal. -/
inductive StringTerm : Str → Str → Prop
  | mk (t v : Str) : RustContent t v → StringTerm ('"' :: t ++ ['"']) v

/-- String literals with commas. -/
inductive StringTerms : Str → List Str → Prop
  | nil : StringTerms [] []
  | cons (t r s v : Str) (l : List Str) : StringTerm t v → StringTerms r l → Item t r s → StringTerms s (v :: l)

/-- The labels of a block. -/
inductive LabelsTerm : Str → List Str → Prop
  | mk (t s : Str) (l : List Str) : StringTerms t l → Between '[' ']' t s → LabelsTerm s l

/-- Keys. -/
inductive KeyTerm : Str → Key → Prop
  | identifier (t s : Str) (k : CowStr) : StringTerm t k.str → Applied "Identifier".toList t s → KeyTerm s (.identifier k)
  | string (t s : Str) (k : CowStr) : StringTerm t k.str → Applied "String".toList t s → KeyTerm s (.string k)

mutual
/-- Values. -/
inductive Term (D : DebugStyle) : Str → Value → Prop
  | null : Term D "Null".toList .null
  | integer (t s : Str) (i : Int) : IntLit t i → Applied "Integer".toList t s → Term D s (.integer i)
  | float (s : Str) (x : F64) : Applied "Float".toList (D.f64 x) s → Term D s (.float x)
  | true (s : Str) : Applied "Boolean".toList "true".toList s → Term D s (.boolean true)
  | false (s : Str) : Applied "Boolean".toList "false".toList s → Term D s (.boolean false)
  | string (t s v : Str) : StringTerm t v → Applied "String".toList t s → Term D s (.string v)
  | list (t x s : Str) (l : List Value) : Terms D t l → Between '[' ']' t x → Applied "List".toList x s → Term D s (.list l)
  | object (t x s : Str) (l : List (KVP Key Value)) : MapTerms D t l → Between '[' ']' t x → Applied "Object".toList x s →
      Term D s (.object l)
  | merged (t x y s : Str) (l : List (List Str × KVP Key Value)) : BodyEntryTerms D t l → Between '{' '}' t x →
      Applied "Merged".toList x y → Applied "Block".toList y s → Term D s (.block (.merged l))
  | unmerged (t x y s : Str) (l : List (List Str × KVP Key Value)) : BodyCoupleTerms D t l → Between '[' ']' t x →
      Applied "Unmerged".toList x y → Applied "Block".toList y s → Term D s (.block (.unmerged l))
/-- Values with commas. -/
inductive Terms (D : DebugStyle) : Str → List Value → Prop
  | nil : Terms D [] []
  | cons (t r s : Str) (v : Value) (l : List Value) : Term D t v → Terms D r l → Item t r s → Terms D s (v :: l)
/-- Maps. -/
inductive MapTerm (D : DebugStyle) : Str → KVP Key Value → Prop
  | merged (t x s : Str) (l : List (Key × Value)) : EntryTerms D t l → Between '{' '}' t x → Applied "Merged".toList x s →
      MapTerm D s (.merged l)
  | unmerged (t x s : Str) (l : List (Key × Value)) : CoupleTerms D t l → Between '[' ']' t x → Applied "Unmerged".toList x s →
      MapTerm D s (.unmerged l)
/-- Maps with commas. -/
inductive MapTerms (D : DebugStyle) : Str → List (KVP Key Value) → Prop
  | nil : MapTerms D [] []
  | cons (t r s : Str) (m : KVP Key Value) (l : List (KVP Key Value)) : MapTerm D t m → MapTerms D r l → Item t r s →
      MapTerms D s (m :: l)
/-- `key: value,` … -/
inductive EntryTerms (D : DebugStyle) : Str → List (Key × Value) → Prop
  | nil : EntryTerms D [] []
  | cons (a b r s : Str) (k : Key) (v : Value) (l : List (Key × Value)) : KeyTerm a k → Term D b v → EntryTerms D r l →
      Item (a ++ ": ".toList ++ b) r s → EntryTerms D s ((k, v) :: l)
/-- `(key, value,),` … -/
inductive CoupleTerms (D : DebugStyle) : Str → List (Key × Value) → Prop
  | nil : CoupleTerms D [] []
  | cons (a b c r s : Str) (k : Key) (v : Value) (l : List (Key × Value)) : KeyTerm a k → Term D b v → Couple a b c → CoupleTerms D r l →
      Item c r s → CoupleTerms D s ((k, v) :: l)
/-- `labels: body,` … -/
inductive BodyEntryTerms (D : DebugStyle) : Str → List (List Str × KVP Key Value) → Prop
  | nil : BodyEntryTerms D [] []
  | cons (a b r s : Str) (k : List Str) (v : KVP Key Value) (l : List (List Str × KVP Key Value)) : LabelsTerm a k → MapTerm D b v →
      BodyEntryTerms D r l → Item (a ++ ": ".toList ++ b) r s → BodyEntryTerms D s ((k, v) :: l)
/-- `(labels, body,),` … -/
inductive BodyCoupleTerms (D : DebugStyle) : Str → List (List Str × KVP Key Value) → Prop
  | nil : BodyCoupleTerms D [] []
  | cons (a b c r s : Str) (k : List Str) (v : KVP Key Value) (l : List (List Str × KVP Key Value)) : LabelsTerm a k → MapTerm D b v →
      Couple a b c → BodyCoupleTerms D r l → Item c r s → BodyCoupleTerms D s ((k, v) :: l)
end

end Verif.Spec
