import Verif.Spec.OldGrammar
/-!
# When a syntax tree and a legacy value mean the same

`parser::parse_str` returns a syntax tree, `value::from_str` a list of entries. The relations below say that they
describe the same data.
-/
set_option autoImplicit false

namespace Verif.Spec

/-- An object key and a legacy key: the same identifier; or the source text of a string literal and the string. -/
inductive AgreeKey : ObjKey → Key → Prop
  | ident (s t : CowStr) : s.str = t.str → AgreeKey (.ident s) (.identifier t)
  | string (s t : CowStr) : Quoted PlainLine s.str t.str [] → AgreeKey (.expr s) (.string t)

mutual
/-- An expression and a value. -/
inductive Agree (P : F64Parse) : Expr → Value → Prop
  | null : Agree P .null .null
  | boolean (b : Bool) : Agree P (.boolean b) (.boolean b)
  | number (n : Number) (v : Value) : NumberValue P n.input.str v → Agree P (.number n) v
  | string (s : CowStr) : Agree P (.string s) (.string s.str)
  | tuple (es : List Expr) (vs : List Value) : AgreeList P es vs → Agree P (.tuple es) (.list vs)
  | object (es : List (ObjKey × Expr)) (kvs : List (Key × Value)) : AgreeObject P es kvs →
      Agree P (.object es) (.object [.unmerged kvs])

/-- The elements of a tuple and of a list. -/
inductive AgreeList (P : F64Parse) : List Expr → List Value → Prop
  | nil : AgreeList P [] []
  | cons (e : Expr) (v : Value) (es : List Expr) (vs : List Value) : Agree P e v → AgreeList P es vs →
      AgreeList P (e :: es) (v :: vs)

/-- The elements of an object and the entries of a map. -/
inductive AgreeObject (P : F64Parse) : List (ObjKey × Expr) → List (Key × Value) → Prop
  | nil : AgreeObject P [] []
  | cons (k : ObjKey) (e : Expr) (k' : Key) (v : Value) (es : List (ObjKey × Expr)) (vs : List (Key × Value)) :
      AgreeKey k k' → Agree P e v → AgreeObject P es vs → AgreeObject P ((k, e) :: es) ((k', v) :: vs)
end

mutual
/-- The elements of a body and the entries of a document: the same number of them, in the same order. -/
inductive AgreeBody (P : F64Parse) : Body → List (Key × Value) → Prop
  | nil : AgreeBody P [] []
  | cons (el : BodyElement) (k : Key) (v : Value) (b : Body) (es : List (Key × Value)) : AgreeElement P el k v →
      AgreeBody P b es → AgreeBody P (el :: b) ((k, v) :: es)

/-- An attribute is an entry with its value; a block without labels an entry with an object; a block with labels, all
of them string literals, an entry with a block. -/
inductive AgreeElement (P : F64Parse) : BodyElement → Key → Value → Prop
  | attribute (s t : CowStr) (e : Expr) (v : Value) : s.str = t.str → Agree P e v →
      AgreeElement P (.attribute s e) (.identifier t) v
  | object (s t : CowStr) (b : Body) (es : List (Key × Value)) : s.str = t.str → AgreeBody P b es →
      AgreeElement P (.block s [] b) (.identifier t) (.object [.unmerged es])
  | block (s t : CowStr) (ls : List Str) (b : Body) (es : List (Key × Value)) : s.str = t.str → ls ≠ [] →
      AgreeBody P b es →
      AgreeElement P (.block s (ls.map .stringLiteral) b) (.identifier t) (.block (.unmerged [(ls, .unmerged es)]))
end

end Verif.Spec
