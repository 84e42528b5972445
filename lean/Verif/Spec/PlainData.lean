import Verif.Spec.Alike
/-! # Expressions that are plain data -/
set_option autoImplicit false

namespace Verif.Spec

/-- Plain data: numbers that have a value (integers in the range of `i64`, floats that the standard library reads), objects whose
keys are different identifiers. -/
inductive PlainData (P : F64Parse) : Expr → Prop
  | null : PlainData P .null
  | boolean (b : Bool) : PlainData P (.boolean b)
  | string (s : CowStr) : PlainData P (.string s)
  | integer (n : Number) (k : Int) : IsInteger n k → PlainData P (.number n)
  | float (n : Number) (x : F64) : IsFloat P n x → PlainData P (.number n)
  | tuple (es : List Expr) : (∀ e ∈ es, PlainData P e) → PlainData P (.tuple es)
  | object (l : List (CowStr × Expr)) : Distinct l → (∀ p ∈ l, PlainData P p.2) →
      PlainData P (.object (l.map fun p => (.ident p.1, p.2)))

/-- The value of plain data as it is: units for `null`, sequences for tuples, maps for objects. -/
inductive PlainValue (P : F64Parse) : Expr → DVal → Prop
  | null : PlainValue P .null .unit
  | boolean (b : Bool) : PlainValue P (.boolean b) (.bool b)
  | string (s : CowStr) : PlainValue P (.string s) (.string s.str)
  | integer (n : Number) (k : Int) : IsInteger n k → PlainValue P (.number n) (.int k)
  | float (n : Number) (x : F64) : IsFloat P n x → PlainValue P (.number n) (.f64 x)
  | tuple (es : List Expr) (vs : List DVal) : es.length = vs.length → (∀ p ∈ es.zip vs, PlainValue P p.1 p.2) →
      PlainValue P (.tuple es) (.seq vs)
  | object (l : List (CowStr × Expr)) (vs : List (Str × DVal)) : Distinct l → l.map (fun p => p.1.str) = vs.map Prod.fst →
      (∀ p ∈ l.zip vs, PlainValue P p.1.2 p.2.2) →
      PlainValue P (.object (l.map fun p => (.ident p.1, p.2))) (.entries vs)

end Verif.Spec
