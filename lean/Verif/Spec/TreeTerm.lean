import Verif.Spec.RustTerm
import Verif.Model.Ast
/-!
# Rust terms for parsed trees

Variants by their names, structs as `Name {field: value, …}`, vectors as `[a, b,]`, tuples as `(a, b,)`, strings as string literals,
with white space after opening brackets and commas.
-/
set_option autoImplicit false

namespace Verif.Spec
open Verif

/-- `true` or `false` -/
inductive BoolTerm : Str → Bool → Prop
  | true : BoolTerm "true".toList .true
  | false : BoolTerm "false".toList .false

/-- `None` or `Some(text)` -/
inductive OptionTerm : Str → Option CowStr → Prop
  | none : OptionTerm "None".toList none
  | some (t s : Str) (x : CowStr) : StringTerm t x.str → Applied "Some".toList t s → OptionTerm s (some x)

/-- `name: text,` and more fields -/
def Field (name : String) (t rest s : Str) : Prop := Item (name.toList ++ ": ".toList ++ t) rest s

/-- `Name {fields}` -/
inductive Struct (name : String) (fields : Str) : Str → Prop
  | mk (t : Str) : Between '{' '}' fields t → Struct name fields (name.toList ++ ' ' :: t)

/-- The exponent of a number: its sign and digits. -/
inductive ExponentTerm : Str → Exponent → Prop
  | mk (b t r1 r2 s : Str) (positive : Bool) (exponent : CowStr) : BoolTerm b positive → StringTerm t exponent.str →
      Field "positive" b r1 r2 → Field "exponent" t [] r1 → Struct "Exponent" r2 s → ExponentTerm s ⟨positive, exponent⟩

/-- `None` or `Some(exponent)` -/
inductive OptExponentTerm : Str → Option Exponent → Prop
  | none : OptExponentTerm "None".toList none
  | some (t s : Str) (x : Exponent) : ExponentTerm t x → Applied "Some".toList t s → OptExponentTerm s (some x)

/-- Numbers: the text they were written as, and their parts. -/
inductive NumberTerm : Str → Number → Prop
  | mk (i p w f e r1 r2 r3 r4 r5 s : Str) (input : CowStr) (positive : Bool) (whole fraction : Option CowStr)
      (exponent : Option Exponent) : StringTerm i input.str → BoolTerm p positive → OptionTerm w whole → OptionTerm f fraction →
      OptExponentTerm e exponent → Field "input" i r4 r5 → Field "positive" p r3 r4 → Field "whole" w r2 r3 →
      Field "fraction" f r1 r2 → Field "exponent" e [] r1 → Struct "Number" r5 s →
      NumberTerm s ⟨input, positive, whole, fraction, exponent⟩

/-- Keys of objects. -/
inductive ObjKeyTerm : Str → ObjKey → Prop
  | ident (t s : Str) (k : CowStr) : StringTerm t k.str → Applied "Identifier".toList t s → ObjKeyTerm s (.ident k)
  | expr (t s : Str) (k : CowStr) : StringTerm t k.str → Applied "Expression".toList t s → ObjKeyTerm s (.expr k)

mutual
/-- Expressions. -/
inductive ExprTerm : Str → Expr → Prop
  | null : ExprTerm "Null".toList .null
  | number (t s : Str) (n : Number) : NumberTerm t n → Applied "Number".toList t s → ExprTerm s (.number n)
  | boolean (t s : Str) (b : Bool) : BoolTerm t b → Applied "Boolean".toList t s → ExprTerm s (.boolean b)
  | string (t s : Str) (v : CowStr) : StringTerm t v.str → Applied "String".toList t s → ExprTerm s (.string v)
  | tuple (t x s : Str) (es : List Expr) : ExprTerms t es → Between '[' ']' t x → Applied "Tuple".toList x s → ExprTerm s (.tuple es)
  | object (t x s : Str) (es : List (ObjKey × Expr)) : PairTerms t es → Between '[' ']' t x → Applied "Object".toList x s →
      ExprTerm s (.object es)
/-- Expressions with commas. -/
inductive ExprTerms : Str → List Expr → Prop
  | nil : ExprTerms [] []
  | cons (t r s : Str) (e : Expr) (es : List Expr) : ExprTerm t e → ExprTerms r es → Item t r s → ExprTerms s (e :: es)
/-- `(key, value,),` … -/
inductive PairTerms : Str → List (ObjKey × Expr) → Prop
  | nil : PairTerms [] []
  | cons (a b c r s : Str) (k : ObjKey) (e : Expr) (es : List (ObjKey × Expr)) : ObjKeyTerm a k → ExprTerm b e → Couple a b c →
      PairTerms r es → Item c r s → PairTerms s ((k, e) :: es)
end

/-- Labels of blocks. -/
inductive LabelTerm : Str → BlockLabel → Prop
  | stringLiteral (t s v : Str) : StringTerm t v → Applied "StringLiteral".toList t s → LabelTerm s (.stringLiteral v)
  | identifier (t s : Str) (v : CowStr) : StringTerm t v.str → Applied "Identifier".toList t s → LabelTerm s (.identifier v)

/-- Labels with commas. -/
inductive LabelTerms : Str → List BlockLabel → Prop
  | nil : LabelTerms [] []
  | cons (t r s : Str) (l : BlockLabel) (ls : List BlockLabel) : LabelTerm t l → LabelTerms r ls → Item t r s → LabelTerms s (l :: ls)

mutual
/-- Elements of bodies. -/
inductive ElementTerm : Str → BodyElement → Prop
  | attribute (a b c s : Str) (k : CowStr) (e : Expr) : StringTerm a k.str → ExprTerm b e → Couple a b c →
      Applied "Attribute".toList c s → ElementTerm s (.attribute k e)
  | block (a l l' b b' r1 r2 r3 x s : Str) (t : CowStr) (ls : List BlockLabel) (body : List BodyElement) : StringTerm a t.str →
      LabelTerms l ls → Between '[' ']' l l' → ElementTerms b body → Between '[' ']' b b' → Field "type" a r2 r3 →
      Field "labels" l' r1 r2 → Field "body" b' [] r1 → Struct "Block" r3 x → Applied "Block".toList x s →
      ElementTerm s (.block t ls body)
/-- Elements with commas. -/
inductive ElementTerms : Str → List BodyElement → Prop
  | nil : ElementTerms [] []
  | cons (t r s : Str) (e : BodyElement) (es : List BodyElement) : ElementTerm t e → ElementTerms r es → Item t r s →
      ElementTerms s (e :: es)
end

/-- Bodies. -/
inductive BodyTerm : Str → Body → Prop
  | mk (t s : Str) (b : Body) : ElementTerms t b → Between '[' ']' t s → BodyTerm s b

end Verif.Spec
