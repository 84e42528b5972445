import Verif.Spec.Leaves
/-! # Line ends: LF and CR LF -/
set_option autoImplicit false

namespace Verif.Spec

/-- The text with every LF replaced by CR LF. -/
def crlf (s : Str) : Str := s.flatMap fun c => if c = '\n' then ['\r', '\n'] else [c]

/-- `v'` is `v` with a CR put before some of its LFs. -/
inductive MoreCr : Str → Str → Prop
  | nil : MoreCr [] []
  | same (c : Char) (v v' : Str) : MoreCr v v' → MoreCr (c :: v) (c :: v')
  | cr (v v' : Str) : MoreCr v v' → MoreCr ('\n' :: v) ('\r' :: '\n' :: v')

/-- The same for strings that are borrowed or owned. -/
inductive MoreCrStr : CowStr → CowStr → Prop
  | borrowed (v v' : Str) : MoreCr v v' → MoreCrStr (.borrowed v) (.borrowed v')
  | owned (v v' : Str) : MoreCr v v' → MoreCrStr (.ownedS v) (.ownedS v')

/-- The same for keys: identifiers are the same. -/
inductive MoreCrKey : ObjKey → ObjKey → Prop
  | ident (i : CowStr) : MoreCrKey (.ident i) (.ident i)
  | expr (v v' : CowStr) : MoreCrStr v v' → MoreCrKey (.expr v) (.expr v')

mutual
/-- Expressions that are the same but for CRs before LFs in strings and expression keys. -/
inductive MoreCrExpr : Expr → Expr → Prop
  | null : MoreCrExpr .null .null
  | boolean (b : Bool) : MoreCrExpr (.boolean b) (.boolean b)
  | number (n : Number) : MoreCrExpr (.number n) (.number n)
  | string (v v' : CowStr) : MoreCrStr v v' → MoreCrExpr (.string v) (.string v')
  | tuple (es es' : List Expr) : MoreCrTuple es es' → MoreCrExpr (.tuple es) (.tuple es')
  | object (es es' : List (ObjKey × Expr)) : MoreCrObject es es' → MoreCrExpr (.object es) (.object es')
inductive MoreCrTuple : List Expr → List Expr → Prop
  | nil : MoreCrTuple [] []
  | cons (e e' : Expr) (es es' : List Expr) : MoreCrExpr e e' → MoreCrTuple es es' → MoreCrTuple (e :: es) (e' :: es')
inductive MoreCrObject : List (ObjKey × Expr) → List (ObjKey × Expr) → Prop
  | nil : MoreCrObject [] []
  | cons (k k' : ObjKey) (e e' : Expr) (es es' : List (ObjKey × Expr)) : MoreCrKey k k' → MoreCrExpr e e' → MoreCrObject es es' →
      MoreCrObject ((k, e) :: es) ((k', e') :: es')
end

mutual
/-- Body elements that are the same but for CRs before LFs in strings and expression keys: the same names, types, labels. -/
inductive MoreCrElement : BodyElement → BodyElement → Prop
  | attribute (k : CowStr) (e e' : Expr) : MoreCrExpr e e' → MoreCrElement (.attribute k e) (.attribute k e')
  | block (t : CowStr) (ls : List BlockLabel) (b b' : List BodyElement) : MoreCrBody b b' → MoreCrElement (.block t ls b) (.block t ls b')
inductive MoreCrBody : List BodyElement → List BodyElement → Prop
  | nil : MoreCrBody [] []
  | cons (el el' : BodyElement) (b b' : List BodyElement) : MoreCrElement el el' → MoreCrBody b b' →
      MoreCrBody (el :: b) (el' :: b')
end

/-- The text kept in a leaf has no LF: matters for strings and for keys that are expressions. -/
def NoLf : Leaf → Prop
  | .string s => '\n' ∉ s.str
  | .key (.expr s) => '\n' ∉ s.str
  | _ => True

end Verif.Spec
