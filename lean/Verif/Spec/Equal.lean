import Verif.Spec.Leaves
/-! # When two syntax trees are equal, given when two numbers are -/
set_option autoImplicit false

namespace Verif.Spec

/-- Equal object keys: the same kind of key with the same text. -/
inductive EqKey : ObjKey → ObjKey → Prop
  | ident (a b : CowStr) : a.str = b.str → EqKey (.ident a) (.ident b)
  | expr (a b : CowStr) : a.str = b.str → EqKey (.expr a) (.expr b)

/-- Equal block labels: the same kind of label with the same text. -/
inductive EqLabel : BlockLabel → BlockLabel → Prop
  | string (s : Str) : EqLabel (.stringLiteral s) (.stringLiteral s)
  | ident (a b : CowStr) : a.str = b.str → EqLabel (.identifier a) (.identifier b)

mutual
/-- Equal expressions: the same kind, and equal contents; who owns a text does not matter. -/
inductive EqExpr (N : Number → Number → Prop) : Expr → Expr → Prop
  | null : EqExpr N .null .null
  | number (n m : Number) : N n m → EqExpr N (.number n) (.number m)
  | boolean (b : Bool) : EqExpr N (.boolean b) (.boolean b)
  | string (a b : CowStr) : a.str = b.str → EqExpr N (.string a) (.string b)
  | tuple (as bs : List Expr) : EqTuple N as bs → EqExpr N (.tuple as) (.tuple bs)
  | object (as bs : List (ObjKey × Expr)) : EqObject N as bs → EqExpr N (.object as) (.object bs)

/-- Equal elements of tuples: the same number of elements, equal one by one. -/
inductive EqTuple (N : Number → Number → Prop) : List Expr → List Expr → Prop
  | nil : EqTuple N [] []
  | cons (a b : Expr) (as bs : List Expr) : EqExpr N a b → EqTuple N as bs → EqTuple N (a :: as) (b :: bs)

/-- Equal entries of objects: the same number of entries, equal one by one, in the same order. -/
inductive EqObject (N : Number → Number → Prop) : List (ObjKey × Expr) → List (ObjKey × Expr) → Prop
  | nil : EqObject N [] []
  | cons (k l : ObjKey) (a b : Expr) (as bs : List (ObjKey × Expr)) : EqKey k l → EqExpr N a b → EqObject N as bs →
      EqObject N ((k, a) :: as) ((l, b) :: bs)
end

mutual
/-- Equal elements of bodies. -/
inductive EqElement (N : Number → Number → Prop) : BodyElement → BodyElement → Prop
  | attribute (k l : CowStr) (a b : Expr) : k.str = l.str → EqExpr N a b → EqElement N (.attribute k a) (.attribute l b)
  | block (t u : CowStr) (ls ms : List BlockLabel) (a b : Body) : t.str = u.str → AllPairs EqLabel ls ms → EqBody N a b →
      EqElement N (.block t ls a) (.block u ms b)

/-- Equal bodies: the same number of elements, equal one by one, in the same order. -/
inductive EqBody (N : Number → Number → Prop) : List BodyElement → List BodyElement → Prop
  | nil : EqBody N [] []
  | cons (a b : BodyElement) (as bs : List BodyElement) : EqElement N a b → EqBody N as bs → EqBody N (a :: as) (b :: bs)
end

/-- The numbers of a list of leaves. -/
def leafNumbers : List Leaf → List Number
  | [] => []
  | .number n :: ls => n :: leafNumbers ls
  | _ :: ls => leafNumbers ls

/-- The numbers in a body, at any depth. -/
def bodyNumbers (b : Body) : List Number := leafNumbers (bodyLeaves b)
/-- The numbers in an expression, at any depth. -/
def exprNumbers (e : Expr) : List Number := leafNumbers (exprLeaves e)

end Verif.Spec
