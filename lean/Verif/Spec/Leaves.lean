import Verif.Spec.Grammar
/-! # The pieces of text kept in a syntax tree -/
set_option autoImplicit false

namespace Verif.Spec

/-- A piece of text (or number) stored in a tree. -/
inductive Leaf where
  | number (n : Number)
  | string (s : CowStr)
  | key (k : ObjKey)
  | name (s : CowStr)
  | label (l : BlockLabel)

mutual
/-- All leaves of an expression, in source order. -/
def exprLeaves : Expr → List Leaf
  | .null => []
  | .number n => [.number n]
  | .boolean _ => []
  | .string s => [.string s]
  | .tuple es => tupleLeaves es
  | .object es => objectLeaves es

/-- All leaves of tuple elements. -/
def tupleLeaves : List Expr → List Leaf
  | [] => []
  | e :: es => exprLeaves e ++ tupleLeaves es

/-- All leaves of object elements. -/
def objectLeaves : List (ObjKey × Expr) → List Leaf
  | [] => []
  | (k, e) :: es => .key k :: (exprLeaves e ++ objectLeaves es)
end

mutual
/-- All leaves of a body element: its name or type, labels, and content. -/
def elementLeaves : BodyElement → List Leaf
  | .attribute k e => .name k :: exprLeaves e
  | .block t ls b => .name t :: (ls.map .label ++ bodyLeaves b)

/-- All leaves of a body. -/
def bodyLeaves : List BodyElement → List Leaf
  | [] => []
  | el :: els => elementLeaves el ++ bodyLeaves els
end

/-- What is known about a leaf of the tree of the text `s`: numbers keep their source text, which is a number literal
in `s`; borrowed strings are contiguous pieces of `s`; names are identifiers in `s`; expression keys are pieces of
`s`. -/
inductive LeafOf (U : CharClass) (s : Str) : Leaf → Prop
  | number (t : Str) (n : Number) : IsNumber t n → t <:+: s → LeafOf U s (.number n)
  | borrowed (t : Str) : t <:+: s → LeafOf U s (.string (.borrowed t))
  | owned (t : Str) : LeafOf U s (.string (.ownedS t))
  | identKey (i : Str) : IsIdent U i → i <:+: s → LeafOf U s (.key (.ident (.borrowed i)))
  | exprKey (t : Str) : t <:+: s → LeafOf U s (.key (.expr (.borrowed t)))
  | name (i : Str) : IsIdent U i → i <:+: s → LeafOf U s (.name (.borrowed i))
  | identLabel (i : Str) : IsIdent U i → i <:+: s → LeafOf U s (.label (.identifier (.borrowed i)))
  | stringLabel (t : Str) : LeafOf U s (.label (.stringLiteral t))

end Verif.Spec
