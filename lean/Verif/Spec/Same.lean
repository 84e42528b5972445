import Verif.Spec.Leaves
/-! # Trees up to ownership of their strings -/
set_option autoImplicit false

namespace Verif.Spec

/-- Forget ownership of a string (treat it as borrowed). -/
def forgetStr (s : CowStr) : CowStr := .borrowed s.str

/-- Forget ownership in a number. -/
def forgetNumber (n : Number) : Number :=
  ⟨forgetStr n.input, n.positive, n.whole.map forgetStr, n.fraction.map forgetStr,
    n.exponent.map fun e => ⟨e.positive, forgetStr e.exponent⟩⟩

/-- Forget ownership in a key. -/
def forgetKey : ObjKey → ObjKey
  | .ident s => .ident (forgetStr s)
  | .expr s => .expr (forgetStr s)

mutual
/-- Forget ownership in an expression. -/
def forgetExpr : Expr → Expr
  | .null => .null
  | .number n => .number (forgetNumber n)
  | .boolean b => .boolean b
  | .string s => .string (forgetStr s)
  | .tuple es => .tuple (forgetTuple es)
  | .object es => .object (forgetObject es)
/-- Forget ownership in tuple elements. -/
def forgetTuple : List Expr → List Expr
  | [] => []
  | e :: es => forgetExpr e :: forgetTuple es
/-- Forget ownership in object elements. -/
def forgetObject : List (ObjKey × Expr) → List (ObjKey × Expr)
  | [] => []
  | (k, e) :: es => (forgetKey k, forgetExpr e) :: forgetObject es
end

/-- Forget ownership in a label. -/
def forgetLabel : BlockLabel → BlockLabel
  | .stringLiteral s => .stringLiteral s
  | .identifier s => .identifier (forgetStr s)

mutual
/-- Forget ownership in a body element. -/
def forgetElement : BodyElement → BodyElement
  | .attribute k e => .attribute (forgetStr k) (forgetExpr e)
  | .block t ls b => .block (forgetStr t) (ls.map forgetLabel) (forgetBody b)
/-- Forget ownership in a body. -/
def forgetBody : List BodyElement → List BodyElement
  | [] => []
  | b :: bs => forgetElement b :: forgetBody bs
end

/-- Every string in the leaf is owned. -/
def LeafOwned : Leaf → Prop
  | .number n => n.input.owned = true ∧ (∀ s ∈ n.whole, s.owned = true) ∧ (∀ s ∈ n.fraction, s.owned = true) ∧
      ∀ e ∈ n.exponent, e.exponent.owned = true
  | .string s => s.owned = true
  | .key (.ident s) => s.owned = true
  | .key (.expr s) => s.owned = true
  | .name s => s.owned = true
  | .label (.identifier s) => s.owned = true
  | .label (.stringLiteral _) => True

end Verif.Spec
