import Verif.Model.Debug
import Verif.Model.Blocks
/-!
# `{:#?}` of parsed trees

`Number`, `Exponent`, `ObjectElementIdentifier`, `Expression`, `BlockLabel`, `Block`, `BodyElement`, `Blocks` and `BlockBody`
derive `Debug`. std shows `Cow<str>` like `str`, `Option` as a derived `Debug` would, references and `Vec`s as usual.
-/
set_option autoImplicit false

namespace Verif

/-- std `Debug for Cow<str>` -/
def CowStr.debug (s : CowStr) : DTree := .str s.str

/-- std `Debug for bool` -/
def debugBool (b : Bool) : DTree := .word (lit (if b then "true" else "false"))

/-- std `Debug for Option` (derived) -/
def debugOption {α : Type} (f : α → DTree) : Option α → DTree
  | none => .word (lit "None")
  | some x => .tuple (lit "Some") [f x]

/-- number.rs:205-211 derived `Debug` -/
def Exponent.debug (e : Exponent) : DTree :=
  .struct (lit "Exponent") [(.word (lit "positive"), debugBool e.positive), (.word (lit "exponent"), e.exponent.debug)]

/-- number.rs:13-25 derived `Debug` -/
def Number.debug (n : Number) : DTree :=
  .struct (lit "Number") [(.word (lit "input"), n.input.debug), (.word (lit "positive"), debugBool n.positive),
    (.word (lit "whole"), debugOption CowStr.debug n.whole), (.word (lit "fraction"), debugOption CowStr.debug n.fraction),
    (.word (lit "exponent"), debugOption Exponent.debug n.exponent)]

/-- object.rs:23-38 derived `Debug` -/
def ObjKey.debug : ObjKey → DTree
  | .ident s => .tuple (lit "Identifier") [s.debug]
  | .expr s => .tuple (lit "Expression") [s.debug]

mutual
/-- expression.rs:51-65 derived `Debug` -/
def Expr.debug : Expr → DTree
  | .null => .word (lit "Null")
  | .number n => .tuple (lit "Number") [n.debug]
  | .boolean b => .tuple (lit "Boolean") [debugBool b]
  | .string s => .tuple (lit "String") [s.debug]
  | .tuple es => .tuple (lit "Tuple") [.list (Expr.debugTuple es)]
  | .object es => .tuple (lit "Object") [.list (Expr.debugObject es)]
/-- elements of a `Vec<Expression>` -/
def Expr.debugTuple : List Expr → List DTree
  | [] => []
  | e :: es => e.debug :: Expr.debugTuple es
/-- elements of a `Vec<(ObjectElementIdentifier, Expression)>` -/
def Expr.debugObject : List (ObjKey × Expr) → List DTree
  | [] => []
  | (k, e) :: es => .tuple [] [k.debug, e.debug] :: Expr.debugObject es
end

/-- block.rs:60-64 derived `Debug` -/
def BlockLabel.debug : BlockLabel → DTree
  | .stringLiteral s => .tuple (lit "StringLiteral") [.str s]
  | .identifier s => .tuple (lit "Identifier") [s.debug]

mutual
/-- body.rs:27-31 derived `Debug`, with block.rs:26-31 (the field `r#type` is shown as `type`) -/
def BodyElement.debug : BodyElement → DTree
  | .attribute k e => .tuple (lit "Attribute") [.tuple [] [k.debug, e.debug]]
  | .block t ls b => .tuple (lit "Block") [.struct (lit "Block") [(.word (lit "type"), t.debug),
      (.word (lit "labels"), .list (ls.map BlockLabel.debug)), (.word (lit "body"), .list (BodyElement.debugList b))]]
/-- elements of a `Vec<BodyElement>` -/
def BodyElement.debugList : List BodyElement → List DTree
  | [] => []
  | b :: bs => b.debug :: BodyElement.debugList bs
end

/-- `Debug` of a `Body`, a `Vec<BodyElement>` -/
def Body.debug (b : Body) : DTree := .list (BodyElement.debugList b)

mutual
/-- block.rs:395-404 derived `Debug`; hash maps in iteration order -/
def BlockBody.debug : BlockBody → DTree
  | .body bs => .tuple (lit "Body") [.list (bs.map Body.debug)]
  | .labels empty m => .struct (lit "Labels") [(.word (lit "empty"), .list (empty.map Body.debug)),
      (.word (lit "labels"), .map (BlockBody.debugMap m))]
/-- entries of a `HashMap<BlockLabel, BlockBody>`, in iteration order -/
def BlockBody.debugMap : List (BlockLabel × BlockBody) → List (DTree × DTree)
  | [] => []
  | (l, b) :: m => (l.debug, b.debug) :: BlockBody.debugMap m
end

/-- block.rs:187-190 derived `Debug` -/
def Blocks.debug (b : Blocks) : DTree :=
  .struct (lit "Blocks") [(.word (lit "blocks"), .map (b.map fun (t, x) => (t.debug, x.debug)))]

/-- `format!("{:#?}", body)` -/
def shownBody (D : DebugStyle) (b : Body) : Str := b.debug.pretty D
/-- `format!("{:#?}", expression)` -/
def shownExpr (D : DebugStyle) (e : Expr) : Str := e.debug.pretty D
/-- `format!("{:#?}", number)` -/
def shownNumber (D : DebugStyle) (n : Number) : Str := n.debug.pretty D
/-- `format!("{:#?}", blocks)` -/
def shownBlocks (D : DebugStyle) (b : Blocks) : Str := b.debug.pretty D

end Verif
