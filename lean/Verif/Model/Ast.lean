import Verif.Model.Lex
/-!
# Syntax trees (lib/src/parser/{number,expression,object,attribute,block,body}.rs)
-/
set_option autoImplicit false

namespace Verif

/-- number.rs:205-211 `Exponent` -/
structure Exponent where
  positive : Bool
  exponent : CowStr
  deriving Repr, DecidableEq

/-- number.rs:13-25 `Number` -/
structure Number where
  input : CowStr
  positive : Bool
  whole : Option CowStr
  fraction : Option CowStr
  exponent : Option Exponent
  deriving Repr, DecidableEq

/-- object.rs:23-38 `ObjectElementIdentifier` -/
inductive ObjKey where
  | ident (s : CowStr)
  | expr (s : CowStr)
  deriving Repr, DecidableEq

/-- expression.rs:51-65 `Expression`, with `Tuple = Vec<Expression>` (tuple.rs:17) and
`Object = Vec<(ObjectElementIdentifier, Expression)>` (object.rs:95-97). -/
inductive Expr where
  | null
  | number (n : Number)
  | boolean (b : Bool)
  | string (s : CowStr)
  | tuple (es : List Expr)
  | object (es : List (ObjKey × Expr))
  deriving Repr

/-- attribute.rs:12 `Attribute` -/
abbrev Attribute := CowStr × Expr

/-- block.rs:60-64 `BlockLabel` -/
inductive BlockLabel where
  | stringLiteral (s : Str)
  | identifier (s : CowStr)
  deriving Repr, DecidableEq

/-- body.rs:27-31 `BodyElement` with `Block` (block.rs:26-31) inlined: type, labels, body. -/
inductive BodyElement where
  | attribute (name : CowStr) (value : Expr)
  | block (type : CowStr) (labels : List BlockLabel) (body : List BodyElement)
  deriving Repr

/-- body.rs:20 `Body` -/
abbrev Body := List BodyElement

end Verif
