import Verif.Spec.Laid
import Verif.Model.Parser
/-!
# Places in a tree

A place for a value in a tree (`ExprPlace`, `ValuePlace`) or for a run of elements in it (`ElementsPlace`): what is around
it. `fill` puts something there.
-/
set_option autoImplicit false

namespace Verif.Spec

/-- A place in an expression: itself, or inside an item of a tuple or a value of an object. -/
inductive ExprPlace where
  | here
  | item (before : List Expr) (p : ExprPlace) (after : List Expr)
  | value (before : List (ObjKey × Expr)) (k : ObjKey) (p : ExprPlace) (after : List (ObjKey × Expr))

/-- The expression with `e` at this place. -/
def ExprPlace.fill : ExprPlace → Expr → Expr
  | .here, e => e
  | .item before p after, e => .tuple (before ++ p.fill e :: after)
  | .value before k p after, e => .object (before ++ (k, p.fill e) :: after)

/-- A place for a value in an element: in the value of an attribute, or in an element of the body of a block. -/
inductive ElementPlace where
  | attribute (k : CowStr) (p : ExprPlace)
  | block (i : CowStr) (ls : List BlockLabel) (before : Body) (p : ElementPlace) (after : Body)

/-- The element with `e` at this place. -/
def ElementPlace.fill : ElementPlace → Expr → BodyElement
  | .attribute k p, e => .attribute k (p.fill e)
  | .block i ls before p after, e => .block i ls (before ++ p.fill e :: after)

/-- A place for a value in a body. -/
structure ValuePlace where
  before : Body
  place : ElementPlace
  after : Body

/-- The body with `e` at this place. -/
def ValuePlace.fill (p : ValuePlace) (e : Expr) : Body := p.before ++ p.place.fill e :: p.after

/-- A place for elements in the body of a block: between elements of the body, or in a block inside. -/
inductive ElementsPlace where
  | between (before after : Body)
  | block (before : Body) (i : CowStr) (ls : List BlockLabel) (p : ElementsPlace) (after : Body)

/-- The body with the elements `els` at this place. -/
def ElementsPlace.fill : ElementsPlace → Body → Body
  | .between before after, els => before ++ els ++ after
  | .block before i ls p after, els => before ++ .block i ls (p.fill els) :: after

/-- The innermost body around the place, with the elements `els` there. -/
def ElementsPlace.inner : ElementsPlace → Body → Body
  | .between before after, els => before ++ els ++ after
  | .block _ _ _ p _, els => p.inner els

/-- The place is in a block. -/
def ElementsPlace.InBlock : ElementsPlace → Prop
  | .between _ _ => False
  | .block _ _ _ _ _ => True

/-- A body that a block may have on one line. -/
def MayBeOneLine (b : Body) : Prop := b = [] ∨ ∃ k e, b = [.attribute k e]

/-- Complete lines: nothing, or a text that ends in a line end. -/
def WholeLines (s : Str) : Prop := s = [] ∨ ∃ t, s = t ++ ['\n']

/-- One line, with its end. -/
def TextLine (l : Str) : Prop := ∃ body e, l = body ++ e ∧ Eol e ∧ ∀ c ∈ body, c ≠ '\r' ∧ c ≠ '\n'

/-- `x` is a text of the value `e` when `post` follows: an expression on its own, or a heredoc whose line ends there. -/
def WrittenBefore (U : CharClass) (x : Str) (e : Expr) (post : Str) : Prop :=
  Expr.parse U x = .ok e ∨ ∃ nl v, Eol nl ∧ nl <+: post ∧ Heredoc U (x ++ nl) v nl ∧ e = .string v

end Verif.Spec
