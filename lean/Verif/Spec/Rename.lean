import Verif.Spec.Edit
import Verif.Spec.OldEdit
/-!
# Places of names

A place for a name in a document: the name of an attribute, the type of a block, one of its labels or the key of an object,
at any depth in blocks, tuples and objects. `fill` puts a name there; `Spells` says how it is written there.
-/
set_option autoImplicit false

namespace Verif.Spec

/-- A place for the key of an object in an expression, with everything around it. -/
inductive KeyPlace where
  /-- a key that is an identifier -/
  | identKey (before : List (ObjKey × Expr)) (e : Expr) (after : List (ObjKey × Expr))
  /-- a key that is another expression -/
  | exprKey (before : List (ObjKey × Expr)) (e : Expr) (after : List (ObjKey × Expr))
  | item (before : List Expr) (p : KeyPlace) (after : List Expr)
  | value (before : List (ObjKey × Expr)) (k : ObjKey) (p : KeyPlace) (after : List (ObjKey × Expr))

/-- The expression with this key there. -/
def KeyPlace.fill : KeyPlace → Str → Expr
  | .identKey before e after, n => .object (before ++ (.ident (.borrowed n), e) :: after)
  | .exprKey before e after, n => .object (before ++ (.expr (.borrowed n), e) :: after)
  | .item before p after, n => .tuple (before ++ p.fill n :: after)
  | .value before k p after, n => .object (before ++ (k, p.fill n) :: after)

/-- A text that may be the key of an object without being an identifier: an expression, starting neither as an identifier nor
with layout. -/
def ExprKey (U : CharClass) (x : Str) : Prop := (∃ e, Expr.parse U x = .ok e) ∧ ¬ Head (IdentStart U) x ∧ ¬ Starts LayoutItem x

/-- `x` spells the key `n` at this place: keys are kept as they are written. -/
def KeyPlace.Spells (U : CharClass) : KeyPlace → Str → Str → Prop
  | .identKey _ _ _, n, x => x = n ∧ IsIdent U n
  | .exprKey _ _ _, n, x => x = n ∧ ExprKey U n
  | .item _ p _, n, x => p.Spells U n x
  | .value _ _ p _, n, x => p.Spells U n x

/-- A place for a name in an element, with everything around it. -/
inductive NamePlace where
  | attribute (e : Expr)
  | key (i : CowStr) (p : KeyPlace)
  | blockType (ls : List BlockLabel) (b : Body)
  | identLabel (i : CowStr) (before after : List BlockLabel) (b : Body)
  | stringLabel (i : CowStr) (before after : List BlockLabel) (b : Body)
  | inside (i : CowStr) (ls : List BlockLabel) (before : Body) (p : NamePlace) (after : Body)

/-- The element with this name there. -/
def NamePlace.fill : NamePlace → Str → BodyElement
  | .attribute e, n => .attribute (.borrowed n) e
  | .key i p, n => .attribute i (p.fill n)
  | .blockType ls b, n => .block (.borrowed n) ls b
  | .identLabel i before after b, n => .block i (before ++ .identifier (.borrowed n) :: after) b
  | .stringLabel i before after b, n => .block i (before ++ .stringLiteral n :: after) b
  | .inside i ls before p after, n => .block i ls (before ++ p.fill n :: after)

/-- A quoted text on one line, and what it says. -/
def QuotedName (n x : Str) : Prop := ∃ src, x = '"' :: src ++ ['"'] ∧ Content PlainLine src n ['"']

/-- `x` spells the name `n` at this place: it is the name itself, an identifier; for a string label, a quoted string. -/
def NamePlace.Spells (U : CharClass) : NamePlace → Str → Str → Prop
  | .stringLabel _ _ _ _, n, x => QuotedName n x
  | .inside _ _ _ p _, n, x => p.Spells U n x
  | .key _ p, n, x => p.Spells U n x
  | _, n, x => x = n ∧ IsIdent U n

/-- A place for a name in a document. -/
structure DocName where
  before : Body
  place : NamePlace
  after : Body

/-- The document with this name there. -/
def DocName.fill (p : DocName) (n : Str) : Body := p.before ++ p.place.fill n :: p.after

mutual
/-- A place for a name in an entry of a legacy document. -/
inductive OldEntryName where
  /-- the key, an identifier -/
  | identKey (v : Value)
  /-- the key, a quoted string -/
  | stringKey (v : Value)
  /-- a label of a block -/
  | label (k : Key) (before after : List Str) (es : List (Key × Value))
  /-- in the value -/
  | inValue (k : Key) (p : OldValueName)
/-- A place for a name in a legacy value. -/
inductive OldValueName where
  | item (before : List Value) (p : OldValueName) (after : List Value)
  | entry (before : List (Key × Value)) (p : OldEntryName) (after : List (Key × Value))
  | inBlock (ls : List Str) (before : List (Key × Value)) (p : OldEntryName) (after : List (Key × Value))
end

mutual
/-- The entry with this name there. -/
def OldEntryName.fill : OldEntryName → Str → Key × Value
  | .identKey v, n => (.identifier (.borrowed n), v)
  | .stringKey v, n => (.string (.ownedS n), v)
  | .label k before after es, n => (k, .block (.unmerged [(before ++ n :: after, .unmerged es)]))
  | .inValue k p, n => (k, p.fill n)
/-- The value with this name there. -/
def OldValueName.fill : OldValueName → Str → Value
  | .item before p after, n => .list (before ++ p.fill n :: after)
  | .entry before p after, n => .object [.unmerged (before ++ p.fill n :: after)]
  | .inBlock ls before p after, n => .block (.unmerged [(ls, .unmerged (before ++ p.fill n :: after))])
end

mutual
/-- `x` spells the name `n` at this place: the identifier itself, or a quoted string. -/
def OldEntryName.Spells (U : CharClass) : OldEntryName → Str → Str → Prop
  | .identKey _, n, x => x = n ∧ IsIdent U n
  | .stringKey _, n, x => QuotedName n x
  | .label _ _ _ _, n, x => QuotedName n x
  | .inValue _ p, n, x => p.Spells U n x
/-- The same in a value. -/
def OldValueName.Spells (U : CharClass) : OldValueName → Str → Str → Prop
  | .item _ p _, n, x => p.Spells U n x
  | .entry _ p _, n, x => p.Spells U n x
  | .inBlock _ _ p _, n, x => p.Spells U n x
end

/-- A place for a name in a legacy document. -/
structure OldDocName where
  before : List (Key × Value)
  place : OldEntryName
  after : List (Key × Value)

/-- The entries with this name there. -/
def OldDocName.fill (p : OldDocName) (n : Str) : List (Key × Value) := p.before ++ p.place.fill n :: p.after

end Verif.Spec
