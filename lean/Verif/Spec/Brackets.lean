import Verif.Spec.Grammar
import Verif.Spec.OldGrammar
/-!
# Brackets

How an editor finds the brackets of a text: it reads the text from the left, takes strings, heredocs and comments in one piece,
and keeps the closing brackets that are still to come, the next one first.
-/
set_option autoImplicit false

namespace Verif.Spec

/-- A bracket and the one that closes it. -/
inductive Bracket : Char → Char → Prop
  | round : Bracket '(' ')'
  | square : Bracket '[' ']'
  | curly : Bracket '{' '}'

/-- Characters that are brackets, or begin strings, heredocs or comments. -/
def Structural (c : Char) : Prop := c ∈ ['(', ')', '[', ']', '{', '}', '"', '<', '#', '/']

/-- One piece of the text, and the bracket that it opens, if any. -/
inductive ScanStep (U : CharClass) : List Char → Str → List Char → List Char → Str → Prop
  | plain (st : List Char) (c : Char) (r : Str) : ¬ Structural c → ScanStep U st (c :: r) [] st r
  | comment (st : List Char) (t r : Str) : LineComment t ∨ InlineComment t → ScanStep U st (t ++ r) [] st r
  | string (st : List Char) (s v r : Str) : Quoted Plain s v r → ScanStep U st s [] st r
  | heredoc (st : List Char) (s : Str) (v : CowStr) (r : Str) : Heredoc U s v r → ScanStep U st s [] st r
  | open (st : List Char) (o c : Char) (r : Str) : Bracket o c → ScanStep U st (o :: r) [o] (c :: st) r
  | close (st : List Char) (o c : Char) (r : Str) : Bracket o c → ScanStep U (c :: st) (c :: r) [] st r

/-- `Scan U st s os st' s'`: with the closing brackets `st` still to come and the text `s` ahead, one comes to `s'` with `st'` still
to come, having seen the opening brackets `os`. -/
inductive Scan (U : CharClass) : List Char → Str → List Char → List Char → Str → Prop
  | refl (st : List Char) (s : Str) : Scan U st s [] st s
  | step (st st' st'' : List Char) (s s' s'' : Str) (os os' : List Char) : ScanStep U st s os st' s' →
      Scan U st' s' os' st'' s'' → Scan U st s (os ++ os') st'' s''

/-- All brackets of a text are closed, by brackets of their kind, and these are the opening ones. -/
def Closed (U : CharClass) (s : Str) (os : List Char) : Prop := Scan U [] s os [] []

/-- Reading ends somewhere else than at the end of the text with all brackets closed. -/
def Unclosed (U : CharClass) (s : Str) : Prop :=
  ∃ os st r, Scan U [] s os st r ∧ (¬ ∃ o st' r', ScanStep U st r o st' r') ∧ ¬ (st = [] ∧ r = [])

/-! ## The brackets of a tree, in the order of the text -/

mutual
/-- those of an expression -/
def exprBrackets : Expr → List Char
  | .tuple es => '[' :: tupleBrackets es
  | .object es => '{' :: objectBrackets es
  | _ => []

/-- those of the elements of a tuple -/
def tupleBrackets : List Expr → List Char
  | [] => []
  | e :: es => exprBrackets e ++ tupleBrackets es

/-- those of the values of an object -/
def objectBrackets : List (ObjKey × Expr) → List Char
  | [] => []
  | (_, e) :: es => exprBrackets e ++ objectBrackets es
end

mutual
/-- those of an element of a body -/
def elementBrackets : BodyElement → List Char
  | .attribute _ e => exprBrackets e
  | .block _ _ b => '{' :: bodyBrackets b

/-- those of a body -/
def bodyBrackets : List BodyElement → List Char
  | [] => []
  | x :: b => elementBrackets x ++ bodyBrackets b
end

mutual
/-- those of a legacy value as it is read -/
def valueBrackets : Value → List Char
  | .list l => '[' :: valuesBrackets l
  | .object [.unmerged es] => '{' :: entriesBrackets es
  | .block (.unmerged [(_, .unmerged es)]) => '{' :: entriesBrackets es
  | _ => []

/-- those of the elements of a legacy list -/
def valuesBrackets : List Value → List Char
  | [] => []
  | v :: l => valueBrackets v ++ valuesBrackets l

/-- those of the entries of a legacy map or document -/
def entriesBrackets : List (Key × Value) → List Char
  | [] => []
  | (_, v) :: l => valueBrackets v ++ entriesBrackets l
end

/-- An expression occurs in another, as an element of a tuple or a value of an object, at any depth. -/
inductive SubExpr : Expr → Expr → Prop
  | refl (e : Expr) : SubExpr e e
  | tuple (x e : Expr) (es : List Expr) : e ∈ es → SubExpr x e → SubExpr x (.tuple es)
  | object (x : Expr) (p : ObjKey × Expr) (es : List (ObjKey × Expr)) : p ∈ es → SubExpr x p.2 → SubExpr x (.object es)

/-- All keys of objects in an expression are identifiers. -/
def IdentKeys (e : Expr) : Prop := ∀ es, SubExpr (.object es) e → ∀ p ∈ es, ∃ i, p.1 = .ident i

/-- An expression is the value of an attribute of a body, at any depth. -/
inductive ValueIn : Expr → Body → Prop
  | attribute (k : CowStr) (e : Expr) (b : Body) : .attribute k e ∈ b → ValueIn e b
  | block (t : CowStr) (ls : List BlockLabel) (e : Expr) (b c : Body) : .block t ls c ∈ b → ValueIn e c → ValueIn e b

end Verif.Spec
