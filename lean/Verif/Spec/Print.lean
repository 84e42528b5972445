import Verif.Spec.Same
/-! # How to write strings, expressions and bodies -/
set_option autoImplicit false

namespace Verif.Spec

/-- A text in double quotes, with backslash and double quote escaped by a backslash. -/
def quote (t : Str) : Str :=
  '"' :: t.flatMap (fun c => if c = '\\' ∨ c = '"' then ['\\', c] else [c]) ++ ['"']

/-- A text in double quotes on one line: line feed and carriage return are written `\n` and `\r`. -/
def quoteLine (t : Str) : Str :=
  '"' :: t.flatMap (fun c =>
    if c = '\\' ∨ c = '"' then ['\\', c] else if c = '\n' then ['\\', 'n'] else if c = '\r' then ['\\', 'r'] else [c]) ++
    ['"']

/-- Keys are written as their text. -/
def printKey : ObjKey → Str
  | .ident s => s.str
  | .expr s => s.str

mutual
/-- An expression: `null`, `true`, `12.5`, `"text"`, `[a, b]`, `{k = a, l = b}`. -/
def printExpr : Expr → Str
  | .null => ['n', 'u', 'l', 'l']
  | .number n => n.input.str
  | .boolean true => ['t', 'r', 'u', 'e']
  | .boolean false => ['f', 'a', 'l', 's', 'e']
  | .string s => quote s.str
  | .tuple es => '[' :: printTuple es ++ [']']
  | .object es => '{' :: printObject es ++ ['}']
/-- The elements of a tuple, separated by a comma and a space. -/
def printTuple : List Expr → Str
  | [] => []
  | [e] => printExpr e
  | e :: f :: es => printExpr e ++ ',' :: ' ' :: printTuple (f :: es)
/-- The elements of an object, separated by a comma and a space. -/
def printObject : List (ObjKey × Expr) → Str
  | [] => []
  | [(k, e)] => printKey k ++ ' ' :: '=' :: ' ' :: printExpr e
  | (k, e) :: f :: es => printKey k ++ ' ' :: '=' :: ' ' :: printExpr e ++ ',' :: ' ' :: printObject (f :: es)
end

/-- A label: an identifier, or a quoted text. -/
def printLabel : BlockLabel → Str
  | .stringLiteral s => quoteLine s
  | .identifier s => s.str

mutual
/-- An element: `name = expression` or `type label … {`, the body, `}`, on lines of their own. -/
def printElement : BodyElement → Str
  | .attribute k e => k.str ++ ' ' :: '=' :: ' ' :: printExpr e ++ ['\n']
  | .block t ls b => t.str ++ ls.flatMap (fun l => ' ' :: printLabel l) ++ ' ' :: '{' :: '\n' :: printBody b ++ ['}', '\n']
/-- A body: its elements one after the other. -/
def printBody : List BodyElement → Str
  | [] => []
  | el :: els => printElement el ++ printBody els
end

/-- A leaf that can be written down. Numbers are number literals with the parts that their text has; identifiers,
names and types are identifiers; any string can be written. The text of an expression key is an expression, and does
not begin like an identifier (it would be read as one) or with layout. -/
def LeafPrintable (U : CharClass) : Leaf → Prop
  | .number n => IsNumber n.input.str (forgetNumber n)
  | .string _ => True
  | .key (.ident s) => IsIdent U s.str
  | .key (.expr s) => (∃ e, IsExpr U s.str e []) ∧ ¬ Head (IdentStart U) s.str ∧ ¬ Starts LayoutItem s.str
  | .name s => IsIdent U s.str
  | .label (.identifier s) => IsIdent U s.str
  | .label (.stringLiteral _) => True

/-- All leaves of the body can be written down. -/
def Printable (U : CharClass) (b : Body) : Prop := ∀ l ∈ bodyLeaves b, LeafPrintable U l

end Verif.Spec
