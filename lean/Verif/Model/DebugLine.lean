import Verif.Model.DebugTree
/-!
# `{:?}`: the derived `Debug` on one line

The same derived code as in `Model/Debug.lean` and `Model/DebugTree.lean`, with std's `DebugTuple`, `DebugStruct`, `DebugList` and
`DebugMap` (core::fmt::builders) in their form without `#`. This is what `unwrap`, `expect` and `assert_eq!` show of a tree.
-/
set_option autoImplicit false

namespace Verif

mutual
/-- std `fmt` with `{:?}`. Simplified: std shows a tuple or struct without fields as its name alone, and a tuple without a name
with one field as `(x,)`; neither is derived for any type of this crate. -/
def DTree.line (D : DebugStyle) : DTree → Str
  | .word s => s
  | .str s => debugStr D s
  | .tuple name fields => name ++ ['('] ++ lineItems D fields ++ [')']
  | .struct name fields => name ++ [' ', '{', ' '] ++ lineEntries D fields ++ [' ', '}']
  | .list items => ['['] ++ lineItems D items ++ [']']
  | .map entries => ['{'] ++ lineEntries D entries ++ ['}']
/-- the first field or item; nothing if there is none -/
def DTree.lineItems (D : DebugStyle) : List DTree → Str
  | [] => []
  | t :: ts => t.line D ++ lineMore D ts
/-- std `DebugTuple::field`, `DebugList::entry`, after the first -/
def DTree.lineMore (D : DebugStyle) : List DTree → Str
  | [] => []
  | t :: ts => [',', ' '] ++ t.line D ++ lineMore D ts
/-- the first entry or named field -/
def DTree.lineEntries (D : DebugStyle) : List (DTree × DTree) → Str
  | [] => []
  | (k, v) :: es => k.line D ++ [':', ' '] ++ v.line D ++ lineMoreEntries D es
/-- std `DebugMap::entry`, `DebugStruct::field`, after the first -/
def DTree.lineMoreEntries (D : DebugStyle) : List (DTree × DTree) → Str
  | [] => []
  | (k, v) :: es => [',', ' '] ++ k.line D ++ [':', ' '] ++ v.line D ++ lineMoreEntries D es
end

/-- `format!("{:?}", body)`: body.rs:27-31 derived `Debug` -/
def lineBody (D : DebugStyle) (b : Body) : Str := b.debug.line D
/-- `format!("{:?}", expression)`: expression.rs:51-65 derived `Debug` -/
def lineExpr (D : DebugStyle) (e : Expr) : Str := e.debug.line D
/-- `format!("{:?}", number)`: number.rs:13-25 derived `Debug` -/
def lineNumber (D : DebugStyle) (n : Number) : Str := n.debug.line D
/-- `format!("{:?}", blocks)`: block.rs:187-190 derived `Debug` -/
def lineBlocks (D : DebugStyle) (b : Blocks) : Str := b.debug.line D
/-- `format!("{:?}", value)`: value.rs:12-23 derived `Debug` -/
def lineValue (D : DebugStyle) (v : Value) : Str := (v.debug D).line D
/-- `format!("{:?}", map)`: lib.rs:149-156 derived `Debug` -/
def lineMap (D : DebugStyle) (m : MapValues) : Str := (Value.debugMap D m).line D

end Verif
