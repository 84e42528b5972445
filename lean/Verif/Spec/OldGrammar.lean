import Verif.Spec.Grammar
import Verif.Spec.Number
import Verif.Model.OldParser
/-!
# Grammar of the legacy `Value` documents

`X s v rest` reads: the text `s` begins with an `X` denoting `v`, and `rest` follows it. `P` is the parser for `f64`
of Rust's standard library.
-/
set_option autoImplicit false

namespace Verif.Spec

/-- The range of `i64`. -/
def InI64 (k : Int) : Prop := -(2 ^ 63) ≤ k ∧ k < 2 ^ 63

/-- What a number literal denotes: the integer it spells, if it is an integer literal in the range of `i64`; otherwise
the float that the standard library reads. -/
inductive NumberValue (P : F64Parse) : Str → Value → Prop
  | integer (t : Str) (k : Int) : IntLit t k → InI64 k → NumberValue P t (.integer k)
  | float (t : Str) (f : F64) : (¬ ∃ k, IntLit t k ∧ InI64 k) → P t = some f → NumberValue P t (.float f)

/-- Keys: identifiers or single-line string literals. -/
inductive IsKey (U : CharClass) : Str → Key → Str → Prop
  | ident (s i r : Str) : Ident U s i r → IsKey U s (.identifier (.borrowed i)) r
  | string (s v r : Str) : Quoted PlainLine s v r → IsKey U s (.string (.ownedS v)) r

/-- Labels of a block: string literals on the same line. -/
inductive IsStringLabels : Str → List Str → Str → Prop
  | nil (s : Str) : IsStringLabels s [] s
  | cons (s t u : Str) (l : Str) (ls : List Str) (r : Str) : SkipInline s t → Quoted PlainLine t l u →
      IsStringLabels u ls r → IsStringLabels s (l :: ls) r

/-- What ends an entry: a comma (possibly after layout), line ends, or the end of the input. -/
inductive IsEntryEnd : Str → Str → Prop
  | comma (s r : Str) : SkipLayout s (',' :: r) → IsEntryEnd s r
  | newline (s r : Str) : Newlines s r → IsEntryEnd s r
  | eof : IsEntryEnd [] []

mutual
/-- Values. Maps may be preceded by layout. -/
inductive IsValue (U : CharClass) (P : F64Parse) : Str → Value → Str → Prop
  | null (r : Str) : IsValue U P ('n' :: 'u' :: 'l' :: 'l' :: r) .null r
  | true (r : Str) : IsValue U P ('t' :: 'r' :: 'u' :: 'e' :: r) (.boolean true) r
  | false (r : Str) : IsValue U P ('f' :: 'a' :: 'l' :: 's' :: 'e' :: r) (.boolean false) r
  | number (t : Str) (n : Number) (v : Value) (r : Str) : NumberTok (t ++ r) n r → NumberValue P t v →
      IsValue U P (t ++ r) v r
  | string (s : Str) (v : CowStr) (r : Str) : StringTok U s v r → IsValue U P s (.string v.str) r
  | list (s : Str) (vs : List Value) (r : Str) : IsListBody U P s vs r → IsValue U P ('[' :: s) (.list vs) r
  | map (s t : Str) (es : List (Key × Value)) (r : Str) : SkipLayout s ('{' :: t) →
      IsEntries U P t es ('}' :: r) → IsValue U P s (.object [.unmerged es]) r

/-- What follows `[`. -/
inductive IsListBody (U : CharClass) (P : F64Parse) : Str → List Value → Str → Prop
  | empty (s r : Str) : IsTupleEnd s r → IsListBody U P s [] r
  | elems (s t u : Str) (v : Value) (vs : List Value) (r : Str) : SkipLayout s t → IsValue U P t v u →
      IsListTail U P u vs r → IsListBody U P s (v :: vs) r

/-- What follows an element of a list. -/
inductive IsListTail (U : CharClass) (P : F64Parse) : Str → List Value → Str → Prop
  | last (s r : Str) : IsTupleEnd s r → IsListTail U P s [] r
  | more (s t u w : Str) (v : Value) (vs : List Value) (r : Str) : SkipLayout s (',' :: t) →
      SkipLayout t u → IsValue U P u v w → IsListTail U P w vs r → IsListTail U P s (v :: vs) r

/-- The entries of a map or document, each followed by its end; `rest` is what follows the last one and layout. -/
inductive IsEntries (U : CharClass) (P : F64Parse) : Str → List (Key × Value) → Str → Prop
  | done (s r : Str) : SkipLayout s r → IsEntries U P s [] r
  | entry (s t u w : Str) (k : Key) (v : Value) (es : List (Key × Value)) (r : Str) : SkipLayout s t →
      IsEntry U P t k v u → IsEntryEnd u w → IsEntries U P w es r → IsEntries U P s ((k, v) :: es) r

/-- One entry: `key = value`; `identifier { … }`; or `identifier "label" … { … }`. -/
inductive IsEntry (U : CharClass) (P : F64Parse) : Str → Key → Value → Str → Prop
  | attribute (s t u w x r : Str) (k : Key) (v : Value) : IsKey U s k t → SkipInline t ('=' :: u) →
      SkipInline u w → IsValue U P w v x → SkipInline x r → IsEntry U P s k v r
  | map (s i t u w r : Str) (es : List (Key × Value)) : Ident U s i t → SkipLayout t ('{' :: u) →
      IsEntries U P u es ('}' :: w) → SkipInline w r →
      IsEntry U P s (.identifier (.borrowed i)) (.object [.unmerged es]) r
  | block (s i t u w x r : Str) (ls : List Str) (es : List (Key × Value)) : Ident U s i t →
      IsStringLabels t ls u → ls ≠ [] → SkipLayout u ('{' :: w) → IsEntries U P w es ('}' :: x) →
      SkipInline x r → IsEntry U P s (.identifier (.borrowed i)) (.block (.unmerged [(ls, .unmerged es)])) r
end

/-- A document: entries followed by nothing. -/
def OldDocument (U : CharClass) (P : F64Parse) (s : Str) (es : List (Key × Value)) : Prop := IsEntries U P s es []

end Verif.Spec
