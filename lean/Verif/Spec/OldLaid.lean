import Verif.Spec.Laid
import Verif.Spec.OldGrammar
/-!
# Writing the entries of a legacy document with any layout

As `Spec/Laid`, for the documents of the legacy parser: texts are put together, with layout chosen freely wherever
layout may stand. A heredoc must be followed by the end of its line (`Next`).
-/
set_option autoImplicit false

namespace Verif.Spec

/-- A key. -/
inductive LaidOldKey (U : CharClass) : Key → Str → Prop
  | ident (i : Str) : IsIdent U i → LaidOldKey U (.identifier (.borrowed i)) i
  | string (src v : Str) : Content PlainLine src v ['"'] → LaidOldKey U (.string (.ownedS v)) ('"' :: src ++ ['"'])

/-- Labels. -/
inductive LaidOldLabels : List Str → Str → Prop
  | nil : LaidOldLabels [] []
  | cons (l src v s : Str) (ls : List Str) : AnyInline l → Content PlainLine src v ['"'] → LaidOldLabels ls s →
      LaidOldLabels (v :: ls) (l ++ '"' :: src ++ '"' :: s)

/-- What ends an entry: a comma, or line ends. -/
inductive LaidEntryEnd : Str → Prop
  | comma (l : Str) : AnyLayout l → LaidEntryEnd (l ++ [','])
  | newline (n : Str) : LineEnds n → LaidEntryEnd n

mutual
/-- A text of a value. `h` is what must come next. -/
inductive LaidValue (U : CharClass) (P : F64Parse) : Option Str → Value → Str → Prop
  | null : LaidValue U P none .null ['n', 'u', 'l', 'l']
  | true : LaidValue U P none (.boolean true) ['t', 'r', 'u', 'e']
  | false : LaidValue U P none (.boolean false) ['f', 'a', 'l', 's', 'e']
  | number (t : Str) (n : Number) (v : Value) : IsNumber t n → NumberValue P t v → LaidValue U P none v t
  | quoted (src v : Str) : Content Plain src v ['"'] → LaidValue U P none (.string v) ('"' :: src ++ ['"'])
  | heredoc (t e : Str) (v : CowStr) : Eol e → Heredoc U (t ++ e) v e → LaidValue U P (some e) (.string v.str) t
  | list (vs : List Value) (s : Str) : LaidListBody U P vs s → LaidValue U P none (.list vs) ('[' :: s)
  | map (l : Str) (es : List (Key × Value)) (s : Str) : AnyLayout l → LaidEntries U P es s →
      LaidValue U P none (.object [.unmerged es]) (l ++ '{' :: s ++ ['}'])
/-- What follows `[`. -/
inductive LaidListBody (U : CharClass) (P : F64Parse) : List Value → Str → Prop
  | empty (s : Str) : LaidTupleEnd s → LaidListBody U P [] s
  | elems (l t s : Str) (h : Option Str) (v : Value) (vs : List Value) : AnyLayout l → LaidValue U P h v t →
      LaidListTail U P vs s → Next h s → LaidListBody U P (v :: vs) (l ++ t ++ s)
/-- What follows an element of a list. -/
inductive LaidListTail (U : CharClass) (P : F64Parse) : List Value → Str → Prop
  | last (s : Str) : LaidTupleEnd s → LaidListTail U P [] s
  | more (l m t s : Str) (h : Option Str) (v : Value) (vs : List Value) : AnyLayout l → AnyLayout m → LaidValue U P h v t →
      LaidListTail U P vs s → Next h s → LaidListTail U P (v :: vs) (l ++ ',' :: m ++ t ++ s)
/-- Entries, each ended by a comma or line ends. -/
inductive LaidEntries (U : CharClass) (P : F64Parse) : List (Key × Value) → Str → Prop
  | done (l : Str) : AnyLayout l → LaidEntries U P [] l
  | entry (l s n t : Str) (h : Option Str) (k : Key) (v : Value) (es : List (Key × Value)) : AnyLayout l →
      LaidEntry U P h k v s → LaidEntryEnd n → Next h n → LaidEntries U P es t → LaidEntries U P ((k, v) :: es) (l ++ s ++ n ++ t)
/-- An entry and layout to the end of the line. -/
inductive LaidEntry (U : CharClass) (P : F64Parse) : Option Str → Key → Value → Str → Prop
  | attribute (ks l m t n : Str) (h : Option Str) (k : Key) (v : Value) : LaidOldKey U k ks → AnyInline l → AnyInline m →
      LaidValue U P h v t → AnyInline n → (h ≠ none → n = []) → LaidEntry U P h k v (ks ++ l ++ '=' :: m ++ t ++ n)
  | map (i l s n : Str) (es : List (Key × Value)) : IsIdent U i → AnyLayout l → LaidEntries U P es s → AnyInline n →
      LaidEntry U P none (.identifier (.borrowed i)) (.object [.unmerged es]) (i ++ l ++ '{' :: s ++ '}' :: n)
  | block (i ps l s n : Str) (ls : List Str) (es : List (Key × Value)) : IsIdent U i → LaidOldLabels ls ps → ls ≠ [] →
      AnyLayout l → LaidEntries U P es s → AnyInline n →
      LaidEntry U P none (.identifier (.borrowed i)) (.block (.unmerged [(ls, .unmerged es)]))
        (i ++ ps ++ l ++ '{' :: s ++ '}' :: n)
end

/-- A document: entries, the last of which need not be ended. -/
inductive LaidOldDocument (U : CharClass) (P : F64Parse) : List (Key × Value) → Str → Prop
  | lines (es : List (Key × Value)) (s : Str) : LaidEntries U P es s → LaidOldDocument U P es s
  | last (es : List (Key × Value)) (s : Str) (k : Key) (v : Value) (t : Str) : LaidEntries U P es s →
      LaidEntry U P none k v t → LaidOldDocument U P (es ++ [(k, v)]) (s ++ t)

end Verif.Spec
