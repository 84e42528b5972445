import Verif.Spec.OldGrammar
import Verif.Spec.Position
/-!
# Positions inside a legacy document at which a value, a string key or a label is expected

`EntriesAt U P k s u`: the entries of a document or map are expected at `s`, and reading them leads to a value
(`k = .expression`), or to a string key or block label (`k = .label`), expected at `u` (a suffix of `s`), at any depth. Everything before `u` is well formed; nothing is said about the text after the point
reached.
-/
set_option autoImplicit false

namespace Verif.Spec

mutual
/-- From a value to a value. -/
inductive ValueAt (U : CharClass) (P : F64Parse) : Kind → Str → Str → Prop
  | here (s : Str) : ValueAt U P .expression s s
  | list {k : Kind} (s u : Str) : ListAt U P k s u → ValueAt U P k ('[' :: s) u
  | map {k : Kind} (s t u : Str) : SkipLayout s ('{' :: t) → EntriesAt U P k t u → ValueAt U P k s u

/-- From what follows `[` or a comma in a list. -/
inductive ListAt (U : CharClass) (P : F64Parse) : Kind → Str → Str → Prop
  | elem {k : Kind} (s t u : Str) : SkipLayout s t → ValueAt U P k t u → ListAt U P k s u
  | next {k : Kind} (s t v w u : Str) (x : Value) : SkipLayout s t → IsValue U P t x v → SkipLayout v (',' :: w) →
      ListAt U P k w u → ListAt U P k s u

/-- From the entries of a document or map. -/
inductive EntriesAt (U : CharClass) (P : F64Parse) : Kind → Str → Str → Prop
  | entry {k : Kind} (s t u : Str) : SkipLayout s t → EntryAt U P k t u → EntriesAt U P k s u
  | next {k : Kind} (s t v w u : Str) (key : Key) (x : Value) : SkipLayout s t → IsEntry U P t key x v → IsEntryEnd v w →
      EntriesAt U P k w u → EntriesAt U P k s u

/-- From one entry. -/
inductive EntryAt (U : CharClass) (P : F64Parse) : Kind → Str → Str → Prop
  | attribute {k : Kind} (s t v w u : Str) (key : Key) : IsKey U s key t → SkipInline t ('=' :: v) → SkipInline v w →
      ValueAt U P k w u → EntryAt U P k s u
  | map {k : Kind} (s i t v u : Str) : Ident U s i t → SkipLayout t ('{' :: v) → EntriesAt U P k v u → EntryAt U P k s u
  | block {k : Kind} (s i t v w u : Str) (ls : List Str) : Ident U s i t → IsStringLabels t ls v → ls ≠ [] →
      SkipLayout v ('{' :: w) → EntriesAt U P k w u → EntryAt U P k s u
  | key (s : Str) : EntryAt U P .label ('"' :: s) ('"' :: s)
  | label (s i t v u : Str) (ls : List Str) : Ident U s i t → IsStringLabels t ls v → SkipInline v ('"' :: u) →
      EntryAt U P .label s ('"' :: u)
end

end Verif.Spec
