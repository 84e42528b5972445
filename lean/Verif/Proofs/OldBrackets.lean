import Verif.Proofs.Brackets
/-! # Brackets of legacy documents -/
set_option autoImplicit false

namespace Verif
open PRes Spec

variable {U : CharClass} {P : F64Parse}

theorem scan_key {s r : Str} {k : Key} (h : IsKey U s k r) (st : List Char) : Scan U st s [] st r := by
  cases h with
  | ident i _ h => exact scan_ident h st
  | string v _ h => exact scan_one (.string st s v r (quoted_line_plain h))

theorem scan_stringLabels {s r : Str} {ls : List Str} (h : IsStringLabels s ls r) (st : List Char) : Scan U st s [] st r := by
  induction h with
  | nil s => exact .refl _ _
  | cons s t u l ls r h1 h2 _ ih =>
    exact scan_trans (scan_skipInline h1 st) (scan_trans (scan_one (.string st t l u (quoted_line_plain h2))) ih)

theorem scan_entryEnd {s r : Str} (h : IsEntryEnd s r) (st : List Char) : Scan U st s [] st r := by
  cases h with
  | comma _ _ h => exact scan_trans (scan_skipLayout h st) (scan_char _ ',' _ (by unfold Structural; decide))
  | newline _ _ h => exact scan_newlines h st
  | eof => exact .refl _ _

theorem scan_numValue {t r : Str} {n : Number} (h : NumberTok (t ++ r) n r) (st : List Char) : Scan U st (t ++ r) [] st r := scan_number h st

theorem scan_entries {s r : Str} {es : List (Key × Value)} (h : IsEntries U P s es r) : Scans U [] s (entriesBrackets es) r := by
  refine IsEntries.rec (U := U) (P := P)
    (motive_1 := fun s v r _ => Scans U [] s (valueBrackets v) r)
    (motive_2 := fun s vs r _ => Scans U [']'] s (valuesBrackets vs) r)
    (motive_3 := fun s vs r _ => Scans U [']'] s (valuesBrackets vs) r)
    (motive_4 := fun s es r _ => Scans U [] s (entriesBrackets es) r)
    (motive_5 := fun s _ v r _ => Scans U [] s (valueBrackets v) r)
    ?_ ?_ ?_ ?_ ?_ ?_ ?_ ?_ ?_ ?_ ?_ ?_ ?_ ?_ ?_ ?_ h
  · exact fun r st => scan_plain st (t := ['n', 'u', 'l', 'l']) r (by unfold Structural; decide)
  · exact fun r st => scan_plain st (t := ['t', 'r', 'u', 'e']) r (by unfold Structural; decide)
  · exact fun r st => scan_plain st (t := ['f', 'a', 'l', 's', 'e']) r (by unfold Structural; decide)
  · intro t n v r h hv st
    have : valueBrackets v = [] := by cases hv <;> rfl
    rw [this]; exact scan_numValue h st
  · exact fun s v r h st => scan_string h st
  · exact fun s vs r _ ih st => scan_trans (scan_open st _ _ _ .square) (ih st)
  · intro s t es r h _ ih st
    have := scan_trans (scan_skipLayout h st) (scan_trans (scan_open st _ _ _ .curly) (scan_trans (ih ('}' :: st))
      (scan_close st _ _ _ .curly)))
    simpa [valueBrackets] using this
  · exact fun s r h => scans_tupleEnd h
  · intro s t u v vs r h1 _ _ ih ih' st
    have := scan_trans (scan_skipLayout h1 _) (scan_trans (ih (']' :: st)) (ih' st))
    simpa [valuesBrackets] using this
  · exact fun s r h => scans_tupleEnd h
  · intro s t u w v vs r h1 h2 _ _ ih ih' st
    have := scan_trans (scan_skipLayout h1 _) (scan_trans (scan_char _ ',' _ (by unfold Structural; decide))
          (scan_trans (scan_skipLayout h2 _) (scan_trans (ih (']' :: st)) (ih' st))))
    simpa [valuesBrackets] using this
  · exact fun s r h st => scan_skipLayout h st
  · intro s t u w k v es r h1 _ h2 _ ih ih' st
    have := scan_trans (scan_skipLayout h1 st) (scan_trans (ih st) (scan_trans (scan_entryEnd h2 st) (ih' st)))
    simpa [entriesBrackets] using this
  · intro s t u w x r k v h1 h2 h3 _ h4 ih st
    have := scan_trans (scan_key h1 st) (scan_trans (scan_skipInline h2 st) (scan_trans (scan_char _ '=' _ (by unfold Structural; decide))
      (scan_trans (scan_skipInline h3 st) (scan_trans (ih st) (scan_skipInline h4 st)))))
    simpa using this
  · intro s i t u w r es h1 h2 _ h3 ih st
    have := scan_trans (scan_ident h1 st) (scan_trans (scan_skipLayout h2 st) (scan_trans (scan_open st _ _ _ .curly)
      (scan_trans (ih ('}' :: st)) (scan_trans (scan_close st _ _ _ .curly) (scan_skipInline h3 st)))))
    simpa [valueBrackets] using this
  · intro s i t u w x r ls es h1 h2 _ h3 _ h4 ih st
    have := scan_trans (scan_ident h1 st) (scan_trans (scan_stringLabels h2 st) (scan_trans (scan_skipLayout h3 st)
      (scan_trans (scan_open st _ _ _ .curly)
      (scan_trans (ih ('}' :: st)) (scan_trans (scan_close st _ _ _ .curly) (scan_skipInline h4 st))))))
    simpa [valueBrackets] using this

end Verif
