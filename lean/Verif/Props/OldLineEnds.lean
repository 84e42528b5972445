import Verif.Proofs.OldLineEnds
import Verif.Props.OldLaid
/-! # C82 for the legacy parser -/
set_option autoImplicit false

namespace Verif.Props
open Verif Spec

variable (U : CharClass) (P : F64Parse)

/-- C82: with CR LF line ends instead of LF ones, the legacy parser reads the same entries, but that CRs are put before LFs
inside strings. -/
theorem c82_legacy_crlf_is_read (s : Str) (es : List (Key × Value)) (hs : '\r' ∉ s)
    (h : fromStr U P s none = .ok (.unmerged es)) :
    ∃ es', fromStr U P (crlf s) none = .ok (.unmerged es') ∧ MoreCrEntries es es' := by
  obtain ⟨es', h1, h2⟩ := oldDocument_up ((c71_every_layout_is_read U P s es).1 h) hs
  exact ⟨es', (c71_every_layout_is_read U P _ _).2 h2, h1⟩

/-- C82: if no string has a line end in it, the result is the same, merged or not. -/
theorem c82_legacy_crlf_same_values (s : Str) (es : List (Key × Value)) (hs : '\r' ∉ s)
    (h : fromStr U P s none = .ok (.unmerged es)) (hn : OneLineEntries es) (merge : Option MergeBehaviour) :
    fromStr U P (crlf s) merge = fromStr U P s merge := by
  have hl := (c71_every_layout_is_read U P s es).1 h
  obtain ⟨es', h1, h2⟩ := oldDocument_up hl hs
  rw [moreCrEntries_eq h1 hn] at h2
  exact c71_layout_never_matters U P _ _ es h2 hl merge

/-- C82: conversely, if a text in which some (or all) line ends are CR LF is read by the legacy parser, then so is the text
with LF line ends, unless there is an indented heredoc in it. -/
theorem c82_legacy_mixed_line_ends (s z : Str) (es' : List (Key × Value)) (hs : '\r' ∉ s) (hi : ¬ ['<', '<', '-'] <:+: s)
    (hz : MoreCr s z) (h : fromStr U P z none = .ok (.unmerged es')) :
    ∃ es, fromStr U P s none = .ok (.unmerged es) ∧ MoreCrEntries es es' := by
  obtain ⟨b, h1, h2⟩ := oldDocument_down ((c71_every_layout_is_read U P z es').1 h) (fit_moreCr hz hs hi)
  rw [delCr_moreCr hz hs] at h2
  exact ⟨b, (c71_every_layout_is_read U P _ _).2 h2, h1⟩

/-- Non-vacuity of C82: a list, a block, a heredoc. -/
example : '\r' ∉ "a = [1,\n2 # c\n]\nb \"l\" {\nc = <<E\nt\nu\nE\n}\n".toList ∧
    fromStr asciiClass (fun _ => none) "a = [1,\n2 # c\n]\nb \"l\" {\nc = <<E\nt\nu\nE\n}\n".toList none =
      .ok (.unmerged [(.identifier (.borrowed ['a']), .list [.integer 1, .integer 2]),
        (.identifier (.borrowed ['b']), .block (.unmerged [([['l']], .unmerged [(.identifier (.borrowed ['c']), .string "t\nu".toList)])]))]) ∧
    fromStr asciiClass (fun _ => none) (crlf "a = [1,\n2 # c\n]\nb \"l\" {\nc = <<E\nt\nu\nE\n}\n".toList) none =
      .ok (.unmerged [(.identifier (.borrowed ['a']), .list [.integer 1, .integer 2]),
        (.identifier (.borrowed ['b']), .block (.unmerged [([['l']], .unmerged [(.identifier (.borrowed ['c']), .string "t\r\nu".toList)])]))]) := by
  refine ⟨by decide, ?_, ?_⟩ <;> decide +kernel

/-- Non-vacuity of C82: entries without line ends in strings. -/
example : OneLineEntries [(.identifier (.borrowed ['a']), .list [.integer 1, .string ['x']])] :=
  .cons _ _ _ (.list _ (.cons _ _ (.integer _) (.cons _ _ (.string _ (by decide)) .nil))) .nil

end Verif.Props
