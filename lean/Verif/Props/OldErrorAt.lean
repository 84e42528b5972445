import Verif.Spec.ErrorAt
import Verif.Proofs.OldErrorAt
import Verif.Props.OldEmbed
/-! # C83 for the legacy parser -/
set_option autoImplicit false

namespace Verif

section
open Spec PRes
variable {U : CharClass} {P : F64Parse}

theorem noComma_of {t : Str} (h : ¬ StartsWithComma t) : NoComma t := by
  rintro z ⟨l, hl, e, -⟩
  exact h ⟨l, z, hl, e⟩

theorem fromStr_none (s : Str) : fromStr U P s none = match mapValues U P s with
    | .ok [] m => .ok m
    | .ok (_ :: _) _ => .error .parse
    | .err => .error .parse
    | .fail z => .error (.invalidUnicodeCodePoint z)
    | .panic => .panic
    | .diverge => .diverge := by
  unfold fromStr oldBody exact
  cases mapValues U P s with
  | ok r m => cases r <;> rfl
  | _ => rfl

theorem fromStrError_iff {s r : Str} : fromStrError U P s = some (.code r eofKind) ↔ r ≠ [] ∧ ∃ m, mapValues U P s = .ok r m := by
  unfold fromStrError
  cases mapValues U P s with
  | ok t b =>
    cases t with
    | nil => simp
    | cons c t =>
      constructor
      · intro h; injection h with h; injection h with h _; subst h; exact ⟨by simp, b, rfl⟩
      · rintro ⟨-, b', h⟩; injection h with h _; subst h; rfl
  | _ => simp

end

namespace Props
open Spec PRes

variable (U : CharClass) (P : F64Parse)

/-- C83: a document in front, on lines of its own, changes nothing about the outcome for the text behind it (unless that
begins with a comma, which would end the last entry of the document): its entries are put in front of a successful result;
errors, with what they carry, and panics are the same. -/
theorem c83_legacy_document_in_front (s t : Str) (es : List (Key × Value)) (h : fromStr U P s none = .ok (.unmerged es))
    (ht : ¬ StartsWithComma t) : fromStr U P (s ++ '\n' :: t) none = withEntries es (fromStr U P t none) := by
  have hp := laidOldDocument_line ((c71_every_layout_is_read U P s es).1 h)
  have e : s ++ '\n' :: t = (s ++ ['\n']) ++ t := by simp
  rw [e, fromStr_none, (mapValues_after hp t (noComma_of ht)).1, fromStr_none]
  cases mapValues U P t with
  | ok r m => cases r <;> cases m <;> rfl
  | _ => rfl

/-- C83: an ordinary parse error of the legacy `from_str` (with any merge setting) says where it is. -/
theorem c83_legacy_error_iff (s : Str) (merge : Option MergeBehaviour) :
    fromStr U P s merge = .error .parse ↔ ∃ r, fromStrError U P s = some (.code r eofKind) := by
  simp only [fromStrError_iff]
  unfold fromStr oldBody exact
  cases h : mapValues U P s with
  | ok r m =>
    cases r with
    | nil =>
      simp only [bind_ok, finishFromStr]
      cases merge with
      | none => simp
      | some b =>
        cases b with
        | error => cases hmm : Value.mergeMap m <;> simp [hmm]
        | _ => simp
    | cons c r => simp
  | err => exact absurd h (mapValues_not_err s)
  | _ => simp

/-- C83: the place of the error is where the complete entries end: what is before it is the longest beginning of the text
that consists of complete entries and layout. -/
theorem c83_legacy_error_position (s r : Str) (h : fromStrError U P s = some (.code r eofKind)) :
    r ≠ [] ∧ ∃ p, s = p ++ r ∧ LongestEntries U P p s := by
  obtain ⟨hr, m, hm⟩ := fromStrError_iff.1 h
  obtain ⟨es, rfl, hes⟩ := mapValues_sound hm
  rcases isOld_laid.2.1 hes with ⟨p, rfl, hp⟩ | ⟨h0, -⟩
  · refine ⟨hr, p, rfl, ⟨es, hp⟩, ⟨r, rfl⟩, ?_⟩
    rintro q ⟨x, hq⟩ ⟨c, hc⟩
    have := ((mapValues_reads hc x).1 r _ (by rw [hq]; exact hm)).length_le
    have := congrArg List.length hq
    simp at this
    omega
  · exact absurd h0 hr

/-- C83: and what is before it is a document; what is behind it is refused at its very beginning. -/
theorem c83_legacy_error_splits (s r : Str) (h : fromStrError U P s = some (.code r eofKind)) :
    (∃ p es, s = p ++ r ∧ fromStr U P p none = .ok (.unmerged es)) ∧ fromStrError U P r = some (.code r eofKind) := by
  obtain ⟨hr, m, hm⟩ := fromStrError_iff.1 h
  obtain ⟨es, rfl, hes⟩ := mapValues_sound hm
  refine ⟨?_, fromStrError_iff.2 ⟨hr, _, mapValues_stops hm⟩⟩
  rcases isOld_laid.2.1 hes with ⟨p, rfl, hp⟩ | ⟨h0, -⟩
  · exact ⟨p, es, rfl, (c71_every_layout_is_read U P p es).2 (.lines _ _ hp)⟩
  · exact absurd h0 hr

/-- Non-vacuity of C83. -/
example : fromStr asciiClass zeroFloats "a = 1, b {}\n c = 1 + 2\nd = 4\n".toList none = .error .parse ∧
    fromStrError asciiClass zeroFloats "a = 1, b {}\n c = 1 + 2\nd = 4\n".toList =
      some (.code "c = 1 + 2\nd = 4\n".toList eofKind) := by
  exact ⟨by decide +kernel, rfl⟩

/-- Non-vacuity of C83: the comma has to be excluded. -/
example : StartsWithComma "\n, b = 2".toList ∧ fromStr asciiClass zeroFloats "\n, b = 2".toList none = .error .parse ∧
    fromStr asciiClass zeroFloats "a = 1\n\n, b = 2".toList none =
      .ok (.unmerged [(.identifier (.borrowed ['a']), .integer 1), (.identifier (.borrowed ['b']), .integer 2)]) :=
  ⟨⟨['\n'], " b = 2".toList, .single (.space _ (by simp)), rfl⟩, by decide +kernel, by decide +kernel⟩

end Props
end Verif
