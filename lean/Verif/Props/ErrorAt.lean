import Verif.Spec.ErrorAt
import Verif.Proofs.ErrorAt
import Verif.Proofs.LastChar
import Verif.Props.Embed
/-! # C83: where a parse error is reported -/
set_option autoImplicit false

namespace Verif.Props
open Verif Spec PRes

variable (U : CharClass)

/-- C83: a document in front, on lines of its own, changes nothing about the outcome for the text behind it: its elements
are put in front of a successful result; errors, with what they carry, and panics are the same. -/
theorem c83_document_in_front (s t : Str) (b : Body) (h : parseStr U s = .ok b) :
    parseStr U (s ++ '\n' :: t) = withFront b (parseStr U t) := by
  have hp := laidDocument_line ((c15_every_layout_is_read U s b).1 h)
  have e : s ++ '\n' :: t = (s ++ ['\n']) ++ t := by simp
  rw [e, parseStr_body, body_after hp, parseStr_body]
  cases body U t with
  | ok r c => cases r <;> rfl
  | _ => rfl

/-- C83: the same when the document in front ends in a line end itself (it need not be a document without it: a heredoc at
its end may need the line end). -/
theorem c83_lines_in_front (s t : Str) (b : Body) (h : parseStr U (s ++ ['\n']) = .ok b) :
    parseStr U (s ++ '\n' :: t) = withFront b (parseStr U t) := by
  have hp := laidDocument_lines ((c15_every_layout_is_read U _ b).1 h)
  have e : s ++ '\n' :: t = (s ++ ['\n']) ++ t := by simp
  rw [e, parseStr_body, body_after hp, parseStr_body]
  cases body U t with
  | ok r c => cases r <;> rfl
  | _ => rfl

/-- C16: if a document ends in a line end, then the whole with further text behind it is a document iff the further text
is, and its body is the two bodies one after the other. -/
theorem c16_lines (s t : Str) (a c : Body) (hs : parseStr U (s ++ ['\n']) = .ok a) :
    parseStr U (s ++ '\n' :: t) = .ok c ↔ ∃ b, parseStr U t = .ok b ∧ c = a ++ b := by
  rw [c83_lines_in_front U s t a hs]
  cases parseStr U t with
  | ok b =>
    refine ⟨fun h => ⟨b, rfl, ?_⟩, ?_⟩
    · injection h with h; exact h.symm
    · rintro ⟨b', h, rfl⟩
      injection h with h; subst h; rfl
  | _ => constructor <;> intro h <;> first | (cases h; done) | (obtain ⟨_, h, _⟩ := h; cases h)

/-- Non-vacuity: a document that is one only with its line end. -/
example : (∃ b, parseStr asciiClass ("a = <<E\nx\nE".toList ++ ['\n']) = .ok b) ∧
    (∀ b, parseStr asciiClass "a = <<E\nx\nE".toList ≠ .ok b) ∧
    parseStr asciiClass ("a = <<E\nx\nE".toList ++ '\n' :: "a = 1".toList) =
      .ok [.attribute (.borrowed ['a']) (.string (.borrowed ['x'])), .attribute (.borrowed ['a']) (.number ⟨.borrowed ['1'], true, some (.borrowed ['1']), none, none⟩)] := by
  refine ⟨⟨[.attribute (.borrowed ['a']) (.string (.borrowed ['x']))], by decide +kernel⟩, ?_, by decide +kernel⟩
  intro b h
  have : parseStr asciiClass "a = <<E\nx\nE".toList = .error .parse := by decide +kernel
  rw [this] at h; cases h

/-- C83: an ordinary parse error of `parse_str` is one of `config_file`, which says where it is. -/
theorem c83_error_iff (s : Str) : parseStr U s = .error .parse ↔ ∃ r, configFileError U s = some (.code r eofKind) := by
  simp only [configFileError_iff]
  rw [parseStr_body]
  cases h : body U s with
  | ok r b => cases r <;> simp
  | err => exact absurd h (body_not_err s)
  | _ => simp

/-- C83: the place of the error is where the complete elements end: what is before it is the longest beginning of the text
that consists of complete elements and layout. -/
theorem c83_error_position (s r : Str) (h : configFileError U s = some (.code r eofKind)) :
    r ≠ [] ∧ ∃ p, s = p ++ r ∧ LongestLines U p s := by
  obtain ⟨hr, b, hb⟩ := configFileError_iff.1 h
  obtain ⟨⟨p, rfl, hp, hm⟩, -⟩ := body_stops hb hr
  refine ⟨hr, p, rfl, ⟨b, hp⟩, ⟨r, rfl⟩, ?_⟩
  rintro q ⟨x, hq⟩ ⟨c, hc⟩
  rcases Nat.le_total q.length p.length with hl | hl
  · exact hl
  · obtain ⟨y, rfl⟩ : p <+: q := List.prefix_of_prefix_length_le ⟨r, rfl⟩ ⟨x, hq⟩ hl
    have : r = y ++ x := by
      rw [List.append_assoc] at hq
      exact (List.append_cancel_left hq).symm
    rw [hm y x c this hc]
    simp

/-- C83: and what is before it is a document; what is behind it is refused at its very beginning. -/
theorem c83_error_splits (s r : Str) (h : configFileError U s = some (.code r eofKind)) :
    (∃ p b, s = p ++ r ∧ parseStr U p = .ok b) ∧ configFileError U r = some (.code r eofKind) := by
  obtain ⟨hr, b, hb⟩ := configFileError_iff.1 h
  obtain ⟨⟨p, rfl, hp, -⟩, h0⟩ := body_stops hb hr
  exact ⟨⟨p, b, rfl, (c15_every_layout_is_read U p b).2 (.lines _ _ hp)⟩, configFileError_iff.2 ⟨hr, [], h0⟩⟩

/-- C83: the place of the error does not depend on a document in front. -/
theorem c83_position_behind_document (s t : Str) (b : Body) (h : parseStr U s = .ok b) :
    configFileError U (s ++ '\n' :: t) = configFileError U t := by
  have hp := laidDocument_line ((c15_every_layout_is_read U s b).1 h)
  have e : s ++ '\n' :: t = (s ++ ['\n']) ++ t := by simp
  unfold configFileError
  rw [e, body_after hp]
  cases body U t with
  | ok r c => cases r <;> rfl
  | _ => rfl

/-- Non-vacuity of C83: the third element cannot be read. -/
example : parseStr asciiClass "a = 1\n# c\nb {}\n c = 1 + 2\nd = 4\n".toList = .error .parse ∧
    configFileError asciiClass "a = 1\n# c\nb {}\n c = 1 + 2\nd = 4\n".toList =
      some (.code "c = 1 + 2\nd = 4\n".toList eofKind) := by
  exact ⟨by decide +kernel, rfl⟩

/-- Non-vacuity of C83: an error inside a block is reported at the beginning of the block. -/
example : configFileError asciiClass "a = 1\nb {\n c = 1\n d = [1, ,]\n}\n".toList =
      some (.code "b {\n c = 1\n d = [1, ,]\n}\n".toList eofKind) := rfl

/-- Non-vacuity of C83: errors of other kinds and panics behind a document. -/
example : parseStr asciiClass "a = 1".toList = .ok [.attribute (.borrowed ['a']) (.number ⟨.borrowed ['1'], true, some (.borrowed ['1']), none, none⟩)] ∧
    parseStr asciiClass "b = \"\\ud800\"".toList = .error (.invalidUnicodeCodePoint "ud800\"".toList) ∧
    parseStr asciiClass "a = 1\nb = \"\\ud800\"".toList = .error (.invalidUnicodeCodePoint "ud800\"".toList) ∧
    parseStr asciiClass "a = 1\na = <<-E\nx\n  E\n".toList = .panic := by
  refine ⟨?_, ?_, ?_, ?_⟩ <;> decide +kernel

end Verif.Props
