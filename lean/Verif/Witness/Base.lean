import Verif.Props.Laid
import Verif.Props.Print
import Verif.Props.Heredoc
import Verif.Props.Literals
/-! # Concrete cases that meet the hypotheses of the theorems

The modules in this directory apply the theorems of `Verif/Props` that have hypotheses to concrete, non-trivial arguments and prove the
hypotheses for them: what is applied is the theorem itself, so none of them is vacuous. -/
set_option autoImplicit false

namespace Verif.Witness
open Verif Spec Verif.Props

/-- `a` is an identifier -/
theorem idA : IsIdent asciiClass ['a'] := .mk 'a' [] (.inl (by decide)) (by simp)

/-- `b` is an identifier -/
theorem idB : IsIdent asciiClass ['b'] := .mk 'b' [] (.inl (by decide)) (by simp)

/-- a blank -/
theorem blank : AnyInline [' '] := .cons [' '] [] (.blank _ (.inl rfl)) .nil

/-- a blank as layout -/
theorem blankL : AnyLayout [' '] := .cons [' '] [] (.space _ (.inl rfl)) .nil

/-- a line end -/
theorem lineEnd : AnyLayout ['\n'] := .cons ['\n'] [] (.space _ (by decide)) .nil

/-- a comment and a tab -/
theorem comment : AnyInline "/*x*/\t".toList :=
  .cons "/*x*/".toList "\t".toList (.comment _ (.mk ['x'] (by decide))) (.cons ['\t'] [] (.blank _ (.inr rfl)) .nil)

/-- a comment on a line of its own -/
theorem commentLine : AnyLayout "# c\n".toList := .cons "# c\n".toList [] (.line _ (.hash [' ', 'c'] ['\n'] (by decide) .lf)) .nil

/-- a text and its elements, for use as context -/
abbrev pre : Str := "p = null".toList

/-- its elements -/
abbrev preTree : Body := [.attribute (.borrowed ['p']) .null]

/-- `pre` is read -/
theorem pre_ok : parseStr asciiClass pre = .ok preTree := by decide +kernel

/-- the number `1` -/
abbrev one : Number := ⟨.borrowed ['1'], true, some (.borrowed ['1']), none, none⟩

/-- the number `-1.5e3` -/
abbrev negFloat : Number := ⟨.borrowed "-1.5e3".toList, false, some (.borrowed ['1']), some (.borrowed ['5']), some ⟨true, .borrowed ['3']⟩⟩

/-- `1` is a number -/
theorem isOne : IsNumber ['1'] one := by
  obtain ⟨t, e, h⟩ := number_sound (show number ['1'] = .ok [] one by decide +kernel)
  simp at e; subst e; exact h

/-- `-1.5e3` is a number -/
theorem isNegFloat : IsNumber "-1.5e3".toList negFloat := by
  obtain ⟨t, e, h⟩ := number_sound (show number "-1.5e3".toList = .ok [] negFloat by decide +kernel)
  rw [List.append_nil] at e; subst e; exact h

/-- a text that does not end in a character -/
theorem not_ends {s : Str} {c : Char} (h : s.getLast? ≠ some c) (x : Str) : s ≠ x ++ [c] := by
  rintro rfl; simp at h

/-- lines -/
theorem lines_cons {s t l : Str} {ls : List Str} (e : s = l ++ '\n' :: t) (h : '\n' ∉ l) (ht : Lines t ls) : Lines s (l :: ls) := by
  subst e; exact .cons _ _ _ h ht

end Verif.Witness
