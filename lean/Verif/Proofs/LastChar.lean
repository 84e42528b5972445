import Verif.Proofs.ErrorAt
import Verif.Proofs.Replace
/-! # The last character of an element that needs no line end is not a line end -/
set_option autoImplicit false

namespace Verif
open Spec

/-- The text is not empty and does not end in LF. -/
def NoNl (s : Str) : Prop := ∃ p c, s = p ++ [c] ∧ c ≠ '\n'

theorem NoNl.front {s : Str} (h : NoNl s) (p : Str) : NoNl (p ++ s) := by
  obtain ⟨q, c, rfl, hc⟩ := h
  exact ⟨p ++ q, c, by simp, hc⟩

theorem NoNl.one {c : Char} (h : c ≠ '\n') : NoNl [c] := ⟨[], c, rfl, h⟩

theorem NoNl.end {c : Char} (p : Str) (h : c ≠ '\n') : NoNl (p ++ [c]) := ⟨p, c, rfl, h⟩

theorem NoNl.not {s p : Str} (h : NoNl s) : s ≠ p ++ ['\n'] := by
  rintro rfl
  obtain ⟨q, c, e, hc⟩ := h
  have := List.append_inj_right' e rfl
  injection this with this _
  exact hc this.symm

theorem anyInline_noNl {l : Str} (h : AnyInline l) : l = [] ∨ NoNl l := by
  induction h with
  | nil => exact .inl rfl
  | cons i s hi _ ih =>
    right
    rcases ih with rfl | ih
    · rw [List.append_nil]
      cases hi with
      | blank c hc => exact .one (by rcases hc with rfl | rfl <;> decide)
      | comment _ hc =>
        cases hc with
        | mk b _ => exact ⟨'/' :: '*' :: b ++ ['*'], '/', by simp, by decide⟩
    · exact ih.front i

section
variable {U : CharClass}

theorem laidTupleEnd_noNl {s : Str} (h : LaidTupleEnd s) : NoNl s := by
  cases h with
  | close l _ => exact .end l (by decide)
  | comma l m _ _ => exact .end _ (by decide)

theorem laidTail_noNl : ∀ {es : List Expr} {s : Str}, LaidTail U es s → NoNl s
  | _, _, .last _ h => laidTupleEnd_noNl h
  | _, _, .more _ _ _ _ _ _ _ _ _ _ h _ => (laidTail_noNl h).front _

theorem laidObject_noNl : ∀ {es : List (ObjKey × Expr)} {s : Str}, LaidObject U es s → NoNl s
  | _, _, .close _ _ => .end _ (by decide)
  | _, _, .comma p l _ _ _ _ _ _ h => by
    have := (laidObject_noNl h).front (p ++ l ++ [','])
    simpa using this
  | _, _, .newline _ _ _ _ _ _ _ _ _ _ _ _ h => (laidObject_noNl h).front _
  | _, _, .last _ _ _ _ _ _ => .end _ (by decide)

theorem laidExpr_noNl {e : Expr} {s : Str} (h : LaidExpr U none e s) : NoNl s := by
  cases h with
  | null => exact ⟨['n', 'u', 'l'], 'l', rfl, by decide⟩
  | «true» => exact ⟨['t', 'r', 'u'], 'e', rfl, by decide⟩
  | «false» => exact ⟨['f', 'a', 'l', 's'], 'e', rfl, by decide⟩
  | number _ n h =>
    rcases List.eq_nil_or_concat s with rfl | ⟨p, c, rfl⟩
    · exact absurd rfl (isNumber_ne_nil h)
    · refine ⟨p, c, List.concat_eq_append, ?_⟩
      rintro rfl
      exact isNumber_no_nl (d := '\n') (by decide) h (by simp)
  | quoted src v _ => exact .end _ (by decide)
  | tuple es s h =>
    cases h with
    | empty _ h => exact (laidTupleEnd_noNl h).front ['[']
    | elems l t s _ _ _ _ _ h _ => exact (laidTail_noNl h).front ('[' :: (l ++ t))
  | object l es s _ h =>
    have := (laidObject_noNl h).front (l ++ ['{'])
    simpa using this
  | bracket => exact .end _ (by decide)

theorem noNl_inline {s l : Str} (h : NoNl s) (hl : AnyInline l) : NoNl (s ++ l) := by
  rcases anyInline_noNl hl with rfl | hl
  · simpa using h
  · exact hl.front _

theorem laidElement_noNl {el : BodyElement} {s : Str} (h : LaidElement U none el s) : NoNl s := by
  cases h with
  | «attribute» _ k e _ h =>
    cases h with
    | mk i l m t n _ _ _ _ _ he hn _ => exact noNl_inline ((laidExpr_noNl he).front _) hn
  | emptyBlock i ls s l m _ _ hm =>
    have := noNl_inline (NoNl.end (c := '}') (s ++ l) (by decide)) hm
    simpa using this
  | oneLineBlock i ls s l a m k e _ _ _ hm =>
    have := noNl_inline (NoNl.end (c := '}') (s ++ l ++ a) (by decide)) hm
    simpa using this
  | block i ls s l n t m b _ _ _ _ hm =>
    have := noNl_inline (NoNl.end (c := '}') (s ++ l ++ n ++ t) (by decide)) hm
    simpa using this

/-- A document that ends in a line end consists of complete lines. -/
theorem laidDocument_lines {b : Body} {p : Str} (h : LaidDocument U b (p ++ ['\n'])) : LaidBody U b (p ++ ['\n']) := by
  generalize hz : p ++ ['\n'] = z at h
  cases h with
  | lines _ _ h => exact h
  | last b s el t _ he => exact absurd hz.symm ((laidElement_noNl he).front s).not

end
end Verif
