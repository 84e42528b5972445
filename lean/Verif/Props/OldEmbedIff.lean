import Verif.Props.OldRefused
import Verif.Props.OldEdit
/-! # C81 and C83 for the legacy parser: exactly -/
set_option autoImplicit false

namespace Verif

section
open Spec PRes
variable {U : CharClass} {P : F64Parse}

theorem stringLabels_one {x y y' w w' : Str} {ls ls' : List Str} (h : IsStringLabels x ls y) (hy : SkipLayout y ('{' :: w))
    (h' : IsStringLabels x ls' y') (hy' : SkipLayout y' ('{' :: w')) : ls = ls' ∧ w = w' := by
  induction h generalizing ls' with
  | nil x =>
    cases h' with
    | nil => have := sl_funct hy hy'; injection this with _ this; exact ⟨rfl, this⟩
    | cons =>
      exfalso
      obtain ⟨src, rfl, -⟩ := ‹Quoted PlainLine _ _ _›
      have := sl_funct hy (layout_of_inline ‹SkipInline _ _› (skip_self (by decide)))
      cases this
  | cons x t u l ls r h1 h2 h3 ih =>
    cases h' with
    | nil =>
      exfalso
      obtain ⟨src, rfl, -⟩ := h2
      have := sl_funct hy' (layout_of_inline h1 (skip_self (by decide)))
      cases this
    | cons _ t' u' l' ls' _ k1 k2 k3 =>
      have := si_funct h1 k1
      subst this
      have a := stringLiteral_iff.2 h2
      rw [stringLiteral_iff.2 k2] at a
      injection a with a1 a2
      subst a1; subst a2
      obtain ⟨rfl, rfl⟩ := ih hy k3
      exact ⟨rfl, rfl⟩

/-- What may follow the last entry. -/
theorem entry_tail {w u v : Str} (h1 : SkipInline w u) (h2 : IsEntryEnd u v) (h3 : SkipLayout v []) :
    ∀ w' , w ≠ w' ++ ['}'] := by
  intro w' e
  obtain ⟨l1, hl1, rfl, -⟩ := h1
  obtain ⟨l2, hl2, hv, -⟩ := h3
  rw [List.append_nil] at hv; subst hv
  have key : ∀ l x : Str, Seq LayoutItem l → x ++ l = w' ++ ['}'] → l = [] := by
    intro l x hl e
    rcases List.eq_nil_or_concat l with rfl | ⟨l', c, rfl⟩
    · rfl
    · exfalso
      rw [List.concat_eq_append] at e hl
      rw [← List.append_assoc] at e
      have := List.append_inj_right' e rfl
      cases this
      exact seq_layout_last hl rfl
  cases h2 with
  | comma _ _ h =>
    obtain ⟨l3, hl3, rfl, -⟩ := h
    have h0 := key v (l1 ++ l3 ++ [',']) hl2 (by simpa using e)
    subst h0
    have e' : (l1 ++ l3) ++ [','] = w' ++ ['}'] := by simpa using e
    have := List.append_inj_right' e' rfl
    cases this
  | newline _ _ h =>
    obtain ⟨l3, hl3, rfl⟩ := newlines_layout h
    have h0 := key (l1 ++ (l3 ++ v)) [] ((seq_inline_layout hl1).append (hl3.append hl2)) e
    rw [h0] at e
    simp at e
  | eof =>
    have h0 := key (l1 ++ []) [] (by simpa using seq_inline_layout hl1) e
    rw [h0] at e
    simp at e

/-- entries between braces, on lines of their own, at the end of a document -/
theorem braces_entries {s w : Str} {es : List (Key × Value)} (h : IsEntries U P ('\n' :: s ++ ['\n', '}']) es ('}' :: w))
    (hw : ∀ w', w ≠ w' ++ ['}']) : OldDocument U P (s ++ ['\n']) es := by
  rcases isOld_laid.2.1 h with ⟨p, e, hp⟩ | ⟨h0, -⟩
  · have hw0 : w = [] := by
      rcases List.eq_nil_or_concat w with rfl | ⟨w', c, rfl⟩
      · rfl
      · exfalso
        rw [List.concat_eq_append] at e hw
        have e1 : ('\n' :: s ++ ['\n']) ++ ['}'] = (p ++ '}' :: w') ++ [c] := by simpa using e
        have e2 := List.append_inj_right' e1 rfl
        cases e2
        exact hw w' rfl
    subst hw0
    have e1 : ('\n' :: s ++ ['\n']) ++ ['}'] = p ++ ['}'] := by simpa using e
    have e2 : '\n' :: (s ++ ['\n']) = p := by simpa using List.append_inj_left' e1 rfl
    subst e2
    have h5 := laidOldDocument_document (.lines _ _ hp)
    have hnl : Seq LayoutItem ['\n'] := .single (.space _ (by simp))
    exact isEntries_unprepend (l := ['\n']) hnl h5
  · cases h0

theorem oldDocument_single {s t : Str} {k : Key} {e : Key × Value} (hk : IsKey U s k t) (h : OldDocument U P s [e]) :
    ∃ u v, IsEntry U P s e.1 e.2 u ∧ IsEntryEnd u v ∧ SkipLayout v [] := by
  have hs := isKey_skip hk
  unfold OldDocument at h
  cases h with
  | entry =>
    have e0 := sl_funct ‹SkipLayout s _› hs
    subst e0
    refine ⟨_, _, ‹_›, ‹_›, ?_⟩
    have h := ‹IsEntries U P _ [] []›
    cases h
    assumption

theorem document_lines {s : Str} {es : List (Key × Value)} (h : OldDocument U P (s ++ ['\n']) es) : LaidEntries U P es (s ++ ['\n']) :=
  laidOldDocument_of_lines (.inr ⟨s, rfl⟩) (oldDocument_laid h)

theorem brace_not_ident {l x : Str} (hl : AnyLayout l) : ¬ Head (IdentChar U) (l ++ '{' :: x) :=
  layout_head hl (fun _ h => layoutStart_not_identChar h) (by rw [head_cons]; exact not_identChar (by decide) (by decide))

end

namespace Props
open Spec

variable (U : CharClass) (P : F64Parse)

theorem legacy_doc (s : Str) (es : List (Key × Value)) : fromStr U P s none = .ok (.unmerged es) ↔ OldDocument U P s es := by
  rw [c21_from_str_accepts_exactly_the_grammar]
  constructor
  · rintro ⟨es', h, hd⟩; injection h with h; subst h; exact hd
  · intro h; exact ⟨es, rfl, h⟩

/-- C81: a text put on lines of its own between the braces of a block with labels is read as that one block exactly if the text,
with a line end, is a document, and it is then the content of the block. -/
theorem c81_legacy_block (i ps l s : Str) (ls : List Str) (hi : IsIdent U i) (hp : LaidOldLabels ls ps) (h0 : ls ≠ []) (hl : AnyLayout l)
    (e : Key × Value) : fromStr U P (i ++ ps ++ l ++ '{' :: '\n' :: s ++ ['\n', '}']) none = .ok (.unmerged [e]) ↔
      ∃ es, e = (.identifier (.borrowed i), .block (.unmerged [(ls, .unmerged es)])) ∧
        fromStr U P (s ++ ['\n']) none = .ok (.unmerged es) := by
  simp only [legacy_doc]
  constructor
  · intro h
    have e0 : i ++ ps ++ l ++ '{' :: '\n' :: s ++ ['\n', '}'] = i ++ (ps ++ (l ++ '{' :: ('\n' :: s ++ ['\n', '}']))) := by simp
    rw [e0] at h
    obtain ⟨g1, g2⟩ := laidOldLabels_of (U := U) hp (l ++ '{' :: ('\n' :: s ++ ['\n', '}']))
    have hid : Ident U (i ++ (ps ++ (l ++ '{' :: ('\n' :: s ++ ['\n', '}'])))) i (ps ++ (l ++ '{' :: ('\n' :: s ++ ['\n', '}']))) :=
      ⟨rfl, hi, g2 (brace_not_ident hl)⟩
    have hk := IsKey.ident _ _ _ hid
    have hb : SkipLayout (l ++ '{' :: ('\n' :: s ++ ['\n', '}'])) ('{' :: ('\n' :: s ++ ['\n', '}'])) :=
      skip_append hl (not_starts_layout (by decide))
    obtain ⟨u, v, h1, h2, h3⟩ := oldDocument_single hk h
    obtain ⟨k, x⟩ := e
    generalize hz : i ++ (ps ++ (l ++ '{' :: ('\n' :: s ++ ['\n', '}']))) = z at h1 hk hid
    obtain ⟨t0, ht0⟩ := stringLabels_first g1 h0
    cases h1 with
    | «attribute» _ _ _ _ _ _ _ _ k1 k2 =>
      exfalso
      obtain ⟨-, rfl⟩ := isKey_functional hk k1
      have := si_funct ht0 k2
      cases this
    | map _ _ _ _ _ _ _ k1 k2 =>
      exfalso
      obtain ⟨-, rfl⟩ := ident_functional hid k1
      have := sl_funct k2 (layout_of_inline ht0 (skip_self (by decide)))
      cases this
    | block _ _ _ _ _ _ _ _ es k1 k2 k3 k4 k5 k6 =>
      obtain ⟨rfl, rfl⟩ := ident_functional hid k1
      obtain ⟨rfl, rfl⟩ := stringLabels_one g1 hb k2 k4
      exact ⟨es, rfl, braces_entries k5 (entry_tail k6 h2 h3)⟩
  · rintro ⟨es, rfl, h⟩
    rw [← legacy_doc, c71_every_layout_is_read]
    have h1 : LaidEntries U P es ('\n' :: (s ++ ['\n'])) :=
      laidEntries_layout (l := ['\n']) (.single (.space _ (by simp))) (document_lines h)
    have := LaidOldDocument.last [] [] _ _ _ (.done _ .nil) (LaidEntry.block i ps l _ [] ls es hi hp h0 hl h1 .nil)
    simpa using this

/-- C81: the same for a block without labels. -/
theorem c81_legacy_map (i l s : Str) (hi : IsIdent U i) (hl : AnyLayout l) (e : Key × Value) :
    fromStr U P (i ++ l ++ '{' :: '\n' :: s ++ ['\n', '}']) none = .ok (.unmerged [e]) ↔
      ∃ es, e = (.identifier (.borrowed i), .object [.unmerged es]) ∧ fromStr U P (s ++ ['\n']) none = .ok (.unmerged es) := by
  simp only [legacy_doc]
  constructor
  · intro h
    have e0 : i ++ l ++ '{' :: '\n' :: s ++ ['\n', '}'] = i ++ (l ++ '{' :: ('\n' :: s ++ ['\n', '}'])) := by simp
    rw [e0] at h
    have hid : Ident U (i ++ (l ++ '{' :: ('\n' :: s ++ ['\n', '}']))) i (l ++ '{' :: ('\n' :: s ++ ['\n', '}'])) :=
      ⟨rfl, hi, brace_not_ident hl⟩
    have hk := IsKey.ident _ _ _ hid
    have hb : SkipLayout (l ++ '{' :: ('\n' :: s ++ ['\n', '}'])) ('{' :: ('\n' :: s ++ ['\n', '}'])) :=
      skip_append hl (not_starts_layout (by decide))
    obtain ⟨u, v, h1, h2, h3⟩ := oldDocument_single hk h
    obtain ⟨k, x⟩ := e
    generalize hz : i ++ (l ++ '{' :: ('\n' :: s ++ ['\n', '}'])) = z at h1 hk hid
    cases h1 with
    | «attribute» _ _ _ _ _ _ _ _ k1 k2 =>
      exfalso
      obtain ⟨-, rfl⟩ := isKey_functional hk k1
      have := sl_funct hb (layout_of_inline k2 (skip_self (by decide)))
      cases this
    | map _ _ _ _ _ _ es k1 k2 k3 k4 =>
      obtain ⟨rfl, rfl⟩ := ident_functional hid k1
      have := sl_funct hb k2
      injection this with _ this
      subst this
      exact ⟨es, rfl, braces_entries k3 (entry_tail k4 h2 h3)⟩
    | block _ _ _ _ _ _ _ _ es k1 k2 k3 k4 k5 k6 =>
      exfalso
      obtain ⟨rfl, rfl⟩ := ident_functional hid k1
      obtain ⟨rfl, -⟩ := stringLabels_one (.nil _) hb k2 k4
      exact k3 rfl
  · rintro ⟨es, rfl, h⟩
    rw [← legacy_doc, c71_every_layout_is_read]
    have h1 : LaidEntries U P es ('\n' :: (s ++ ['\n'])) :=
      laidEntries_layout (l := ['\n']) (.single (.space _ (by simp))) (document_lines h)
    have := LaidOldDocument.last [] [] _ _ _ (.done _ .nil) (LaidEntry.map i l _ [] es hi hl h1 .nil)
    simpa using this

/-- C81: and for an object behind `=`. -/
theorem c81_legacy_object (k : Key) (ks l m s : Str) (hk : LaidOldKey U k ks) (hl : AnyInline l) (hm : AnyInline m) (e : Key × Value) :
    fromStr U P (ks ++ l ++ '=' :: m ++ '{' :: '\n' :: s ++ ['\n', '}']) none = .ok (.unmerged [e]) ↔
      ∃ es, e = (k, .object [.unmerged es]) ∧ fromStr U P (s ++ ['\n']) none = .ok (.unmerged es) := by
  simp only [legacy_doc]
  constructor
  · intro h
    have e0 : ks ++ l ++ '=' :: m ++ '{' :: '\n' :: s ++ ['\n', '}'] = ks ++ (l ++ '=' :: (m ++ '{' :: ('\n' :: s ++ ['\n', '}']))) := by
      simp
    rw [e0] at h
    have hkk := laidKey_inline (x := m ++ '{' :: ('\n' :: s ++ ['\n', '}'])) hk hl
    obtain ⟨u, v, h1, h2, h3⟩ := oldDocument_single hkk h
    obtain ⟨y, w, g1, g2, g3⟩ := entry_attribute hkk hl h1
    have hk1 : e.1 = k := by
      obtain ⟨t, ht⟩ := isEntry_key h1
      exact (isKey_functional ht hkk).1
    have := si_funct g1 (skip_append hm (not_starts_inline (not_starts_layout (by decide))))
    subst this
    obtain ⟨es, g4, hv⟩ := value_brace_inv g2
    refine ⟨es, ?_, braces_entries g4 (entry_tail g3 h2 h3)⟩
    obtain ⟨k', x⟩ := e
    cases hk1; cases hv; rfl
  · rintro ⟨es, rfl, h⟩
    rw [← legacy_doc, c71_every_layout_is_read]
    have h1 : LaidEntries U P es ('\n' :: (s ++ ['\n'])) :=
      laidEntries_layout (l := ['\n']) (.single (.space _ (by simp))) (document_lines h)
    have := LaidOldDocument.last [] [] _ _ _ (.done _ .nil) (LaidEntry.attribute ks l m _ [] none k _ hk hl hm (.map [] es _ .nil h1) .nil (fun h => absurd rfl h))
    simpa using this

/-- C83: a document that ends in a line end, in front of any text (that does not begin with a comma). -/
theorem c83_legacy_lines_in_front (s t : Str) (es : List (Key × Value)) (h : fromStr U P (s ++ ['\n']) none = .ok (.unmerged es))
    (ht : ¬ StartsWithComma t) : fromStr U P (s ++ '\n' :: t) none = withEntries es (fromStr U P t none) := by
  have hp := document_lines ((legacy_doc U P _ es).1 h)
  have e : s ++ '\n' :: t = (s ++ ['\n']) ++ t := by simp
  rw [e, fromStr_none, (mapValues_after hp t (noComma_of ht)).1, fromStr_none]
  cases mapValues U P t with
  | ok r m => cases r <;> cases m <;> rfl
  | _ => rfl

/-- C83: the place of a legacy error does not depend on a document in front. -/
theorem c83_legacy_position_behind_document (s t : Str) (es : List (Key × Value))
    (h : fromStr U P (s ++ ['\n']) none = .ok (.unmerged es)) (ht : ¬ StartsWithComma t) :
    fromStrError U P (s ++ '\n' :: t) = fromStrError U P t := by
  have hp := document_lines ((legacy_doc U P _ es).1 h)
  have e : s ++ '\n' :: t = (s ++ ['\n']) ++ t := by simp
  unfold fromStrError
  rw [e, (mapValues_after hp t (noComma_of ht)).1]
  cases mapValues U P t with
  | ok r m => cases r <;> cases m <;> rfl
  | _ => rfl

/-- Non-vacuity: a block, a block with a label and an object around `x = 1`, and nothing else than documents can stand in them; a
document in front of a text that is refused. -/
example : (∃ es, fromStr asciiClass zeroFloats "x = 1\n".toList none = .ok (.unmerged es) ∧ es ≠ []) ∧
    (∃ e, fromStr asciiClass zeroFloats "a {\nx = 1\n}".toList none = .ok (.unmerged [e])) ∧
    (∃ e, fromStr asciiClass zeroFloats "a \"b\" {\nx = 1\n}".toList none = .ok (.unmerged [e])) ∧
    (∃ e, fromStr asciiClass zeroFloats "a = {\nx = 1\n}".toList none = .ok (.unmerged [e])) ∧
    (∀ e, fromStr asciiClass zeroFloats "a {\nx = 1, }\n}".toList none ≠ .ok (.unmerged [e])) ∧
    fromStrError asciiClass zeroFloats "x = 1\ny = 1 + 2\n".toList = fromStrError asciiClass zeroFloats "y = 1 + 2\n".toList := by
  have ha : IsIdent asciiClass ['a'] := .mk 'a' [] (.inl (by decide)) (by simp)
  have spl : AnyLayout [' '] := .cons [' '] [] (.space _ (.inl rfl)) .nil
  have h1 : fromStr asciiClass zeroFloats "x = 1\n".toList none = .ok (.unmerged [(.identifier (.borrowed ['x']), .integer 1)]) := by
    decide +kernel
  refine ⟨⟨_, h1, by simp⟩,
    ⟨(.identifier (.borrowed ['a']), .object [.unmerged [(.identifier (.borrowed ['x']), .integer 1)]]), by decide +kernel⟩,
    ⟨(.identifier (.borrowed ['a']), .block (.unmerged [([['b']], .unmerged [(.identifier (.borrowed ['x']), .integer 1)])])),
      by decide +kernel⟩,
    ⟨(.identifier (.borrowed ['a']), .object [.unmerged [(.identifier (.borrowed ['x']), .integer 1)]]), by decide +kernel⟩, ?_, ?_⟩
  · intro e h
    have e0 : "a {\nx = 1, }\n}".toList = ['a'] ++ [' '] ++ '{' :: '\n' :: "x = 1, }".toList ++ ['\n', '}'] := by decide +kernel
    rw [e0, c81_legacy_map asciiClass zeroFloats ['a'] [' '] _ ha spl e] at h
    obtain ⟨es, -, h⟩ := h
    have h2 : fromStr asciiClass zeroFloats ("x = 1, }".toList ++ ['\n']) none = .error .parse := by decide +kernel
    rw [h2] at h
    cases h
  · have e0 : "x = 1\ny = 1 + 2\n".toList = "x = 1".toList ++ '\n' :: "y = 1 + 2\n".toList := by decide +kernel
    have e1 : "x = 1\n".toList = "x = 1".toList ++ ['\n'] := by decide +kernel
    rw [e1] at h1
    rw [e0]
    refine c83_legacy_position_behind_document asciiClass zeroFloats _ _ _ h1 ?_
    rintro ⟨u, l, -, h⟩
    have h3 : ¬ ',' ∈ "y = 1 + 2\n".toList := by decide +kernel
    rw [h] at h3
    simp at h3

end Props
end Verif
