import Verif.Spec.Truncate
import Verif.Proofs.OldTruncate
import Verif.Proofs.NumberEnd
import Verif.Props.Sources
import Verif.Props.OldEmbedIff
/-! # C92: documents that were cut off -/
set_option autoImplicit false

namespace Verif.Props
open Verif Spec PRes

variable (U : CharClass) (P : F64Parse)

/-- C92: if a document was cut off and what is left can still be read, then what is read are the first elements of the
document, complete; only a number at the very end may be shorter. -/
theorem c92_cut_off (p r : Str) (b' b : Body) (h' : parseStr U p = .ok b') (h : parseStr U (p ++ r) = .ok b) :
    CutOff p r b' b := by
  rw [parseStr_iff] at h h'
  cases document_laid h' with
  | lines _ _ hl =>
    obtain ⟨c, rfl, -⟩ := laidBody_rest hl r b [] (.inl rfl) h
    exact .between _ _
  | last f s el t hl he =>
    unfold Document at h
    rw [List.append_assoc] at h
    obtain ⟨c, rfl, hc⟩ := laidBody_rest hl _ b [] (.inl rfl) h
    rcases laidElement_cut he hc with ⟨c', rfl⟩ | ⟨k, n, n', a, q, c', rfl, rfl, h1, h2, h3, h4, h5⟩
    · have := CutOff.between (p := s ++ t) (r := r) (f ++ [el]) c'
      simpa using this
    · exact .number _ _ _ _ _ ⟨a, q, h5.trans (List.suffix_append s t), h4, h3, h1, h2⟩

/-- C92: the same for `from_str` of the legacy parser. -/
theorem c92_legacy_cut_off (p r : Str) (es' es : List (Key × Value)) (h' : fromStr U P p none = .ok (.unmerged es'))
    (h : fromStr U P (p ++ r) none = .ok (.unmerged es)) : CutEntries P p r es' es := by
  rw [legacy_doc] at h h'
  cases oldDocument_laid h' with
  | lines _ _ hl =>
    obtain ⟨c, rfl, -⟩ := laidEntries_rest hl r es h
    exact .between _ _
  | last f s k v t hl he =>
    unfold OldDocument at h
    rw [List.append_assoc] at h
    obtain ⟨c, rfl, hc⟩ := laidEntries_rest hl _ es h
    have hc : IsEntries U P (t ++ r) c [] := by
      rcases hc with hc | ⟨y, hy, -⟩
      · exact hc
      · exfalso
        have hkey : Head (fun c => IdentStart U c ∨ c = '"') (t ++ r) := by
          have := laidOld_is.2.2 he [] [] (.refl (not_starts_inline not_starts_nil)) (.none _) Head.not_nil
          rw [List.append_nil] at this
          obtain ⟨_, hk⟩ := isEntry_key this
          obtain ⟨c, u, rfl, hc⟩ := isKey_head hk
          exact ⟨c, u ++ r, rfl, hc⟩
        obtain ⟨c, u, e, hc⟩ := hkey
        rw [e] at hy
        have hl : ¬ LayoutStart c := by
          rcases hc with hc | rfl
          · exact identStart_not_layout hc
          · decide
        have := hy.functional layoutItem_prefix (skip_self hl)
        injection this with this _
        subst this
        rcases hc with hc | hc
        · exact not_identStart (by decide) (by decide) hc
        · revert hc; decide
    rcases laidEntry_cut he hc with ⟨c', rfl⟩ | ⟨a, q, n', n, v', c', rfl, h1, h2, h3, h4, h5, h6, h7⟩
    · have := CutEntries.between (P := P) (p := s ++ t) (r := r) (f ++ [(k, v)]) c'
      simpa using this
    · exact .number _ _ _ _ _ a q n' n (h1.trans (List.suffix_append s t)) h2 h3 h4 h5 h6 h7

/-- A number that was cut goes on with a digit, `.`, `e` or `E`, and what is left of it ends in no blank or line end. -/
theorem cutNumber_at {p r : Str} {n' n : Number} (h : CutNumber p r n' n) :
    Head NumberGoesOn r ∧ ∃ p0 c, p = p0 ++ [c] ∧ NumChar c := by
  obtain ⟨t, q, ⟨p1, rfl⟩, ⟨r1, rfl⟩, hq, h1, h2⟩ := h
  constructor
  · apply Classical.byContradiction
    intro hn
    exact notLonger_of hn n' h1 q ⟨r1, rfl⟩ hq n h2
  · have hne := isNumber_ne_nil h1
    refine ⟨p1 ++ t.dropLast, t.getLast hne, ?_, isNumber_chars h1 _ (List.getLast_mem hne)⟩
    rw [List.append_assoc, List.dropLast_concat_getLast hne]

/-- C92: if the rest does not begin with a digit, `.`, `e` or `E`, or what is left ends in a character that is not one of a
number (say a line end), then exactly the first elements of the document are read. -/
theorem c92_between_tokens (p r : Str) (b' b : Body) (h' : parseStr U p = .ok b') (h : parseStr U (p ++ r) = .ok b)
    (hcut : ¬ Head NumberGoesOn r ∨ ∃ p0 c, p = p0 ++ [c] ∧ ¬ NumChar c) : b' <+: b := by
  cases c92_cut_off U p r b' b h' h with
  | between _ rest => exact ⟨rest, rfl⟩
  | number f rest k n' n hn =>
    exfalso
    obtain ⟨h1, p0, c, e, hc⟩ := cutNumber_at hn
    rcases hcut with h2 | ⟨p1, d, e1, hd⟩
    · exact h2 h1
    · rw [e1] at e
      obtain ⟨-, e⟩ := List.append_inj' e rfl
      injection e with e
      subst e; exact hd hc

/-- C92: a document whose last element is not an attribute with a number (a block, say) is either read completely or it
can be seen that something is missing: fewer elements are read. -/
theorem c92_complete_iff (p r : Str) (b' b : Body) (h' : parseStr U p = .ok b') (h : parseStr U (p ++ r) = .ok b)
    (hlast : ∀ f k n, b ≠ f ++ [.attribute k (.number n)]) : b' = b ∨ b'.length < b.length := by
  cases c92_cut_off U p r b' b h' h with
  | between _ rest =>
    cases rest with
    | nil => left; simp
    | cons e rest => right; simp
  | number f rest k n' n hn =>
    cases rest with
    | nil => exact absurd rfl (hlast f k n)
    | cons e rest => right; simp

/-- C92: nothing is ever read from a part of an element: all elements but the last are elements of the document. -/
theorem c92_all_but_last (p r : Str) (b' b : Body) (el : BodyElement) (h' : parseStr U p = .ok (b' ++ [el]))
    (h : parseStr U (p ++ r) = .ok b) : b' <+: b := by
  generalize hz : b' ++ [el] = z at h'
  cases c92_cut_off U p r z b h' h with
  | between _ rest => subst hz; exact ⟨el :: rest, by simp⟩
  | number f rest k n' n hn =>
    obtain ⟨rfl, -⟩ := List.append_inj' hz rfl
    exact ⟨_, rfl⟩

/-- C92: the same for legacy entries. -/
theorem c92_legacy_between_tokens (p r : Str) (es' es : List (Key × Value)) (h' : fromStr U P p none = .ok (.unmerged es'))
    (h : fromStr U P (p ++ r) none = .ok (.unmerged es))
    (hcut : ¬ Head NumberGoesOn r ∨ ∃ p0 c, p = p0 ++ [c] ∧ ¬ NumChar c) : es' <+: es := by
  cases c92_legacy_cut_off U P p r es' es h' h with
  | between _ rest => exact ⟨rest, rfl⟩
  | number f rest k v' v t q n' n h1 h2 h3 h4 h5 =>
    exfalso
    obtain ⟨h1, p0, c, e, hc⟩ := cutNumber_at ⟨t, q, h1, h2, h3, h4, h5⟩
    rcases hcut with h2 | ⟨p1, d, e1, hd⟩
    · exact h2 h1
    · rw [e1] at e
      obtain ⟨-, e⟩ := List.append_inj' e rfl
      injection e with e
      subst e; exact hd hc

/-- C92: legacy: a document whose last entry is not a number is either read completely or fewer entries are read. -/
theorem c92_legacy_complete_iff (p r : Str) (es' es : List (Key × Value)) (h' : fromStr U P p none = .ok (.unmerged es'))
    (h : fromStr U P (p ++ r) none = .ok (.unmerged es))
    (hlast : ∀ f k, (∀ n, es ≠ f ++ [(k, .integer n)]) ∧ ∀ x, es ≠ f ++ [(k, .float x)]) : es' = es ∨ es'.length < es.length := by
  cases c92_legacy_cut_off U P p r es' es h' h with
  | between _ rest =>
    cases rest with
    | nil => left; simp
    | cons e rest => right; simp
  | number f rest k v' v t q n' n h1 h2 h3 h4 h5 h6 h7 =>
    cases rest with
    | nil =>
      exfalso
      cases h7 with
      | integer => exact (hlast f k).1 _ rfl
      | float => exact (hlast f k).2 _ rfl
    | cons e rest => right; simp

/-- C92: legacy: all entries but the last are entries of the document. -/
theorem c92_legacy_all_but_last (p r : Str) (es' es : List (Key × Value)) (x : Key × Value)
    (h' : fromStr U P p none = .ok (.unmerged (es' ++ [x]))) (h : fromStr U P (p ++ r) none = .ok (.unmerged es)) : es' <+: es := by
  generalize hz : es' ++ [x] = z at h'
  cases c92_legacy_cut_off U P p r z es h' h with
  | between _ rest => subst hz; exact ⟨x :: rest, by simp⟩
  | number f rest k v' v =>
    obtain ⟨rfl, -⟩ := List.append_inj' hz rfl
    exact ⟨_, rfl⟩

theorem utf8_append (s t : Str) : utf8 (s ++ t) = utf8 s ++ utf8 t := by simp [utf8]

theorem utf8_cut {p s : Str} {y : List Nat} (h : utf8 p ++ y = utf8 s) : ∃ r, s = p ++ r ∧ y = utf8 r := by
  have key : ∀ p : Str, fromUtf8 (utf8 p ++ y) = (fromUtf8 y).map (p ++ ·) := by
    intro p
    induction p with
    | nil => simp [utf8]
    | cons c p ih =>
      have e : utf8 (c :: p) ++ y = utf8Nat c.toNat ++ (utf8 p ++ y) := by simp [utf8]
      rw [e, fromUtf8_cons (char_toNat_valid c), ih, ofNat_toNat]
      cases fromUtf8 y <;> rfl
  have h1 := fromUtf8_utf8 s
  rw [← h, key p] at h1
  cases hy : fromUtf8 y with
  | none => rw [hy] at h1; cases h1
  | some r =>
    rw [hy] at h1
    injection h1 with h1
    exact ⟨r, h1.symm, fromUtf8_iff.1 hy⟩

/-- C92: the same for the bytes of a document, cut anywhere (also within a character: then nothing can be read). -/
theorem c92_bytes_cut_off (x y : List Nat) (b' b : Body) (h' : parseSlice U x = .ok b') (h : parseSlice U (x ++ y) = .ok b) :
    ∃ p r, x = utf8 p ∧ y = utf8 r ∧ CutOff p r b' b := by
  obtain ⟨p, rfl, h1⟩ := (c18_parse_slice U x b').1 h'
  obtain ⟨s, e, h2⟩ := (c18_parse_slice U _ b).1 h
  obtain ⟨r, rfl, rfl⟩ := utf8_cut e
  exact ⟨p, r, rfl, rfl, c92_cut_off U p r b' b h1 h2⟩

/-- C92: and for readers, where the stream ends too early: in whatever chunks the bytes come. -/
theorem c92_reader_cut_off (ev' ev : List ReadEvent) (x y : List Nat) (hx : Delivers ev' (some x)) (hy : Delivers ev (some (x ++ y)))
    (b' b : Body) (h' : parseReader U ev' = .ok b') (h : parseReader U ev = .ok b) :
    ∃ p r c' c, x = utf8 p ∧ y = utf8 r ∧ b' = c'.asOwned ∧ b = c.asOwned ∧ CutOff p r c' c := by
  obtain ⟨p, c', d1, h1, rfl⟩ := (c18_parse_reader U ev' b').1 h'
  obtain ⟨s, c, d2, h2, rfl⟩ := (c18_parse_reader U ev b).1 h
  rw [delivers_iff] at hx hy d1 d2
  rw [hx] at d1; rw [hy] at d2
  injection d1 with d1; injection d2 with d2
  subst d1
  obtain ⟨r, rfl, rfl⟩ := utf8_cut d2
  exact ⟨p, r, c', c, rfl, rfl, rfl, rfl, c92_cut_off U p r c' c h1 h2⟩

/-- Non-vacuity of C92: a document cut at every place. Only after the first element, after the second, and in its number can
it still be read (the cut number is `1` or `12`). -/
example : ((List.range 20).filter fun i => match parseStr asciiClass ("b {\n}\nn = 123\ns = 5".toList.take i) with
    | .ok _ => true
    | _ => false) = [0, 5, 6, 11, 12, 13, 14, 19] ∧
    parseStr asciiClass "b {\n}\nn = 12".toList = .ok [.block (.borrowed ['b']) [] [], .attribute (.borrowed ['n'])
      (.number ⟨.borrowed ['1', '2'], true, some (.borrowed ['1', '2']), none, none⟩)] := by decide +kernel

/-- A number that was cut. -/
example : CutNumber "a = 1".toList "5\nb = 2\n".toList ⟨.borrowed ['1'], true, some (.borrowed ['1']), none, none⟩
    ⟨.borrowed ['1', '5'], true, some (.borrowed ['1', '5']), none, none⟩ :=
  ⟨['1'], ['5'], ⟨"a = ".toList, by decide⟩, ⟨"\nb = 2\n".toList, by decide⟩, by decide,
    .mk [] ['1'] [] true (some ['1']) none none .none (.int _ (by unfold Digits; decide)) .none,
    .mk [] ['1', '5'] [] true (some ['1', '5']) none none .none (.int _ (by unfold Digits; decide)) .none⟩

/-- The hypotheses of C92 met: cut behind a line end, so just the first element is read. -/
example : let one : BodyElement := .attribute (.borrowed ['a']) (.number ⟨.borrowed ['1'], true, some (.borrowed ['1']), none, none⟩)
    [one] <+: [one, .block (.borrowed ['b']) [] []] :=
  c92_between_tokens asciiClass "a = 1\n".toList "b {}\n".toList _ _ (by decide +kernel) (by decide +kernel)
    (.inr ⟨"a = 1".toList, '\n', by decide, by simp [NumChar, IsDig]⟩)

/-- Bytes cut within a character. -/
example : parseSlice asciiClass [97, 61, 34, 0xC3, 0xB6, 34] = .ok [.attribute (.borrowed ['a']) (.string (.ownedS ['ö']))] ∧
    parseSlice asciiClass [97, 61, 34, 0xC3] = .error .utf8 := by decide +kernel

end Verif.Props
