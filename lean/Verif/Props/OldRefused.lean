import Verif.Props.Refused
import Verif.Props.OldErrorAt
/-! # C85 for the legacy parser -/
set_option autoImplicit false

namespace Verif

section
open Spec PRes
variable {U : CharClass} {P : F64Parse}

namespace Spec
/-- The characters with which a legacy value other than `null`, `true`, `false` begins: as `ValueStart`, without parentheses. -/
def OldValueStart (c : Char) : Prop :=
  ('0' ≤ c ∧ c ≤ '9') ∨ c = '+' ∨ c = '-' ∨ c = '.' ∨ c = '"' ∨ c = '<' ∨ c = '[' ∨ c = '{'
end Spec

instance (c : Char) : Decidable (OldValueStart c) := by unfold OldValueStart; infer_instance

theorem fromStr_document {s : Str} {merge : Option MergeBehaviour} {m : MapValues} (h : fromStr U P s merge = .ok m) :
    ∃ es, OldDocument U P s es := by
  unfold fromStr at h
  cases hb : oldBody U P s with
  | ok r x => obtain ⟨-, es, -, hd⟩ := oldBody_iff.1 hb; exact ⟨es, hd⟩
  | _ => rw [hb] at h; cases h

theorem isKey_functional {s t t' : Str} {k k' : Key} (h : IsKey U s k t) (h' : IsKey U s k' t') : k = k' ∧ t = t' := by
  have a := oldKey_iff.2 h
  rw [oldKey_iff.2 h'] at a
  injection a with a1 a2; exact ⟨a2.symm, a1.symm⟩

theorem isValue_functional {s t t' : Str} {v v' : Value} (h : IsValue U P s v t) (h' : IsValue U P s v' t') : v = v' ∧ t = t' := by
  have a := singleValue_iff.2 h
  rw [singleValue_iff.2 h'] at a
  injection a with a1 a2; exact ⟨a2.symm, a1.symm⟩

theorem isKey_skip {s t : Str} {k : Key} (h : IsKey U s k t) : SkipLayout s s := by
  obtain ⟨c, u, rfl, hc⟩ := isKey_head h
  refine .refl (not_starts_layout ?_)
  rcases hc with hc | rfl
  · exact identStart_not_layout hc
  · decide

/-- The first entry of a document that begins with a key. -/
theorem oldDocument_key {s t : Str} {k : Key} {es : List (Key × Value)} (hk : IsKey U s k t) (h : OldDocument U P s es) :
    ∃ k' v u w es', IsEntry U P s k' v u ∧ IsEntryEnd u w ∧ IsEntries U P w es' [] := by
  have hs := isKey_skip hk
  unfold OldDocument at h
  generalize hz : ([] : Str) = z at h
  cases h with
  | done =>
    have := sl_funct hs ‹_›
    obtain ⟨c, u, e, -⟩ := isKey_head hk
    rw [e, ← hz] at this; cases this
  | entry =>
    have e0 := sl_funct ‹SkipLayout s _› hs
    subst e0; subst hz
    exact ⟨_, _, _, _, _, ‹_›, ‹_›, ‹_›⟩

/-- An entry that begins with a key and `=`. -/
theorem entry_attribute {s l x u : Str} {k k' : Key} {v : Value} (hk : IsKey U s k (l ++ '=' :: x)) (hl : AnyInline l)
    (h : IsEntry U P s k' v u) : ∃ y w, SkipInline x y ∧ IsValue U P y v w ∧ SkipInline w u := by
  have hi : SkipInline (l ++ '=' :: x) ('=' :: x) := skip_append hl (eq_not_inline x)
  cases h with
  | «attribute» _ _ _ _ _ _ _ _ g1 g2 g3 g4 g5 =>
    obtain ⟨rfl, rfl⟩ := isKey_functional hk g1
    have := si_funct hi g2
    injection this with _ this
    subst this
    exact ⟨_, _, g3, g4, g5⟩
  | map _ _ _ _ _ _ _ g1 g2 =>
    obtain ⟨-, rfl⟩ := isKey_functional hk (.ident _ _ _ g1)
    have := sl_funct g2 (skip_append (seq_inline_layout hl) (not_starts_layout (by decide)))
    cases this
  | block _ _ _ _ _ _ _ _ _ g1 g2 g3 =>
    obtain ⟨-, rfl⟩ := isKey_functional hk (.ident _ _ _ g1)
    obtain ⟨t, ht⟩ := stringLabels_first g2 g3
    have := si_funct ht hi
    cases this

theorem laidKey_inline {k : Key} {ks l x : Str} (hk : LaidOldKey U k ks) (hl : AnyInline l) :
    IsKey U (ks ++ (l ++ '=' :: x)) k (l ++ '=' :: x) :=
  laidOldKey_isKey hk (not_head_inline hl (eq_not_ident x))

theorem oldDocument_attribute {ks l x : Str} {k : Key} {es : List (Key × Value)} (hk : LaidOldKey U k ks) (hl : AnyInline l)
    (h : OldDocument U P (ks ++ (l ++ '=' :: x)) es) :
    ∃ y v w u z, SkipInline x y ∧ IsValue U P y v w ∧ SkipInline w u ∧ IsEntryEnd u z := by
  obtain ⟨k', v, u, z, es', h1, h2, -⟩ := oldDocument_key (laidKey_inline hk hl) h
  obtain ⟨y, w, g1, g2, g3⟩ := entry_attribute (laidKey_inline hk hl) hl h1
  exact ⟨y, v, w, u, z, g1, g2, g3, h2⟩

theorem isValue_begins {s r : Str} {v : Value} (h : IsValue U P s v r) :
    (∃ w ∈ valueWords, s = w ++ r) ∨ ∃ l c t, AnyLayout l ∧ s = l ++ c :: t ∧ OldValueStart c := by
  cases h with
  | null => exact .inl ⟨['n', 'u', 'l', 'l'], by simp [valueWords], rfl⟩
  | true => exact .inl ⟨['t', 'r', 'u', 'e'], by simp [valueWords], rfl⟩
  | false => exact .inl ⟨['f', 'a', 'l', 's', 'e'], by simp [valueWords], rfl⟩
  | number t n v r h =>
    obtain ⟨t, e, hn, -⟩ := h
    rw [e]
    obtain ⟨c, t, e, hc⟩ := isNumber_head hn r
    refine .inr ⟨[], c, t, .nil, e, ?_⟩
    rcases hc with h | h | h | h
    all_goals first
      | exact .inl h
      | (subst h; simp [OldValueStart])
  | string =>
    rename_i w hk
    cases hk with
    | quoted => rename_i h; obtain ⟨src, rfl, -⟩ := h; exact .inr ⟨[], _, _, .nil, rfl, by simp [OldValueStart]⟩
    | heredoc => rename_i h; obtain ⟨t, rfl⟩ := h.head; exact .inr ⟨[], _, _, .nil, rfl, by simp [OldValueStart]⟩
  | list => exact .inr ⟨[], _, _, .nil, rfl, by simp [OldValueStart]⟩
  | map =>
    rename_i x es h1 h2
    obtain ⟨l, hl, rfl, -⟩ := h1
    exact .inr ⟨l, _, _, hl, rfl, by simp [OldValueStart]⟩

theorem value_not_begins {c : Char} {t r : Str} {v : Value} (hv : ¬ OldValueStart c) (hl : ¬ LayoutChar c)
    (hw : c ≠ 'n' ∧ c ≠ 't' ∧ c ≠ 'f') : ¬ IsValue U P (c :: t) v r := by
  intro h
  rcases isValue_begins h with ⟨w, hw', h⟩ | ⟨l', c', t', hl', h, hv'⟩
  · simp only [valueWords, List.mem_cons, List.not_mem_nil, or_false] at hw'
    rcases hw' with rfl | rfl | rfl <;> injection h with h _ <;> subst h <;> simp at hw
  · cases hl' with
    | nil => injection h with h _; subst h; exact hv hv'
    | cons i l' hi _ => exact absurd ⟨i, _, hi, by rw [h, List.append_assoc]⟩ (not_starts_layout hl)

theorem value_list_inv {s r : Str} {v : Value} (h : IsValue U P ('[' :: s) v r) : ∃ vs, IsListBody U P s vs r ∧ v = .list vs := by
  generalize hz : '[' :: s = z at h
  have hs : SkipLayout z z := hz ▸ Skip.refl (not_starts_layout (by decide))
  cases h with
  | null => cases hz
  | true => cases hz
  | false => cases hz
  | number t n v r h =>
    obtain ⟨c, t, e1, hc⟩ := numberTok_head h
    rw [← hz] at e1
    injection e1 with e1 _
    subst e1
    rw [numHead_iff] at hc
    exact absurd hc (by decide)
  | string =>
    rename_i h
    cases h with
    | quoted => rename_i h; obtain ⟨src, e1, -⟩ := h; rw [← hz] at e1; cases e1
    | heredoc => rename_i h; obtain ⟨src, e1⟩ := h.head; rw [← hz] at e1; cases e1
  | list => injection hz with _ hz; subst hz; exact ⟨_, ‹_›, rfl⟩
  | map =>
    have := sl_funct ‹SkipLayout z ('{' :: _)› hs
    rw [← hz] at this
    cases this

theorem value_brace_inv {s r : Str} {v : Value} (h : IsValue U P ('{' :: s) v r) : ∃ es, IsEntries U P s es ('}' :: r) ∧ v = .object [.unmerged es] := by
  generalize hz : '{' :: s = z at h
  have hs : SkipLayout z z := hz ▸ Skip.refl (not_starts_layout (by decide))
  cases h with
  | null => cases hz
  | true => cases hz
  | false => cases hz
  | number t n v r h =>
    obtain ⟨c, t, e1, hc⟩ := numberTok_head h
    rw [← hz] at e1
    injection e1 with e1 _
    subst e1
    rw [numHead_iff] at hc
    exact absurd hc (by decide)
  | string =>
    rename_i h
    cases h with
    | quoted => rename_i h; obtain ⟨src, e1, -⟩ := h; rw [← hz] at e1; cases e1
    | heredoc => rename_i h; obtain ⟨src, e1⟩ := h.head; rw [← hz] at e1; cases e1
  | list => cases hz
  | map =>
    have := sl_funct ‹SkipLayout z ('{' :: _)› hs
    rw [← hz] at this
    injection this with _ this
    subst this
    exact ⟨_, ‹_›, rfl⟩

theorem entryEnd_not {c : Char} {x z : Str} (hc : ¬ LayoutChar c) (hc' : c ≠ ',') : ¬ IsEntryEnd (c :: x) z := by
  have hl : ¬ Starts LayoutItem (c :: x) := not_starts_layout hc
  intro h
  cases h with
  | comma =>
    have := sl_funct ‹SkipLayout _ _› (.refl hl)
    injection this with this _
    exact hc' this.symm
  | newline =>
    rename_i h
    obtain ⟨i, l, hi, hl', e⟩ := h
    obtain ⟨d, q', e', hd⟩ := newlineItem_head_layout (t := l ++ z) hi
    rw [List.append_assoc, e'] at e
    injection e with e _
    exact hc (e ▸ hd)

end

namespace Props
open Spec

variable (U : CharClass) (P : F64Parse)

/-- C85: legacy values begin as the new ones, but for parentheses. -/
theorem c85_legacy_value_begins (k : Key) (ks l m t : Str) (c : Char) (merge : Option MergeBehaviour) (r : MapValues)
    (hk : LaidOldKey U k ks) (hl : AnyInline l) (hm : AnyInline m)
    (h : fromStr U P (ks ++ l ++ '=' :: m ++ c :: t) merge = .ok r) :
    LayoutChar c ∨ OldValueStart c ∨ ∃ w ∈ valueWords, w <+: c :: t := by
  rcases Classical.em (LayoutChar c) with hc | hc
  · exact .inl hc
  right
  obtain ⟨es, hd⟩ := fromStr_document h
  have e0 : ks ++ l ++ '=' :: m ++ c :: t = ks ++ (l ++ '=' :: (m ++ c :: t)) := by simp
  rw [e0] at hd
  obtain ⟨y, v, w, u, z, h1, h2, -⟩ := oldDocument_attribute hk hl hd
  have := si_funct h1 (skip_append hm (not_starts_inline (not_starts_layout hc)))
  subst this
  rcases isValue_begins h2 with ⟨w', hw', h⟩ | ⟨l', c', t', hl', h, hv'⟩
  · exact .inr ⟨w', hw', w, h.symm⟩
  · cases hl' with
    | nil => injection h with h _; subst h; exact .inl hv'
    | cons i l' hi _ => exact absurd ⟨i, _, hi, by rw [h, List.append_assoc]⟩ (not_starts_layout hc)

/-- C85: behind a legacy value on its line stands nothing but layout or a comma. -/
theorem c85_legacy_one_value (k : Key) (ks l m t n x : Str) (v : Value) (c : Char) (merge : Option MergeBehaviour) (r : MapValues)
    (hk : LaidOldKey U k ks) (hl : AnyInline l) (hm : AnyInline m) (hn : AnyInline n) (ht : LaidValue U P none v t)
    (hc : ¬ LayoutChar c) (hc' : c ≠ ',') (hx : ¬ Head NumChar (n ++ c :: x)) :
    fromStr U P (ks ++ l ++ '=' :: m ++ t ++ n ++ c :: x) merge ≠ .ok r := by
  intro h
  obtain ⟨es, hd⟩ := fromStr_document h
  have e0 : ks ++ l ++ '=' :: m ++ t ++ n ++ c :: x = ks ++ (l ++ '=' :: (m ++ (t ++ (n ++ c :: x)))) := by simp
  rw [e0] at hd
  obtain ⟨y, v', w, u, z, h1, h2, h3, h4⟩ := oldDocument_attribute hk hl hd
  obtain ⟨y', g1, g2⟩ := inline_then_value hm (laidOld_is.1 ht (n ++ c :: x) (.none _) hx)
  have := si_funct h1 g1
  subst this
  obtain ⟨-, rfl⟩ := isValue_functional h2 g2
  have := si_funct h3 (skip_append hn (not_starts_inline (not_starts_layout hc)))
  subst this
  exact entryEnd_not hc hc' h4

/-- C85: in a legacy list, a value is followed by a comma or the closing bracket. -/
theorem c85_legacy_one_value_in_list (k : Key) (ks l m m' t n x : Str) (v : Value) (c : Char) (merge : Option MergeBehaviour)
    (r : MapValues) (hk : LaidOldKey U k ks) (hl : AnyInline l) (hm : AnyInline m) (hm' : AnyLayout m') (hn : AnyLayout n)
    (ht : LaidValue U P none v t) (hc : ¬ LayoutChar c) (hc1 : c ≠ ',') (hc2 : c ≠ ']') (hx : ¬ Head NumChar (n ++ c :: x)) :
    fromStr U P (ks ++ l ++ '=' :: m ++ '[' :: m' ++ t ++ n ++ c :: x) merge ≠ .ok r := by
  intro h
  obtain ⟨es, hd⟩ := fromStr_document h
  have e0 : ks ++ l ++ '=' :: m ++ '[' :: m' ++ t ++ n ++ c :: x = ks ++ (l ++ '=' :: (m ++ '[' :: (m' ++ (t ++ (n ++ c :: x))))) := by
    simp
  rw [e0] at hd
  obtain ⟨y, v', w, u, z, h1, h2, -⟩ := oldDocument_attribute hk hl hd
  have := si_funct h1 (skip_append hm (not_starts_inline (not_starts_layout (by decide))))
  subst this
  obtain ⟨vs, hb, -⟩ := value_list_inv h2
  obtain ⟨y', g1, g2⟩ := layout_then_value hm' (laidOld_is.1 ht (n ++ c :: x) (.none _) hx)
  have hi : ¬ Starts LayoutItem (c :: x) := not_starts_layout hc
  have hend : ∀ {r : Str}, ¬ IsTupleEnd (n ++ c :: x) r := by
    intro r h
    obtain ⟨d, t', h, he⟩ := tupleEnd_first h
    have := sl_funct h (skip_append hn hi)
    injection this with this _
    subst this
    rcases he with he | he
    · exact hc2 he
    · exact hc1 he
  cases hb with
  | empty =>
    rename_i h
    obtain ⟨d, t', h, hd⟩ := tupleEnd_first h
    have := sl_funct g1 h
    subst this
    rcases hd with rfl | rfl
    · exact value_not_begins (by decide) (by decide) (by decide) g2
    · exact value_not_begins (by decide) (by decide) (by decide) g2
  | elems s' t' u' v1 vs _ g4 g5 g6 =>
    have := sl_funct g4 g1
    subst this
    obtain ⟨-, rfl⟩ := isValue_functional g5 g2
    cases g6 with
    | last => exact hend ‹_›
    | more =>
      have := sl_funct ‹SkipLayout (n ++ c :: x) (',' :: _)› (skip_append hn hi)
      injection this with this _
      exact hc1 this.symm

/-- C85: what stands in a legacy file is layout, and entries that begin with a name or a quoted key. -/
theorem c85_legacy_entry_begins (l t : Str) (c : Char) (merge : Option MergeBehaviour) (r : MapValues) (hl : AnyLayout l)
    (hc : ¬ Starts LayoutItem (c :: t)) (h : fromStr U P (l ++ c :: t) merge = .ok r) : IdentStart U c ∨ c = '"' := by
  obtain ⟨es, hd⟩ := fromStr_document h
  unfold OldDocument at hd
  have hs : SkipLayout (l ++ c :: t) (c :: t) := skip_append hl hc
  generalize hz : ([] : Str) = z at hd
  cases hd with
  | done =>
    have := sl_funct hs ‹_›
    rw [← hz] at this; cases this
  | entry =>
    have e0 := sl_funct hs ‹SkipLayout _ _›
    subst e0
    obtain ⟨t', ht⟩ := isEntry_key ‹IsEntry U P _ _ _ _›
    obtain ⟨d, u, e, hd⟩ := isKey_head ht
    injection e with e _
    subst e
    exact hd

/-- C85: a name is followed by `=`, by a quoted label, or by an opening brace (which may stand on a later line): a name on its own,
a dot, a label without quotes are refused. -/
theorem c85_legacy_after_name (i l t : Str) (merge : Option MergeBehaviour) (r : MapValues) (hi : IsIdent U i) (hl : AnyInline l)
    (ht : ¬ Starts InlineItem t) (hx : ¬ Head (IdentChar U) (l ++ t)) (h : fromStr U P (i ++ l ++ t) merge = .ok r) :
    (∃ t', t = '=' :: t') ∨ (∃ t', t = '"' :: t') ∨ ∃ l' t', AnyLayout l' ∧ t = l' ++ '{' :: t' := by
  obtain ⟨es, hd⟩ := fromStr_document h
  rw [List.append_assoc] at hd
  have hk : IsKey U (i ++ (l ++ t)) (.identifier (.borrowed i)) (l ++ t) := .ident _ _ _ ⟨rfl, hi, hx⟩
  have hs : SkipInline (l ++ t) t := skip_append hl ht
  obtain ⟨k', v, u, w, es', h1, -⟩ := oldDocument_key hk hd
  generalize hz : i ++ (l ++ t) = z at h1 hk
  cases h1 with
  | «attribute» _ _ _ _ _ _ _ _ g1 g2 =>
    obtain ⟨-, rfl⟩ := isKey_functional hk g1
    exact .inl ⟨_, si_funct hs g2⟩
  | map _ _ _ _ _ _ _ g1 g2 =>
    obtain ⟨-, rfl⟩ := isKey_functional hk (.ident _ _ _ g1)
    have := g2.unprepend layoutItem_prefix (seq_inline_layout hl)
    obtain ⟨l', hl', e, -⟩ := this
    exact .inr (.inr ⟨l', _, hl', e⟩)
  | block _ _ _ _ _ _ _ _ _ g1 g2 g3 =>
    obtain ⟨-, rfl⟩ := isKey_functional hk (.ident _ _ _ g1)
    obtain ⟨t', ht'⟩ := stringLabels_first g2 g3
    exact .inr (.inl ⟨_, si_funct hs ht'⟩)

/-- C85: a quoted key is followed by `=`: blocks have names without quotes. -/
theorem c85_legacy_after_quoted_key (src v l t : Str) (merge : Option MergeBehaviour) (r : MapValues)
    (hq : Content PlainLine src v ['"']) (hl : AnyInline l) (ht : ¬ Starts InlineItem t)
    (h : fromStr U P ('"' :: src ++ '"' :: l ++ t) merge = .ok r) : ∃ t', t = '=' :: t' := by
  obtain ⟨es, hd⟩ := fromStr_document h
  have e0 : '"' :: src ++ '"' :: l ++ t = '"' :: src ++ '"' :: (l ++ t) := by simp
  rw [e0] at hd
  have hk : IsKey U ('"' :: src ++ '"' :: (l ++ t)) (.string (.ownedS v)) (l ++ t) :=
    .string _ _ _ ⟨src, by simp, content_ext (r := ['"']) (by simp) hq⟩
  have hs : SkipInline (l ++ t) t := skip_append hl ht
  obtain ⟨k', v', u, w, es', h1, -⟩ := oldDocument_key hk hd
  generalize hz : '"' :: src ++ '"' :: (l ++ t) = z at h1 hk
  cases h1 with
  | «attribute» _ _ _ _ _ _ _ _ g1 g2 =>
    obtain ⟨-, rfl⟩ := isKey_functional hk g1
    exact ⟨_, si_funct hs g2⟩
  | map _ _ _ _ _ _ _ g1 g2 => have := (isKey_functional hk (.ident _ _ _ g1)).1; cases this
  | block _ _ _ _ _ _ _ _ _ g1 g2 g3 => have := (isKey_functional hk (.ident _ _ _ g1)).1; cases this

/-- C85: between the quotes of a legacy value, a text without quotes and backslashes is kept as it is: `${…}` is not evaluated. -/
theorem c85_legacy_templates_are_text (i s : Str) (hi : IsIdent U i) (h : ∀ c ∈ s, c ≠ '"' ∧ c ≠ '\\') :
    fromStr U P (i ++ '=' :: '"' :: s ++ ['"']) none = .ok (.unmerged [(.identifier (.borrowed i), .string s)]) := by
  rw [c71_every_layout_is_read]
  have hc : Content Plain s s ['"'] := by
    generalize ['"'] = r
    induction s with
    | nil => exact .nil _
    | cons c s ih => exact .plain _ _ _ _ ⟨(h c (by simp)).2, (h c (by simp)).1⟩ (ih fun d hd => h d (by simp [hd]))
  have := LaidOldDocument.last [] [] _ _ _ (.done [] .nil)
    (LaidEntry.attribute (U := U) (P := P) i [] [] _ [] none _ _ (.ident i hi) .nil .nil (.quoted s s hc) .nil (fun h => absurd rfl h))
  simpa using this

/-- Non-vacuity of C85: `a = 1 + 2`, `a = b.c`, `a = (1)`, `a = [1 2]`, `= 1`, `a`, `a b {}`, `"a" {}` meet the premises, and are
refused. -/
example (merge : Option MergeBehaviour) : (∀ r, fromStr asciiClass zeroFloats "a = 1 + 2".toList merge ≠ .ok r) ∧
    (∀ r, fromStr asciiClass zeroFloats "a = b.c".toList merge ≠ .ok r) ∧
    (∀ r, fromStr asciiClass zeroFloats "a = (1)".toList merge ≠ .ok r) ∧
    (∀ r, fromStr asciiClass zeroFloats "a = [1 2]".toList merge ≠ .ok r) ∧
    (∀ r, fromStr asciiClass zeroFloats "= 1".toList merge ≠ .ok r) ∧
    (∀ r, fromStr asciiClass zeroFloats "a b {}".toList merge ≠ .ok r) ∧
    (∀ r, fromStr asciiClass zeroFloats "\"a\" {}".toList merge ≠ .ok r) := by
  have ha : IsIdent asciiClass ['a'] := .mk 'a' [] (.inl (by decide)) (by simp)
  have sp : AnyInline [' '] := .cons [' '] [] (.blank _ (.inl rfl)) .nil
  have spl : AnyLayout [' '] := .cons [' '] [] (.space _ (.inl rfl)) .nil
  have hk : LaidOldKey asciiClass (.identifier (.borrowed ['a'])) ['a'] := .ident _ ha
  have h1 : LaidValue asciiClass zeroFloats none (.integer 1) ['1'] := by
    obtain ⟨t, e, hn⟩ := number_sound (show number ['1'] = .ok [] ⟨.borrowed ['1'], true, some (.borrowed ['1']), none, none⟩ by
      decide +kernel)
    rw [List.append_nil] at e
    subst e
    have k1 := ((c11_conversion_exact ⟨true, 64⟩ _ _ hn 1).1 (by decide +kernel)).1
    exact .number _ _ _ hn (.integer _ _ k1 (by unfold InI64; decide))
  refine ⟨fun r => ?_, fun r h => ?_, fun r h => ?_, fun r => ?_, fun r h => ?_, fun r h => ?_, fun r h => ?_⟩
  · exact c85_legacy_one_value _ _ _ ['a'] [' '] [' '] ['1'] [' '] [' ', '2'] _ '+' merge r hk sp sp sp h1 (by decide) (by decide)
      (by show ¬ Head NumChar (' ' :: _); rw [head_cons]; unfold NumChar IsDig; decide)
  · have := c85_legacy_value_begins _ _ _ ['a'] [' '] [' '] ['.', 'c'] 'b' merge r hk sp sp h
    revert this; unfold valueWords; decide
  · have := c85_legacy_value_begins _ _ _ ['a'] [' '] [' '] ['1', ')'] '(' merge r hk sp sp h
    revert this; unfold valueWords; decide
  · exact c85_legacy_one_value_in_list _ _ _ ['a'] [' '] [' '] [] ['1'] [' '] [']'] _ '2' merge r hk sp sp .nil spl h1 (by decide)
      (by decide) (by decide) (by show ¬ Head NumChar (' ' :: _); rw [head_cons]; unfold NumChar IsDig; decide)
  · rcases c85_legacy_entry_begins _ _ [] [' ', '1'] '=' merge r .nil (not_starts_layout (by decide)) h with h | h
    · exact absurd h (not_identStart (by decide) (by decide))
    · cases h
  · rcases c85_legacy_after_name _ _ ['a'] [' '] ['b', ' ', '{', '}'] merge r ha sp (not_starts_inline (not_starts_layout (by decide)))
      (by show ¬ Head _ (' ' :: _); rw [head_cons]; exact not_identChar (by decide) (by decide)) h with ⟨t, e⟩ | ⟨t, e⟩ | ⟨l', t, hl, e⟩
    · cases e
    · cases e
    · cases hl with
      | nil => cases e
      | cons i l' hi _ => exact not_starts_layout (c := 'b') (by decide) ⟨i, _, hi, by rw [e, List.append_assoc]⟩
  · obtain ⟨t, e⟩ := c85_legacy_after_quoted_key _ _ ['a'] ['a'] [' '] ['{', '}'] merge r (.plain _ _ _ _ (by simp [PlainLine]) (.nil _)) sp
      (not_starts_inline (not_starts_layout (by decide))) h
    cases e

end Props
end Verif
