import Verif.Proofs.OldTruncate
import Verif.Proofs.Agree
import Verif.Proofs.OldPanic
/-! # Legacy documents with a position at which no string can be read -/
set_option autoImplicit false

namespace Verif
open PRes Spec

variable {U : CharClass} {P : F64Parse}

theorem stuck_value_unique {s r r' : Str} {v v' : Value} (h : IsValue U P s v r) (h' : IsValue U P s v' r') : v = v' ∧ r = r' := by
  have a := (oldN_complete (U := U) (P := P) (s.length + 1)).1 _ _ _ (by omega) h
  have b := (oldN_complete (U := U) (P := P) (s.length + 1)).1 _ _ _ (by omega) h'
  rw [a] at b
  injection b with h1 h2
  exact ⟨h2, h1⟩

theorem stuck_map_inv {s t r : Str} {v : Value} (hs : SkipLayout s ('{' :: t)) (h : IsValue U P s v r) :
    ∃ es, IsEntries U P t es ('}' :: r) := by
  have no : ∀ c u, SkipLayout s (c :: u) → c = '{' := fun c u h => by have := sl_funct h hs; injection this
  cases h with
  | null => exact absurd (no _ _ (skip_self (by decide))) (by decide)
  | true => exact absurd (no _ _ (skip_self (by decide))) (by decide)
  | false => exact absurd (no _ _ (skip_self (by decide))) (by decide)
  | number t n v r h =>
    obtain ⟨c, u, e, hc⟩ := numberTok_head h
    have := no c u (by rw [e]; exact skip_self (num_not_layout hc))
    subst this; exact absurd hc (by simp [IsDig])
  | string =>
    rename_i v h
    obtain ⟨c, u, rfl, hc⟩ := stringTok_head h
    have := no c u (skip_self (by rcases hc with rfl | rfl <;> decide))
    subst this; exact absurd hc (by simp [IsDig])
  | list => exact absurd (no _ _ (skip_self (by decide))) (by decide)
  | map =>
    rename_i t' es h1 h2
    have := sl_funct h1 hs
    injection this with _ this; subst this
    exact ⟨es, h2⟩

theorem stuck_list_inv {s r : Str} {v : Value} (h : IsValue U P ('[' :: s) v r) : ∃ vs, IsListBody U P s vs r := by
  generalize hu : '[' :: s = u at h
  cases h with
  | null => cases hu
  | true => cases hu
  | false => cases hu
  | number t n v r h =>
    obtain ⟨c, x, e, hc⟩ := numberTok_head h
    rw [e] at hu; injection hu with hu _; subst hu; exact absurd hc (by simp [IsDig])
  | string =>
    rename_i v h
    obtain ⟨c, x, rfl, hc⟩ := stringTok_head h
    injection hu with hu _; subst hu; exact absurd hc (by simp [IsDig])
  | list => injection hu with _ hu; subst hu; exact ⟨_, ‹_›⟩
  | map =>
    rename_i t es h1 h2
    subst hu
    have := sl_funct h1 (skip_self (c := '[') (by decide))
    cases this

theorem stuck_quote_inv {s r : Str} {v : Value} (h : IsValue U P ('"' :: s) v r) : ∃ w, Quoted Plain ('"' :: s) w r := by
  generalize hu : '"' :: s = u at h
  cases h with
  | null => cases hu
  | true => cases hu
  | false => cases hu
  | number t n v r h =>
    obtain ⟨c, x, e, hc⟩ := numberTok_head h
    rw [e] at hu; injection hu with hu _; subst hu; exact absurd hc (by simp [IsDig])
  | string =>
    rename_i v h
    subst hu
    cases h with
    | quoted => exact ⟨_, ‹_›⟩
    | heredoc => rename_i h; obtain ⟨t, h⟩ := h.head; cases h
  | list => cases hu
  | map =>
    rename_i t es h1 h2
    subst hu
    have := sl_funct h1 (skip_self (c := '"') (by decide))
    cases this

/-- A position leading to a stuck one begins like a string, list or map. -/
theorem stuck_valueAt_head {k : Kind} {s u : Str} (h : ValueAt U P k s u) (hu : StuckAt k u) :
    ∃ c t, SkipLayout s (c :: t) ∧ (c = '"' ∨ c = '[' ∨ c = '{') := by
  cases h with
  | here => obtain ⟨⟨t, rfl⟩, -⟩ := hu; exact ⟨_, _, skip_self (by decide), by simp⟩
  | list => exact ⟨_, _, skip_self (by decide), by simp⟩
  | map => exact ⟨_, _, ‹_›, by simp⟩

theorem stuck_head_not {s t r : Str} {v : Value} {c : Char} (hc : c = ']' ∨ c = ',') (hs : SkipLayout s (c :: t)) : ¬ IsValue U P s v r := by
  intro h
  obtain ⟨d, w, h1, h2⟩ := isValue_first h
  have := sl_funct h1 hs
  injection this with this _; subst this
  rcases hc with rfl | rfl <;> simp [IsDig] at h2

theorem stuck_listAt_not_end {k : Kind} {s u r : Str} (h : ListAt U P k s u) (hu : StuckAt k u) : ¬ IsTupleEnd s r := by
  have key : ∀ c t, (c = ']' ∨ c = ',') → ¬ SkipLayout s (c :: t) := by
    intro c t hc hs
    cases h with
    | elem =>
      rename_i t' h1 h2
      have e : t' = c :: t := sl_funct ‹_› hs
      subst e
      obtain ⟨d, w, h3, h4⟩ := stuck_valueAt_head ‹ValueAt U P k (c :: t) u› hu
      have := sl_funct h3 (Skip.again ‹SkipLayout s (c :: t)›)
      injection this with this _; subst this
      rcases hc with rfl | rfl <;> revert h4 <;> decide
    | next =>
      rename_i t' y w x h1 h2 h3 h4
      have e : t' = c :: t := sl_funct ‹_› hs
      subst e
      exact stuck_head_not hc (Skip.again hs) ‹IsValue U P (c :: t) x _›
  intro h
  cases h with
  | close => exact key _ _ (.inl rfl) ‹_›
  | comma => exact key _ _ (.inr rfl) ‹_›

/-- Labels up to a brace, and labels up to a quote that begins no label. -/
theorem labels_stuck {s v u w x : Str} {ls ms : List Str} (h : IsStringLabels s ls v) (hv : SkipInline v ('"' :: u))
    (hu : ∀ a r, ¬ Quoted PlainLine ('"' :: u) a r) (h' : IsStringLabels s ms w) (hw : SkipLayout w ('{' :: x)) : False := by
  induction h generalizing ms with
  | nil s =>
    cases h' with
    | nil =>
      have := sl_funct (layout_of_inline hv (skip_self (by decide))) hw
      cases this
    | cons =>
      rename_i t y l ls h1 h2 h3
      have e : '"' :: u = t := si_funct hv ‹_›
      subst e; exact hu _ _ ‹_›
  | cons s t y l ls r h1 h2 h3 ih =>
    obtain ⟨src, e, -⟩ := id h2
    cases h' with
    | nil =>
      subst e
      have := sl_funct (layout_of_inline h1 (skip_self (by decide))) hw
      cases this
    | cons =>
      rename_i t' y' l' ls' h1' h2' h3'
      have e : t = t' := si_funct h1 ‹_›
      subst e
      have a := stringLiteral_iff.2 h2
      have b := stringLiteral_iff.2 (show Quoted PlainLine t l' y' from ‹_›)
      rw [a] at b; injection b with b _; subst b
      exact ih hv ‹_›

/-- Labels up to a brace are unique. -/
theorem stuck_labels_unique {s v w x y : Str} {ls ms : List Str} (h : IsStringLabels s ls v) (hv : SkipLayout v ('{' :: x))
    (h' : IsStringLabels s ms w) (hw : SkipLayout w ('{' :: y)) : x = y := by
  induction h generalizing ms with
  | nil s =>
    cases h' with
    | nil => have := sl_funct hv hw; injection this
    | cons =>
      rename_i t z l ls h1 h2 h3
      obtain ⟨src, rfl, -⟩ : Quoted PlainLine t l z := ‹_›
      have := sl_funct (layout_of_inline (show SkipInline s _ from ‹_›) (skip_self (by decide))) hv
      cases this
  | cons s t z l ls r h1 h2 h3 ih =>
    cases h' with
    | nil =>
      obtain ⟨src, rfl, -⟩ := h2
      have := sl_funct (layout_of_inline h1 (skip_self (by decide))) hw
      cases this
    | cons =>
      rename_i t' y' l' ls' h1' h2' h3'
      have e : t = t' := si_funct h1 ‹_›
      subst e
      have a := stringLiteral_iff.2 h2
      have b := stringLiteral_iff.2 (show Quoted PlainLine t l' y' from ‹_›)
      rw [a] at b; injection b with b _; subst b
      exact ih hv ‹_›

/-- A position at which a string is expected and none can be read makes the text around it unreadable. -/
theorem entriesAt_stuck {k : Kind} {s u : Str} (h : EntriesAt U P k s u) (hu : StuckAt k u) (es : List (Key × Value)) (r : Str)
    (hr : BodyEnd r) : ¬ IsEntries U P s es r := by
  have H1 : ∀ (s : Str), StuckAt .expression s → ∀ x r, ¬ IsValue U P s x r := by
    rintro s ⟨⟨t, rfl⟩, h⟩ x r hv
    obtain ⟨w, hw⟩ := stuck_quote_inv hv
    exact h _ _ hw
  have H2 : ∀ (k : Kind) (s u : Str), (StuckAt k u → ∀ x r, ¬ IsListBody U P s x r) → StuckAt k u → ∀ x r, ¬ IsValue U P ('[' :: s) x r := by
    intro k s u ih hu x r hv
    obtain ⟨vs, h⟩ := stuck_list_inv hv
    exact ih hu _ _ h
  have H3 : ∀ (k : Kind) (s t u : Str), SkipLayout s ('{' :: t) → (StuckAt k u → ∀ l s', Seq LayoutItem l → t = l ++ s' →
      ∀ x r, BodyEnd r → ¬ IsEntries U P s' x r) → StuckAt k u → ∀ x r, ¬ IsValue U P s x r := by
    intro k s t u h ih hu x r hv
    obtain ⟨es, h⟩ := stuck_map_inv h hv
    exact ih hu [] t .nil rfl _ _ (.inr ⟨_, rfl⟩) h
  have H4 : ∀ (k : Kind) (s t u : Str), SkipLayout s t → ValueAt U P k t u → (StuckAt k u → ∀ x r, ¬ IsValue U P t x r) →
      StuckAt k u → ∀ x r, ¬ IsListBody U P s x r := by
    intro k s t u h h0 ih hu x r hv
    cases hv with
    | empty => exact stuck_listAt_not_end (.elem _ _ _ h h0) hu ‹_›
    | elems =>
      rename_i t' w v vs h1 h2 h3
      have e : t = t' := sl_funct h ‹_›
      subst e; exact ih hu _ _ ‹_›
  have H5 : ∀ (k : Kind) (s t v w u : Str) (x : Value), SkipLayout s t → IsValue U P t x v → SkipLayout v (',' :: w) → ListAt U P k w u →
      (StuckAt k u → ∀ x r, ¬ IsListBody U P w x r) → StuckAt k u → ∀ x r, ¬ IsListBody U P s x r := by
    intro k s t v w u x h1 h2 h3 h4 ih hu y r hv
    cases hv with
    | empty => exact stuck_listAt_not_end (.next _ _ _ _ _ _ h1 h2 h3 h4) hu ‹_›
    | elems =>
      rename_i t' z v' vs h5 h6 h7
      have e : t = t' := sl_funct h1 ‹_›
      subst e
      obtain ⟨-, rfl⟩ := stuck_value_unique h2 ‹_›
      cases ‹IsListTail U P v vs r› with
      | last =>
        rename_i h
        cases h with
        | close => rename_i h; have := sl_funct h h3; cases this
        | comma =>
          rename_i q h8 h9
          have : ',' :: w = ',' :: q := sl_funct h3 ‹_›
          injection this with _ this; subst this
          exact stuck_listAt_not_end h4 hu (.close _ _ ‹_›)
      | more =>
        rename_i t' y' w' v'' vs' h8 h9 h10 h11
        have : ',' :: w = ',' :: t' := sl_funct h3 ‹_›
        injection this with _ this; subst this
        exact ih hu _ _ (.elems _ _ _ _ _ _ ‹_› ‹_› ‹_›)
  have H6 : ∀ (k : Kind) (s t u : Str), SkipLayout s t → EntryAt U P k t u → (StuckAt k u → ∀ key x r, ¬ IsEntry U P t key x r) →
      StuckAt k u → ∀ l s', Seq LayoutItem l → s = l ++ s' → ∀ x r, BodyEnd r → ¬ IsEntries U P s' x r := by
    rintro k s t u h1 h2 ih hu l s' hl rfl x r hr hv
    have h1 := Skip.unprepend layoutItem_prefix hl h1
    cases hv with
    | done =>
      rename_i h
      have e := sl_funct h1 h
      subst e
      obtain ⟨c, y, rfl, hc⟩ := entryAt_head h2
      rcases hr with hr | ⟨z, hr⟩
      · cases hr
      · injection hr with hr _; subst hr
        rcases hc with hc | hc
        · exact absurd hc (not_identStart (by decide) (by decide))
        · cases hc
    | entry =>
      rename_i t' y w k' v' es h3 h4 h5 h6
      have e : t = t' := sl_funct h1 ‹_›
      subst e; exact ih hu _ _ _ ‹_›
  have H7 : ∀ (k : Kind) (s t v w u : Str) (key : Key) (x : Value), SkipLayout s t → IsEntry U P t key x v → IsEntryEnd v w →
      EntriesAt U P k w u → (StuckAt k u → ∀ l s', Seq LayoutItem l → w = l ++ s' → ∀ x r, BodyEnd r → ¬ IsEntries U P s' x r) →
      StuckAt k u → ∀ l s', Seq LayoutItem l → s = l ++ s' → ∀ x r, BodyEnd r → ¬ IsEntries U P s' x r := by
    rintro k s t v w u key x h1 h2 h3 h4 ih hu l s' hl rfl y r hr hv
    have h1 := Skip.unprepend layoutItem_prefix hl h1
    have ih' : ∀ es, ¬ IsEntries U P w es r := fun es => ih hu [] w .nil rfl es r hr
    cases hv with
    | done =>
      rename_i h
      have e := sl_funct h1 h
      subst e
      obtain ⟨z, hz⟩ := isEntry_key h2
      obtain ⟨c, y, rfl, hc⟩ := isKey_head hz
      rcases hr with hr | ⟨z, hr⟩
      · cases hr
      · injection hr with hr _; subst hr
        rcases hc with hc | hc
        · exact absurd hc (not_identStart (by decide) (by decide))
        · cases hc
    | entry =>
      rename_i t' y' w' k' v' es h5 h6 h7 h8
      have e : t = t' := sl_funct h1 ‹_›
      subst e
      obtain ⟨-, -, e⟩ := isEntry_functional (skipInline_again h1) h2 ‹IsEntry U P t k' v' y'›
      subst e
      have h8 : IsEntries U P w' es r := ‹_›
      cases h3 with
      | comma =>
        rename_i h3
        cases ‹IsEntryEnd v w'› with
        | comma =>
          rename_i h9
          have := sl_funct h3 h9
          injection this with _ this; subst this
          exact ih' _ h8
        | newline =>
          rename_i h9
          obtain ⟨l', hl', rfl⟩ := newlines_layout h9
          exact isEntries_no_comma hr (Skip.unprepend layoutItem_prefix hl' h3) h8
        | eof => obtain ⟨a, ha, e, -⟩ := h3; cases a <;> cases e
      | newline =>
        rename_i h3
        obtain ⟨l', hl', e0⟩ := newlines_layout h3
        cases ‹IsEntryEnd v w'› with
        | comma =>
          rename_i h9
          subst e0
          exact entriesAt_no_comma (Skip.unprepend layoutItem_prefix hl' h9) h4
        | newline =>
          rename_i h9
          subst e0
          obtain ⟨l'', hl'', e⟩ := newlines_layout h9
          obtain ⟨z, hz⟩ := skipLayout_total w
          have hz' : SkipLayout (l'' ++ w') z := by rw [← e]; exact Skip.prepend hl' hz
          have hz'' := Skip.unprepend layoutItem_prefix hl'' hz'
          exact ih' _ ((isEntries_skip hz).2 ((isEntries_skip hz'').1 h8))
        | eof => obtain ⟨c, t, e, -⟩ := newlines_head h3; cases e
      | eof =>
        generalize hz : ([] : Str) = z at *
        cases ‹IsEntryEnd z w'› with
        | comma => rename_i h9; subst hz; obtain ⟨a, ha, e, -⟩ := h9; cases a <;> cases e
        | newline => rename_i h9; subst hz; obtain ⟨c, t, e, -⟩ := newlines_head h9; cases e
        | eof => exact ih' _ h8
  have H8 : ∀ (k : Kind) (s t v w u : Str) (key : Key), IsKey U s key t → SkipInline t ('=' :: v) → SkipInline v w →
      (StuckAt k u → ∀ x r, ¬ IsValue U P w x r) → StuckAt k u → ∀ key x r, ¬ IsEntry U P s key x r := by
    intro k s t v w u key h1 h2 h3 ih hu key' x r hv
    cases hv with
    | «attribute» =>
      rename_i t' v' w' x' h4 h5 h6 h7 h8
      obtain ⟨-, e⟩ := isKey_funct h1 ‹_›
      subst e
      have e : '=' :: v = '=' :: v' := si_funct h2 ‹_›
      injection e with _ e; subst e
      have e : w = w' := si_funct h3 ‹_›
      subst e
      exact ih hu _ _ ‹_›
    | map =>
      rename_i i t' v' w' es h4 h5 h6 h7
      obtain ⟨-, rfl⟩ := isKey_ident h1 ‹_›
      have := sl_funct (layout_of_inline h2 (skip_self (by decide))) ‹SkipLayout t _›
      cases this
    | block =>
      rename_i i t' v' w' y ls es h4 h5 h6 h7 h8 h9
      obtain ⟨-, rfl⟩ := isKey_ident h1 ‹_›
      obtain ⟨z, hz⟩ := stringLabels_first ‹IsStringLabels t ls _› ‹_›
      have := si_funct h2 hz
      cases this
  have H9 : ∀ (k : Kind) (s i t v u : Str), Ident U s i t → SkipLayout t ('{' :: v) → (StuckAt k u → ∀ l s', Seq LayoutItem l →
      v = l ++ s' → ∀ x r, BodyEnd r → ¬ IsEntries U P s' x r) → StuckAt k u → ∀ key x r, ¬ IsEntry U P s key x r := by
    intro k s i t v u h1 h2 ih hu key' x r hv
    cases hv with
    | «attribute» =>
      rename_i t' v' w' x' h4 h5 h6 h7 h8
      obtain ⟨-, e⟩ := isKey_ident ‹IsKey U s key' _› h1
      subst e
      have := sl_funct (layout_of_inline ‹SkipInline _ ('=' :: _)› (skip_self (by decide))) h2
      cases this
    | map =>
      rename_i i' t' v' w' es h4 h5 h6 h7
      obtain ⟨-, rfl⟩ := ident_functional h1 ‹_›
      have := sl_funct h2 ‹SkipLayout t _›
      injection this with _ e; subst e
      exact ih hu [] v .nil rfl _ _ (.inr ⟨_, rfl⟩) ‹_›
    | block =>
      rename_i i' t' v' w' y ls es h4 h5 h6 h7 h8 h9
      obtain ⟨-, rfl⟩ := ident_functional h1 ‹_›
      obtain ⟨z, hz⟩ := stringLabels_first ‹IsStringLabels t ls _› ‹_›
      have := sl_funct (layout_of_inline hz (skip_self (by decide))) h2
      cases this
  have H10 : ∀ (k : Kind) (s i t v w u : Str) (ls : List Str), Ident U s i t → IsStringLabels t ls v → ls ≠ [] → SkipLayout v ('{' :: w) →
      (StuckAt k u → ∀ l s', Seq LayoutItem l → w = l ++ s' → ∀ x r, BodyEnd r → ¬ IsEntries U P s' x r) →
      StuckAt k u → ∀ key x r, ¬ IsEntry U P s key x r := by
    intro k s i t v w u ls h1 h2 h2' h3 ih hu key' x r hv
    obtain ⟨z, hz⟩ := stringLabels_first h2 h2'
    cases hv with
    | «attribute» =>
      rename_i t' v' w' x' h4 h5 h6 h7 h8
      obtain ⟨-, e⟩ := isKey_ident ‹IsKey U s key' _› h1
      subst e
      have := si_funct ‹SkipInline _ ('=' :: _)› hz
      cases this
    | map =>
      rename_i i' t' v' w' es h4 h5 h6 h7
      obtain ⟨-, rfl⟩ := ident_functional h1 ‹_›
      have := sl_funct (layout_of_inline hz (skip_self (by decide))) ‹SkipLayout t _›
      cases this
    | block =>
      rename_i i' t' v' w' y ls' es h4 h5 h6 h7 h8 h9
      obtain ⟨-, rfl⟩ := ident_functional h1 ‹_›
      have e := stuck_labels_unique h2 h3 ‹IsStringLabels t ls' _› ‹_›
      subst e
      exact ih hu [] _ .nil rfl _ _ (.inr ⟨_, rfl⟩) ‹_›
  have H11 : ∀ s : Str, StuckAt .label ('"' :: s) → ∀ key x r, ¬ IsEntry U P ('"' :: s) key x r := by
    intro s hu key x r hv
    obtain ⟨t, h⟩ := isEntry_key hv
    cases h with
    | ident =>
      rename_i h
      obtain ⟨c, y, e, hc⟩ := ident_head h
      injection e with e _; subst e
      exact absurd hc (not_identStart (by decide) (by decide))
    | string => exact hu.2 _ _ ‹_›
  have H12 : ∀ (s i t v u : Str) (ls : List Str), Ident U s i t → IsStringLabels t ls v → SkipInline v ('"' :: u) →
      StuckAt .label ('"' :: u) → ∀ key x r, ¬ IsEntry U P s key x r := by
    intro s i t v u ls h1 h2 h3 hu key' x r hv
    have hq : ∃ z, SkipInline t ('"' :: z) := by
      cases ls with
      | nil => cases h2; exact ⟨_, h3⟩
      | cons => exact stringLabels_first h2 (by simp)
    obtain ⟨z, hz⟩ := hq
    cases hv with
    | «attribute» =>
      rename_i t' v' w' x' h4 h5 h6 h7 h8
      obtain ⟨-, e⟩ := isKey_ident ‹IsKey U s key' _› h1
      subst e
      have := si_funct ‹SkipInline _ ('=' :: _)› hz
      cases this
    | map =>
      rename_i i' t' v' w' es h4 h5 h6 h7
      obtain ⟨-, rfl⟩ := ident_functional h1 ‹_›
      have := sl_funct (layout_of_inline hz (skip_self (by decide))) ‹SkipLayout t _›
      cases this
    | block =>
      rename_i i' t' v' w' y ls' es h4 h5 h6 h7 h8 h9
      obtain ⟨-, rfl⟩ := ident_functional h1 ‹_›
      exact labels_stuck h2 h3 hu.2 ‹IsStringLabels t ls' _› ‹_›
  exact EntriesAt.rec (motive_1 := fun k s u _ => StuckAt k u → ∀ x r, ¬ IsValue U P s x r)
    (motive_2 := fun k s u _ => StuckAt k u → ∀ x r, ¬ IsListBody U P s x r)
    (motive_3 := fun k s u _ => StuckAt k u → ∀ l s', Seq LayoutItem l → s = l ++ s' → ∀ x r, BodyEnd r → ¬ IsEntries U P s' x r)
    (motive_4 := fun k s u _ => StuckAt k u → ∀ key x r, ¬ IsEntry U P s key x r)
    H1 (fun s u _ ih => H2 _ s u ih) (fun s t u a _ ih => H3 _ s t u a ih) (fun s t u a b ih => H4 _ s t u a b ih)
    (fun s t v w u x a b c d ih => H5 _ s t v w u x a b c d ih) (fun s t u a b ih => H6 _ s t u a b ih)
    (fun s t v w u key x a b c d ih => H7 _ s t v w u key x a b c d ih) (fun s t v w u key a b c _ ih => H8 _ s t v w u key a b c ih)
    (fun s i t v u a b _ ih => H9 _ s i t v u a b ih) (fun s i t v w u ls a b c d _ ih => H10 _ s i t v w u ls a b c d ih) H11 H12 h hu [] s .nil rfl es r hr

end Verif
