import Verif.Proofs.OldParser
import Verif.Proofs.Concat
/-! # Concatenation of legacy value documents -/
set_option autoImplicit false

namespace Verif
open PRes Spec

section
variable {U : CharClass} {P : F64Parse} {x' : Str}

theorem isValue_start {s r : Str} {v : Value} (h : IsValue U P s v r) :
    Starts LayoutItem s ∨ Head (fun c => ¬ LayoutStart c) s := by
  cases h with
  | null => exact .inr ⟨_, _, rfl, by simp [LayoutStart]⟩
  | true => exact .inr ⟨_, _, rfl, by simp [LayoutStart]⟩
  | false => exact .inr ⟨_, _, rfl, by simp [LayoutStart]⟩
  | number t n v r h =>
    obtain ⟨t, e, hn, -⟩ := h
    rw [e]
    obtain ⟨c, t, e, hc⟩ := isNumber_head hn r
    refine .inr ⟨c, t, e, ?_⟩
    rw [numHead_iff] at hc
    rintro (rfl | rfl | rfl | rfl | rfl | rfl) <;> revert hc <;> decide
  | string =>
    rename_i w h
    cases h with
    | quoted => rename_i h; obtain ⟨src, rfl, -⟩ := h; exact .inr ⟨_, _, rfl, by simp [LayoutStart]⟩
    | heredoc => rename_i h; obtain ⟨t, rfl⟩ := h.head; exact .inr ⟨_, _, rfl, by simp [LayoutStart]⟩
  | list => exact .inr ⟨_, _, rfl, by simp [LayoutStart]⟩
  | map =>
    rename_i t es h1 h2
    by_cases hs : Starts LayoutItem s
    · exact .inl hs
    · exact .inr ⟨_, _, skip_eq_of_not_starts h1 hs, by simp [LayoutStart]⟩

theorem layout_value_ext {s t r y : Str} {v : Value} (h : SkipLayout s t) (he : IsValue U P t v r) :
    SkipLayout (s ++ y) (t ++ y) := by
  rcases isValue_start he with h' | ⟨c, u, rfl, hc⟩
  · exact absurd h' h.not_starts
  · exact skip_ext_cons hc h

theorem inline_value_ext {s t r y : Str} {v : Value} (h : SkipInline s t) (he : IsValue U P t v r) :
    SkipInline (s ++ y) (t ++ y) := by
  rcases isValue_start he with h' | ⟨c, u, rfl, hc⟩
  · exact skip_ext h (starts_layout_ext h' h.not_starts)
  · exact skipInline_ext_cons hc h

theorem isKey_ext {s r : Str} {k : Key} (h : IsKey U s k r) : IsKey U (s ++ '\n' :: x') k (r ++ '\n' :: x') := by
  cases h with
  | ident i _ h => exact .ident _ _ _ (ident_ext (by decide) h)
  | string v _ h => exact .string _ _ _ (quoted_ext h)

theorem stringLabels_ext {s r y : Str} {ls : List Str} (h : IsStringLabels s ls r) :
    IsStringLabels (s ++ y) ls (r ++ y) := by
  induction h with
  | nil => exact .nil _
  | cons s t u l ls r h1 h2 _ ih =>
    refine .cons _ _ _ _ _ _ ?_ (quoted_ext h2) ih
    obtain ⟨src, rfl, -⟩ := h2
    exact skipInline_ext_cons (by decide) h1

theorem entryEnd_ext {s r y : Str} (h : IsEntryEnd s r) (hs : s ≠ []) : IsEntryEnd (s ++ y) (r ++ y) := by
  cases h with
  | comma => exact .comma _ _ (skip_ext_cons (by decide) ‹_›)
  | newline => exact .newline _ _ (newlines_ext ‹_›)
  | eof => exact absurd rfl hs

theorem entryEnd_inline {s r : Str} (h : IsEntryEnd s r) (hs : ¬ Starts InlineItem s) :
    ¬ Starts InlineItem (s ++ '\n' :: x') := by
  cases h with
  | comma _ _ h =>
    by_cases hl : Starts LayoutItem s
    · exact starts_layout_ext hl hs
    · rw [skip_eq_of_not_starts h hl]; exact not_inline_of (by decide) (by decide) (by decide)
  | newline => exact starts_layout_ext (newlines_starts ‹_›) hs
  | eof => exact not_inline_nl

theorem isEntry_again {s r : Str} {k : Key} {v : Value} (h : IsEntry U P s k v r) : SkipInline r r := by
  cases h with
  | «attribute» => exact Skip.again ‹SkipInline _ r›
  | map => exact Skip.again ‹SkipInline _ r›
  | block => exact Skip.again ‹SkipInline _ r›

theorem isEntry_start {s r : Str} {k : Key} {v : Value} (h : IsEntry U P s k v r) :
    Head (fun c => ¬ LayoutStart c) s := by
  obtain ⟨t, ht⟩ := isEntry_key h
  obtain ⟨c, u, e, hc⟩ := isKey_head ht
  refine ⟨c, u, e, ?_⟩
  rcases hc with hc | rfl
  · exact identStart_not_layout hc
  · decide

theorem old_ext_aux :
    (∀ {s : Str} {v : Value} {r : Str}, IsValue U P s v r → IsValue U P (s ++ '\n' :: x') v (r ++ '\n' :: x')) ∧
    (∀ {s : Str} {es : List (Key × Value)} {r : Str}, IsEntries U P s es r →
      Head (fun c => ¬ LayoutStart c) r → IsEntries U P (s ++ '\n' :: x') es (r ++ '\n' :: x')) ∧
    (∀ {s : Str} {k : Key} {v : Value} {r : Str}, IsEntry U P s k v r → ¬ Starts InlineItem (r ++ '\n' :: x') →
      IsEntry U P (s ++ '\n' :: x') k v (r ++ '\n' :: x')) := by
  refine old_induct (m1 := fun s v r => IsValue U P (s ++ '\n' :: x') v (r ++ '\n' :: x'))
    (m2 := fun s v r => IsListBody U P (s ++ '\n' :: x') v (r ++ '\n' :: x'))
    (m3 := fun s v r => IsListTail U P (s ++ '\n' :: x') v (r ++ '\n' :: x'))
    (m4 := fun s es r => Head (fun c => ¬ LayoutStart c) r → IsEntries U P (s ++ '\n' :: x') es (r ++ '\n' :: x'))
    (m5 := fun s k v r => ¬ Starts InlineItem (r ++ '\n' :: x') →
      IsEntry U P (s ++ '\n' :: x') k v (r ++ '\n' :: x')) ?_ ?_ ?_ ?_ ?_ ?_ ?_ ?_ ?_ ?_ ?_ ?_ ?_ ?_ ?_ ?_
  · intro r; exact .null _
  · intro r; exact .true _
  · intro r; exact .false _
  · intro t n v r h h'
    have := numberTok_ext (x' := x') (d := '\n') (by decide) h
    rw [List.append_assoc] at this ⊢
    exact .number _ _ _ _ this h'
  · intro s v r h; exact .string _ _ _ (stringTok_ext h)
  · intro s vs r _ ih; exact .list _ _ _ ih
  · intro s t es r h _ ih
    exact .map _ _ _ _ (skip_ext_cons (by decide) h) (ih ⟨_, _, rfl, by decide⟩)
  · intro s r h; exact .empty _ _ (tupleEnd_ext h)
  · intro s t u v vs r h h' _ ih ih'; exact .elems _ _ _ _ _ _ (layout_value_ext h h') ih ih'
  · intro s r h; exact .last _ _ (tupleEnd_ext h)
  · intro s t u w v vs r h h' hv _ ih ih'
    exact .more _ _ _ _ _ _ _ (skip_ext_cons (by decide) h) (layout_value_ext h' hv) ih ih'
  · rintro s r h ⟨c, t, rfl, hc⟩; exact .done _ _ (skip_ext_cons hc h)
  · intro s t u w k v es r h1 h2 h3 h4 ih2 ih4 hr
    obtain ⟨c, t', rfl, hc⟩ := isEntry_start h2
    refine .entry _ _ _ _ _ _ _ _ (skip_ext_cons hc h1) (ih2 (entryEnd_inline h3 (isEntry_again h2).not_starts))
      (entryEnd_ext h3 ?_) (ih4 hr)
    rintro rfl
    have := List.suffix_nil.1 ((isEntries_suffix h4).trans (entryEnd_suffix h3))
    subst this
    exact Head.not_nil hr
  · intro s t u w x r k v h1 h2 h3 h4 h5 ih hn
    exact .attribute _ _ _ _ _ _ _ _ (isKey_ext h1) (skipInline_ext_cons (by decide) h2) (inline_value_ext h3 h4) ih
      (skip_ext h5 hn)
  · intro s i t u w r es h1 h2 h3 h4 ih hn
    exact .map _ _ _ _ _ _ _ (ident_ext (by decide) h1) (skip_ext_cons (by decide) h2) (ih ⟨_, _, rfl, by decide⟩)
      (skip_ext h4 hn)
  · intro s i t u w x r ls es h1 h2 h3 h4 h5 h6 ih hn
    exact .block _ _ _ _ _ _ _ _ _ (ident_ext (by decide) h1) (stringLabels_ext h2) h3 (skip_ext_cons (by decide) h4)
      (ih ⟨_, _, rfl, by decide⟩) (skip_ext h6 hn)

theorem isEntry_functional {s r r' : Str} {k k' : Key} {v v' : Value} (h0 : SkipInline s s) (h : IsEntry U P s k v r)
    (h' : IsEntry U P s k' v' r') : k = k' ∧ v = v' ∧ r = r' := by
  have a := oldAttribute_complete (oldN_complete (U := U) (P := P) (s.length + 1)) h0 (by omega) h
  have b := oldAttribute_complete (oldN_complete (U := U) (P := P) (s.length + 1)) h0 (by omega) h'
  rw [a] at b
  injection b with h1 h2
  injection h2 with h2 h3
  exact ⟨h2, h3, h1⟩

theorem isEntries_functional {s r r' : Str} {es es' : List (Key × Value)} (hr : BodyEnd r) (hr' : BodyEnd r')
    (h : IsEntries U P s es r) (h' : IsEntries U P s es' r') : es = es' ∧ r = r' := by
  have a := mapValues_complete hr h
  rw [mapValues_complete hr' h'] at a
  injection a with a1 a2
  injection a2 with a2
  exact ⟨a2.symm, a1.symm⟩

theorem isEntries_layout {l s r : Str} {b : List (Key × Value)} (hl : Seq LayoutItem l) :
    IsEntries U P (l ++ s) b r ↔ IsEntries U P s b r := ⟨isEntries_unprepend hl, isEntries_prepend hl⟩

/-- After a document and a line end come the entries of what follows, unless it begins with a comma. -/
theorem isEntries_concat {t : Str} (ht : ∀ u, ¬ SkipLayout t (',' :: u)) {s : Str} {a : List (Key × Value)} {r : Str}
    (h : IsEntries U P s a r) : r = [] → ∀ c,
    (IsEntries U P (s ++ '\n' :: t) c [] ↔ ∃ b, c = a ++ b ∧ IsEntries U P t b []) := by
  induction a generalizing s with
  | nil =>
    rintro rfl c
    have h : SkipLayout s [] := by cases h; assumption
    obtain ⟨l, hl, rfl, -⟩ := h
    rw [List.append_nil, show l ++ '\n' :: t = (l ++ ['\n']) ++ t by simp, isEntries_layout (hl.append nl_layout)]
    simp
  | cons e es ih =>
    rintro rfl c
    obtain ⟨k, x⟩ := e
    obtain ⟨t0, u, w, h1, h2, h3, h4⟩ : ∃ t u w, SkipLayout s t ∧ IsEntry U P t k x u ∧ IsEntryEnd u w ∧
      IsEntries U P w es [] := by cases h; exact ⟨_, _, _, ‹_›, ‹_›, ‹_›, ‹_›⟩
    have hn := entryEnd_inline (x' := t) h3 (isEntry_again h2).not_starts
    have h2' := (old_ext_aux (x' := t)).2.2 h2 hn
    obtain ⟨d, t1, rfl, hd⟩ := isEntry_start h2
    have h1' := skip_ext_cons (y := '\n' :: t) hd h1
    have hsp : ∀ {l y : Str}, SkipLayout (l ++ '\n' :: t) y → Seq LayoutItem l → SkipLayout t y := by
      intro l y h hl
      rw [show l ++ '\n' :: t = (l ++ ['\n']) ++ t by simp] at h
      exact h.unprepend layoutItem_prefix (hl.append nl_layout)
    have hrest : ∀ els', (∃ w, IsEntryEnd (u ++ '\n' :: t) w ∧ IsEntries U P w els' []) ↔
        ∃ b, els' = es ++ b ∧ IsEntries U P t b [] := by
      intro els'
      cases h3 with
      | comma =>
        rename_i h3
        have h3' := skip_ext_cons (y := '\n' :: t) (by decide) h3
        rw [← ih h4 rfl]
        constructor
        · rintro ⟨w', hw, hb⟩
          generalize hz : u ++ '\n' :: t = z at hw
          cases hw with
          | comma =>
            rename_i hw
            subst hz
            have := hw.functional layoutItem_prefix h3'
            injection this with _ this
            rw [← this]; exact hb
          | newline =>
            rename_i hw
            subst hz
            obtain ⟨l, hl, e⟩ := newlines_layout hw
            rw [e] at h3'
            exact absurd hb (isEntries_no_comma (.inl rfl) (h3'.unprepend layoutItem_prefix hl))
          | eof => simp at hz
        · intro h; exact ⟨_, .comma _ _ h3', h⟩
      | newline =>
        rename_i h3
        rw [← ih h4 rfl]
        obtain ⟨l, hl, e⟩ := newlines_layout h3
        constructor
        · rintro ⟨w', hw, hb⟩
          generalize hz : u ++ '\n' :: t = z at hw
          cases hw with
          | comma =>
            rename_i hw
            subst hz
            rw [e, List.append_assoc] at hw
            have hw := hw.unprepend layoutItem_prefix hl
            exfalso
            -- a comma after the layout: either already in the first text or at the start of the second
            cases h4 with
            | done =>
              rename_i h4
              obtain ⟨l', hl', e', -⟩ := h4
              rw [List.append_nil] at e'
              rw [e'] at hw
              exact ht _ (hsp hw hl')
            | entry =>
              obtain ⟨t5, u5, w5, k5, x5, es5, k1, k2⟩ : ∃ t5 u5 w5 k5 x5 es5, SkipLayout w t5 ∧ IsEntry U P t5 k5 x5 u5 ∧
                IsEntryEnd u5 w5 ∧ IsEntries U P w5 es5 [] := ⟨_, _, _, _, _, _, ‹_›, ‹_›, ‹_›, ‹_›⟩
              obtain ⟨c5, t6, rfl, hc5⟩ := isEntry_start k2.1
              have := hw.functional layoutItem_prefix (skip_ext_cons (y := '\n' :: t) hc5 k1)
              injection this with this _
              subst this
              obtain ⟨y, hy⟩ := isEntry_key k2.1
              have := isKey_head hy
              rw [head_cons] at this
              rcases this with h | h
              · exact absurd h (not_identStart (by decide) (by decide))
              · cases h
          | newline =>
            rename_i hw
            subst hz
            obtain ⟨w1, _, l1, p1, p2, rfl⟩ := newline_complete hw
            obtain ⟨w2, _, l2, q1, q2, q3⟩ := newline_complete (newlines_ext (y := '\n' :: t) h3)
            rw [p1] at q1
            injection q1 with q1 _; subst q1
            rw [q3]
            exact isEntries_prepend q2 (isEntries_unprepend p2 hb)
          | eof => simp at hz
        · intro h; exact ⟨_, .newline _ _ (newlines_ext h3), h⟩
      | eof =>
        have : es = [] := by
          cases h4 with
          | done => rfl
          | entry =>
            obtain ⟨t5, u5, k5, x5, k1, k2⟩ : ∃ t5 u5 k5 x5, SkipLayout [] t5 ∧ IsEntry U P t5 k5 x5 u5 :=
              ⟨_, _, _, _, ‹_›, ‹_›⟩
            obtain ⟨l, hl, he, -⟩ := k1
            rw [(List.append_eq_nil_iff.1 he.symm).2] at k2
            exact absurd (isEntry_start k2) Head.not_nil
        subst this
        constructor
        · rintro ⟨w, hw, hb⟩
          refine ⟨els', rfl, ?_⟩
          cases hw with
          | comma =>
            rename_i hw
            exact absurd (hsp (l := []) hw .nil) (ht _)
          | newline =>
            rename_i hw
            obtain ⟨l, hl, e⟩ := newlines_layout hw
            have := isEntries_prepend hl hb
            rw [← e] at this
            exact isEntries_unprepend nl_layout this
        · rintro ⟨b, rfl, hb⟩
          exact ⟨t, .newline _ _ ⟨['\n'], [], .eol _ .lf, .nil, rfl⟩, hb⟩
    constructor
    · intro h
      generalize hc : c = c' at h
      cases h with
      | done =>
        rename_i h
        cases h.functional layoutItem_prefix h1'
      | entry =>
        obtain ⟨t2, u2, w2, k2, x2, es2, hc, h5, h6, h7, h8⟩ : ∃ t2 u2 w2 k2 x2 es2,
          c = (k2, x2) :: es2 ∧ SkipLayout (s ++ '\n' :: t) t2 ∧
          IsEntry U P t2 k2 x2 u2 ∧ IsEntryEnd u2 w2 ∧ IsEntries U P w2 es2 [] :=
          ⟨_, _, _, _, _, _, hc, ‹_›, ‹_›, ‹_›, ‹_›⟩
        have e1 := h5.functional layoutItem_prefix h1'
        rw [e1] at h6
        obtain ⟨e2, e3, e4⟩ := isEntry_functional (skipInline_again h1') h2' h6
        rw [← e4] at h7
        obtain ⟨b, e5, hb⟩ := (hrest es2).1 ⟨_, h7, h8⟩
        rename_i hc0 _
        exact ⟨b, by rw [← hc0, hc, e5, e2, e3]; rfl, hb⟩
    · rintro ⟨b, rfl, hb⟩
      obtain ⟨w, hw, hb'⟩ := (hrest (es ++ b)).2 ⟨b, rfl, hb⟩
      exact .entry _ _ _ _ _ _ _ _ h1' h2' hw hb'

theorem oldDocument_concat {s t : Str} {a c : List (Key × Value)} (h : OldDocument U P s a)
    (ht : ∀ u, ¬ SkipLayout t (',' :: u)) :
    OldDocument U P (s ++ '\n' :: t) c ↔ ∃ b, c = a ++ b ∧ OldDocument U P t b :=
  isEntries_concat ht h rfl c

end
end Verif
