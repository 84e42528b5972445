import Verif.Proofs.OldLaid
import Verif.Proofs.Agree
import Verif.Proofs.Truncate
/-! # A legacy document cut off -/
set_option autoImplicit false

namespace Verif
open PRes Spec

section
variable {U : CharClass} {P : F64Parse}

theorem isKey_funct {s r r' : Str} {k k' : Key} (h : IsKey U s k r) (h' : IsKey U s k' r') : k = k' ∧ r = r' := by
  have hx : ∀ {i t v r : Str}, Ident U s i t → Quoted PlainLine s v r → False := by
    intro i t v r h1 h2
    obtain ⟨src, rfl, -⟩ := h2
    obtain ⟨h1, h3, -⟩ := h1
    cases h3 with
    | mk c cs hc _ =>
      injection h1 with h1 _
      subst h1
      exact not_identStart (by decide) (by decide) hc
  cases h with
  | ident =>
    rename_i i h
    cases h' with
    | ident => rename_i i' h'; obtain ⟨rfl, rfl⟩ := ident_functional h h'; exact ⟨rfl, rfl⟩
    | string => rename_i h'; exact (hx h h').elim
  | string =>
    rename_i i h
    cases h' with
    | ident => rename_i i' h'; exact (hx h' h).elim
    | string => rename_i h'; obtain ⟨rfl, rfl⟩ := quotedLine_funct h h'; exact ⟨rfl, rfl⟩

/-- Two ends of the same entry. -/
theorem entryEnd_two {u w w' : Str} {b : List (Key × Value)} (h : IsEntryEnd u w) (h' : IsEntryEnd u w') (hb : IsEntries U P w b []) :
    IsEntries U P w' b [] ∨ ∃ y, SkipLayout w' (',' :: y) ∧ IsEntries U P y b [] := by
  cases h with
  | comma =>
    rename_i h
    cases h' with
    | comma =>
      rename_i h'
      have := h.functional layoutItem_prefix h'
      injection this with _ this
      subst this; exact .inl hb
    | newline =>
      rename_i h'
      obtain ⟨l, hl, rfl⟩ := newlines_layout h'
      exact .inr ⟨w, h.unprepend layoutItem_prefix hl, hb⟩
    | eof => obtain ⟨l, _, e, _⟩ := h; simp at e
  | newline =>
    rename_i h
    have hne : u ≠ [] := by
      rintro rfl
      obtain ⟨i, l, hi, _, e⟩ := h; simp [newlineItem_ne_nil hi] at e
    obtain ⟨l, hl, e0⟩ := newlines_layout h
    cases h' with
    | eof => exact absurd rfl hne
    | comma =>
      rename_i h'
      subst e0
      exact absurd hb (isEntries_no_comma (.inl rfl) (h'.unprepend layoutItem_prefix hl))
    | newline =>
      rename_i h'
      subst e0
      obtain ⟨l', hl', e⟩ := newlines_layout h'
      have := (isEntries_layout hl).2 hb
      rw [e] at this
      exact .inl ((isEntries_layout hl').1 this)
  | eof =>
    cases h' with
    | comma => rename_i h; obtain ⟨l, _, e, _⟩ := h; simp at e
    | newline => rename_i h; obtain ⟨i, l, hi, _, e⟩ := h; simp [newlineItem_ne_nil hi] at e
    | eof => exact .inl hb

theorem isEntries_head {s u : Str} {k : Key} {v : Value} {c : List (Key × Value)} (h : IsEntry U P s k v u) (hb : IsEntries U P s c []) :
    ∃ c' w, c = (k, v) :: c' ∧ IsEntryEnd u w ∧ IsEntries U P w c' [] := by
  obtain ⟨d, s0, rfl, hd⟩ := isEntry_start h
  have h0 : SkipLayout (d :: s0) (d :: s0) := .refl (not_starts_layout hd)
  cases hb with
  | done =>
    rename_i hb; have := hb.functional layoutItem_prefix h0; cases this
  | entry =>
    rename_i t u' w k' v' es _ _ _ _
    obtain ⟨h1, h2, h3, h4⟩ : SkipLayout (d :: s0) t ∧ IsEntry U P t k' v' u' ∧ IsEntryEnd u' w ∧ IsEntries U P w _ [] :=
      ⟨‹_›, ‹_›, ‹_›, ‹_›⟩
    have e := h1.functional layoutItem_prefix h0
    subst e
    obtain ⟨rfl, rfl, rfl⟩ := isEntry_functional (skipInline_again h0) h h2
    exact ⟨_, _, rfl, h3, h4⟩

theorem isEntry_no_comma {s u y : Str} {k : Key} {v : Value} (h : IsEntry U P s k v u) : ¬ SkipLayout s (',' :: y) := by
  intro hs
  obtain ⟨t, ht⟩ := isEntry_key h
  obtain ⟨c, s0, rfl, hc⟩ := isKey_head ht
  obtain ⟨d, s1, e, hd⟩ := isEntry_start h
  injection e with e1 e2
  subst e1
  have := hs.functional layoutItem_prefix (.refl (not_starts_layout hd))
  injection this with this _
  subst this
  rcases hc with hc | hc
  · exact not_identStart (by decide) (by decide) hc
  · revert hc; decide

/-- Entries with their ends, with anything after them that goes on to a document: they come first. -/
theorem laidEntries_rest {es : List (Key × Value)} {s : Str} (hl : LaidEntries U P es s) :
    ∀ r c, IsEntries U P (s ++ r) c [] →
      ∃ c', c = es ++ c' ∧ (IsEntries U P r c' [] ∨ ∃ y, SkipLayout r (',' :: y) ∧ IsEntries U P y c' []) := by
  induction es generalizing s with
  | nil =>
    intro r c hb
    cases hl with
    | done _ hl => exact ⟨c, rfl, .inl ((isEntries_layout hl).1 hb)⟩
  | cons e es ih =>
    intro r c hb
    cases hl with
    | entry l s n t h k v _ hl he hn hx ht =>
      have e : l ++ s ++ n ++ t ++ r = l ++ (s ++ (n ++ (t ++ r))) := by simp
      rw [e] at hb
      have hb := (isEntries_layout hl).1 hb
      obtain ⟨⟨u, h1, h2⟩, h3⟩ := laidEntryEnd_of hn (t ++ r)
      have hel := laidOld_is.2.2 he (n ++ (t ++ r)) u h1 (hx.append _) h3
      obtain ⟨c1, w, rfl, hw, hb1⟩ := isEntries_head hel hb
      rcases entryEnd_two hw h2 hb1 with hb2 | ⟨y, hy, hb2⟩
      · obtain ⟨c', rfl, hc'⟩ := ih ht r c1 hb2
        exact ⟨c', rfl, hc'⟩
      · cases ht with
        | done _ hl2 => exact ⟨c1, rfl, .inr ⟨y, hy.unprepend layoutItem_prefix hl2, hb2⟩⟩
        | entry l2 s2 n2 t2 h2' k2 v2 _ hl2 he2 hn2 hx2 ht2 =>
          exfalso
          have e : l2 ++ s2 ++ n2 ++ t2 ++ r = l2 ++ (s2 ++ (n2 ++ (t2 ++ r))) := by simp
          rw [e] at hy
          obtain ⟨⟨u2, k1, _⟩, k3⟩ := laidEntryEnd_of hn2 (t2 ++ r)
          exact isEntry_no_comma (laidOld_is.2.2 he2 (n2 ++ (t2 ++ r)) u2 k1 (hx2.append _) k3) (hy.unprepend layoutItem_prefix hl2)

/-- A value that begins as a number is one. -/
theorem isValue_number {s r : Str} {v : Value} (hs : Head (fun c => IsDig c ∨ c = '.' ∨ c = '+' ∨ c = '-') s)
    (h : IsValue U P s v r) : ∃ t n, s = t ++ r ∧ NumberTok s n r ∧ NumberValue P t v := by
  obtain ⟨c, u, rfl, hc⟩ := hs
  have hl := num_not_layout hc
  have hx : ∀ d, (d = '{' ∨ d = '[' ∨ d = 'n' ∨ d = 't' ∨ d = 'f' ∨ d = '"' ∨ d = '<') → c ≠ d := by
    rw [numHead_iff] at hc
    rintro d hd rfl
    rcases hd with rfl | rfl | rfl | rfl | rfl | rfl | rfl <;> revert hc <;> decide
  generalize hz : c :: u = z at h
  cases h with
  | null => injection hz with h1; exact absurd h1 (hx _ (by simp))
  | true => injection hz with h1; exact absurd h1 (hx _ (by simp))
  | false => injection hz with h1; exact absurd h1 (hx _ (by simp))
  | number => rename_i t n h1 h2; exact ⟨t, _, rfl, ‹_›, ‹_›⟩
  | string =>
    rename_i h1
    obtain ⟨d, _, e, hd⟩ := stringTok_head h1
    rw [e] at hz; injection hz with hz
    exact absurd hz (hx _ (by rcases hd with rfl | rfl <;> simp))
  | list => injection hz with h1; exact absurd h1 (hx _ (by simp))
  | map =>
    rename_i h1 _
    subst hz
    have := h1.functional layoutItem_prefix (skip_self hl)
    injection this with this _
    exact absurd this.symm (hx _ (by simp))

theorem isEntry_inv {s r : Str} {k : Key} {v : Value} (h : IsEntry U P s k v r) :
    (∃ t u w x, IsKey U s k t ∧ SkipInline t ('=' :: u) ∧ SkipInline u w ∧ IsValue U P w v x) ∨
    (∃ i t u, Ident U s i t ∧ SkipLayout t ('{' :: u)) ∨
    ∃ i t u ls, Ident U s i t ∧ IsStringLabels t ls u ∧ ls ≠ [] := by
  cases h with
  | «attribute» => exact .inl ⟨_, _, _, _, ‹_›, ‹_›, ‹_›, ‹_›⟩
  | map => exact .inr (.inl ⟨_, _, _, ‹_›, ‹_›⟩)
  | block => exact .inr (.inr ⟨_, _, _, _, ‹_›, ‹_›, ‹_›⟩)

/-- The last entry of a text that is cut off there: it is the entry of the whole text, or its number goes on. -/
theorem laidEntry_cut {k : Key} {v : Value} {t r : Str} {c : List (Key × Value)} (he : LaidEntry U P none k v t)
    (hb : IsEntries U P (t ++ r) c []) :
    (∃ c', c = (k, v) :: c') ∨
    ∃ (a q : Str) (n' n : Number) (v' : Value) (c' : List (Key × Value)), c = (k, v') :: c' ∧ a <:+ t ∧ q <+: r ∧ q ≠ [] ∧
      IsNumber a n' ∧ IsNumber (a ++ q) n ∧ NumberValue P a v ∧ NumberValue P (a ++ q) v' := by
  obtain ⟨x, hx⟩ := skipInline_total r
  have hinner : ∀ {es : List (Key × Value)} {s : Str} (w : Str), LaidEntries U P es s →
      IsEntries U P (s ++ '}' :: w) es ('}' :: w) := by
    intro es s w h
    have := laidOld_is.2.1 h ('}' :: w) [] ('}' :: w) (.done _ _ (.refl (not_starts_layout (by decide))))
    simpa using this
  have hbrace : ∀ {l : Str} (s : Str), AnyLayout l → ¬ Head (IdentChar U) (l ++ '{' :: s) := fun s hl =>
    layout_head hl (fun _ h => layoutStart_not_identChar h) (by rw [head_cons]; exact not_identChar (by decide) (by decide))
  cases he with
  | map i l s n es hi hl hs hn =>
    have e : i ++ l ++ '{' :: s ++ '}' :: n ++ r = i ++ (l ++ '{' :: (s ++ '}' :: (n ++ r))) := by simp
    rw [e] at hb
    obtain ⟨c', _, rfl, -⟩ := isEntries_head
      (.map _ _ _ _ _ _ _ ⟨rfl, hi, hbrace _ hl⟩ (skip_append hl (not_starts_layout (by decide))) (hinner _ hs) (hx.prepend hn)) hb
    exact .inl ⟨c', rfl⟩
  | block i ps l s n ls es hi hps hne hl hs hn =>
    have e : i ++ ps ++ l ++ '{' :: s ++ '}' :: n ++ r = i ++ (ps ++ (l ++ '{' :: (s ++ '}' :: (n ++ r)))) := by simp
    rw [e] at hb
    obtain ⟨h1, h2⟩ := laidOldLabels_of (U := U) hps (l ++ '{' :: (s ++ '}' :: (n ++ r)))
    obtain ⟨c', _, rfl, -⟩ := isEntries_head (.block _ _ _ _ _ _ _ _ _ ⟨rfl, hi, h2 (hbrace _ hl)⟩ h1 hne
      (skip_append hl (not_starts_layout (by decide))) (hinner _ hs) (hx.prepend hn)) hb
    exact .inl ⟨c', rfl⟩
  | «attribute» ks l m t n _ _ _ hk hl hm ht hnn h0 =>
    have e : ks ++ l ++ '=' :: m ++ t ++ n ++ r = ks ++ (l ++ '=' :: (m ++ (t ++ (n ++ r)))) := by simp
    rw [e] at hb
    have hkey : ∀ y, IsKey U (ks ++ (l ++ '=' :: y)) k (l ++ '=' :: y) := fun y =>
      laidOldKey_isKey hk (inline_head hl (fun _ h => layoutStart_not_identChar h)
        (by rw [head_cons]; exact not_identChar (by decide) (by decide)))
    have heq : ∀ y, SkipInline (l ++ '=' :: y) ('=' :: y) := fun y =>
      skip_append hl (not_inline_of (by decide) (by decide) (by decide))
    by_cases hne : NumberEnds t (n ++ r)
    · obtain ⟨w, h1, h2⟩ := inline_then_value hm (laidOld_is_ends.1 ht (n ++ r) (.none _) hne)
      obtain ⟨c', _, rfl, -⟩ := isEntries_head (.attribute _ _ _ w _ _ _ _ (hkey _) (heq _) h1 h2 (hx.prepend hnn)) hb
      exact .inl ⟨c', rfl⟩
    · have hn : n = [] := by
        cases hnn with
        | nil => rfl
        | cons j n' hj _ =>
          exact absurd (numberEnds_of (by
            rw [List.append_assoc]
            exact not_head (layoutItem_head (inlineItem_layout hj)) fun _ => layoutStart_not_num)) hne
      subst hn
      rw [List.nil_append] at hb hne
      have ⟨n', hn'⟩ : ∃ n', IsNumber t n' := by
        apply Classical.byContradiction
        intro hx; exact hne fun n hn => absurd ⟨n, hn⟩ hx
      have hv : NumberValue P t v := by
        have h1 := laidOld_is.1 ht [] (.none _) Head.not_nil
        obtain ⟨t', _, e, _, h⟩ := isValue_number (isNumber_head hn' []) h1
        obtain rfl : t = t' := by simpa using e
        exact h
      obtain ⟨q, r', n, rfl, hn, htok⟩ := numberTok_longest hn' r
      have hq : q ≠ [] := by
        rintro rfl
        apply hne
        intro n2 hn2
        obtain ⟨t', e3, h3, h4⟩ := htok
        obtain rfl : t = t' := by simpa using e3
        exact ⟨t, by simp, hn2, h4⟩
      have hhead := isNumber_head hn r'
      rw [List.append_assoc] at hhead htok
      -- the first entry of the whole text
      cases hb with
      | done =>
        rename_i hb
        exfalso
        obtain ⟨d, s0, e, hd⟩ := isKey_head (hkey (m ++ (t ++ (q ++ r'))))
        rw [e] at hb
        have hd' : ¬ LayoutStart d := by
          rcases hd with hd | rfl
          · exact identStart_not_layout hd
          · decide
        have := hb.functional layoutItem_prefix (skip_self hd')
        cases this
      | entry =>
        rename_i t0 u0 w0 k0 v0 _ _ _ _ _
        obtain ⟨h1, h2⟩ : SkipLayout (ks ++ (l ++ '=' :: (m ++ (t ++ (q ++ r'))))) t0 ∧ IsEntry U P t0 k0 v0 u0 := ⟨‹_›, ‹_›⟩
        have hself : SkipLayout (ks ++ (l ++ '=' :: (m ++ (t ++ (q ++ r'))))) (ks ++ (l ++ '=' :: (m ++ (t ++ (q ++ r'))))) := by
          obtain ⟨d, s0, e, hd⟩ := isKey_head (hkey (m ++ (t ++ (q ++ r'))))
          rw [e]
          refine skip_self ?_
          rcases hd with hd | rfl
          · exact identStart_not_layout hd
          · decide
        have := h1.functional layoutItem_prefix hself
        subst this
        rcases isEntry_inv h2 with ⟨t1, u1, w1, x1, k1, k2, k3, k4⟩ | ⟨i, t1, u1, k1, k2⟩ | ⟨i, t1, u1, ls, k1, k2, hls⟩
        · obtain ⟨rfl, rfl⟩ := isKey_funct (hkey _) k1
          have := (heq _).functional inlineItem_prefix k2
          injection this with _ this
          subst this
          have hw := k3.unprepend inlineItem_prefix hm
          have hself2 : SkipInline (t ++ (q ++ r')) (t ++ (q ++ r')) := by
            obtain ⟨d, s0, e, hd⟩ := hhead
            rw [e]; exact skipInline_again (skip_self (num_not_layout hd))
          have := hw.functional inlineItem_prefix hself2
          subst this
          obtain ⟨t2, n2, e2, k6, k7⟩ := isValue_number hhead k4
          obtain ⟨rfl, rfl⟩ := numberTok_funct htok k6
          have : t2 = t ++ q := by
            rw [← List.append_assoc] at e2
            exact (List.append_cancel_right e2).symm
          subst this
          exact .inr ⟨t, q, n', n, v0, _, rfl, ⟨ks ++ l ++ '=' :: m, by simp⟩, ⟨r', rfl⟩, hq, hn', hn, hv, k7⟩
        · obtain ⟨_, rfl⟩ := isKey_funct (hkey _) (.ident _ _ _ k1)
          exfalso
          have hy : SkipLayout (l ++ '=' :: (m ++ (t ++ (q ++ r')))) ('=' :: (m ++ (t ++ (q ++ r')))) :=
            skip_append (hl.mono fun _ h => .single (inlineItem_layout h)) (not_starts_layout (by decide))
          have := hy.functional layoutItem_prefix k2
          injection this with this _; revert this; decide
        · obtain ⟨_, rfl⟩ := isKey_funct (hkey _) (.ident _ _ _ k1)
          exfalso
          cases k2 with
          | nil => exact hls rfl
          | cons =>
            rename_i tj uj lj lsj j1 j2 j3
            have := (heq _).functional inlineItem_prefix ‹SkipInline _ tj›
            subst this
            obtain ⟨src, e, -⟩ := ‹Quoted PlainLine _ _ _›
            injection e with e _; revert e; decide

end
end Verif
