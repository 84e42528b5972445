import Verif.Proofs.Extend
/-! # One element at a time: consequences for attributes -/
set_option autoImplicit false

namespace Verif
open PRes Spec

section
variable {U : CharClass}

theorem ident_functional {s i r i' r' : Str} (h : Ident U s i r) (h' : Ident U s i' r') : i = i' ∧ r = r' := by
  have a := identifier_iff.2 h
  rw [identifier_iff.2 h'] at a
  injection a with a1 a2; exact ⟨a2.symm, a1.symm⟩

theorem isExpr_functional {s r r' : Str} {e e' : Expr} (h : IsExpr U s e r) (h' : IsExpr U s e' r') : e = e' ∧ r = r' := by
  have a := expression_iff.2 h
  rw [expression_iff.2 h'] at a
  injection a with a1 a2; exact ⟨a2.symm, a1.symm⟩

theorem isBody_functional {s r r' : Str} {b b' : Body} (hr : BodyEnd r) (hr' : BodyEnd r')
    (h : IsBody U s b r) (h' : IsBody U s b' r') : b = b' ∧ r = r' := by
  have a := body_complete hr h
  rw [body_complete hr' h'] at a
  injection a with a1 a2; exact ⟨a2.symm, a1.symm⟩

theorem document_functional {s : Str} {b b' : Body} (h : Document U s b) (h' : Document U s b') : b = b' :=
  (isBody_functional (.inl rfl) (.inl rfl) h h').1

theorem isElement_not_end {s u r : Str} {el : BodyElement} (h : IsElement U s el u) (hr : BodyEnd r) : s ≠ r := by
  rintro rfl
  obtain ⟨i, t, e, hi, -⟩ := isElement_ident h
  cases hi with
  | mk c cs hc _ =>
    rcases hr with rfl | ⟨t, rfl⟩
    · cases e
    · injection e with e _; subst e
      exact absurd hc (not_identStart (by decide) (by decide))

/-- A body that begins with a given element. -/
theorem isBody_cons {s u r : Str} {el : BodyElement} {c : Body} (h0 : SkipLayout s s) (h : IsElement U s el u)
    (hr : BodyEnd r) :
    IsBody U s c r ↔ ∃ b w, c = el :: b ∧ IsElementEnd u w ∧ IsBody U w b r := by
  constructor
  · intro hb
    cases hb with
    | done => rename_i hb; exact absurd (hb.functional layoutItem_prefix h0).symm (isElement_not_end h hr)
    | elem =>
      rename_i t2 u2 w2 el2 els2 a1 a2 a3 a4
      obtain ⟨k1, k2, k3, k4⟩ : SkipLayout s t2 ∧ IsElement U t2 el2 u2 ∧ IsElementEnd u2 w2 ∧
        IsBody U w2 els2 r := ⟨‹_›, ‹_›, ‹_›, ‹_›⟩
      have e := k1.functional layoutItem_prefix h0
      rw [e] at k2
      obtain ⟨e1, e2⟩ := isElement_functional (skipInline_again h0) h k2
      exact ⟨els2, w2, by rw [e1], by rw [e2]; exact k3, k4⟩
  · rintro ⟨b, w, rfl, h1, h2⟩
    exact .elem _ _ _ _ _ _ _ h0 h h1 h2

theorem isBody_layout {l s r : Str} {b : Body} (hl : Seq LayoutItem l) :
    IsBody U (l ++ s) b r ↔ IsBody U s b r := ⟨isBody_unprepend hl, isBody_prepend hl⟩

/-- The same element followed by line ends. -/
theorem isBody_cons_newline {s u N t r : Str} {el : BodyElement} {c : Body} (h0 : SkipLayout s s)
    (h : IsElement U s el u) (hN : NewlineItem N) (hu : u = N ++ t) (hr : BodyEnd r) :
    IsBody U s c r ↔ ∃ b, c = el :: b ∧ IsBody U t b r := by
  rw [isBody_cons h0 h hr]
  subst hu
  constructor
  · rintro ⟨b, w, rfl, hw, hb⟩
    refine ⟨b, rfl, ?_⟩
    generalize hz : N ++ t = z at hw
    cases hw with
    | newline =>
      rename_i hw
      subst hz
      obtain ⟨i, l, hi, hl, e⟩ := hw
      have := (isBody_layout (U := U) (b := b) (r := r) (s := w)
        ((newlineItem_seq hi).append (hl.mono fun _ => newlineItem_seq))).2 hb
      rw [← e] at this
      exact (isBody_layout (newlineItem_seq hN)).1 this
    | eof => simp [newlineItem_ne_nil hN] at hz
  · rintro ⟨b, rfl, hb⟩
    exact ⟨b, t, rfl, .newline _ _ ⟨N, [], hN, .nil, by simp⟩, hb⟩

theorem isExpr_inline {s t r : Str} {e : Expr} (h : SkipInline s t) (he : IsExpr U s e r) : IsExpr U t e r := by
  rcases isExpr_start he with hs | ⟨c, u, rfl, hc⟩
  · have hl : ¬ Head (fun c => ¬ LayoutStart c) s := by
      obtain ⟨i, t, hi, rfl⟩ := hs
      exact not_head (layoutItem_head hi) fun c hc hn => hn hc
    cases he with
    | null => exact absurd ⟨_, _, rfl, by decide⟩ hl
    | true => exact absurd ⟨_, _, rfl, by decide⟩ hl
    | false => exact absurd ⟨_, _, rfl, by decide⟩ hl
    | number =>
      rename_i k hk
      obtain ⟨x, rfl, hn, -⟩ := hk
      refine absurd ?_ hl
      obtain ⟨c, t, e, hc⟩ := isNumber_head hn r
      refine ⟨c, t, e, ?_⟩
      rw [numHead_iff] at hc
      rintro (rfl | rfl | rfl | rfl | rfl | rfl) <;> revert hc <;> decide
    | string =>
      rename_i w hk
      refine absurd ?_ hl
      cases hk with
      | quoted => rename_i h; obtain ⟨src, rfl, -⟩ := h; exact ⟨_, _, rfl, by decide⟩
      | heredoc => rename_i h; obtain ⟨t, rfl⟩ := h.head; exact ⟨_, _, rfl, by decide⟩
    | tuple => exact absurd ⟨_, _, rfl, by decide⟩ hl
    | object =>
      rename_i x es h1 h2
      exact .object _ _ _ _ (layout_of_inline' h h1) h2
    | bracket =>
      rename_i x u w a1 a2 a3 a4
      exact .bracket _ x u w _ _ (layout_of_inline' h ‹_›) ‹_› ‹_› ‹_›
  · have : c :: u = t := skip_eq_of_not_starts h (not_starts_inline (not_starts_layout hc))
    rw [← this]; exact he

theorem inline_head {l : Str} (h : Seq InlineItem l) {P : Char → Prop} (hP : ∀ c, LayoutStart c → ¬ P c) {s : Str}
    (hs : ¬ Head P s) : ¬ Head P (l ++ s) := by
  cases h with
  | nil => exact hs
  | cons i l hi _ => rw [List.append_assoc]; exact not_head (layoutItem_head (inlineItem_layout hi)) hP

theorem ident_inline {i l s : Str} (hi : IsIdent U i) (hl : Seq InlineItem l) (hs : ¬ Head (IdentChar U) s) :
    Ident U (i ++ (l ++ s)) i (l ++ s) :=
  ⟨rfl, hi, inline_head hl (fun _ h => layoutStart_not_identChar h) hs⟩

theorem skip_append {I : Str → Prop} {l s : Str} (hl : Seq I l) (hs : ¬ Starts I s) : Skip I (l ++ s) s :=
  ⟨l, hl, rfl, hs⟩

theorem skipLayout_ident {s i r : Str} (h : Ident U s i r) : SkipLayout s s := by
  obtain ⟨c, t, rfl, hc⟩ := ident_start h
  exact .refl (not_starts_layout hc)

/-- Splitting inline layout and a line terminator from what follows an expression. -/
theorem inline_newline {q N : Str} (hq : Seq InlineItem q) (hN : NewlineItem N) (t : Str) :
    ∃ N' u, NewlineItem N' ∧ u = N' ++ t ∧ SkipInline (q ++ (N ++ t)) u := by
  cases hN with
  | eol _ he =>
    refine ⟨N, _, .eol _ he, rfl, skip_append hq ?_⟩
    cases he
    · exact not_inline_nl
    · exact not_inline_of (by decide) (by decide) (by decide)
  | line _ hl =>
    refine ⟨N, _, .line _ hl, rfl, skip_append hq ?_⟩
    rcases hl.head (t := t) with ⟨u, hu⟩ | ⟨u, hu⟩ <;> rw [hu]
    · exact not_inline_of (by decide) (by decide) (by decide)
    · exact not_inline_slash
  | comment s e hc he =>
    refine ⟨e, _, .eol _ he, rfl, ?_⟩
    rw [List.append_assoc, ← List.append_assoc q]
    refine skip_append (hq.append (.single (.comment _ hc))) ?_
    cases he
    · exact not_inline_nl
    · exact not_inline_of (by decide) (by decide) (by decide)

theorem newlineItem_head_layout {N t : Str} (h : NewlineItem N) : Head LayoutStart (N ++ t) := by
  have := newlineItem_seq h
  cases this with
  | nil => exact absurd rfl (newlineItem_ne_nil h)
  | cons i l hi _ => rw [List.append_assoc]; exact layoutItem_head hi

/-- An attribute with arbitrary layout around its tokens, given the expression read in place. -/
theorem isElement_attribute' {i l1 l2 v q N t : Str} {e : Expr} (hi : IsIdent U i) (h1 : Seq InlineItem l1)
    (h2 : Seq InlineItem l2) (hv' : IsExpr U (v ++ (q ++ (N ++ t))) e (q ++ (N ++ t))) (hq : Seq InlineItem q)
    (hN : NewlineItem N) :
    ∃ N' u, NewlineItem N' ∧ u = N' ++ t ∧
      IsElement U (i ++ (l1 ++ '=' :: (l2 ++ (v ++ (q ++ (N ++ t)))))) (.attribute (.borrowed i) e) u := by
  obtain ⟨N', u, hN', hu, hs⟩ := inline_newline hq hN t
  refine ⟨N', u, hN', hu, .attribute _ _ _ _ ?_⟩
  obtain ⟨w, hw⟩ := skipInline_total (v ++ (q ++ (N ++ t)))
  exact .mk _ _ _ _ w _ _ _ (ident_inline hi h1 (by rw [head_cons]; exact not_identChar (by decide) (by decide)))
    (skip_append h1 (not_inline_of (by decide) (by decide) (by decide))) (hw.prepend h2) (isExpr_inline hw hv') hs

theorem isExpr_before_newline {v q N t : Str} {e : Expr} (hv : IsExpr U v e []) (hq : Seq InlineItem q)
    (hN : NewlineItem N) : IsExpr U (v ++ (q ++ (N ++ t))) e (q ++ (N ++ t)) := by
  have hhead : ∃ d x', LayoutStart d ∧ q ++ (N ++ t) = d :: x' := by
    cases hq with
    | nil => obtain ⟨d, x', e, hd⟩ := newlineItem_head_layout (t := t) hN; exact ⟨d, x', hd, e⟩
    | cons j l hj _ =>
      obtain ⟨d, x', e, hd⟩ := layoutItem_head (t := l ++ (N ++ t)) (inlineItem_layout hj)
      exact ⟨d, x', hd, by rw [List.append_assoc]; exact e⟩
  obtain ⟨d, x', hd, e0⟩ := hhead
  rw [e0]; exact isExpr_ext hd hv

/-- A document beginning with an attribute, given the expression read in place. -/
theorem document_attribute' {i l1 l2 v q N t : Str} {e : Expr} {c : Body} (hi : IsIdent U i) (h1 : Seq InlineItem l1)
    (h2 : Seq InlineItem l2) (hv : IsExpr U (v ++ (q ++ (N ++ t))) e (q ++ (N ++ t))) (hq : Seq InlineItem q)
    (hN : NewlineItem N) :
    Document U (i ++ l1 ++ '=' :: l2 ++ v ++ q ++ N ++ t) c ↔
      ∃ b, c = .attribute (.borrowed i) e :: b ∧ Document U t b := by
  obtain ⟨N', u, hN', hu, hel⟩ := isElement_attribute' hi h1 h2 hv hq hN
  obtain ⟨j, r, hj⟩ := isElement_ident hel
  have := isBody_cons_newline (c := c) (skipLayout_ident hj) hel hN' hu (.inl rfl)
  unfold Document
  rw [← this]
  simp [List.append_assoc]

/-- A document beginning with an attribute. -/
theorem document_attribute {i l1 l2 v q N t : Str} {e : Expr} {c : Body} (hi : IsIdent U i) (h1 : Seq InlineItem l1)
    (h2 : Seq InlineItem l2) (hv : IsExpr U v e []) (hq : Seq InlineItem q) (hN : NewlineItem N) :
    Document U (i ++ l1 ++ '=' :: l2 ++ v ++ q ++ N ++ t) c ↔
      ∃ b, c = .attribute (.borrowed i) e :: b ∧ Document U t b :=
  document_attribute' hi h1 h2 (isExpr_before_newline hv hq hN) hq hN

end
end Verif
