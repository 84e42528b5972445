import Verif.Proofs.Safety
/-! # Text after a line end does not influence what precedes it

Every relation of the grammar is preserved when a text beginning with a line feed is appended to the input
and to the remaining input. Consequence: documents can be concatenated. -/
set_option autoImplicit false

namespace Verif
open PRes Spec

section
variable {U : CharClass} {x' : Str} {d : Char}

instance : DecidablePred LayoutStart := fun c => by unfold LayoutStart; infer_instance

instance : DecidablePred fun c => ¬ LayoutStart c := fun c => inferInstanceAs (Decidable (¬ LayoutStart c))

/-! ## lookahead -/

theorem notHead_ext {P : Char → Prop} {r : Str} (hP : ¬ P d) (h : ¬ Head P r) : ¬ Head P (r ++ d :: x') := by
  cases r with
  | nil => rw [List.nil_append, head_cons]; exact hP
  | cons c r => rw [List.cons_append, head_cons]; rwa [head_cons] at h

theorem notHead_ext' {P : Char → Prop} {r y : Str} (hr : r ≠ []) (h : ¬ Head P r) : ¬ Head P (r ++ y) := by
  cases r with
  | nil => exact absurd rfl hr
  | cons c r => rw [List.cons_append, head_cons]; rwa [head_cons] at h

theorem skip_ext {I : Str → Prop} {s r y : Str} (h : Skip I s r) (hn : ¬ Starts I (r ++ y)) : Skip I (s ++ y) (r ++ y) := by
  obtain ⟨l, hl, rfl, -⟩ := h
  exact ⟨l, hl, by simp, hn⟩

theorem skip_ext_cons {c : Char} {s r y : Str} (hc : ¬ LayoutStart c) (h : SkipLayout s (c :: r)) :
    SkipLayout (s ++ y) (c :: (r ++ y)) := skip_ext h (not_starts_layout hc)

theorem skipInline_ext_cons {c : Char} {s r y : Str} (hc : ¬ LayoutStart c) (h : SkipInline s (c :: r)) :
    SkipInline (s ++ y) (c :: (r ++ y)) := skip_ext h (not_starts_inline (not_starts_layout hc))

theorem not_inline_nl {t : Str} : ¬ Starts InlineItem ('\n' :: t) := by
  rintro ⟨i, u, hi, he⟩
  cases hi with
  | blank c hc => injection he with h1 _; subst h1; simp at hc
  | comment _ hc => obtain ⟨y, hy⟩ := hc.head (t := u); rw [hy] at he; cases he

theorem not_inline_of {c : Char} {t : Str} (h1 : c ≠ ' ') (h2 : c ≠ '\t') (h3 : c ≠ '/') :
    ¬ Starts InlineItem (c :: t) := by
  rintro ⟨i, u, hi, he⟩
  cases hi with
  | blank d hc => injection he with h _; subst h; rcases hc with h | h <;> simp_all
  | comment _ hc => obtain ⟨y, hy⟩ := hc.head (t := u); rw [hy] at he; injection he with h _; exact h3 h

theorem not_inline_slash {t : Str} : ¬ Starts InlineItem ('/' :: '/' :: t) := by
  rintro ⟨i, u, hi, he⟩
  cases hi with
  | blank d hc => injection he with h _; subst h; simp at hc
  | comment _ hc => obtain ⟨y, hy⟩ := hc.head (t := u); rw [hy] at he; injection he with _ h; cases h

/-- A text that begins with layout, but not with inline layout, keeps not beginning with inline layout. -/
theorem starts_layout_ext {s y : Str} (h : Starts LayoutItem s) (hn : ¬ Starts InlineItem s) :
    ¬ Starts InlineItem (s ++ y) := by
  obtain ⟨i, t, hi, rfl⟩ := h
  cases hi with
  | space c hc =>
    refine not_inline_of ?_ ?_ ?_
    · rintro rfl; exact hn ⟨[' '], t, .blank _ (.inl rfl), rfl⟩
    · rintro rfl; exact hn ⟨['\t'], t, .blank _ (.inr rfl), rfl⟩
    · rintro rfl; simp at hc
  | line _ hl =>
    rw [List.append_assoc]
    rcases hl.head (t := t ++ y) with ⟨u, hu⟩ | ⟨u, hu⟩ <;> rw [hu]
    · exact not_inline_of (by decide) (by decide) (by decide)
    · exact not_inline_slash
  | comment _ hc => exact absurd ⟨i, t, .comment _ hc, rfl⟩ hn

theorem newlines_starts {s r : Str} (h : Newlines s r) : Starts LayoutItem s := by
  obtain ⟨i, l, hi, -, rfl⟩ := h
  rw [List.append_assoc]
  have := newlineItem_seq hi
  cases this with
  | nil => exact absurd rfl (newlineItem_ne_nil hi)
  | cons j m hj _ => exact ⟨j, m ++ (l ++ r), hj, by simp⟩

theorem newlines_ext {s r y : Str} (h : Newlines s r) : Newlines (s ++ y) (r ++ y) := by
  obtain ⟨i, l, hi, hl, rfl⟩ := h
  exact ⟨i, l, hi, hl, by simp⟩

/-! ## tokens -/

theorem layoutStart_not_identChar (hd : LayoutStart d) : ¬ IdentChar U d := by
  rcases hd with rfl | rfl | rfl | rfl | rfl | rfl <;> exact not_identChar (by decide) (by decide)

theorem ident_ext (hd : LayoutStart d) {s i r : Str} (h : Ident U s i r) : Ident U (s ++ d :: x') i (r ++ d :: x') := by
  obtain ⟨rfl, h1, h2⟩ := h
  exact ⟨by simp, h1, notHead_ext (layoutStart_not_identChar hd) h2⟩

theorem digits_no (hd : LayoutStart d) {ds : Str} (h : Digits ds) : d ∉ ds := fun hm => by
  have := (h.2 _ hm).1; revert this; rcases hd with rfl | rfl | rfl | rfl | rfl | rfl <;> decide

theorem isNumber_no_nl (hd : LayoutStart d) {t : Str} {n : Number} (h : IsNumber t n) : d ∉ t := by
  cases h with
  | mk sg m e pos w f ex h1 h2 h3 =>
    have hs : ∀ {sg : Str} {b : Bool}, Sign sg b → d ∉ sg := by intro sg b h; cases h <;> rcases hd with rfl | rfl | rfl | rfl | rfl | rfl <;> decide
    have hdot : d ≠ '.' := by rintro rfl; revert hd; decide
    have hm : d ∉ m := by
      cases h2 with
      | int _ h => exact digits_no hd h
      | dot w h => simp [hdot, digits_no hd h]
      | frac w f h h' => simp [hdot, digits_no hd h, digits_no hd h']
      | dotFrac f h => simp [hdot, digits_no hd h]
    have he : d ∉ e := by
      cases h3 with
      | none => simp
      | some c sg ds pos hc hsg hd' =>
        have := hs hsg; have := digits_no hd hd'
        have hc' : d ≠ c := by
          rintro rfl
          revert hd; rcases hc with rfl | rfl <;> decide
        simp_all
    have := hs h1
    simp_all

theorem numberTok_ext (hd : LayoutStart d) {s r : Str} {n : Number} (h : NumberTok s n r) :
    NumberTok (s ++ d :: x') n (r ++ d :: x') := by
  obtain ⟨t, rfl, h1, h2⟩ := h
  refine ⟨t, by simp, h1, fun p hp hne m hm => ?_⟩
  have hno := isNumber_no_nl hd hm
  have : p <+: r := by
    obtain ⟨q, hq⟩ := hp
    rcases List.append_eq_append_iff.1 hq with ⟨a, ha, hb⟩ | ⟨a, ha, hb⟩
    · exact ⟨a, ha.symm⟩
    · cases a with
      | nil => exact ⟨[], by simp_all⟩
      | cons c a =>
        injection hb with h3 h4; subst h3
        exact absurd (by rw [ha]; simp) hno
  exact h2 p this hne m hm

theorem escape_ext {e : Str} {c : Char} {r y : Str} (hr : r ≠ []) (h : Escape e c r) : Escape e c (r ++ y) := by
  cases h with
  | simple k _ _ h => exact .simple k c _ h
  | octal _ _ _ h1 h2 h3 h4 => exact .octal _ _ _ h1 h2 (h3.imp id (notHead_ext' hr)) h4
  | hex k m ds _ _ h0 h1 h2 h3 h4 => exact .hex k m ds _ _ h0 h1 h2 (h3.imp id (notHead_ext' hr)) h4

theorem content_ext {P : Char → Prop} {s v r y : Str} (hr : r ≠ []) (h : Content P s v r) : Content P s v (r ++ y) := by
  induction h with
  | nil => exact .nil _
  | plain c s v r h _ ih => exact .plain _ _ _ _ h (ih hr)
  | escape e c s v r h _ ih =>
    refine .escape _ _ _ _ _ ?_ (ih hr)
    rw [← List.append_assoc]; exact escape_ext (by simp [hr]) h

theorem quoted_ext {P : Char → Prop} {s v r y : Str} (h : Quoted P s v r) : Quoted P (s ++ y) v (r ++ y) := by
  obtain ⟨src, rfl, h⟩ := h
  exact ⟨src, by simp, content_ext (by simp) h⟩

theorem startsEol_ext {s y : Str} (h : StartsEol s) : StartsEol (s ++ y) := by
  obtain ⟨e, t, he, rfl⟩ := h
  exact ⟨e, t ++ y, he, by simp⟩

theorem terminator_ext {m s b r y : Str} (h : Terminator m s b r) : Terminator m (s ++ y) b (r ++ y) := by
  obtain ⟨e, he, rfl, h1, h2⟩ := h
  exact ⟨e, he, by simp, h1, startsEol_ext h2⟩

/-- A terminator that begins before another one lies entirely before the end of the other. -/
theorem terminator_before {m c t b r b' r' y : Str} (hm : '\n' ∉ m) (ht : Terminator m t b r)
    (h : Terminator m (c ++ t ++ y) b' r') : ∃ r'', Terminator m (c ++ t) b' r'' := by
  obtain ⟨e, he, rfl, h1, e2, t2, he2, rfl⟩ := ht
  obtain ⟨e', he', h, h1', e2', t2', he2', rfl⟩ := h
  have count_eol : ∀ {e : Str}, Eol e → ∃ q, e = q ++ ['\n'] ∧ '\n' ∉ q := by
    intro e h; cases h
    · exact ⟨[], rfl, by simp⟩
    · exact ⟨['\r'], rfl, by decide⟩
  obtain ⟨q', rfl, hq'⟩ := count_eol he'
  obtain ⟨q2', rfl, hq2'⟩ := count_eol he2'
  obtain ⟨q, rfl, hq⟩ := count_eol he
  obtain ⟨q2, rfl, hq2⟩ := count_eol he2
  have hb' : '\n' ∉ b' := fun hmem => by have := h1' _ hmem; simp at this
  rw [show q' ++ ['\n'] ++ b' ++ m ++ (q2' ++ ['\n'] ++ t2') = (q' ++ ['\n'] ++ b' ++ m ++ q2' ++ ['\n']) ++ t2' by simp] at h
  rcases List.append_eq_append_iff.1 h with ⟨a, ha, hb⟩ | ⟨a, ha, hb⟩
  · -- the text before `y` is a prefix of the earlier terminator
    rcases List.eq_nil_or_concat a with rfl | ⟨a, d, rfl⟩
    · refine ⟨q2' ++ ['\n'], q' ++ ['\n'], he', ?_, h1', q2' ++ ['\n'], [], he2', by simp⟩
      simpa using ha.symm
    · exfalso
      rw [List.concat_eq_append] at ha
      have h3 : q' ++ ['\n'] ++ b' ++ m ++ q2' = c ++ (q ++ ['\n'] ++ b ++ m ++ (q2 ++ ['\n'] ++ t2)) ++ a := by
        rw [← List.append_assoc] at ha
        exact List.append_inj_left' ha rfl
      have := congrArg (List.count '\n') h3
      simp only [List.count_append, List.count_eq_zero_of_not_mem hq', List.count_eq_zero_of_not_mem hb',
        List.count_eq_zero_of_not_mem hm, List.count_eq_zero_of_not_mem hq2'] at this
      simp at this
      omega
  · refine ⟨q2' ++ ['\n'] ++ a, q' ++ ['\n'], he', ?_, h1', q2' ++ ['\n'], a, he2', rfl⟩
    rw [ha]; simp

theorem firstTerminator_ext {m s c b r y : Str} (hm : '\n' ∉ m) (h : FirstTerminator m s c b r) :
    FirstTerminator m (s ++ y) c b (r ++ y) := by
  obtain ⟨⟨t, rfl, ht⟩, hmin⟩ := h
  refine ⟨⟨t ++ y, by simp, terminator_ext ht⟩, fun c' t' b' r' hs ht' => ?_⟩
  rcases Nat.lt_or_ge c'.length c.length with hlt | hge
  case inr => exact hge
  exfalso
  have hp : c' <+: c := by
    apply List.prefix_of_prefix_length_le (l₃ := c ++ t ++ y) _ _ (by omega)
    · exact ⟨t', hs.symm⟩
    · exact ⟨t ++ y, by simp⟩
  obtain ⟨d, rfl⟩ := hp
  have : t' = d ++ t ++ y := by
    have : c' ++ (d ++ t ++ y) = c' ++ t' := by simpa using hs
    exact (List.append_cancel_left this).symm
  subst this
  obtain ⟨r'', h3⟩ := terminator_before hm ht ht'
  exact absurd (hmin c' (d ++ t) b' r'' (by simp) h3) (by omega)

theorem markers_no_nl {m : Str} (h : ∀ c ∈ m, MarkerChar U c) : '\n' ∉ m := fun hm =>
  markerChar_not (U := U) (by decide) (by decide) (h _ hm)

theorem heredoc_ext {s r y : Str} {v : CowStr} (h : Heredoc U s v r) : Heredoc U (s ++ y) v (r ++ y) := by
  cases h with
  | empty ind m s b _ h1 h2 h3 =>
    have := Heredoc.empty ind m (s ++ y) b (r ++ y) h1 h2 (terminator_ext h3)
    simpa [List.append_assoc] using this
  | content ind m e s c b _ _ h1 h2 h3 h4 h5 h6 =>
    have hm := markers_no_nl h2
    have := Heredoc.content ind m e (s ++ y) c b (r ++ y) v h1 h2 h3 (fun ⟨b', r', ht⟩ => by
      obtain ⟨⟨t, rfl, h7⟩, -⟩ := h5
      have h8 : Terminator m (e ++ c ++ t ++ y) b' r' := by simpa using ht
      obtain ⟨r'', h9⟩ := terminator_before hm h7 h8
      exact h4 ⟨b', r'', by simpa using h9⟩) (firstTerminator_ext hm h5) h6
    simpa [List.append_assoc] using this

theorem stringTok_ext {s r y : Str} {v : CowStr} (h : StringTok U s v r) : StringTok U (s ++ y) v (r ++ y) := by
  cases h with
  | quoted => exact .quoted _ _ _ (quoted_ext ‹_›)
  | heredoc => exact .heredoc _ _ _ (heredoc_ext ‹_›)

/-! ## expressions -/

theorem skip_eq_of_not_starts {I : Str → Prop} {s r : Str} (h : Skip I s r) (hn : ¬ Starts I s) : s = r := by
  obtain ⟨l, hl, rfl, -⟩ := h
  cases hl with
  | nil => rfl
  | cons i l hi _ => exact absurd ⟨i, l ++ r, hi, by simp⟩ hn

/-- The first character of an expression. -/
theorem isExpr_start {s r : Str} {v : Expr} (h : IsExpr U s v r) :
    Starts LayoutItem s ∨ Head (fun c => ¬ LayoutStart c) s := by
  cases h with
  | null => exact .inr ⟨_, _, rfl, by simp [LayoutStart]⟩
  | true => exact .inr ⟨_, _, rfl, by simp [LayoutStart]⟩
  | false => exact .inr ⟨_, _, rfl, by simp [LayoutStart]⟩
  | number =>
    rename_i k h
    obtain ⟨t, rfl, hn, -⟩ := h
    obtain ⟨c, t, e, hc⟩ := isNumber_head hn r
    refine .inr ⟨c, t, e, ?_⟩
    rw [numHead_iff] at hc
    rintro (rfl | rfl | rfl | rfl | rfl | rfl) <;> revert hc <;> decide
  | string =>
    rename_i w h
    cases h with
    | quoted => rename_i h; obtain ⟨src, rfl, -⟩ := h; exact .inr ⟨_, _, rfl, by simp [LayoutStart]⟩
    | heredoc => rename_i h; obtain ⟨t, rfl⟩ := h.head; exact .inr ⟨_, _, rfl, by simp [LayoutStart]⟩
  | tuple => exact .inr ⟨_, _, rfl, by simp [LayoutStart]⟩
  | object =>
    rename_i t es h1 h2
    by_cases hs : Starts LayoutItem s
    · exact .inl hs
    · exact .inr ⟨_, _, skip_eq_of_not_starts h1 hs, by simp [LayoutStart]⟩
  | bracket =>
    rename_i t u w h1 h2 h3 h4
    by_cases hs : Starts LayoutItem s
    · exact .inl hs
    · exact .inr ⟨'(', t, skip_eq_of_not_starts ‹_› hs, by simp [LayoutStart]⟩

theorem layout_expr_ext {s t r y : Str} {v : Expr} (h : SkipLayout s t) (he : IsExpr U t v r) :
    SkipLayout (s ++ y) (t ++ y) := by
  rcases isExpr_start he with h' | ⟨c, u, rfl, hc⟩
  · exact absurd h' h.not_starts
  · exact skip_ext_cons hc h

theorem inline_expr_ext {s t r y : Str} {v : Expr} (h : SkipInline s t) (he : IsExpr U t v r) :
    SkipInline (s ++ y) (t ++ y) := by
  rcases isExpr_start he with h' | ⟨c, u, rfl, hc⟩
  · exact skip_ext h (starts_layout_ext h' h.not_starts)
  · exact skipInline_ext_cons hc h

theorem identStart_not_layout {c : Char} (h : IdentStart U c) : ¬ LayoutStart c := by
  rintro (rfl | rfl | rfl | rfl | rfl | rfl) <;> exact absurd h (not_identStart (by decide) (by decide))

theorem ident_start {s i r : Str} (h : Ident U s i r) : Head (fun c => ¬ LayoutStart c) s := by
  obtain ⟨rfl, h, -⟩ := h
  cases h with
  | mk c cs hc _ => exact ⟨c, _, rfl, identStart_not_layout hc⟩

theorem tupleEnd_ext {s r y : Str} (h : IsTupleEnd s r) : IsTupleEnd (s ++ y) (r ++ y) := by
  cases h with
  | close => exact .close _ _ (skip_ext_cons (by decide) ‹_›)
  | comma t _ h h' => exact .comma _ _ _ (skip_ext_cons (by decide) h) (skip_ext_cons (by decide) h')

theorem objectSep_ext {s r y : Str} (h : IsObjectSep s r) : IsObjectSep (s ++ y) (r ++ y) := by
  cases h with
  | comma => exact .comma _
  | newline => exact .newline _ _ (newlines_ext ‹_›)
  | close => exact .close _

theorem inline_sep_ext {s t r y : Str} (h : SkipInline s t) (hs : IsObjectSep t r) : SkipInline (s ++ y) (t ++ y) := by
  cases hs with
  | comma => exact skipInline_ext_cons (by decide) h
  | newline => exact skip_ext h (starts_layout_ext (newlines_starts ‹_›) h.not_starts)
  | close => exact skipInline_ext_cons (by decide) h

theorem isExpr_ext (hd : LayoutStart d) {s r : Str} {v : Expr} (h : IsExpr U s v r) :
    IsExpr U (s ++ d :: x') v (r ++ d :: x') := by
  refine IsExpr.rec (motive_1 := fun s v r _ => IsExpr U (s ++ d :: x') v (r ++ d :: x'))
    (motive_2 := fun s v r _ => IsTupleBody U (s ++ d :: x') v (r ++ d :: x'))
    (motive_3 := fun s v r _ => IsTupleTail U (s ++ d :: x') v (r ++ d :: x'))
    (motive_4 := fun s v r _ => IsObjectKey U (s ++ d :: x') v (r ++ d :: x'))
    (motive_5 := fun s v r _ => IsObjectBody U (s ++ d :: x') v (r ++ d :: x'))
    ?_ ?_ ?_ ?_ ?_ ?_ ?_ ?_ ?_ ?_ ?_ ?_ ?_ ?_ ?_ ?_ h
  · intro r; exact .null _
  · intro r; exact .true _
  · intro r; exact .false _
  · intro s n r h; exact .number _ _ _ (numberTok_ext hd h)
  · intro s v r h; exact .string _ _ _ (stringTok_ext h)
  · intro s es r _ h; exact .tuple _ _ _ h
  · intro s t es r h _ ih
    exact .object _ _ _ _ (skip_ext_cons (by decide) h) ih
  · intro s t u v e r h1 h2 h h3 ih
    exact .bracket _ _ _ _ _ _ (skip_ext_cons (by decide) h1) (layout_expr_ext h2 h) ih (skip_ext_cons (by decide) h3)
  · intro s r h; exact .empty _ _ (tupleEnd_ext h)
  · intro s t u e es r h he _ ih ih'
    exact .elems _ _ _ _ _ _ (layout_expr_ext h he) ih ih'
  · intro s r h; exact .last _ _ (tupleEnd_ext h)
  · intro s t u v e es r h h' he _ ih ih'
    exact .more _ _ _ _ _ _ _ (skip_ext_cons (by decide) h) (layout_expr_ext h' he) ih ih'
  · intro s i r h; exact .ident _ _ _ (ident_ext hd h)
  · intro t e r hn he ih
    rw [List.append_assoc] at ih ⊢
    have hne : t ++ r ≠ [] := by
      obtain ⟨u, hu, h⟩ := isExpr_consumes he
      rw [h]; simp [hu]
    exact .expr _ _ _ (by rw [← List.append_assoc]; exact notHead_ext' hne hn) ih
  · intro s r h; exact .close _ _ (skip_ext_cons (by decide) h)
  · intro s t u v w x y z k e es r h1 h2 h3 h4 h5 h6 h7 _ ih2 ih5 ih8
    refine .elem _ _ _ _ _ _ _ _ _ _ _ _ ?_ ih2 (skipInline_ext_cons (by decide) h3) (inline_expr_ext h4 h5) ih5
      (inline_sep_ext h6 h7) (objectSep_ext h7) ih8
    cases h2 with
    | ident => obtain ⟨c, u, rfl, hc⟩ := ident_start ‹Ident U _ _ _›; exact skip_ext_cons hc h1
    | expr => exact layout_expr_ext h1 ‹_›

/-! ## bodies -/

theorem isAttribute_ext {s r : Str} {k : CowStr} {e : Expr} (hr : ¬ Starts InlineItem (r ++ '\n' :: x'))
    (h : IsAttribute U s k e r) : IsAttribute U (s ++ '\n' :: x') k e (r ++ '\n' :: x') := by
  cases h with
  | mk =>
    obtain ⟨u, v, w, x, h2, h3, h4, h5, h6⟩ : ∃ u v w x, Ident U s _ u ∧
      SkipInline u ('=' :: v) ∧ SkipInline v w ∧ IsExpr U w e x ∧ SkipInline x r :=
      ⟨_, _, _, _, ‹_›, ‹_›, ‹_›, ‹_›, ‹_›⟩
    exact .mk _ _ _ _ _ _ _ _ (ident_ext (by decide) h2) (skipInline_ext_cons (by decide) h3) (inline_expr_ext h4 h5)
      (isExpr_ext (by decide) h5) (skip_ext h6 hr)

theorem isLabel_ext {s r : Str} {l : BlockLabel} (h : IsLabel U s l r) :
    IsLabel U (s ++ '\n' :: x') l (r ++ '\n' :: x') := by
  cases h with
  | ident => exact .ident _ _ _ (ident_ext (by decide) ‹_›)
  | string => exact .string _ _ _ (quoted_ext ‹_›)

theorem isLabels_ext {s r : Str} {ls : List BlockLabel} (h : IsLabels U s ls r) :
    IsLabels U (s ++ '\n' :: x') ls (r ++ '\n' :: x') := by
  induction h with
  | «open» s r h => exact .open _ _ (skipInline_ext_cons (by decide) h)
  | label s t u l ls r h1 h2 _ ih =>
    refine .label _ _ _ _ _ _ ?_ (isLabel_ext h2) ih
    obtain ⟨c, u, rfl, hc⟩ := isLabel_head h2
    refine skipInline_ext_cons ?_ h1
    rcases hc with hc | rfl
    · exact identStart_not_layout hc
    · decide

theorem elementEnd_ext {s r y : Str} (h : IsElementEnd s r) (hs : s ≠ []) : IsElementEnd (s ++ y) (r ++ y) := by
  cases h with
  | newline => exact .newline _ _ (newlines_ext ‹_›)
  | eof => exact absurd rfl hs

theorem isElement_again {s r : Str} {el : BodyElement} (h : IsElement U s el r) : SkipInline r r := by
  cases h with
  | «attribute» => exact isAttribute_again ‹_›
  | emptyBlock => exact Skip.again ‹SkipInline _ r›
  | oneLineBlock => exact Skip.again ‹SkipInline _ r›
  | block => exact Skip.again ‹SkipInline _ r›

theorem elementEnd_inline {s r : Str} (h : IsElementEnd s r) (hs : ¬ Starts InlineItem s) :
    ¬ Starts InlineItem (s ++ '\n' :: x') := by
  cases h with
  | newline => exact starts_layout_ext (newlines_starts ‹_›) hs
  | eof => exact not_inline_nl

theorem isElement_start {s r : Str} {el : BodyElement} (h : IsElement U s el r) :
    Head (fun c => ¬ LayoutStart c) s := by
  obtain ⟨i, t, hi⟩ := isElement_ident h; exact ident_start hi

theorem isBody_ext_aux {s : Str} {v : Body} {r : Str} (h : IsBody U s v r) (hr : r ≠ []) :
    (∀ c t, r = c :: t → ¬ LayoutStart c) → IsBody U (s ++ '\n' :: x') v (r ++ '\n' :: x') := by
  refine IsBody.rec
    (motive_1 := fun s v r _ => r ≠ [] → (∀ c t, r = c :: t → ¬ LayoutStart c) →
      IsBody U (s ++ '\n' :: x') v (r ++ '\n' :: x'))
    (motive_2 := fun s v r _ => ¬ Starts InlineItem (r ++ '\n' :: x') →
      IsElement U (s ++ '\n' :: x') v (r ++ '\n' :: x')) ?_ ?_ ?_ ?_ ?_ ?_ h hr
  · intro s r h hr hc
    cases r with
    | nil => exact absurd rfl hr
    | cons c r => exact .done _ _ (skip_ext_cons (hc c r rfl) h)
  · intro s t u v el els r h1 h2 h3 h4 ih2 ih4 hr hc
    obtain ⟨c, t', rfl, hc'⟩ := isElement_start h2
    refine .elem _ _ _ _ _ _ _ (skip_ext_cons hc' h1)
      (ih2 (elementEnd_inline h3 (isElement_again h2).not_starts)) (elementEnd_ext h3 ?_) (ih4 hr hc)
    rintro rfl
    have h5 := elementEnd_suffix h3
    have h6 := isBody_suffix h4
    have := List.suffix_nil.1 (h6.trans h5)
    exact hr this
  · intro s k e r h hn; exact .attribute _ _ _ _ (isAttribute_ext hn h)
  · intro s i t u v r ls h1 h2 h3 h4 hn
    exact .emptyBlock _ _ _ _ _ _ _ (ident_ext (by decide) h1) (isLabels_ext h2) (skipInline_ext_cons (by decide) h3)
      (skip_ext h4 hn)
  · intro s i t u u' v r ls k e h1 h2 h3 h4 h5 hn
    refine .oneLineBlock _ _ _ _ _ _ _ _ _ _ (ident_ext (by decide) h1) (isLabels_ext h2) ?_
      (isAttribute_ext (not_inline_of (by decide) (by decide) (by decide)) h4) (skip_ext h5 hn)
    have : Head (fun c => ¬ LayoutStart c) u' := by cases h4; exact ident_start ‹Ident U _ _ _›
    obtain ⟨c, w, rfl, hc⟩ := this
    exact skipInline_ext_cons hc h3
  · intro s i t u u' v w r ls b h1 h2 h3 h4 h5 h6 ih hn
    exact .block _ _ _ _ _ _ _ _ _ _ (ident_ext (by decide) h1) (isLabels_ext h2)
      (skip_ext h3 (starts_layout_ext (newlines_starts h4) h3.not_starts)) (newlines_ext h4)
      (ih (by simp) (fun c t h => by injection h with h _; subst h; decide)) (skip_ext h6 hn)

theorem isElement_ext {s : Str} {v : BodyElement} {r : Str} (h : IsElement U s v r)
    (hn : ¬ Starts InlineItem (r ++ '\n' :: x')) : IsElement U (s ++ '\n' :: x') v (r ++ '\n' :: x') := by
  cases h with
  | «attribute» => exact .attribute _ _ _ _ (isAttribute_ext hn ‹_›)
  | emptyBlock =>
    obtain ⟨i, t, u, v, h0, h1, h2, h3, h4⟩ : ∃ i t u v, _ = i ∧ Ident U s i t ∧ IsLabels U t _ u ∧
      SkipInline u ('}' :: v) ∧ SkipInline v r := ⟨_, _, _, _, rfl, ‹_›, ‹_›, ‹_›, ‹_›⟩
    subst h0
    exact .emptyBlock _ _ _ _ _ _ _ (ident_ext (by decide) h1) (isLabels_ext h2) (skipInline_ext_cons (by decide) h3)
      (skip_ext h4 hn)
  | oneLineBlock =>
    obtain ⟨i, t, u, u', v, h0, h1, h2, h3, h4, h5⟩ : ∃ i t u u' v, _ = i ∧ Ident U s i t ∧ IsLabels U t _ u ∧ SkipInline u u' ∧
      IsAttribute U u' _ _ ('}' :: v) ∧ SkipInline v r := ⟨_, _, _, _, _, rfl, ‹_›, ‹_›, ‹_›, ‹_›, ‹_›⟩
    subst h0
    refine .oneLineBlock _ _ _ _ _ _ _ _ _ _ (ident_ext (by decide) h1) (isLabels_ext h2) ?_
      (isAttribute_ext (not_inline_of (by decide) (by decide) (by decide)) h4) (skip_ext h5 hn)
    have : Head (fun c => ¬ LayoutStart c) u' := by cases h4; exact ident_start ‹Ident U u' _ _›
    obtain ⟨c, w, rfl, hc⟩ := this
    exact skipInline_ext_cons hc h3
  | block =>
    obtain ⟨i, t, u, u', v, w, h0, h1, h2, h3, h4, h5, h6⟩ : ∃ i t u u' v w, _ = i ∧ Ident U s i t ∧ IsLabels U t _ u ∧
      SkipInline u u' ∧ Newlines u' v ∧ IsBody U v _ ('}' :: w) ∧ SkipInline w r :=
      ⟨_, _, _, _, _, _, rfl, ‹_›, ‹_›, ‹_›, ‹_›, ‹_›, ‹_›⟩
    subst h0
    exact .block _ _ _ _ _ _ _ _ _ _ (ident_ext (by decide) h1) (isLabels_ext h2)
      (skip_ext h3 (starts_layout_ext (newlines_starts h4) h3.not_starts)) (newlines_ext h4)
      (isBody_ext_aux h5 (by simp) (fun c t h => by injection h with h _; subst h; decide)) (skip_ext h6 hn)

/-- The element at the start of a text and what follows it are determined. -/
theorem isElement_functional {s r r' : Str} {el el' : BodyElement} (h0 : SkipInline s s) (h : IsElement U s el r)
    (h' : IsElement U s el' r') : el = el' ∧ r = r' := by
  have a := bodyElement_complete (bodyN_complete (U := U) (s.length + 1)) h0 (by omega) h
  have b := bodyElement_complete (bodyN_complete (U := U) (s.length + 1)) h0 (by omega) h'
  rw [a] at b
  injection b with h1 h2
  exact ⟨h2, h1⟩

theorem nl_layout : Seq LayoutItem ['\n'] := .single (.space _ (by simp))

/-- Bodies that start with the elements of a document followed by a line end. -/
theorem isBody_concat {s : Str} {a : Body} {r : Str} (h : IsBody U s a r) (hr : r = []) {t r' : Str}
    (hr' : BodyEnd r') {c : Body} :
    IsBody U (s ++ '\n' :: t) c r' ↔ ∃ b, c = a ++ b ∧ IsBody U t b r' := by
  refine IsBody.rec
    (motive_1 := fun s a r _ => r = [] → ∀ c, (IsBody U (s ++ '\n' :: t) c r' ↔ ∃ b, c = a ++ b ∧ IsBody U t b r'))
    (motive_2 := fun _ _ _ _ => True) ?_ ?_ ?_ ?_ ?_ ?_ h hr c
  · rintro s r h rfl c
    obtain ⟨l, hl, rfl, -⟩ := h
    rw [List.append_nil, show l ++ '\n' :: t = (l ++ ['\n']) ++ t by simp]
    constructor
    · intro h; exact ⟨c, rfl, isBody_unprepend (hl.append nl_layout) h⟩
    · rintro ⟨b, rfl, h⟩; exact isBody_prepend (hl.append nl_layout) h
  · rintro s t0 u v el els r h1 h2 h3 h4 - ih rfl c
    have hn := elementEnd_inline (x' := t) h3 (isElement_again h2).not_starts
    have h2' := isElement_ext (x' := t) h2 hn
    obtain ⟨d, t1, rfl, hd⟩ := isElement_start h2
    have h1' := skip_ext_cons (y := '\n' :: t) hd h1
    -- the rest after the element
    have hrest : ∀ els', (∃ w, IsElementEnd (u ++ '\n' :: t) w ∧ IsBody U w els' r') ↔
        ∃ b, els' = els ++ b ∧ IsBody U t b r' := by
      intro els'
      cases h3 with
      | newline =>
        rename_i h3
        constructor
        · rintro ⟨w, hw, hb⟩
          generalize hz : u ++ '\n' :: t = z at hw
          cases hw with
          | newline =>
            rename_i hw
            subst hz
            rw [← ih rfl]
            obtain ⟨w1, _, l1, p1, p2, rfl⟩ := newline_complete hw
            obtain ⟨w2, _, l2, q1, q2, q3⟩ := newline_complete (newlines_ext (y := '\n' :: t) h3)
            rw [p1] at q1
            injection q1 with q1 _; subst q1
            rw [q3]
            exact isBody_prepend q2 (isBody_unprepend p2 hb)
          | eof => simp at hz
        · rintro h
          rw [← ih rfl] at h
          exact ⟨_, .newline _ _ (newlines_ext h3), h⟩
      | eof =>
        have : els = [] := by
          cases h4 with
          | done => rfl
          | elem =>
            rename_i t2 u2 w2 el2 els2 k1 k2 k3 k4
            obtain ⟨l, hl, he, -⟩ : SkipLayout [] t2 := ‹_›
            have k : IsElement U t2 el2 u2 := ‹_›
            rw [(List.append_eq_nil_iff.1 he.symm).2] at k
            exact absurd (isElement_start k) Head.not_nil
        subst this
        constructor
        · rintro ⟨w, hw, hb⟩
          refine ⟨els', rfl, ?_⟩
          have : ∃ l, Seq LayoutItem l ∧ '\n' :: t = l ++ w := by
            cases hw with
            | newline =>
              rename_i hw
              obtain ⟨i, l, hi, hl, e⟩ := hw
              exact ⟨i ++ l, (newlineItem_seq hi).append (hl.mono fun _ => newlineItem_seq), e⟩
          obtain ⟨l, hl, e⟩ := this
          have := isBody_prepend hl hb
          rw [← e] at this
          exact isBody_unprepend nl_layout this
        · rintro ⟨b, rfl, hb⟩
          exact ⟨t, .newline _ _ ⟨['\n'], [], .eol _ .lf, .nil, rfl⟩, hb⟩
    constructor
    · intro h
      cases h with
      | done =>
        rename_i h
        have := h.functional layoutItem_prefix h1'
        rcases hr' with rfl | ⟨z, rfl⟩
        · cases this
        · injection this with this _
          subst this
          obtain ⟨i, t2, hi⟩ := isElement_ident h2
          obtain ⟨e, hid, -⟩ := hi
          cases hid with
          | mk c cs hc _ =>
            injection e with e _; subst e
            exact absurd hc (not_identStart (by decide) (by decide))
      | elem =>
        rename_i t2 u2 w2 el2 els2 k1 k2 k3 k4
        obtain ⟨k1, k2, k3, k4⟩ : SkipLayout (s ++ '\n' :: t) t2 ∧ IsElement U t2 el2 u2 ∧ IsElementEnd u2 w2 ∧
          IsBody U w2 els2 r' := ⟨‹_›, ‹_›, ‹_›, ‹_›⟩
        have e1 := k1.functional layoutItem_prefix h1'
        rw [e1] at k2
        obtain ⟨e2, e3⟩ := isElement_functional (skipInline_again h1') h2' k2
        rw [← e3] at k3
        obtain ⟨b, e4, hb⟩ := (hrest els2).1 ⟨_, k3, k4⟩
        exact ⟨b, by rw [e4, e2]; rfl, hb⟩
    · rintro ⟨b, rfl, hb⟩
      obtain ⟨w, hw, hb'⟩ := (hrest (els ++ b)).2 ⟨b, rfl, hb⟩
      exact .elem _ _ _ _ _ _ _ h1' h2' hw hb'
  all_goals intros; trivial

/-- Documents are concatenated with a line end between them. -/
theorem document_concat {s t : Str} {a c : Body} (h : Document U s a) :
    Document U (s ++ '\n' :: t) c ↔ ∃ b, c = a ++ b ∧ Document U t b :=
  isBody_concat h rfl (.inl rfl)

end
end Verif
