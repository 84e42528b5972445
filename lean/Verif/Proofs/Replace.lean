import Verif.Proofs.Concat
/-! # What follows an expression can be replaced

An expression followed by `r` is the same expression followed by `r'` whenever `r'` does not let its last token
continue (`Compat`). -/
set_option autoImplicit false

namespace Verif
open PRes Spec

variable {U : CharClass}

/-- Characters of number literals. -/
def NumChar (c : Char) : Prop := IsDig c ∨ c = '.' ∨ c = '+' ∨ c = '-' ∨ c = 'e' ∨ c = 'E'

/-- `r'` does not let a token continue that ended before `r`. -/
structure Compat (U : CharClass) (r r' : Str) : Prop where
  eol : ∀ e q, Eol e → r = e ++ q → ∃ q', r' = e ++ q'
  num : ∀ p, p <+: r' → (∀ c ∈ p, NumChar c) → p <+: r
  ident : ¬ Head (IdentChar U) r → ¬ Head (IdentChar U) r'

theorem isNumber_chars {t : Str} {n : Number} (h : IsNumber t n) : ∀ c ∈ t, NumChar c := by
  cases h with
  | mk sg m x pos w f e h1 h2 h3 =>
    have hs : ∀ {sg : Str} {b : Bool}, Sign sg b → ∀ c ∈ sg, NumChar c := by
      intro sg b h c hc; cases h <;> simp at hc <;> subst hc <;> simp [NumChar]
    have hd : ∀ {ds : Str}, Digits ds → ∀ c ∈ ds, NumChar c := fun h c hc => .inl (h.2 c hc)
    have hm : ∀ c ∈ m, NumChar c := by
      cases h2 with
      | int _ h => exact hd h
      | dot w h =>
        intro c hc
        rcases List.mem_append.1 hc with hc | hc
        · exact hd h c hc
        · simp at hc; subst hc; simp [NumChar]
      | frac w f h h' =>
        intro c hc
        rcases List.mem_append.1 hc with hc | hc
        · exact hd h c hc
        · rcases List.mem_cons.1 hc with rfl | hc
          · simp [NumChar]
          · exact hd h' c hc
      | dotFrac f h =>
        intro c hc
        rcases List.mem_cons.1 hc with rfl | hc
        · simp [NumChar]
        · exact hd h c hc
    have hx : ∀ c ∈ x, NumChar c := by
      cases h3 with
      | none => simp
      | some c sg ds pos hc hsg hd' =>
        intro c' hc'
        rcases List.mem_append.1 hc' with hc' | hc'
        · rcases List.mem_cons.1 hc' with rfl | hc'
          · rcases hc with rfl | rfl <;> simp [NumChar]
          · exact hs hsg _ hc'
        · exact hd hd' _ hc'
    intro c hc
    rcases List.mem_append.1 hc with hc | hc
    · rcases List.mem_append.1 hc with hc | hc
      · exact hs h1 c hc
      · exact hm c hc
    · exact hx c hc

/-- A common beginning that ends with a character no token continues over. -/
theorem Compat.common {c : Char} (hc : ¬ NumChar c) (hr : c ≠ '\r') (l x y : Str) :
    Compat U (l ++ c :: x) (l ++ c :: y) where
  eol := by
    intro e q he h
    cases he with
    | lf =>
      cases l with
      | nil => injection h with h _; subst h; exact ⟨y, rfl⟩
      | cons d l => injection h with h _; subst h; exact ⟨l ++ c :: y, rfl⟩
    | crlf =>
      match l with
      | [] => injection h with h _; exact absurd h hr
      | [d] => injection h with h h'; injection h' with h' _; subst h; subst h'; exact ⟨y, rfl⟩
      | d :: d' :: l => injection h with h h'; injection h' with h' _; subst h; subst h'; exact ⟨l ++ c :: y, rfl⟩
  num := by
    intro p hp hn
    obtain ⟨q, hq⟩ := hp
    rcases List.append_eq_append_iff.1 hq with ⟨a, ha, hb⟩ | ⟨a, ha, hb⟩
    · exact ⟨a ++ c :: x, by rw [ha]; simp⟩
    · cases a with
      | nil => exact ⟨c :: x, by rw [ha]; simp⟩
      | cons d a =>
        injection hb with h3 _; subst h3
        exact absurd (hn c (by rw [ha]; simp)) hc
  ident := by
    intro h
    cases l with
    | nil => rwa [List.nil_append, head_cons] at *
    | cons d l => rwa [List.cons_append, head_cons] at *

/-- Anything not starting with an end of line can be replaced by a text starting with a character no token
continues over. -/
theorem Compat.of_start {c : Char} (hc : ¬ NumChar c) (hi : ¬ IdentChar U c) {r : Str} (hr : ¬ StartsEol r) (y : Str) :
    Compat U r (c :: y) where
  eol := fun e q he h => absurd ⟨e, q, he, h⟩ hr
  num := by
    rintro p ⟨q, hq⟩ hn
    cases p with
    | nil => exact List.nil_prefix
    | cons d p => injection hq with h _; subst h; exact absurd (hn d (by simp)) hc
  ident := fun _ => by rw [head_cons]; exact hi

/-- Anything not starting with an end of line can be dropped. -/
theorem Compat.nil {r : Str} (hr : ¬ StartsEol r) : Compat U r [] where
  eol := fun e q he h => absurd ⟨e, q, he, h⟩ hr
  num := by intro p hp _; rw [List.prefix_nil.1 hp]; exact List.nil_prefix
  ident := fun _ => Head.not_nil

/-! ## tokens -/

theorem ident_replace {i r r' : Str} (h : Ident U (i ++ r) i r) (hc : Compat U r r') : Ident U (i ++ r') i r' :=
  ⟨rfl, h.2.1, hc.ident h.2.2⟩

theorem number_replace {s r : Str} {n : Number} (h : NumberTok s n r) :
    ∃ t, s = t ++ r ∧ ∀ r', Compat U r r' → NumberTok (t ++ r') n r' := by
  obtain ⟨t, rfl, h1, h2⟩ := h
  refine ⟨t, rfl, fun r' hc => ⟨t, rfl, h1, fun p hp hne m hm => ?_⟩⟩
  exact h2 p (hc.num p hp fun c hc => isNumber_chars hm c (by simp [hc])) hne m hm

theorem escape_shrink {e : Str} {c : Char} {r y : Str} (hr : r ≠ []) (h : Escape e c (r ++ y)) : Escape e c r := by
  have hh : ∀ {P : Char → Prop}, ¬ Head P (r ++ y) → ¬ Head P r := by
    rintro P h ⟨c, t, rfl, hc⟩; exact h ⟨c, t ++ y, rfl, hc⟩
  cases h with
  | simple k _ _ h => exact .simple k c _ h
  | octal _ _ _ h1 h2 h3 h4 => exact .octal _ _ _ h1 h2 (h3.imp id hh) h4
  | hex k m ds _ _ h0 h1 h2 h3 h4 => exact .hex k m ds _ _ h0 h1 h2 (h3.imp id hh) h4

theorem content_shrink {P : Char → Prop} {s v r y : Str} (hr : r ≠ []) (h : Content P s v (r ++ y)) : Content P s v r := by
  generalize hz : r ++ y = z at h
  induction h with
  | nil => exact .nil _
  | plain c s v _ h _ ih => exact .plain _ _ _ _ h (ih hz)
  | escape e c s v _ h _ ih =>
    subst hz
    refine .escape _ _ _ _ _ ?_ (ih rfl)
    rw [← List.append_assoc] at h
    exact escape_shrink (by simp [hr]) h

theorem quoted_replace {P : Char → Prop} {s v r : Str} (h : Quoted P s v r) :
    ∃ t, s = t ++ r ∧ ∀ r', Quoted P (t ++ r') v r' := by
  obtain ⟨src, rfl, h⟩ := h
  refine ⟨'"' :: src ++ ['"'], by simp, fun r' => ⟨src, by simp, ?_⟩⟩
  have := content_shrink (r := ['"']) (y := r) (by simp) h
  exact content_ext (r := ['"']) (y := r') (by simp) this

theorem terminator_shrink {m t b e q : Str} (he : Eol e) (h : Terminator m (t ++ (e ++ q)) b (e ++ q)) :
    Terminator m (t ++ e) b e := by
  obtain ⟨e', he', h1, h2, -⟩ := h
  have : t = e' ++ b ++ m := List.append_cancel_right h1
  exact ⟨e', he', by rw [this], h2, e, [], he, by simp⟩

theorem terminator_suffix {m s b r : Str} (h : Terminator m s b r) : ∃ t, s = t ++ r := by
  obtain ⟨e, -, h, -, -⟩ := h; exact ⟨_, h⟩

theorem heredoc_replace {s r : Str} {v : CowStr} (h : Heredoc U s v r) :
    ∃ t, s = t ++ r ∧ ∀ r', Compat U r r' → Heredoc U (t ++ r') v r' := by
  cases h with
  | empty ind m s b _ h1 h2 h3 =>
    obtain ⟨t, rfl⟩ := terminator_suffix h3
    refine ⟨'<' :: '<' :: (if ind then ['-'] else []) ++ m ++ t, by simp, fun r' hc => ?_⟩
    obtain ⟨e, q, he, rfl⟩ : StartsEol r := by obtain ⟨_, -, -, -, h⟩ := h3; exact h
    obtain ⟨q', rfl⟩ := hc.eol e q he rfl
    have h4 := terminator_ext (y := q') (terminator_shrink he h3)
    have := Heredoc.empty ind m (t ++ e ++ q') b (e ++ q') h1 h2 h4
    simpa using this
  | content ind m e0 s c b _ _ h1 h2 h3 h4 h5 h6 =>
    obtain ⟨⟨t, rfl, h7⟩, hmin⟩ := h5
    obtain ⟨t, rfl⟩ := terminator_suffix h7
    obtain ⟨e, q, he, rfl⟩ : StartsEol r := by obtain ⟨_, -, -, -, h⟩ := h7; exact h
    refine ⟨'<' :: '<' :: (if ind then ['-'] else []) ++ m ++ e0 ++ (c ++ t), by simp, fun r' hc => ?_⟩
    obtain ⟨q', rfl⟩ := hc.eol e q he rfl
    have h8 := terminator_shrink he h7
    have h0 : Heredoc U ('<' :: '<' :: (if ind then ['-'] else []) ++ m ++ e0 ++ (c ++ (t ++ e))) v e := by
      refine .content ind m e0 _ c b e v h1 h2 h3 ?_ ⟨⟨t ++ e, rfl, h8⟩, ?_⟩ h6
      · rintro ⟨b', r', h⟩
        refine h4 ⟨b', r' ++ q, ?_⟩
        have := terminator_ext (y := q) h
        simpa using this
      · intro c' t' b' r' hs ht
        refine hmin c' (t' ++ q) b' (r' ++ q) ?_ (terminator_ext ht)
        rw [← List.append_assoc c', ← hs]; simp
    have := heredoc_ext (y := q') h0
    simpa using this

theorem stringTok_replace {s r : Str} {v : CowStr} (h : StringTok U s v r) :
    ∃ t, s = t ++ r ∧ ∀ r', Compat U r r' → StringTok U (t ++ r') v r' := by
  cases h with
  | quoted =>
    rename_i h
    obtain ⟨t, rfl, h'⟩ := quoted_replace h
    exact ⟨t, rfl, fun r' _ => .quoted _ _ _ (h' r')⟩
  | heredoc =>
    rename_i h
    obtain ⟨t, rfl, h'⟩ := heredoc_replace h
    exact ⟨t, rfl, fun r' hc => .heredoc _ _ _ (h' r' hc)⟩

/-! ## layout -/

theorem skip_replace {c : Char} {s r : Str} (hc : ¬ LayoutStart c) (h : SkipLayout s (c :: r)) :
    ∃ l, s = l ++ c :: r ∧ ∀ r', SkipLayout (l ++ c :: r') (c :: r') := by
  obtain ⟨l, hl, rfl, -⟩ := h
  exact ⟨l, rfl, fun r' => ⟨l, hl, rfl, not_starts_layout hc⟩⟩

theorem skipInline_replace {c : Char} {s r : Str} (hc : ¬ LayoutStart c) (h : SkipInline s (c :: r)) :
    ∃ l, s = l ++ c :: r ∧ ∀ r', SkipInline (l ++ c :: r') (c :: r') := by
  obtain ⟨l, hl, rfl, -⟩ := h
  exact ⟨l, rfl, fun r' => ⟨l, hl, rfl, not_starts_inline (not_starts_layout hc)⟩⟩

/-- Layout before an expression, whatever follows it. -/
theorem layout_expr_replace {s t r : Str} {v : Expr} (h : SkipLayout s (t ++ r)) (he : IsExpr U (t ++ r) v r) :
    ∃ l, s = l ++ (t ++ r) ∧ ∀ r', SkipLayout (l ++ (t ++ r')) (t ++ r') := by
  obtain ⟨l, hl, rfl, hn⟩ := h
  refine ⟨l, rfl, fun r' => ⟨l, hl, rfl, ?_⟩⟩
  rcases isExpr_start he with h' | ⟨c, u, hu, hc⟩
  · exact absurd h' hn
  · have ht : t ≠ [] := by
      obtain ⟨u, hu, h⟩ := isExpr_consumes he
      rwa [List.append_cancel_right h]
    cases t with
    | nil => exact absurd rfl ht
    | cons d t => injection hu with hu _; subst hu; exact not_starts_layout hc

/-- Layout at the start of an expression lies inside it. -/
theorem isExpr_start_inside {t r : Str} {v : Expr} (h : IsExpr U (t ++ r) v r) :
    Starts LayoutItem t ∨ Head (fun c => ¬ LayoutStart c) t := by
  have ht : t ≠ [] := by
    obtain ⟨u, hu, h⟩ := isExpr_consumes h
    rwa [List.append_cancel_right h]
  have key : ∀ (u : Str) (c : Char), ¬ LayoutStart c → Consumes (c :: u) r → SkipLayout (t ++ r) (c :: u) →
      Starts LayoutItem t ∨ Head (fun c => ¬ LayoutStart c) t := by
    intro u c hc ⟨w, hw, hcons⟩ ⟨l, hl, he, _⟩
    cases w with
    | nil => exact absurd rfl hw
    | cons d w =>
      rw [hcons, ← List.append_assoc] at he
      have := List.append_cancel_right he
      injection hcons with h1 _; subst h1
      cases hl with
      | nil => exact .inr ⟨_, _, this, hc⟩
      | cons i l hi _ => exact .inl ⟨i, l ++ c :: w, hi, by rw [this]; simp⟩
  have simple : Head (fun c => ¬ LayoutStart c) (t ++ r) → Starts LayoutItem t ∨ Head (fun c => ¬ LayoutStart c) t := by
    rintro ⟨c, u, hu, hc⟩
    cases t with
    | nil => exact absurd rfl ht
    | cons d t => injection hu with hu _; subst hu; exact .inr ⟨_, _, rfl, hc⟩
  rcases isExpr_start h with hl | hh
  case inr => exact simple hh
  generalize hz : t ++ r = z at h
  have hnl : ∀ {c : Char} {u : Str}, ¬ LayoutStart c → z ≠ c :: u := by
    rintro c u hc rfl
    rw [hz] at hl
    exact not_starts_layout hc hl
  cases h with
  | null => exact absurd rfl (hnl (by decide))
  | true => exact absurd rfl (hnl (by decide))
  | false => exact absurd rfl (hnl (by decide))
  | tuple => exact absurd rfl (hnl (by decide))
  | number =>
    rename_i k h
    rcases isExpr_start (U := U) (.number _ _ _ h) with h' | h'
    · exfalso
      obtain ⟨t', e, hn, -⟩ := h
      obtain ⟨c, t'', e', hc⟩ := isNumber_head hn r
      refine hnl (c := c) (u := t'') ?_ (e.trans e')
      rw [numHead_iff] at hc
      rintro (rfl | rfl | rfl | rfl | rfl | rfl) <;> revert hc <;> decide
    · exact simple (hz ▸ h')
  | string =>
    rename_i w h
    cases h with
    | quoted => rename_i h; obtain ⟨src, e, -⟩ := h; exact absurd e (hnl (by decide))
    | heredoc => rename_i h; obtain ⟨t', e⟩ := h.head; exact absurd e (hnl (by decide))
  | object =>
    rename_i u es h1 h2
    subst hz
    have : Consumes ('{' :: u) r := isExpr_consumes (U := U) (.object _ _ _ _ (.refl (not_starts_layout (by decide))) h2)
    exact key u '{' (by decide) this h1
  | bracket =>
    rename_i t1 u1 w1 h1 h2 h3 h4
    subst hz
    have : Consumes ('(' :: t1) r :=
      isExpr_consumes (U := U) (.bracket _ _ _ _ _ _ (.refl (not_starts_layout (by decide))) ‹_› ‹_› ‹_›)
    exact key t1 '(' (by decide) this ‹_›

/-- Inline layout before an expression, whatever follows it. -/
theorem inline_expr_replace {s t r : Str} {v : Expr} (h : SkipInline s (t ++ r)) (he : IsExpr U (t ++ r) v r) :
    ∃ l, s = l ++ (t ++ r) ∧ ∀ r', SkipInline (l ++ (t ++ r')) (t ++ r') := by
  obtain ⟨l, hl, rfl, hn⟩ := h
  refine ⟨l, rfl, fun r' => ⟨l, hl, rfl, ?_⟩⟩
  rcases isExpr_start_inside he with h' | ⟨c, u, rfl, hc⟩
  · refine starts_layout_ext h' ?_
    rintro ⟨i, u, hi, rfl⟩
    exact hn ⟨i, u ++ r, hi, by simp⟩
  · exact not_starts_inline (not_starts_layout hc)

theorem tupleEnd_replace {s r : Str} (h : IsTupleEnd s r) :
    ∃ p, s = p ++ r ∧ (∀ r', IsTupleEnd (p ++ r') r') ∧ ∀ r', Compat U (p ++ r) (p ++ r') := by
  cases h with
  | close =>
    rename_i h
    obtain ⟨l, rfl, h2⟩ := skip_replace (by decide) h
    refine ⟨l ++ [']'], by simp, fun r' => .close _ _ (by simpa using h2 r'), fun r' => ?_⟩
    have := Compat.common (U := U) (c := ']') (by simp [NumChar, IsDig]) (by decide) l r r'
    simpa using this
  | comma t _ h h' =>
    obtain ⟨l', rfl, k'⟩ := skip_replace (by decide) h'
    obtain ⟨l, rfl, k⟩ := skip_replace (by decide) h
    refine ⟨l ++ ',' :: l' ++ [']'], by simp, fun r' => .comma _ (l' ++ ']' :: r') _ ?_ (k' r'), fun r' => ?_⟩
    · simpa using k (l' ++ ']' :: r')
    · have := Compat.common (U := U) (c := ',') (by simp [NumChar, IsDig]) (by decide) l (l' ++ ']' :: r) (l' ++ ']' :: r')
      simpa using this

theorem newlines_replace {s r : Str} (h : Newlines s r) :
    ∃ p, s = p ++ '\n' :: r ∧ (∀ r', Newlines (p ++ '\n' :: r') r') ∧ Starts LayoutItem (p ++ ['\n']) := by
  obtain ⟨i, l, hi, hl, rfl⟩ := h
  have heol : ∀ {e : Str}, Eol e → ∃ q, e = q ++ ['\n'] := by
    intro e h; cases h
    · exact ⟨[], rfl⟩
    · exact ⟨['\r'], rfl⟩
  have hitem : ∀ {i : Str}, NewlineItem i → ∃ q, i = q ++ ['\n'] := by
    intro i h
    cases h with
    | eol _ h => exact heol h
    | line _ h =>
      cases h with
      | hash b e _ he => obtain ⟨q, rfl⟩ := heol he; exact ⟨'#' :: b ++ q, by simp⟩
      | slash b e _ he => obtain ⟨q, rfl⟩ := heol he; exact ⟨'/' :: '/' :: b ++ q, by simp⟩
    | comment s e _ he => obtain ⟨q, rfl⟩ := heol he; exact ⟨s ++ q, by simp⟩
  have hseq : ∀ {l : Str}, Seq NewlineItem l → l = [] ∨ ∃ q, l = q ++ ['\n'] := by
    intro l h
    induction h with
    | nil => exact .inl rfl
    | cons i s hi _ ih =>
      right
      rcases ih with rfl | ⟨q, rfl⟩
      · obtain ⟨q, rfl⟩ := hitem hi; exact ⟨q, by simp⟩
      · exact ⟨i ++ q, by simp⟩
  have : ∃ q, i ++ l = q ++ ['\n'] := by
    rcases hseq hl with rfl | ⟨q, rfl⟩
    · obtain ⟨q, rfl⟩ := hitem hi; exact ⟨q, by simp⟩
    · exact ⟨i ++ q, by simp⟩
  obtain ⟨q, hq⟩ := this
  refine ⟨q, by rw [hq]; simp, fun r' => ⟨i, l, hi, hl, by rw [hq]; simp⟩, ?_⟩
  rw [← hq]
  have := newlines_starts (s := i ++ l) (r := []) ⟨i, l, hi, hl, by simp⟩
  exact this

theorem objectSep_replace {x y z : Str} (h : SkipInline x y) (hs : IsObjectSep y z) :
    ∃ (p : Str), ∀ q r, z = q ++ r → (∀ c t, y = c :: t → c = '}' → q ≠ []) → ∃ l, x = l ++ (p ++ (q ++ r)) ∧ y = p ++ (q ++ r) ∧ ∀ r',
      SkipInline (l ++ (p ++ (q ++ r'))) (p ++ (q ++ r')) ∧ IsObjectSep (p ++ (q ++ r')) (q ++ r') ∧
      Compat U (l ++ (p ++ (q ++ r))) (l ++ (p ++ (q ++ r'))) := by
  cases hs with
  | comma =>
    refine ⟨[','], ?_⟩
    rintro q r rfl -
    obtain ⟨l, rfl, h2⟩ := skipInline_replace (by decide) h
    exact ⟨l, rfl, rfl, fun r' => ⟨h2 _, .comma _, Compat.common (by simp [NumChar, IsDig]) (by decide) l _ _⟩⟩
  | newline =>
    rename_i hn
    obtain ⟨p, rfl, hp, hst⟩ := newlines_replace hn
    refine ⟨p ++ ['\n'], ?_⟩
    rintro q r rfl -
    obtain ⟨l, hl, rfl, hno⟩ := h
    refine ⟨l, by simp, by simp, fun r' => ⟨⟨l, hl, rfl, ?_⟩, .newline _ _ (by simpa using hp (q ++ r')), ?_⟩⟩
    · refine starts_layout_ext hst ?_
      rintro ⟨i, u, hi, e⟩
      exact hno ⟨i, u ++ (q ++ r), hi, by rw [← List.append_assoc, ← e]; simp⟩
    · have := Compat.common (U := U) (c := '\n') (by simp [NumChar, IsDig]) (by decide) (l ++ p) (q ++ r) (q ++ r')
      simpa using this
  | close =>
    rename_i z
    refine ⟨[], ?_⟩
    intro q r hq hne
    obtain ⟨l, rfl, h2⟩ := skipInline_replace (by decide) h
    cases q with
    | nil => exact absurd rfl (hne _ _ rfl rfl)
    | cons c q =>
      injection hq with h1 h2; subst h1; subst h2
      exact ⟨l, rfl, rfl, fun r' => ⟨h2 _, .close _, Compat.common (by simp [NumChar, IsDig]) (by decide) l _ _⟩⟩

/-! ## expressions -/

theorem objectKey_start {s r : Str} {k : ObjKey} (h : IsObjectKey U s k r) (hn : ¬ Starts LayoutItem s) :
    Head (fun c => ¬ LayoutStart c) s := by
  cases h with
  | ident => exact ident_start ‹_›
  | expr =>
    rcases isExpr_start ‹IsExpr U _ _ _› with h | h
    · exact absurd h hn
    · exact h

theorem layout_key_replace {s t r : Str} {k : ObjKey} (h : SkipLayout s (t ++ r)) (he : IsObjectKey U (t ++ r) k r) :
    ∃ l, s = l ++ (t ++ r) ∧ ∀ r', SkipLayout (l ++ (t ++ r')) (t ++ r') := by
  obtain ⟨l, hl, rfl, hn⟩ := h
  refine ⟨l, rfl, fun r' => ⟨l, hl, rfl, ?_⟩⟩
  obtain ⟨c, u, hu, hc⟩ := objectKey_start he hn
  have ht : t ≠ [] := by
    obtain ⟨u, hu, h⟩ := isObjectKey_consumes he
    rwa [List.append_cancel_right h]
  cases t with
  | nil => exact absurd rfl ht
  | cons d t => injection hu with hu _; subst hu; exact not_starts_layout hc

/-- What follows an expression may be replaced. -/
theorem isExpr_replace {s r : Str} {v : Expr} (h : IsExpr U s v r) :
    ∃ t, s = t ++ r ∧ ∀ r', Compat U r r' → IsExpr U (t ++ r') v r' := by
  refine IsExpr.rec
    (motive_1 := fun s v r _ => ∃ t, s = t ++ r ∧ ∀ r', Compat U r r' → IsExpr U (t ++ r') v r')
    (motive_2 := fun s v r _ => ∃ t, s = t ++ r ∧ ∀ r', IsTupleBody U (t ++ r') v r')
    (motive_3 := fun s v r _ => ∃ t, s = t ++ r ∧ (∀ r', IsTupleTail U (t ++ r') v r') ∧
      ∀ r', Compat U (t ++ r) (t ++ r'))
    (motive_4 := fun s v r _ => ∃ t, s = t ++ r ∧ ∀ r', Compat U r r' → IsObjectKey U (t ++ r') v r')
    (motive_5 := fun s v r _ => ∃ t, t ≠ [] ∧ s = t ++ r ∧ ∀ r', IsObjectBody U (t ++ r') v r')
    ?_ ?_ ?_ ?_ ?_ ?_ ?_ ?_ ?_ ?_ ?_ ?_ ?_ ?_ ?_ ?_ h
  · intro r; exact ⟨['n', 'u', 'l', 'l'], rfl, fun r' _ => .null _⟩
  · intro r; exact ⟨['t', 'r', 'u', 'e'], rfl, fun r' _ => .true _⟩
  · intro r; exact ⟨['f', 'a', 'l', 's', 'e'], rfl, fun r' _ => .false _⟩
  · intro s n r h
    obtain ⟨t, rfl, h2⟩ := number_replace (U := U) h
    exact ⟨t, rfl, fun r' hc => .number _ _ _ (h2 r' hc)⟩
  · intro s v r h
    obtain ⟨t, rfl, h2⟩ := stringTok_replace h
    exact ⟨t, rfl, fun r' hc => .string _ _ _ (h2 r' hc)⟩
  · rintro s es r _ ⟨t, rfl, h⟩
    exact ⟨'[' :: t, rfl, fun r' _ => .tuple _ _ _ (h r')⟩
  · rintro s t es r h _ ⟨p, -, rfl, ih⟩
    obtain ⟨l, rfl, h2⟩ := skip_replace (by decide) h
    exact ⟨l ++ '{' :: p, by simp, fun r' _ => .object _ (p ++ r') _ _ (by simpa using h2 (p ++ r')) (ih r')⟩
  · rintro s t u v e r h1 h2 he h3 ⟨p, rfl, ih⟩
    obtain ⟨l3, rfl, k3⟩ := skip_replace (by decide) h3
    obtain ⟨l2, rfl, k2⟩ := layout_expr_replace h2 he
    obtain ⟨l1, rfl, k1⟩ := skip_replace (by decide) h1
    have hc : ∀ r', Compat U (l3 ++ ')' :: r) (l3 ++ ')' :: r') :=
      fun r' => Compat.common (by simp [NumChar, IsDig]) (by decide) l3 r r'
    refine ⟨l1 ++ '(' :: (l2 ++ (p ++ l3)) ++ [')'], by simp, fun r' _ => ?_⟩
    refine .bracket _ _ _ _ _ _ ?_ (k2 (l3 ++ ')' :: r')) (ih _ (hc r')) (k3 r')
    have := k1 (l2 ++ (p ++ (l3 ++ ')' :: r')))
    simpa using this
  · intro s r h
    obtain ⟨p, rfl, h2, -⟩ := tupleEnd_replace (U := U) h
    exact ⟨p, rfl, fun r' => .empty _ _ (h2 r')⟩
  · rintro s t u e es r h he _ ⟨p, rfl, ih⟩ ⟨p', rfl, ih', hc⟩
    obtain ⟨l, rfl, k⟩ := layout_expr_replace h he
    refine ⟨l ++ (p ++ p'), by simp, fun r' => ?_⟩
    have := IsTupleBody.elems _ _ _ _ _ _ (k (p' ++ r')) (ih _ (hc r')) (ih' r')
    simpa using this
  · intro s r h
    obtain ⟨p, rfl, h2, hc⟩ := tupleEnd_replace (U := U) h
    exact ⟨p, rfl, fun r' => .last _ _ (h2 r'), hc⟩
  · rintro s t u v e es r h h' he _ ⟨p, rfl, ih⟩ ⟨p', rfl, ih', hc⟩
    obtain ⟨l', rfl, k'⟩ := layout_expr_replace h' he
    obtain ⟨l, rfl, k⟩ := skip_replace (by decide) h
    refine ⟨l ++ ',' :: (l' ++ (p ++ p')), by simp, fun r' => ?_, fun r' => ?_⟩
    · have := IsTupleTail.more _ _ _ _ _ _ _ (k (l' ++ (p ++ (p' ++ r')))) (k' (p' ++ r')) (ih _ (hc r')) (ih' r')
      simpa using this
    · have := Compat.common (U := U) (c := ',') (by simp [NumChar, IsDig]) (by decide) l (l' ++ (p ++ (p' ++ r)))
        (l' ++ (p ++ (p' ++ r')))
      simpa using this
  · rintro s i r h
    obtain ⟨rfl, h1, h2⟩ := h
    exact ⟨i, rfl, fun r' hc => .ident _ _ _ ⟨rfl, h1, hc.ident h2⟩⟩
  · rintro t e r hn he ⟨p, hp, ih⟩
    have hp := List.append_cancel_right hp
    subst hp
    refine ⟨t, rfl, fun r' hc => .expr _ _ _ ?_ (ih r' hc)⟩
    obtain ⟨u, hu, h⟩ := isExpr_consumes he
    rw [← List.append_cancel_right h] at hu
    cases t with
    | nil => exact absurd rfl hu
    | cons c t => rw [List.cons_append, head_cons] at *; exact hn
  · intro s r h
    obtain ⟨l, rfl, k⟩ := skip_replace (by decide) h
    exact ⟨l ++ ['}'], by simp, by simp, fun r' => .close _ _ (by simpa using k r')⟩
  · rintro s t u v w x y z k e es r h1 h2 h3 h4 h5 h6 h7 _ ⟨p2, rfl, ih2⟩ ⟨p5, rfl, ih5⟩ ⟨p8, hne, rfl, ih8⟩
    obtain ⟨p, hp⟩ := objectSep_replace (U := U) h6 h7
    obtain ⟨l6, rfl, rfl, k6⟩ := hp p8 r rfl (fun _ _ _ _ => hne)
    obtain ⟨l4, rfl, k4⟩ := inline_expr_replace h4 h5
    obtain ⟨l3, rfl, k3⟩ := skipInline_replace (by decide) h3
    obtain ⟨l1, rfl, k1⟩ := layout_key_replace h1 h2
    refine ⟨l1 ++ (p2 ++ (l3 ++ '=' :: (l4 ++ (p5 ++ (l6 ++ (p ++ p8)))))), by simp, by simp, fun r' => ?_⟩
    have := IsObjectBody.elem _ _ _ _ _ _ _ _ _ _ _ _ (k1 (l3 ++ '=' :: (l4 ++ (p5 ++ (l6 ++ (p ++ (p8 ++ r')))))))
      (ih2 _ (Compat.common (by simp [NumChar, IsDig]) (by decide) l3 _ _)) (k3 _) (k4 (l6 ++ (p ++ (p8 ++ r'))))
      (ih5 _ (k6 r').2.2) (k6 r').1 (k6 r').2.1 (ih8 r')
    simpa using this

end Verif
