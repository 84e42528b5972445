import Verif.Proofs.Heredoc
import Verif.Proofs.Number
import Verif.Spec.Grammar
/-! # Expressions: the parser accepts exactly the grammar -/
set_option autoImplicit false

namespace Verif
open PRes Spec

/-! ## more on layout -/

/-- Characters that can begin a piece of layout. -/
def LayoutStart (c : Char) : Prop := c = ' ' ∨ c = '\t' ∨ c = '\r' ∨ c = '\n' ∨ c = '#' ∨ c = '/'

theorem layoutItem_head {i t : Str} (h : LayoutItem i) : Head LayoutStart (i ++ t) := by
  cases h with
  | space c hc => exact ⟨c, t, rfl, by unfold LayoutStart; rcases hc with h | h | h | h <;> simp [h]⟩
  | line _ h =>
    rcases h.head (t := t) with ⟨u, hu⟩ | ⟨u, hu⟩
    · exact ⟨'#', u, hu, by simp [LayoutStart]⟩
    · exact ⟨'/', _, hu, by simp [LayoutStart]⟩
  | comment _ h =>
    obtain ⟨u, hu⟩ := h.head (t := t)
    exact ⟨'/', _, hu, by simp [LayoutStart]⟩

theorem not_starts_layout {c : Char} {t : Str} (h : ¬ LayoutStart c) : ¬ Starts LayoutItem (c :: t) := by
  rintro ⟨i, u, hi, he⟩
  have := layoutItem_head (t := u) hi
  rw [← he, head_cons] at this
  exact h this

theorem not_starts_inline {s : Str} (h : ¬ Starts LayoutItem s) : ¬ Starts InlineItem s := by
  rintro ⟨i, u, hi, he⟩
  exact h ⟨i, u, inlineItem_layout hi, he⟩

theorem skip_head {s r : Str} (h : SkipLayout s r) : s = r ∨ Head LayoutStart s := by
  obtain ⟨l, hl, rfl, -⟩ := h
  cases hl with
  | nil => exact .inl rfl
  | cons i l hi _ => rw [List.append_assoc]; exact .inr (layoutItem_head hi)

theorem Spec.Skip.again {I : Str → Prop} {s r : Str} (h : Skip I s r) : Skip I r r := .refl h.not_starts

theorem skipInline_again {s r : Str} (h : SkipLayout s r) : SkipInline r r :=
  .refl (not_starts_inline h.not_starts)

theorem layout_again_eq {s r t : Str} (h : SkipLayout s r) (h' : SkipLayout r t) : t = r :=
  h'.functional layoutItem_prefix h.again
theorem inline_again_eq {s r t : Str} (h : SkipInline s r) (h' : SkipInline r t) : t = r :=
  h'.functional inlineItem_prefix h.again
theorem inline_after_layout {s r t : Str} (h : SkipLayout s r) (h' : SkipInline r t) : t = r :=
  h'.functional inlineItem_prefix (skipInline_again h)

/-- Inline layout in front does not matter where all layout is skipped. -/
theorem layout_of_inline {s r t : Str} (h : SkipInline s r) (h' : SkipLayout r t) : SkipLayout s t := by
  obtain ⟨l, hl, rfl, -⟩ := h
  exact h'.prepend (hl.mono fun i hi => .single (inlineItem_layout hi))

theorem layout_of_inline' {s r t : Str} (h : SkipInline s r) (h' : SkipLayout s t) : SkipLayout r t := by
  obtain ⟨l, hl, rfl, -⟩ := h
  exact h'.unprepend layoutItem_prefix (hl.mono fun i hi => .single (inlineItem_layout hi))

/-- `s` consists of some nonempty text followed by `r`. -/
def Consumes (s r : Str) : Prop := ∃ t, t ≠ [] ∧ s = t ++ r

theorem Consumes.length {s r : Str} (h : Consumes s r) : r.length < s.length := by
  obtain ⟨t, ht, rfl⟩ := h
  have : t.length ≠ 0 := by simpa using ht
  simp; omega

theorem Consumes.suffix {s r : Str} (h : Consumes s r) : r <:+ s := by
  obtain ⟨t, ht, rfl⟩ := h; exact List.suffix_append _ _

theorem consumes_cons (c : Char) (s : Str) : Consumes (c :: s) s := ⟨[c], by simp, rfl⟩

theorem Consumes.of_suffix {s t r : Str} (h : Consumes t r) (hs : t <:+ s) : Consumes s r := by
  obtain ⟨a, ha, rfl⟩ := h
  obtain ⟨b, rfl⟩ := hs
  exact ⟨b ++ a, by simp [ha], by simp⟩

theorem Consumes.then {s t r : Str} (h : Consumes s t) (hs : r <:+ t) : Consumes s r := by
  obtain ⟨a, ha, rfl⟩ := h
  obtain ⟨b, rfl⟩ := hs
  exact ⟨a ++ b, by simp [ha], by simp⟩

/-! ## newlines -/

theorem newlineItem_parse {i t : Str} (h : NewlineItem i) : ∃ v,
    newlineItem (i ++ t) = .ok t v := by
  unfold newlineItem
  have eolHead : ∀ {e : Str}, Eol e → ∃ c u, e ++ t = c :: u ∧ (c = '\n' ∨ c = '\r') := by
    intro e he; cases he
    · exact ⟨_, _, rfl, .inl rfl⟩
    · exact ⟨_, _, rfl, .inr rfl⟩
  cases h with
  | eol _ he =>
    obtain ⟨c, u, hu, hc⟩ := eolHead he
    have e1 : hashComment (i ++ t) = .err := Tame.hashComment.not_ok fun r v h => by
      obtain ⟨_, _, h, _⟩ := hashComment_eq_ok.1 h
      rw [hu] at h; simp at h; rcases hc with rfl | rfl <;> simp at h
    have e2 : slashComment (i ++ t) = .err := Tame.slashComment.not_ok fun r v h => by
      obtain ⟨_, _, h, _⟩ := slashComment_eq_ok.1 h
      rw [hu] at h; simp at h; rcases hc with rfl | rfl <;> simp at h
    have e3 : inlineComment (i ++ t) = .err := Tame.inlineComment.not_ok fun r v h => by
      obtain ⟨h, _⟩ := inlineComment_eq_ok.1 h
      rw [hu] at h; simp at h; rcases hc with rfl | rfl <;> simp at h
    rw [orElse_of_err e1, orElse_of_err e2, orElse_of_err (by simp [e3])]
    exact ⟨i, eol_append he⟩
  | line _ hl =>
    rcases (lineComment_iff (r := t)).2 ⟨i, hl, rfl⟩ with ⟨v, h⟩ | ⟨v, h⟩
    · exact ⟨v, orElse_of_ok h⟩
    · have e1 : hashComment (i ++ t) = .err := Tame.hashComment.not_ok fun r w h' => by
        obtain ⟨_, _, h', _⟩ := hashComment_eq_ok.1 h'
        obtain ⟨_, _, h, _⟩ := slashComment_eq_ok.1 h
        rw [h'] at h; simp at h
      exact ⟨v, by rw [orElse_of_err e1]; exact orElse_of_ok h⟩
  | comment s e hl he =>
    rw [List.append_assoc]
    obtain ⟨v, h⟩ := inlineComment_append (t := e ++ t) hl
    obtain ⟨x, hx⟩ := hl.head (t := e ++ t)
    have e1 : hashComment (s ++ (e ++ t)) = .err := Tame.hashComment.not_ok fun r w h' => by
      obtain ⟨_, _, h', _⟩ := hashComment_eq_ok.1 h'
      rw [hx] at h'; simp at h'
    have e2 : slashComment (s ++ (e ++ t)) = .err := Tame.slashComment.not_ok fun r w h' => by
      obtain ⟨_, _, h', _⟩ := slashComment_eq_ok.1 h'
      rw [hx] at h'; simp at h'
    refine ⟨v, ?_⟩
    rw [orElse_of_err e1, orElse_of_err e2]
    apply orElse_of_ok
    simp [h, eol_append he]

theorem newlineItem_of {s r v : Str}
    (h : newlineItem s = .ok r v) : ∃ i, NewlineItem i ∧ s = i ++ r := by
  unfold newlineItem at h
  simp only [orElse_eq_ok] at h
  rcases h with h | ⟨-, h | ⟨-, h | ⟨-, h⟩⟩⟩
  · obtain ⟨i, hi, rfl⟩ := lineComment_iff.1 (.inl ⟨v, h⟩); exact ⟨i, .line _ hi, rfl⟩
  · obtain ⟨i, hi, rfl⟩ := lineComment_iff.1 (.inr ⟨v, h⟩); exact ⟨i, .line _ hi, rfl⟩
  · simp only [bind_apply, bind_eq_ok, eol_eq_ok, pure_apply] at h
    obtain ⟨s1, w, h1, s2, e, ⟨he, rfl⟩, h2⟩ := h
    injection h2 with h3 h4; subst h3 h4
    obtain ⟨i, hi, rfl⟩ := inlineComment_spec h1
    exact ⟨i ++ e, .comment i e hi he, by simp⟩
  · obtain ⟨h1, rfl⟩ := eol_eq_ok.1 h; exact ⟨v, .eol _ h1, rfl⟩

theorem newlineItem_ne_nil {i : Str} (h : NewlineItem i) : i ≠ [] := by
  cases h with
  | eol _ h => cases h <;> simp
  | line _ h => cases h <;> simp
  | comment s e h he => cases h; simp

theorem manyNewlines_of {s r : Str} {vs : List Str}
    (h : many0 newlineItem s = .ok r vs) : ∃ l, Seq NewlineItem l ∧ s = l ++ r := by
  rw [many0_eq_ok] at h
  induction h with
  | stop s h => exact ⟨[], .nil, rfl⟩
  | stuck s r v h hl => exact ⟨[], .nil, rfl⟩
  | cons s r v vs t h hl _ ih =>
    obtain ⟨l, hl', rfl⟩ := ih
    obtain ⟨i, hi, rfl⟩ := newlineItem_of h
    exact ⟨i ++ l, .cons i l hi hl', by simp⟩

theorem newline_sound {s r : Str} {v : List Str} (h : newline s = .ok r v) : Newlines s r := by
  unfold newline many1 at h
  rw [bind_eq_ok] at h
  obtain ⟨r', v', h1, h2⟩ := h
  obtain ⟨vs, h2, -⟩ := map_eq_ok.1 h2
  obtain ⟨i, hi, rfl⟩ := newlineItem_of h1
  obtain ⟨l, hl, rfl⟩ := manyNewlines_of h2
  exact ⟨i, l, hi, hl, by simp⟩

theorem Tame.newlineItem : Tame newlineItem :=
  .orElse .hashComment (.orElse .slashComment
    (.orElse (.bind .inlineComment fun _ => .bind .eol fun _ => .pure _) .eol))

theorem Tame.newline : Tame newline := .many1 .newlineItem

/-- The parser takes all the line ends there are; the ones the grammar leaves over are layout. -/
theorem newline_complete {s r : Str} (h : Newlines s r) : ∃ r' v l, newline s = .ok r' v ∧
    Seq LayoutItem l ∧ r = l ++ r' := by
  obtain ⟨i, l, hi, hl, rfl⟩ := h
  obtain ⟨v, hv⟩ := newlineItem_parse (t := l ++ r) hi
  have key : ∃ r' vs m, many0 newlineItem (l ++ r) = .ok r' vs ∧
      Seq LayoutItem m ∧ r = m ++ r' := by
    clear hv
    induction hl with
    | nil =>
      rcases Tame.many0 Tame.newlineItem r with ⟨r', vs, h⟩ | h
      · obtain ⟨l, hl, rfl⟩ := manyNewlines_of h
        exact ⟨r', vs, l, h, hl.mono fun i => newlineItem_seq, rfl⟩
      · exact absurd h (many0_ne_err _ _)
    | cons j l hj _ ih =>
      obtain ⟨v, hv⟩ := newlineItem_parse (t := l ++ r) hj
      obtain ⟨r', vs, m, h1, h2, h3⟩ := ih
      refine ⟨r', v :: vs, m, ?_, h2, h3⟩
      rw [List.append_assoc, many0_cons hv, h1]
      · rfl
      · have : j.length ≠ 0 := by simpa using newlineItem_ne_nil hj
        simp; omega
  obtain ⟨r', vs, m, h1, h2, h3⟩ := key
  refine ⟨r', v :: vs, m, ?_, h2, h3⟩
  unfold newline many1
  rw [List.append_assoc, hv, bind_ok, h1]; rfl

theorem newlines_head {s r : Str} (h : Newlines s r) :
    Head (fun c => c = '\n' ∨ c = '\r' ∨ c = '#' ∨ c = '/') s := by
  obtain ⟨i, l, hi, -, rfl⟩ := h
  rw [List.append_assoc]
  generalize l ++ r = t
  cases hi with
  | eol _ h => cases h <;> exact ⟨_, _, rfl, by simp⟩
  | line _ h =>
    rcases h.head (t := t) with ⟨u, hu⟩ | ⟨u, hu⟩ <;> exact ⟨_, _, hu, by simp⟩
  | comment s e h he =>
    obtain ⟨u, hu⟩ := h.head (t := e ++ t)
    exact ⟨_, _, by rw [List.append_assoc]; exact hu, by simp⟩

theorem newlines_consumes {s r : Str} (h : Newlines s r) : Consumes s r := by
  obtain ⟨i, l, hi, -, rfl⟩ := h
  exact ⟨i ++ l, by simp [newlineItem_ne_nil hi], rfl⟩

/-! ## consumption of the grammar -/

theorem ident_consumes {U : CharClass} {s i r : Str} (h : Ident U s i r) : Consumes s r := by
  obtain ⟨rfl, h, -⟩ := h; exact ⟨i, by cases h; simp, rfl⟩

theorem numberTok_consumes {s r : Str} {n : Number} (h : NumberTok s n r) : Consumes s r := by
  obtain ⟨t, rfl, h, -⟩ := h; exact ⟨t, isNumber_ne_nil h, rfl⟩

theorem quoted_consumes {P : Char → Prop} {s v r : Str} (h : Quoted P s v r) : Consumes s r := by
  obtain ⟨src, rfl, -⟩ := h; exact ⟨'"' :: src ++ ['"'], by simp, by simp⟩

theorem terminator_consumes {m s b r : Str} (h : Terminator m s b r) : Consumes s r := by
  obtain ⟨e, he, rfl, -⟩ := h
  exact ⟨e ++ b ++ m, by cases he <;> simp, rfl⟩

theorem stringTok_consumes {U : CharClass} {s r : Str} {v : CowStr} (h : StringTok U s v r) : Consumes s r := by
  cases h with
  | quoted _ _ h => exact quoted_consumes h
  | heredoc _ _ h =>
    cases h with
    | empty ind m s b _ _ _ h =>
      exact (terminator_consumes h).of_suffix (List.suffix_append _ _)
    | content ind m e s c b _ _ _ _ _ _ h _ =>
      obtain ⟨⟨t, rfl, h⟩, -⟩ := h
      refine (terminator_consumes h).of_suffix ?_
      exact ⟨'<' :: '<' :: (if ind then ['-'] else []) ++ m ++ e ++ c, by simp⟩

theorem tupleEnd_consumes {s r : Str} (h : IsTupleEnd s r) : Consumes s r := by
  cases h with
  | close _ h => exact (consumes_cons _ _).of_suffix h.suffix
  | comma t _ h h' =>
    exact ((consumes_cons _ _).of_suffix h'.suffix).of_suffix ((List.suffix_cons _ _).trans h.suffix)

theorem objectSep_suffix {s r : Str} (h : IsObjectSep s r) : r <:+ s := by
  cases h with
  | comma => exact List.suffix_cons _ _
  | newline _ _ h => exact (newlines_consumes h).suffix
  | close => exact List.suffix_refl _

theorem isExpr_consumes {U : CharClass} {s r : Str} {v : Expr} (h : IsExpr U s v r) : Consumes s r := by
  refine IsExpr.rec (motive_1 := fun s _ r _ => Consumes s r) (motive_2 := fun s _ r _ => Consumes s r)
    (motive_3 := fun s _ r _ => Consumes s r) (motive_4 := fun s _ r _ => Consumes s r)
    (motive_5 := fun s _ r _ => Consumes s r) ?_ ?_ ?_ ?_ ?_ ?_ ?_ ?_ ?_ ?_ ?_ ?_ ?_ ?_ ?_ ?_ h
  · intro r; exact ⟨['n', 'u', 'l', 'l'], by simp, rfl⟩
  · intro r; exact ⟨['t', 'r', 'u', 'e'], by simp, rfl⟩
  · intro r; exact ⟨['f', 'a', 'l', 's', 'e'], by simp, rfl⟩
  · intro s n r h; exact numberTok_consumes h
  · intro s v r h; exact stringTok_consumes h
  · intro s es r _ h; exact h.of_suffix (List.suffix_cons _ _)
  · intro s t es r h _ ih
    exact ih.of_suffix ((List.suffix_cons _ _).trans h.suffix)
  · intro s t u v e r h1 h2 _ h3 ih
    exact ((consumes_cons ')' r).of_suffix h3.suffix).of_suffix
      (ih.suffix.trans (h2.suffix.trans ((List.suffix_cons _ _).trans h1.suffix)))
  · intro s r h; exact tupleEnd_consumes h
  · intro s t u e es r h _ _ ih ih'
    exact ih'.of_suffix (ih.suffix.trans h.suffix)
  · intro s r h; exact tupleEnd_consumes h
  · intro s t u v e es r h h' _ _ ih ih'
    exact ih'.of_suffix (ih.suffix.trans (h'.suffix.trans ((List.suffix_cons _ _).trans h.suffix)))
  · intro s i r h; exact ident_consumes h
  · intro t e r _ _ ih; exact ih
  · intro s r h; exact (consumes_cons _ _).of_suffix h.suffix
  · intro s t u v w x y z k e es r h1 _ h3 h4 _ h6 h7 _ ih2 ih5 ih8
    exact ih8.of_suffix ((objectSep_suffix h7).trans (h6.suffix.trans (ih5.suffix.trans (h4.suffix.trans
      ((List.suffix_cons _ _).trans (h3.suffix.trans (ih2.suffix.trans h1.suffix)))))))

/-! ## tuples -/

section
variable {U : CharClass} {e : Parser Expr}

/-- Result of skipping layout, running a parser and skipping layout. -/
theorem wsAround_eq_ok {α : Type} {p : Parser α} {s r : Str} {v : α} :
    wsAround p s = .ok r v ↔ ∃ t u, SkipLayout s t ∧ p t = .ok u v ∧ SkipLayout u r := by
  unfold wsAround
  simp only [bind_apply, bind_eq_ok, pure_apply]
  constructor
  · rintro ⟨t, _, h1, u, v', h2, r', _, h3, h4⟩
    injection h4 with h5 h6; subst h5 h6
    exact ⟨t, u, ws_skip h1, h2, ws_skip h3⟩
  · rintro ⟨t, u, h1, h2, h3⟩
    obtain ⟨x, hx⟩ := ws_iff.2 h1
    obtain ⟨y, hy⟩ := ws_iff.2 h3
    exact ⟨t, x, hx, u, v, h2, r, y, hy, rfl⟩

theorem wsThen_eq_ok {α : Type} {p : Parser α} {s r : Str} {v : α} :
    (ws >>= fun _ => p) s = .ok r v ↔ ∃ t, SkipLayout s t ∧ p t = .ok r v := ws_bind_ok fun _ _ => rfl

theorem inlineThen_eq_ok {α : Type} {p : Parser α} {s r : Str} {v : α} :
    (inlineWs >>= fun _ => p) s = .ok r v ↔ ∃ t, SkipInline s t ∧ p t = .ok r v := by
  rw [bind_apply, bind_eq_ok]
  constructor
  · rintro ⟨t, v, h, h'⟩; exact ⟨t, inlineWs_skip h, h'⟩
  · rintro ⟨t, h, h'⟩
    obtain ⟨v, hv⟩ := inlineWs_iff.2 h
    exact ⟨t, v, hv, h'⟩

theorem tagThen_eq_ok {α : Type} {p : Parser α} {k s r : Str} {v : α} :
    (tag k >>= fun _ => p) s = .ok r v ↔ ∃ t, s = k ++ t ∧ p t = .ok r v := by
  rw [bind_apply, bind_eq_ok]
  constructor
  · rintro ⟨t, v, h, h'⟩; exact ⟨t, (tag_eq_ok.1 h).1, h'⟩
  · rintro ⟨t, rfl, h'⟩; exact ⟨t, k, tag_append _ _, h'⟩

theorem bindP_eq_ok {α β : Type} {p : Parser α} {f : α → Parser β} {s r : Str} {v : β} :
    (p >>= f) s = .ok r v ↔ ∃ r' v', p s = .ok r' v' ∧ f v' r' = .ok r v := by
  rw [bind_apply, bind_eq_ok]

/-- The parser for the end of a tuple. -/
theorem tupleEnd_iff {s r : Str} : tupleEnd s = .ok r () ↔ IsTupleEnd s r := by
  unfold tupleEnd
  rw [wsThen_eq_ok]
  simp only [bindP_eq_ok, wsAround_eq_ok, tag_eq_ok, opt_eq_ok, pure_apply]
  constructor
  · rintro ⟨t, h1, t1, o, ⟨t2, t3, h2, h3, h4⟩, t5, _, ⟨rfl, -⟩, h7⟩
    injection h7 with h10 _; subst h10
    have := layout_again_eq h1 h2; subst this
    rcases h3 with ⟨w, ⟨rfl, -⟩, -⟩ | ⟨-, rfl, -⟩
    · exact .comma _ _ _ h1 h4
    · have := layout_again_eq h2 h4; rw [← this] at h1
      exact .close _ _ h1
  · intro h
    cases h with
    | close _ h =>
      refine ⟨_, h, ']' :: r, none, ⟨_, _, h.again, .inr ⟨tag_cons_ne (by decide), rfl, rfl⟩, h.again⟩, r, _, ⟨rfl, rfl⟩, rfl⟩
    | comma t _ h h' =>
      exact ⟨_, h, ']' :: r, some _, ⟨_, t, h.again, .inl ⟨_, ⟨rfl, rfl⟩, rfl⟩, h'⟩, r, _, ⟨rfl, rfl⟩, rfl⟩

theorem tupleSep_iff {s r : Str} {v : Str} : tupleSep s = .ok r v ↔ v = [','] ∧ SkipLayout s (',' :: r) := by
  unfold tupleSep
  simp only [wsThen_eq_ok, tag_eq_ok]
  constructor
  · rintro ⟨t, h, rfl, rfl⟩; exact ⟨rfl, h⟩
  · rintro ⟨rfl, h⟩; exact ⟨_, h, rfl, rfl⟩

theorem tupleElem_iff {s r : Str} {v : Expr} :
    tupleElem e s = .ok r v ↔ ∃ t, SkipLayout s t ∧ e t = .ok r v := by
  unfold tupleElem; exact wsThen_eq_ok

/-- Recursion equation of the tail of `separated_list!`. -/
theorem sepTailAux_succ {α β : Type} (sep : Parser β) (p : Parser α) (n : Nat) (s : Str) :
    sepTailAux sep p (n + 1) s = match sep s with
    | .err => .ok s []
    | .fail t => .fail t
    | .panic => .panic
    | .diverge => .diverge
    | .ok r _ => match p r with
      | .err => .ok s []
      | .fail t => .fail t
      | .panic => .panic
      | .diverge => .diverge
      | .ok r' v => if r'.length < s.length then (sepTailAux sep p n r').map (v :: ·) else .err := rfl

theorem sepTail_sound (he : ∀ s r v, e s = .ok r v → IsExpr U s v r) :
    ∀ (n : Nat) (s r r' : Str) (es : List Expr), sepTailAux tupleSep (tupleElem e) n s = .ok r es →
      IsTupleEnd r r' → IsTupleTail U s es r' := by
  intro n
  induction n with
  | zero => intro s r r' es h; cases h
  | succ n ih =>
    intro s r r' es h hr
    rw [sepTailAux_succ] at h
    split at h
    · injection h with h1 h2; subst h1 h2; exact .last _ _ hr
    · cases h
    · cases h
    · cases h
    · rename_i t v hs
      split at h
      · injection h with h1 h2; subst h1 h2; exact .last _ _ hr
      · cases h
      · cases h
      · cases h
      · rename_i u w hp
        split at h
        · obtain ⟨es', h1, rfl⟩ := map_eq_ok.1 h
          obtain ⟨x, hx, hp⟩ := tupleElem_iff.1 hp
          exact .more _ _ _ _ _ _ _ (tupleSep_iff.1 hs).2 hx (he _ _ _ hp) (ih _ _ _ _ h1 hr)
        · cases h

theorem tuple_sound (he : ∀ s r v, e s = .ok r v → IsExpr U s v r) {s r : Str} {es : List Expr}
    (h : tuple e s = .ok r es) : ∃ t, s = '[' :: t ∧ IsTupleBody U t es r := by
  unfold tuple at h
  rw [tagThen_eq_ok] at h
  obtain ⟨t, rfl, h⟩ := h
  refine ⟨t, rfl, ?_⟩
  simp only [bindP_eq_ok, pure_apply] at h
  obtain ⟨u, es', h1, v, _, h2, h3⟩ := h
  injection h3 with h4 h5; subst h4 h5
  have h2 := tupleEnd_iff.1 h2
  unfold separatedList at h1
  split at h1
  · injection h1 with h1 h3; subst h1 h3; exact .empty _ _ h2
  · cases h1
  · cases h1
  · cases h1
  · rename_i x w hp
    split at h1
    · obtain ⟨es'', h1', rfl⟩ := map_eq_ok.1 h1
      obtain ⟨y, hy, hp⟩ := tupleElem_iff.1 hp
      exact .elems _ _ _ _ _ _ hy (he _ _ _ hp) (sepTail_sound he _ _ _ _ _ h1' h2)
    · cases h1

/-- `e` does what is asked on inputs shorter than `n`. -/
def CompleteBelow (U : CharClass) (e : Parser Expr) (n : Nat) : Prop :=
  (∀ s v r, s.length < n → IsExpr U s v r → e s = .ok r v) ∧
  (∀ c t, (c = ']' ∨ c = '}' ∨ c = ',') → (c :: t).length < n → e (c :: t) = .err)

theorem tupleElem_end {n : Nat} (hc : CompleteBelow U e n) {s r : Str} (hs : s.length < n) (h : SkipLayout s (']' :: r)) :
    tupleElem e s = .err := by
  unfold tupleElem
  rw [ws_bind (fun _ _ => rfl) h]
  exact hc.2 _ _ (.inl rfl) (by have := h.length; omega)

theorem sepTail_complete {n : Nat} (hc : CompleteBelow U e n) : ∀ (es : List Expr) (m : Nat) (s r : Str),
    s.length < n → s.length < m → IsTupleTail U s es r →
    ∃ r', sepTailAux tupleSep (tupleElem e) m s = .ok r' es ∧ IsTupleEnd r' r := by
  intro es
  induction es with
  | nil =>
    intro m s r hn hm h
    obtain ⟨m, rfl⟩ := Nat.exists_eq_succ_of_ne_zero (by omega : m ≠ 0)
    cases h with
    | last =>
      rename_i h
      refine ⟨s, ?_, h⟩
      rw [sepTailAux_succ]
      cases h with
      | close _ h =>
        have : tupleSep s = .err := by
          unfold tupleSep; rw [ws_bind (fun _ _ => rfl) h]; exact tag_cons_ne (by decide)
        rw [this]
      | comma t _ h h' =>
        rw [tupleSep_iff.2 ⟨rfl, h⟩]
        have : tupleElem e t = .err := tupleElem_end hc (by have := h.length; simp at this; omega) h'
        simp only [this]
  | cons x es ih =>
    intro m s r hn hm h
    obtain ⟨m, rfl⟩ := Nat.exists_eq_succ_of_ne_zero (by omega : m ≠ 0)
    cases h with
    | more =>
      rename_i t u v h2 h1 h3 h4
      have l1 := h1.length
      have l2 := h2.length
      have l3 := (isExpr_consumes h3).length
      simp at l1
      obtain ⟨r', h5, h6⟩ := ih m v r (by omega) (by omega) h4
      refine ⟨r', ?_, h6⟩
      rw [sepTailAux_succ, tupleSep_iff.2 ⟨rfl, h1⟩]
      simp only []
      rw [tupleElem_iff.2 ⟨u, h2, hc.1 _ _ _ (by omega) h3⟩]
      simp only []
      rw [if_pos (by omega), h5]; rfl

theorem tuple_complete {n : Nat} (hc : CompleteBelow U e n) {s r : Str} {es : List Expr} (hs : s.length < n)
    (h : IsTupleBody U s es r) : tuple e ('[' :: s) = .ok r es := by
  have key : ∃ r', separatedList tupleSep (tupleElem e) s = .ok r' es ∧ IsTupleEnd r' r := by
    unfold separatedList
    cases h with
    | empty =>
      rename_i h
      refine ⟨s, ?_, h⟩
      have : tupleElem e s = .err := by
        cases h with
        | close _ h => exact tupleElem_end hc hs h
        | comma t _ h _ =>
          unfold tupleElem
          rw [ws_bind (fun _ _ => rfl) h]
          exact hc.2 _ _ (.inr (.inr rfl)) (by have := h.length; omega)
      rw [this]
    | elems =>
      rename_i t u x xs h2 h1 h3
      have l1 := h1.length
      have l2 := (isExpr_consumes h2).length
      obtain ⟨r', h4, h5⟩ := sepTail_complete hc xs (u.length + 1) u r (by omega) (by omega) h3
      refine ⟨r', ?_, h5⟩
      rw [tupleElem_iff.2 ⟨t, h1, hc.1 _ _ _ (by omega) h2⟩]
      simp only []
      rw [if_pos (by omega), h4]; rfl
  obtain ⟨r', h1, h2⟩ := key
  unfold tuple
  rw [show '[' :: s = ['['] ++ s from rfl, bind_apply, tag_append, bind_ok, bind_apply, h1, bind_ok, bind_apply,
    tupleEnd_iff.2 h2]
  rfl

/-! ## objects -/

theorem objectSeparator_sound {s r : Str} (h : objectSeparator s = .ok r ()) : IsObjectSep s r := by
  unfold objectSeparator at h
  simp only [orElse_eq_ok, mapP_eq_ok, tag_eq_ok, peek_eq_ok] at h
  rcases h with ⟨_, ⟨rfl, -⟩, -⟩ | ⟨-, ⟨_, h, -⟩ | ⟨-, _, ⟨rfl, _, rfl, -⟩, -⟩⟩
  · exact .comma _
  · exact .newline _ _ (newline_sound h)
  · exact .close _

/-- The parser accepts every separator; the line ends the grammar leaves over are layout. -/
theorem objectSeparator_complete {s r : Str} (h : IsObjectSep s r) :
    ∃ r' l, objectSeparator s = .ok r' () ∧ Seq LayoutItem l ∧ r = l ++ r' := by
  unfold objectSeparator
  cases h with
  | comma => exact ⟨r, [], by rw [orElse_of_ok]; simp, .nil, rfl⟩
  | newline =>
    rename_i h
    obtain ⟨r', v, l, h1, h2, h3⟩ := newline_complete h
    refine ⟨r', l, ?_, h2, h3⟩
    rw [orElse_of_err, orElse_of_ok (r := r') (v := ())]
    · simp [h1]
    · obtain ⟨c, t, rfl, hc⟩ := newlines_head h
      rw [mapP_apply, tag_cons_ne]
      · rfl
      · rintro rfl; simp at hc
  | close =>
    rename_i t
    refine ⟨'}' :: t, [], ?_, .nil, rfl⟩
    rw [orElse_of_err, orElse_of_err]
    · simp [peek]
    · rw [mapP_apply, map_eq_err]
      refine Tame.newline.not_ok fun r v hk => ?_
      have := newlines_head (newline_sound hk)
      rw [head_cons] at this; simp at this
    · rw [mapP_apply, tag_cons_ne (by decide)]; rfl

theorem recognize_eq_ok {α : Type} {p : Parser α} {s r t : Str} (hp : ∀ v, p s = .ok r v → r <:+ s) :
    recognize p s = .ok r t ↔ ∃ v, p s = .ok r v ∧ s = t ++ r := by
  unfold recognize
  rw [bind_eq_ok]
  constructor
  · rintro ⟨r', v, h, h'⟩
    injection h' with h1 h2; subst h1
    obtain ⟨u, rfl⟩ := hp v h
    refine ⟨v, h, ?_⟩
    rw [← h2]; simp
  · rintro ⟨v, h, rfl⟩
    refine ⟨r, v, h, ?_⟩
    simp

theorem objectKey_sound (he : ∀ s r v, e s = .ok r v → IsExpr U s v r) {s r : Str} {k : ObjKey}
    (h : objectElementIdentifier U e s = .ok r k) : IsObjectKey U s k r := by
  unfold objectElementIdentifier at h
  simp only [orElse_eq_ok, mapP_eq_ok, identifier_iff] at h
  rcases h with ⟨i, hi, rfl⟩ | ⟨h1, t, h2, rfl⟩
  · exact .ident _ _ _ hi
  · obtain ⟨v, hv, rfl⟩ := (recognize_eq_ok fun v hv => (isExpr_consumes (he _ _ _ hv)).suffix).1 h2
    refine .expr t v r ?_ (he _ _ _ hv)
    intro hh
    obtain ⟨r', i, hk⟩ := identifier_ok_of_head hh
    rw [mapP_apply, map_eq_err, hk] at h1; cases h1

theorem objectKey_complete {n : Nat} (hc : CompleteBelow U e n) {s r : Str} {k : ObjKey} (hs : s.length < n)
    (h : IsObjectKey U s k r) : objectElementIdentifier U e s = .ok r k := by
  unfold objectElementIdentifier
  cases h with
  | ident => rename_i i h; rw [orElse_of_ok]; simp [identifier_iff.2 h]
  | expr =>
    rename_i t v h1 h2
    rw [orElse_of_err (by simp [identifier_err h1])]
    have hv := hc.1 _ _ _ hs h2
    have : recognize e (t ++ r) = .ok r t := by
      unfold recognize
      rw [hv, bind_ok]; simp
    simp [this]

theorem objectKey_end {n : Nat} (hc : CompleteBelow U e n) {r : Str} (hs : ('}' :: r).length < n) :
    objectElementIdentifier U e ('}' :: r) = .err := by
  unfold objectElementIdentifier
  rw [orElse_of_err]
  · have := hc.2 '}' r (.inr (.inl rfl)) hs
    simp [recognize, this]
  · rw [mapP_apply, identifier_err]
    · rfl
    · rw [head_cons]; exact not_identStart (by decide) (by decide)

theorem isObjectKey_consumes {s r : Str} {k : ObjKey} (h : IsObjectKey U s k r) : Consumes s r := by
  cases h with
  | ident => rename_i i h; exact ident_consumes h
  | expr => rename_i t v h1 h2; exact isExpr_consumes h2

theorem objectItem_eq_ok {s r : Str} {el : ObjKey × Expr} :
    objectItem U e s = .ok r el ↔ ∃ t t' u v w x y, SkipLayout s t ∧ SkipInline t t' ∧
      objectElementIdentifier U e t' = .ok u el.1 ∧ SkipInline u ('=' :: v) ∧ SkipInline v w ∧
      e w = .ok x el.2 ∧ SkipInline x y ∧ objectSeparator y = .ok r () := by
  unfold objectItem objectElement
  simp only [bindP_eq_ok, tag_eq_ok, pure_apply]
  constructor
  · rintro ⟨t, _, h1, r1, _, ⟨t', _, h2, u, k, h3, v0, _, h4, v, _, ⟨rfl, -⟩, w, _, h5, x, ex, h6, y, _, h7, h8⟩,
      z, _, h9, h10⟩
    injection h8 with h11 h12; subst h11 h12
    injection h10 with h11 h12; subst h11 h12
    exact ⟨t, t', u, v, w, x, _, ws_skip h1, inlineWs_skip h2, h3, inlineWs_skip h4, inlineWs_skip h5, h6,
      inlineWs_skip h7, h9⟩
  · rintro ⟨t, t', u, v, w, x, y, h1, h2, h3, h4, h5, h6, h7, h8⟩
    obtain ⟨_, h1⟩ := ws_iff.2 h1
    obtain ⟨_, h2⟩ := inlineWs_iff.2 h2
    obtain ⟨_, h4⟩ := inlineWs_iff.2 h4
    obtain ⟨_, h5⟩ := inlineWs_iff.2 h5
    obtain ⟨_, h7⟩ := inlineWs_iff.2 h7
    exact ⟨t, _, h1, y, _, ⟨t', _, h2, u, _, h3, _, _, h4, v, _, ⟨rfl, rfl⟩, w, _, h5, x, _, h6, y, _, h7, rfl⟩,
      r, _, h8, rfl⟩

theorem objectItem_consumes (he : ∀ s r v, e s = .ok r v → IsExpr U s v r) {s r : Str} {el : ObjKey × Expr}
    (h : objectItem U e s = .ok r el) : Consumes s r := by
  obtain ⟨t, t', u, v, w, x, y, h1, h2, h3, h4, h5, h6, h7, h8⟩ := objectItem_eq_ok.1 h
  have c := (isObjectKey_consumes (objectKey_sound he h3)).of_suffix (h2.suffix.trans h1.suffix)
  exact c.then ((objectSep_suffix (objectSeparator_sound h8)).trans (h7.suffix.trans
    ((isExpr_consumes (he _ _ _ h6)).suffix.trans (h5.suffix.trans ((List.suffix_cons _ _).trans h4.suffix)))))

theorem objectBody_sound (he : ∀ s r v, e s = .ok r v → IsExpr U s v r) {s t r : Str} {es : List (ObjKey × Expr)}
    (h : many0 (objectItem U e) s = .ok t es) (ht : SkipLayout t ('}' :: r)) : IsObjectBody U s es r := by
  rw [many0_eq_ok] at h
  induction h with
  | stop s h => exact .close _ _ ht
  | stuck s r' v h hl => exact absurd (objectItem_consumes he h).length (by omega)
  | cons s r' v vs t h hl _ ih =>
    obtain ⟨t, t', u, v', w, x, y, h1, h2, h3, h4, h5, h6, h7, h8⟩ := objectItem_eq_ok.1 h
    have := inline_after_layout h1 h2; subst this
    obtain ⟨k, ex⟩ := v
    exact .elem _ _ _ _ _ _ _ _ _ _ _ _ h1 (objectKey_sound he h3) h4 h5 (he _ _ _ h6) h7
      (objectSeparator_sound h8) (ih ht)

/-- Layout in front of the remaining elements does not matter. -/
theorem isObjectBody_unprepend {l s r : Str} {es : List (ObjKey × Expr)} (hl : Seq LayoutItem l)
    (h : IsObjectBody U (l ++ s) es r) : IsObjectBody U s es r := by
  generalize hs : l ++ s = s' at h
  cases h with
  | close => rename_i h; subst hs; exact .close _ _ (h.unprepend layoutItem_prefix hl)
  | elem =>
    subst hs
    exact .elem _ _ _ _ _ _ _ _ _ _ _ _ (Skip.unprepend layoutItem_prefix hl ‹_›) ‹_› ‹_› ‹_› ‹_› ‹_› ‹_› ‹_›

theorem objectBody_complete {n : Nat} (hc : CompleteBelow U e n) : ∀ (es : List (ObjKey × Expr)) (s r : Str),
    s.length < n → IsObjectBody U s es r →
    ∃ t, many0 (objectItem U e) s = .ok t es ∧ SkipLayout t ('}' :: r) := by
  intro es
  induction es with
  | nil =>
    intro s r hs h
    have h : SkipLayout s ('}' :: r) := by cases h; assumption
    refine ⟨s, many0_stop ?_, h⟩
    unfold objectItem
    rw [ws_bind (fun _ _ => rfl) h]
    unfold objectElement
    have hk := objectKey_end (U := U) hc (r := r) (by have := h.length; omega)
    obtain ⟨v, hv⟩ := inlineWs_iff.2 (skipInline_again h)
    simp [hv, hk]
  | cons el es ih =>
    intro s r hs h
    obtain ⟨t, u, v, w, x, y, z, h1, h2, h3, h4, h5, h6, h7, h8⟩ : ∃ t u v w x y z,
        SkipLayout s t ∧ IsObjectKey U t el.1 u ∧ SkipInline u ('=' :: v) ∧ SkipInline v w ∧
        IsExpr U w el.2 x ∧ SkipInline x y ∧ IsObjectSep y z ∧ IsObjectBody U z es r := by
      cases h
      exact ⟨_, _, _, _, _, _, _, ‹_›, ‹_›, ‹_›, ‹_›, ‹_›, ‹_›, ‹_›, ‹_›⟩
    obtain ⟨z', l, h9, hl, rfl⟩ := objectSeparator_complete h7
    have l1 := h1.length
    have l2 := (isObjectKey_consumes h2).length
    have l3 := h3.length
    have l4 := h4.length
    have l5 := (isExpr_consumes h5).length
    have l6 := h6.length
    have l7 := (objectSep_suffix h7).length_le
    simp at l3 l7
    obtain ⟨t', h10, h11⟩ := ih z' r (by omega) (isObjectBody_unprepend hl h8)
    refine ⟨t', ?_, h11⟩
    have hi : objectItem U e s = .ok z' el := objectItem_eq_ok.2 ⟨t, t, u, v, w, x, y, h1, skipInline_again h1,
      objectKey_complete hc (by omega) h2, h3, h4, hc.1 _ _ _ (by omega) h5, h6, h9⟩
    rw [many0_cons hi (by omega), h10]; rfl

theorem object_eq_ok {s r : Str} {es : List (ObjKey × Expr)} :
    object U e s = .ok r es ↔ ∃ t t' u, SkipLayout s ('{' :: t) ∧ SkipLayout t t' ∧
      many0 (objectItem U e) t' = .ok u es ∧ SkipLayout u ('}' :: r) := by
  unfold object objectBody
  simp only [bindP_eq_ok, wsAround_eq_ok, tag_eq_ok, pure_apply]
  constructor
  · rintro ⟨t0, _, ⟨t1, t2, h1, ⟨rfl, -⟩, h2⟩, u0, _, ⟨u1, u2, h3, ⟨u3, _, h4, u4, _, h5, h6⟩, h7⟩, r', _, ⟨rfl, -⟩, h8⟩
    injection h8 with h9 h10; subst h9 h10
    injection h6 with h9 h10; subst h9 h10
    have := layout_again_eq h2 h3; subst this
    have h5 := ws_skip h5
    have := layout_again_eq h5 h7; rw [← this] at h5
    exact ⟨t2, u1, u3, h1, h2, h4, h5⟩
  · rintro ⟨t, t', u, h1, h2, h3, h4⟩
    obtain ⟨_, h5⟩ := ws_iff.2 h4
    exact ⟨t', _, ⟨_, t, h1, ⟨rfl, rfl⟩, h2⟩, '}' :: r, _, ⟨t', _, h2.again, ⟨u, _, h3, _, _, h5, rfl⟩, h4.again⟩, r, _,
      ⟨rfl, rfl⟩, rfl⟩

theorem object_sound (he : ∀ s r v, e s = .ok r v → IsExpr U s v r) {s r : Str} {es : List (ObjKey × Expr)}
    (h : object U e s = .ok r es) : ∃ t, SkipLayout s ('{' :: t) ∧ IsObjectBody U t es r := by
  obtain ⟨t, t', u, h1, h2, h3, h4⟩ := object_eq_ok.1 h
  refine ⟨t, h1, ?_⟩
  have := objectBody_sound he h3 h4
  obtain ⟨l, hl, rfl, -⟩ := h2
  cases this with
  | close => rename_i h; exact .close _ _ (h.prepend hl)
  | elem =>
    clear h1 h4
    exact .elem _ _ _ _ _ _ _ _ _ _ _ _ (Skip.prepend hl ‹_›) ‹_› ‹_› ‹_› ‹_› ‹_› ‹_› ‹_›

theorem object_complete {n : Nat} (hc : CompleteBelow U e n) {s t r : Str} {es : List (ObjKey × Expr)}
    (hs : s.length ≤ n) (h : SkipLayout s ('{' :: t)) (hb : IsObjectBody U t es r) : object U e s = .ok r es := by
  obtain ⟨t', ht'⟩ := skipLayout_total t
  have l1 := h.length
  have l2 := ht'.length
  simp at l1
  have hb' : IsObjectBody U t' es r := by
    obtain ⟨l, hl, rfl, -⟩ := ht'
    exact isObjectBody_unprepend hl hb
  obtain ⟨u, h3, h4⟩ := objectBody_complete hc es t' r (by omega) hb'
  exact object_eq_ok.2 ⟨t, t', u, h, ht', h3, h4⟩

/-! ## brackets -/

theorem bracket_eq_ok {s r : Str} {v : Expr} :
    bracketExpression e s = .ok r v ↔ ∃ t u w, SkipLayout s ('(' :: t) ∧ SkipLayout t u ∧ e u = .ok w v ∧
      SkipLayout w (')' :: r) := by
  unfold bracketExpression
  simp only [bindP_eq_ok, wsAround_eq_ok, tag_eq_ok, pure_apply]
  constructor
  · rintro ⟨t0, _, ⟨t1, t2, h1, ⟨rfl, -⟩, h2⟩, u0, _, ⟨u1, u2, h3, h4, h5⟩, r', _, ⟨rfl, -⟩, h8⟩
    injection h8 with h9 h10; subst h9 h10
    have := layout_again_eq h2 h3; subst this
    exact ⟨t2, u1, u2, h1, h2, h4, h5⟩
  · rintro ⟨t, u, w, h1, h2, h3, h4⟩
    exact ⟨u, _, ⟨_, t, h1, ⟨rfl, rfl⟩, h2⟩, ')' :: r, _, ⟨u, w, h2.again, h3, h4⟩, r, _, ⟨rfl, rfl⟩, rfl⟩

/-! ## all expressions -/

theorem exprStep_sound (he : ∀ s r v, e s = .ok r v → IsExpr U s v r) {s r : Str} {v : Expr}
    (h : exprStep U e s = .ok r v) : IsExpr U s v r := by
  unfold exprStep null boolean at h
  simp only [orElse_eq_ok, mapP_eq_ok, tag_eq_ok] at h
  rcases h with ⟨_, ⟨_, ⟨rfl, -⟩, -⟩, rfl⟩ | ⟨-, ⟨n, h, rfl⟩ | ⟨-, ⟨b, h, rfl⟩ | ⟨-, ⟨w, h, rfl⟩ | ⟨-, ⟨es, h, rfl⟩ |
    ⟨-, ⟨es, h, rfl⟩ | ⟨-, h⟩⟩⟩⟩⟩⟩
  · exact .null _
  · exact .number _ _ _ (number_iff.1 h)
  · rcases h with ⟨_, ⟨rfl, -⟩, rfl⟩ | ⟨-, _, ⟨rfl, -⟩, rfl⟩
    · exact .true _
    · exact .false _
  · exact .string _ _ _ (string_iff.1 h)
  · obtain ⟨t, rfl, h'⟩ := tuple_sound he h
    exact .tuple _ _ _ h'
  · obtain ⟨t, h1, h2⟩ := object_sound he h
    exact .object _ _ _ _ h1 h2
  · obtain ⟨t, u, w, h1, h2, h3, h4⟩ := bracket_eq_ok.1 h
    exact .bracket _ _ _ _ _ _ h1 h2 (he _ _ _ h3) h4

theorem exprN_sound : ∀ (n : Nat) (s r : Str) (v : Expr), exprN U n s = .ok r v → IsExpr U s v r := by
  intro n
  induction n with
  | zero => intro s r v h; cases h
  | succ n ih => intro s r v h; exact exprStep_sound ih h

/-! ### alternatives that cannot apply -/

theorem null_err {s : Str} (h : ¬ Head (fun c => c = 'n') s) : mapP (fun _ => Expr.null) null s = .err := by
  have : tag ['n', 'u', 'l', 'l'] s = .err := by
    rw [tag_eq_err]; rintro ⟨t, rfl⟩; exact h ⟨_, _, rfl, rfl⟩
  simp [null, this]

theorem boolean_err {s : Str} (h : ¬ Head (fun c => c = 't' ∨ c = 'f') s) : mapP Expr.boolean boolean s = .err := by
  have h1 : tag ['t', 'r', 'u', 'e'] s = .err := by
    rw [tag_eq_err]; rintro ⟨t, rfl⟩; exact h ⟨_, _, rfl, .inl rfl⟩
  have h2 : tag ['f', 'a', 'l', 's', 'e'] s = .err := by
    rw [tag_eq_err]; rintro ⟨t, rfl⟩; exact h ⟨_, _, rfl, .inr rfl⟩
  have : boolean s = .err := by
    unfold boolean; rw [orElse_eq_err]; simp [h1, h2]
  simp [this]

theorem heredocBegin_err {s : Str} (h : ∀ t, s ≠ '<' :: '<' :: t) : heredocBegin U s = .err :=
  (Tame.heredocBegin U).not_ok fun r v hk => by
    obtain ⟨rfl, -⟩ := heredocBegin_iff.1 hk
    exact h _ rfl

theorem string_err {s : Str} (h : ¬ Head (fun c => c = '"' ∨ c = '<') s) : mapP Expr.string (string U) s = .err := by
  have h1 : quotedString s = .err := quotedString_err fun t ht => h ⟨_, _, ht, .inl rfl⟩
  have h2 : heredocString U s = .err := by
    unfold heredocString
    rw [bind_apply, heredocBegin_err fun t ht => h ⟨_, _, ht, .inr rfl⟩]; rfl
  have : string U s = .err := by
    unfold string; rw [orElse_eq_err]; simp [h1, h2]
  simp [this]

theorem tuple_err {s : Str} (h : ¬ Head (fun c => c = '[') s) : mapP Expr.tuple (tuple e) s = .err := by
  have : tag ['['] s = .err := by
    rw [tag_eq_err]; rintro ⟨t, rfl⟩; exact h ⟨_, _, rfl, rfl⟩
  unfold tuple
  simp [this]

theorem wsAround_tag_err {c : Char} {s t : Str} (h : SkipLayout s t) (hc : ¬ Head (fun d => d = c) t) :
    wsAround (tag [c]) s = .err := by
  unfold wsAround
  rw [ws_bind (fun _ _ => rfl) h]
  have : tag [c] t = .err := by
    rw [tag_eq_err]; rintro ⟨u, rfl⟩; exact hc ⟨_, _, rfl, rfl⟩
  simp [this]

theorem object_err {s t : Str} (h : SkipLayout s t) (hc : ¬ Head (fun d => d = '{') t) :
    mapP Expr.object (object U e) s = .err := by
  unfold object
  simp [wsAround_tag_err h hc]

theorem bracket_err {s t : Str} (h : SkipLayout s t) (hc : ¬ Head (fun d => d = '(') t) :
    bracketExpression e s = .err := by
  unfold bracketExpression
  simp [wsAround_tag_err h hc]

/-- First characters that rule out everything but objects and brackets. -/
def NotToken (c : Char) : Prop := c ∈ [' ', '\t', '\r', '\n', '#', '/', '{', '(', ']', '}', ',']

theorem not_head {P Q : Char → Prop} {s : Str} (h : Head P s) (hPQ : ∀ c, P c → ¬ Q c) : ¬ Head Q s := by
  obtain ⟨c, t, rfl, hp⟩ := h
  rw [head_cons]; exact hPQ c hp

theorem numHead_iff {c : Char} : (IsDig c ∨ c = '.' ∨ c = '+' ∨ c = '-') ↔
    (c.isDigit || c == '.' || c == '+' || c == '-') = true := by
  simp [IsDig, isDigit_iff, or_assoc]

theorem exprStep_notToken {s : Str} (h : Head NotToken s) :
    exprStep U e s = (mapP Expr.object (object U e) <//> bracketExpression e) s := by
  unfold exprStep
  rw [orElse_of_err (null_err (not_head h _)), orElse_of_err, orElse_of_err (boolean_err (not_head h _)),
    orElse_of_err (string_err (not_head h _)), orElse_of_err (tuple_err (not_head h _))]
  · unfold NotToken; decide
  · unfold NotToken; decide
  · unfold NotToken; decide
  · rw [mapP_apply, number_err (not_head h _)]
    · rfl
    · intro c hc
      rw [numHead_iff]
      revert c
      unfold NotToken; decide
  · unfold NotToken; decide

theorem skip_notToken {s : Str} {c : Char} {t : Str} (h : SkipLayout s (c :: t)) (hc : NotToken c) : Head NotToken s := by
  rcases skip_head h with rfl | ⟨d, u, rfl, hd⟩
  · exact ⟨c, t, rfl, hc⟩
  · refine ⟨d, u, rfl, ?_⟩
    unfold NotToken
    rcases hd with h | h | h | h | h | h <;> simp [h]

theorem number_head_not {s : Str} (h : Head (fun c => IsDig c ∨ c = '.' ∨ c = '+' ∨ c = '-') s) :
    ¬ Head (fun c => c = 'n') s := by
  refine not_head h ?_
  rintro c hc rfl
  rw [numHead_iff] at hc; revert hc; decide

theorem exprStep_complete {n : Nat} (hc : CompleteBelow U e n) {s r : Str} {v : Expr} (hs : s.length ≤ n)
    (h : IsExpr U s v r) : exprStep U e s = .ok r v := by
  cases h with
  | null =>
    unfold exprStep
    apply orElse_of_ok
    have : tag ['n', 'u', 'l', 'l'] ('n' :: 'u' :: 'l' :: 'l' :: r) = .ok r _ := tag_append ['n', 'u', 'l', 'l'] r
    simp [null, this]
  | true =>
    unfold exprStep
    rw [orElse_of_err (null_err (by rw [head_cons]; decide)), orElse_of_err, orElse_of_ok]
    · unfold boolean
      have : tag ['t', 'r', 'u', 'e'] ('t' :: 'r' :: 'u' :: 'e' :: r) = .ok r _ := tag_append ['t', 'r', 'u', 'e'] r
      rw [mapP_apply, orElse_of_ok (r := r) (v := true)]
      · rfl
      · simp [this]
    · rw [mapP_apply, number_err]
      · rfl
      · rw [head_cons, numHead_iff]; decide
  | false =>
    unfold exprStep
    rw [orElse_of_err (null_err (by rw [head_cons]; decide)), orElse_of_err, orElse_of_ok]
    · unfold boolean
      have : tag ['f', 'a', 'l', 's', 'e'] ('f' :: 'a' :: 'l' :: 's' :: 'e' :: r) = .ok r _ :=
        tag_append ['f', 'a', 'l', 's', 'e'] r
      rw [mapP_apply, orElse_of_err]
      · simp [this]
      · rw [mapP_apply, tag_cons_ne (by decide)]; rfl
    · rw [mapP_apply, number_err]
      · rfl
      · rw [head_cons, numHead_iff]; decide
  | number =>
    rename_i k h
    unfold exprStep
    have hh : Head (fun c => IsDig c ∨ c = '.' ∨ c = '+' ∨ c = '-') s := by
      obtain ⟨t, rfl, hn, -⟩ := h; exact isNumber_head hn r
    rw [orElse_of_err (null_err (number_head_not hh)), orElse_of_ok]
    simp [number_iff.2 h]
  | string =>
    rename_i w h
    have hh : Head (fun c => c = '"' ∨ c = '<') s := by
      cases h with
      | quoted => rename_i h; obtain ⟨src, rfl, -⟩ := h; exact ⟨_, _, rfl, .inl rfl⟩
      | heredoc => rename_i h; obtain ⟨t, rfl⟩ := h.head; exact ⟨_, _, rfl, .inr rfl⟩
    unfold exprStep
    rw [orElse_of_err (null_err (not_head hh _)), orElse_of_err, orElse_of_err (boolean_err (not_head hh _)), orElse_of_ok]
    · simp [string_iff.2 h]
    · rintro c (rfl | rfl) <;> decide
    · rw [mapP_apply, number_err (not_head hh _)]
      · rfl
      · intro c hc; rw [numHead_iff]; rcases hc with rfl | rfl <;> decide
    · rintro c (rfl | rfl) <;> decide
  | tuple =>
    rename_i t es h
    have hh : Head (fun c => c = '[') ('[' :: t) := ⟨_, _, rfl, rfl⟩
    unfold exprStep
    rw [orElse_of_err (null_err (not_head hh _)), orElse_of_err, orElse_of_err (boolean_err (not_head hh _)),
      orElse_of_err (string_err (not_head hh _)), orElse_of_ok]
    · simp [tuple_complete hc (by simp at hs; omega) h]
    · rintro c rfl; decide
    · rintro c rfl; decide
    · rw [mapP_apply, number_err (not_head hh _)]
      · rfl
      · rintro c rfl; rw [numHead_iff]; decide
    · rintro c rfl; decide
  | object =>
    rename_i t es h1 h2
    rw [exprStep_notToken (skip_notToken h1 (by unfold NotToken; decide)), orElse_of_ok]
    simp [object_complete hc hs h1 h2]
  | bracket =>
    obtain ⟨t, u, w, h1, h2, h3, h4⟩ : ∃ t u w, SkipLayout s ('(' :: t) ∧ SkipLayout t u ∧ IsExpr U u v w ∧
        SkipLayout w (')' :: r) := ⟨_, _, _, ‹_›, ‹_›, ‹_›, ‹_›⟩
    rw [exprStep_notToken (skip_notToken h1 (by unfold NotToken; decide)),
      orElse_of_err (object_err h1 (by rw [head_cons]; decide))]
    have l1 := h1.length
    have l2 := h2.length
    simp at l1
    exact bracket_eq_ok.2 ⟨t, u, w, h1, h2, hc.1 _ _ _ (by omega) h3, h4⟩

theorem exprStep_err {c : Char} {t : Str} (h : c = ']' ∨ c = '}' ∨ c = ',') : exprStep U e (c :: t) = .err := by
  have hn : NotToken c := by unfold NotToken; rcases h with rfl | rfl | rfl <;> decide
  have hs : SkipLayout (c :: t) (c :: t) := .refl (not_starts_layout (by
    unfold LayoutStart; rcases h with rfl | rfl | rfl <;> decide))
  rw [exprStep_notToken ⟨c, t, rfl, hn⟩, orElse_eq_err]
  exact ⟨object_err hs (by rw [head_cons]; rcases h with rfl | rfl | rfl <;> decide),
    bracket_err hs (by rw [head_cons]; rcases h with rfl | rfl | rfl <;> decide)⟩

theorem exprN_complete : ∀ n : Nat, CompleteBelow U (exprN U n) n := by
  intro n
  induction n with
  | zero => exact ⟨fun s v r h => absurd h (by omega), fun c t _ h => absurd h (by omega)⟩
  | succ n ih =>
    exact ⟨fun s v r hs h => exprStep_complete ih (by omega) h, fun c t hc _ => exprStep_err hc⟩

theorem expression_iff {s r : Str} {v : Expr} : expression U s = .ok r v ↔ IsExpr U s v r := by
  unfold expression
  exact ⟨exprN_sound _ s r v, (exprN_complete (s.length + 1)).1 s v r (by omega)⟩

end
end Verif
