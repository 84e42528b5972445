import Verif.Spec.Position
import Verif.Proofs.Concat
/-! # A position where nothing can be parsed makes everything around it unparsable -/
set_option autoImplicit false

namespace Verif
open PRes Spec

/-! ## bad escapes -/

theorem escaped_content {normal : Char → Bool} {plain : Char → Prop} (hp : ∀ c, normal c = true ↔ plain c)
    (hn : normal '\\' = false) {src v r : Str} (h : Content plain src v r) :
    escapedTransform normal unescape (src ++ r) = (escapedTransform normal unescape r).map (v ++ ·) := by
  induction h with
  | nil r => cases h : escapedTransform normal unescape r <;> simp [h]
  | plain c s v r hc _ ih =>
    rw [List.cons_append, escaped_plain ((hp c).2 hc), ih]
    cases escapedTransform normal unescape r <;> rfl
  | escape e c s v r hE _ ih =>
    have : '\\' :: e ++ s ++ r = '\\' :: (e ++ (s ++ r)) := by simp
    rw [this]
    have hu := unescape_eq_ok.2 ⟨e, c, rfl, rfl, hE⟩
    have hl := unescape_length hu
    rw [escaped_backslash hn (by have := hE.ne_nil; simp [this]), hu, bind_ok, if_pos hl, ih]
    cases escapedTransform normal unescape r <;> rfl

theorem content_mono {P Q : Char → Prop} (h : ∀ c, P c → Q c) {src v r : Str} (hc : Content P src v r) :
    Content Q src v r := by
  induction hc with
  | nil r => exact .nil r
  | plain c s v r hp _ ih => exact .plain c s v r (h c hp) ih
  | escape e c s v r he _ ih => exact .escape e c s v r he ih

theorem badEscape_not_quoted {u : Str} (h : BadEscape u) : ∀ v r, ¬ Quoted Plain u v r := by
  obtain ⟨src, v, t, rfl, hc, hb⟩ := h
  intro v' r hq
  rw [← quotedString_iff] at hq
  unfold quotedString multilineStringContent at hq
  simp only [bind_apply, bind_eq_ok, tag_eq_ok] at hq
  obtain ⟨s', _, ⟨hs, -⟩, s'', v'', h, -⟩ := hq
  simp at hs
  subst hs
  rw [escaped_content legalChar_iff (by decide) hc, map_eq_ok] at h
  obtain ⟨w, h, -⟩ := h
  by_cases ht : t = []
  · subst ht; rw [escaped_backslash_end (by decide)] at h; cases h
  · rw [escaped_backslash (by decide) ht, bind_eq_ok] at h
    obtain ⟨r', x, hu, -⟩ := h
    obtain ⟨e, c, -, he, hE⟩ := unescape_eq_ok.1 hu
    exact hb ⟨e, c, r', he, hE⟩

theorem badEscape_not_label {u : Str} (h : BadEscape u) : ∀ v r, ¬ Quoted PlainLine u v r := by
  rintro v r ⟨src, rfl, hc⟩
  exact badEscape_not_quoted h v r ⟨src, rfl, content_mono (fun c h => ⟨h.1, h.2.1⟩) hc⟩

/-- A text beginning with a double quote at which no string of the given kind can be read. -/
def StuckAt (k : Kind) (u : Str) : Prop :=
  (∃ t, u = '"' :: t) ∧ match k with
    | .expression => ∀ v r, ¬ Quoted Plain u v r
    | .label => ∀ v r, ¬ Quoted PlainLine u v r

/-- No string expression can be read. -/
abbrev Stuck := StuckAt .expression
/-- No string literal can be read. -/
abbrev StuckL := StuckAt .label

theorem BadEscape.stuck {u : Str} (h : BadEscape u) (k : Kind) : StuckAt k u :=
  ⟨by obtain ⟨src, v, t, rfl, -⟩ := h; exact ⟨_, rfl⟩, by
    cases k
    · exact badEscape_not_quoted h
    · exact badEscape_not_label h⟩

section
variable {U : CharClass}

/-- The first significant character of an expression. -/
def ExprHead (c : Char) : Prop := c = '"' ∨ c = '[' ∨ c = '{' ∨ c = '('

theorem stuck_not_expr {u : Str} (h : Stuck u) (e : Expr) (r : Str) : ¬ IsExpr U u e r := by
  obtain ⟨⟨t, rfl⟩, h1⟩ := h
  have hns : ¬ Starts LayoutItem ('"' :: t) := not_starts_layout (by decide)
  intro h
  generalize hu : '"' :: t = u at h
  cases h with
  | null => cases hu
  | true => cases hu
  | false => cases hu
  | number =>
    rename_i k hk
    obtain ⟨x, rfl, hn, -⟩ := hk
    obtain ⟨c, t', e, hc⟩ := isNumber_head hn r
    rw [e] at hu; injection hu with hu _; subst hu
    rw [numHead_iff] at hc; revert hc; decide
  | string =>
    rename_i w hk
    cases hk with
    | quoted => rename_i h; subst hu; exact h1 _ _ h
    | heredoc => rename_i h; obtain ⟨t, rfl⟩ := h.head; cases hu
  | tuple => cases hu
  | object => rename_i x es a b; subst hu; have := skip_eq_of_not_starts a hns; cases this
  | bracket =>
    rename_i x u w a1 a2 a3 a4
    subst hu
    have : '"' :: t = '(' :: x := skip_eq_of_not_starts ‹_› hns; cases this

theorem exprAt_head {s u : Str} (h : ExprAt U s u) (hu : Stuck u) : ∃ t, SkipLayout s t ∧ Head ExprHead t := by
  cases h with
  | here =>
    obtain ⟨⟨t, rfl⟩, -⟩ := hu
    exact ⟨_, .refl (not_starts_layout (by decide)), _, _, rfl, .inl rfl⟩
  | tuple => exact ⟨_, .refl (not_starts_layout (by decide)), _, _, rfl, .inr (.inl rfl)⟩
  | object => rename_i t h1 h2; exact ⟨_, h1, _, _, rfl, .inr (.inr (.inl rfl))⟩
  | bracket => rename_i t v h0 h1 h2; exact ⟨_, ‹SkipLayout s ('(' :: t)›, _, _, rfl, .inr (.inr (.inr rfl))⟩

/-- After layout, an expression leading to a stuck position does not begin with a given other character. -/
theorem exprAt_not {s u t : Str} {c : Char} (hc : ¬ ExprHead c) (h : ExprAt U s u) (hu : Stuck u)
    (hs : SkipLayout s (c :: t)) : False := by
  obtain ⟨t', h1, d, x, rfl, hd⟩ := exprAt_head h hu
  have := h1.functional layoutItem_prefix hs
  injection this with this _; subst this; exact hc hd

theorem isExpr_not {t r : Str} {e : Expr} {c : Char} (hc : c = ']' ∨ c = '}' ∨ c = ',') : ¬ IsExpr U (c :: t) e r := by
  intro h
  rw [← expression_iff] at h
  unfold expression at h
  rw [show (c :: t).length + 1 = (t.length + 1) + 1 by simp, exprN, exprStep_err hc] at h
  cases h

theorem isObjectKey_not {t r : Str} {k : ObjKey} : ¬ IsObjectKey U ('}' :: t) k r := by
  intro h
  generalize hs : '}' :: t = s at h
  cases h with
  | ident =>
    rename_i i h
    obtain ⟨rfl, h, -⟩ := h
    cases h with
    | mk c cs hc _ => injection hs with hs _; subst hs; exact not_identStart (U := U) (by decide) (by decide) hc
  | expr =>
    rename_i e h1 h2
    rw [← hs] at h2; exact isExpr_not (t := t) (.inr (.inl rfl)) h2

theorem objectKey_functional {s r r' : Str} {k k' : ObjKey} (h : IsObjectKey U s k r) (h' : IsObjectKey U s k' r') :
    k = k' ∧ r = r' := by
  have hn := exprN_complete (U := U) (s.length + 1)
  have a := objectKey_complete hn (by omega) h
  have b := objectKey_complete hn (by omega) h'
  rw [a] at b; injection b with h1 h2; exact ⟨h2, h1⟩

theorem sl_funct {s r r' : Str} (h : SkipLayout s r) (h' : SkipLayout s r') : r = r' := h.functional layoutItem_prefix h'
theorem si_funct {s r r' : Str} (h : SkipInline s r) (h' : SkipInline s r') : r = r' := h.functional inlineItem_prefix h'

theorem isExpr_bracket_inv {s r : Str} {e : Expr} (h : IsExpr U ('[' :: s) e r) : ∃ es, IsTupleBody U s es r := by
  have hns : ¬ Starts LayoutItem ('[' :: s) := not_starts_layout (by decide)
  generalize hu : '[' :: s = u at h
  cases h with
  | null => cases hu
  | true => cases hu
  | false => cases hu
  | number =>
    rename_i k hk
    obtain ⟨x, rfl, hn, -⟩ := hk
    obtain ⟨c, t', e, hc⟩ := isNumber_head hn r
    rw [e] at hu; injection hu with hu _; subst hu
    rw [numHead_iff] at hc; exact absurd hc (by decide)
  | string =>
    rename_i w hk
    cases hk with
    | quoted => rename_i h; obtain ⟨src, rfl, -⟩ := h; cases hu
    | heredoc => rename_i h; obtain ⟨t, rfl⟩ := h.head; cases hu
  | tuple => rename_i es h; injection hu with _ hu; subst hu; exact ⟨_, h⟩
  | object => rename_i x es a b; subst hu; have := skip_eq_of_not_starts a hns; cases this
  | bracket =>
    rename_i x u w a1 a2 a3 a4
    subst hu
    have : '[' :: s = '(' :: x := skip_eq_of_not_starts ‹_› hns; cases this

/-- An expression starting (after layout) with `{` or `(`. -/
theorem isExpr_open_inv {s t r : Str} {e : Expr} {c : Char} (hc : c = '{' ∨ c = '(') (hs : SkipLayout s (c :: t))
    (h : IsExpr U s e r) :
    (c = '{' ∧ ∃ es, IsObjectBody U t es r) ∨
    (c = '(' ∧ ∃ u v e, SkipLayout t u ∧ IsExpr U u e v ∧ SkipLayout v (')' :: r)) := by
  have hnl : ¬ LayoutStart c := by rcases hc with rfl | rfl <;> decide
  have key : ∀ d x, s = d :: x → ¬ LayoutStart d → d = c := by
    rintro d x rfl hd
    have := skip_eq_of_not_starts hs (not_starts_layout hd)
    injection this
  cases h with
  | null => exact absurd (key _ _ rfl (by decide)) (by rcases hc with rfl | rfl <;> decide)
  | true => exact absurd (key _ _ rfl (by decide)) (by rcases hc with rfl | rfl <;> decide)
  | false => exact absurd (key _ _ rfl (by decide)) (by rcases hc with rfl | rfl <;> decide)
  | number =>
    rename_i k hk
    obtain ⟨x, rfl, hn, -⟩ := hk
    obtain ⟨d, t', e, hd⟩ := isNumber_head hn r
    rw [numHead_iff] at hd
    have := key d t' e (by rintro (rfl | rfl | rfl | rfl | rfl | rfl) <;> revert hd <;> decide)
    subst this
    rcases hc with rfl | rfl <;> exact absurd hd (by decide)
  | string =>
    rename_i w hk
    cases hk with
    | quoted =>
      rename_i h; obtain ⟨src, rfl, -⟩ := h
      exact absurd (key _ _ rfl (by decide)) (by rcases hc with rfl | rfl <;> decide)
    | heredoc =>
      rename_i h; obtain ⟨t, rfl⟩ := h.head
      exact absurd (key _ _ rfl (by decide)) (by rcases hc with rfl | rfl <;> decide)
  | tuple => exact absurd (key _ _ rfl (by decide)) (by rcases hc with rfl | rfl <;> decide)
  | object =>
    rename_i x es a b
    have := sl_funct a hs; injection this with h1 h2; subst h1 h2
    exact .inl ⟨rfl, es, b⟩
  | bracket =>
    rename_i x u w a1 a2 a3 a4
    obtain ⟨k1, k2, k3, k4⟩ : SkipLayout s ('(' :: x) ∧ SkipLayout x u ∧ IsExpr U u e w ∧ SkipLayout w (')' :: r) :=
      ⟨‹_›, ‹_›, ‹_›, ‹_›⟩
    have := sl_funct k1 hs; injection this with h1 h2; subst h1 h2
    exact .inr ⟨rfl, _, _, _, k2, k3, k4⟩

theorem isTupleEnd_not {s t r : Str} {c : Char} (hc : c ≠ ']') (hc' : c ≠ ',') (h : SkipLayout s (c :: t)) :
    ¬ IsTupleEnd s r := by
  intro h'
  cases h' with
  | close => rename_i h'; have := sl_funct h h'; injection this; contradiction
  | comma =>
    rename_i x h1 h2
    have : c :: t = ',' :: x := sl_funct h ‹_›
    injection this; contradiction

theorem exprHead_ne {c : Char} (h : ExprHead c) : c ≠ ']' ∧ c ≠ ',' ∧ c ≠ '}' := by
  rcases h with rfl | rfl | rfl | rfl <;> decide

theorem tupleAt_end {s u r : Str} (h : TupleAt U s u) (hu : Stuck u) : ¬ SkipLayout s (']' :: r) := by
  intro hs
  cases h with
  | elem =>
    rename_i t h1 h2
    have : t = ']' :: r := sl_funct ‹_› hs
    subst this
    exact exprAt_not (c := ']') (by unfold ExprHead; decide) ‹ExprAt U (']' :: r) u› hu (.refl (not_starts_layout (by decide)))
  | next =>
    rename_i t v w e h1 h2 h3 h4
    have : t = ']' :: r := sl_funct ‹_› hs
    subst this
    exact isExpr_not (.inl rfl) ‹IsExpr U (']' :: r) e v›

theorem tupleAt_not_end {s u r : Str} (h : TupleAt U s u) (hu : Stuck u) : ¬ IsTupleEnd s r := by
  intro hs
  cases hs with
  | close => exact tupleAt_end h hu ‹_›
  | comma =>
    rename_i x a b
    have hs : SkipLayout s (',' :: x) := ‹_›
    cases h with
    | elem =>
      rename_i t h1 h2
      have : t = ',' :: x := sl_funct ‹_› hs
      subst this
      exact exprAt_not (c := ',') (by unfold ExprHead; decide) ‹ExprAt U (',' :: x) u› hu (.refl (not_starts_layout (by decide)))
    | next =>
      rename_i t v w e h1 h2 h3 h4
      have : t = ',' :: x := sl_funct ‹_› hs
      subst this
      exact isExpr_not (.inr (.inr rfl)) ‹IsExpr U (',' :: x) e v›

/-- What an element list says about its first element. -/
theorem isTupleTail_comma {v w r : Str} {es : List Expr} (h : IsTupleTail U v es r) (hv : SkipLayout v (',' :: w)) :
    SkipLayout w (']' :: r) ∨ ∃ es', IsTupleBody U w es' r := by
  cases h with
  | last =>
    rename_i h
    cases h with
    | close => rename_i h; have := sl_funct h hv; cases this
    | comma =>
      rename_i x a b
      obtain ⟨k1, k2⟩ : SkipLayout v (',' :: x) ∧ SkipLayout x (']' :: r) := ⟨‹_›, ‹_›⟩
      have := sl_funct k1 hv; injection this with _ this; subst this; exact .inl k2
  | more =>
    rename_i t u x e es a b c d
    obtain ⟨k1, k2, k3, k4⟩ : SkipLayout v (',' :: t) ∧ SkipLayout t u ∧ IsExpr U u e x ∧ IsTupleTail U x es r :=
      ⟨‹_›, ‹_›, ‹_›, ‹_›⟩
    have := sl_funct k1 hv; injection this with _ this; subst this
    exact .inr ⟨_, .elems _ _ _ _ _ _ k2 k3 k4⟩

/-- Object bodies after layout. -/
theorem isObjectBody_inv {s t r : Str} {es : List (ObjKey × Expr)} (hs : SkipLayout s t) (h : IsObjectBody U s es r) :
    t = '}' :: r ∨ ∃ k u v w e x y z es', IsObjectKey U t k u ∧ SkipInline u ('=' :: v) ∧ SkipInline v w ∧
      IsExpr U w e x ∧ SkipInline x y ∧ IsObjectSep y z ∧ IsObjectBody U z es' r := by
  cases h with
  | close => exact .inl (sl_funct hs ‹_›)
  | elem =>
    rename_i t' u v w x y z k e es' a1 a2 a3 a4 a5 a6 a7 a8
    obtain ⟨k1, k2, k3, k4, k5, k6, k7, k8⟩ : SkipLayout s t' ∧ IsObjectKey U t' k u ∧ SkipInline u ('=' :: v) ∧
      SkipInline v w ∧ IsExpr U w e x ∧ SkipInline x y ∧ IsObjectSep y z ∧ IsObjectBody U z es' r :=
      ⟨‹_›, ‹_›, ‹_›, ‹_›, ‹_›, ‹_›, ‹_›, ‹_›⟩
    have := sl_funct k1 hs; subst this
    exact .inr ⟨_, _, _, _, _, _, _, _, _, k2, k3, k4, k5, k6, k7, k8⟩

theorem isObjectBody_layout {l s r : Str} {es : List (ObjKey × Expr)} (hl : Seq LayoutItem l) :
    IsObjectBody U (l ++ s) es r ↔ IsObjectBody U s es r := by
  refine ⟨isObjectBody_unprepend hl, fun h => ?_⟩
  cases h with
  | close => exact .close _ _ (Skip.prepend hl ‹_›)
  | elem =>
    rename_i t' u v w x y z k e es' a1 a2 a3 a4 a5 a6 a7 a8
    exact .elem _ t' u v w x y z _ _ _ _ (Skip.prepend hl ‹_›) ‹_› ‹_› ‹_› ‹_› ‹_› ‹_› ‹_›

/-- Different ways of ending an object element leave the same rest up to layout. -/
theorem isObjectBody_sep {z a b r : Str} {es : List (ObjKey × Expr)} (ha : IsObjectSep z a) (hb : IsObjectSep z b)
    (h : IsObjectBody U a es r) : IsObjectBody U b es r := by
  cases ha with
  | comma =>
    cases hb with
    | comma => exact h
    | newline => rename_i hb; have := newlines_head hb; revert this; simp [Head]
  | newline =>
    rename_i ha
    obtain ⟨i, l, hi, hl, e⟩ := ha
    have := (isObjectBody_layout (U := U) (es := es) (r := r) (s := a)
        ((newlineItem_seq hi).append (hl.mono fun _ => newlineItem_seq))).2 h
    rw [← e] at this
    cases hb with
    | comma => have h' := newlines_head ⟨i, l, hi, hl, e⟩; revert h'; simp [Head]
    | newline =>
      rename_i hb
      obtain ⟨i', l', hi', hl', e'⟩ := hb
      rw [e'] at this
      exact (isObjectBody_layout ((newlineItem_seq hi').append (hl'.mono fun _ => newlineItem_seq))).1 this
    | close => have h' := newlines_head ⟨i, l, hi, hl, e⟩; revert h'; simp [Head]
  | close =>
    cases hb with
    | newline => rename_i hb; have := newlines_head hb; revert this; simp [Head]
    | close => exact h

theorem exprAt_stuck {s u : Str} (h : ExprAt U s u) (hu : Stuck u) : ∀ e r, ¬ IsExpr U s e r := by
  refine ExprAt.rec (motive_1 := fun s u _ => Stuck u → ∀ e r, ¬ IsExpr U s e r)
    (motive_2 := fun s u _ => Stuck u → ∀ es r, ¬ IsTupleBody U s es r)
    (motive_3 := fun s u _ => Stuck u → ∀ es r, ¬ IsObjectBody U s es r)
    ?_ ?_ ?_ ?_ ?_ ?_ ?_ ?_ ?_ h hu
  · intro s hu e r; exact stuck_not_expr hu e r
  · intro s u _ ih hu e r he
    obtain ⟨es, hes⟩ := isExpr_bracket_inv he
    exact ih hu es r hes
  · intro s t u h1 _ ih hu e r he
    rcases isExpr_open_inv (.inl rfl) h1 he with ⟨-, es, hes⟩ | ⟨hc, -⟩
    · exact ih hu es r hes
    · revert hc; decide
  · intro s t v u k1 k2 _ ih hu e r he
    rcases isExpr_open_inv (.inr rfl) k1 he with ⟨hc, -⟩ | ⟨-, u', v', e', h3, h4, -⟩
    · revert hc; decide
    · rw [sl_funct h3 k2] at h4
      exact ih hu _ _ h4
  · intro s t u h1 h2 ih hu es r hb
    cases hb with
    | empty => exact tupleAt_not_end (.elem _ _ _ h1 h2) hu ‹_›
    | elems =>
      rename_i t' u' e' es' a1 a2 a3
      obtain ⟨k1, k2⟩ : SkipLayout s t' ∧ IsExpr U t' e' u' := ⟨‹_›, ‹_›⟩
      rw [sl_funct k1 h1] at k2
      exact ih hu _ _ k2
  · intro s t v w u e h1 h2 h3 h4 ih hu es r hb
    cases hb with
    | empty => exact tupleAt_not_end (.next _ _ _ _ _ _ h1 h2 h3 h4) hu ‹_›
    | elems =>
      rename_i t' u' e' es' a1 a2 a3
      obtain ⟨k1, k2, k3⟩ : SkipLayout s t' ∧ IsExpr U t' e' u' ∧ IsTupleTail U u' es' r := ⟨‹_›, ‹_›, ‹_›⟩
      rw [sl_funct k1 h1] at k2
      obtain ⟨-, rfl⟩ := isExpr_functional h2 k2
      rcases isTupleTail_comma k3 h3 with h | ⟨es'', h⟩
      · exact tupleAt_end h4 hu h
      · exact ih hu _ _ h
  · intro s t u h1 hn h2 ih hu es r hb
    rcases isObjectBody_inv h1 hb with rfl | ⟨k, u', v, w, e, x, y, z, es', a1, -⟩
    · exact exprAt_not (c := '}') (by unfold ExprHead; decide) h2 hu (.refl (not_starts_layout (by decide)))
    · cases a1 with
      | ident =>
        rename_i i h
        obtain ⟨rfl, h, -⟩ := h
        cases h with
        | mk c cs hc _ => exact hn ⟨_, _, rfl, hc⟩
      | expr => exact ih hu _ _ ‹_›
  · intro s t v w x u k h1 h2 h3 h4 h5 ih hu es r hb
    rcases isObjectBody_inv h1 hb with rfl | ⟨k', u', v', w', e, x', y, z, es', a1, a2, a3, a4, -⟩
    · exact isObjectKey_not h2
    · obtain ⟨-, rfl⟩ := objectKey_functional h2 a1
      have := si_funct h3 a2; injection this with _ this; subst this
      rw [← si_funct h4 a3] at a4
      exact ih hu _ _ a4
  · intro s t v w x y z a u k e h1 h2 h3 h4 h5 h6 h7 _ ih hu es r hb
    rcases isObjectBody_inv h1 hb with rfl | ⟨k', u', v', w', e', x', y', z', es', a1, a2, a3, a4, a5, a6, a7⟩
    · exact isObjectKey_not h2
    · obtain ⟨-, rfl⟩ := objectKey_functional h2 a1
      have := si_funct h3 a2; injection this with _ this; subst this
      rw [← si_funct h4 a3] at a4
      obtain ⟨-, rfl⟩ := isExpr_functional h5 a4
      rw [← si_funct h6 a5] at a6
      exact ih hu _ _ (isObjectBody_sep a6 h7 a7)

/-! ## bodies -/

theorem isLabel_functional {s r r' : Str} {l l' : BlockLabel} (h : IsLabel U s l r) (h' : IsLabel U s l' r') :
    l = l' ∧ r = r' := by
  have a := blockLabel_iff.2 h
  rw [blockLabel_iff.2 h'] at a
  injection a with h1 h2; exact ⟨h2.symm, h1.symm⟩

theorem brace_label {r t : Str} {l : BlockLabel} : ¬ IsLabel U ('{' :: r) l t := fun h => brace_not_label (isLabel_head h)

theorem isLabels_functional {s r r' : Str} {ls ls' : List BlockLabel} (h : IsLabels U s ls r) (h' : IsLabels U s ls' r') :
    ls = ls' ∧ r = r' := by
  induction h generalizing ls' with
  | «open» s r h =>
    cases h' with
    | «open» => rename_i h'; have := si_funct h h'; injection this with _ this; exact ⟨rfl, this⟩
    | label =>
      rename_i t u l ls a b c
      obtain ⟨k1, k2⟩ : SkipInline s t ∧ IsLabel U t l u := ⟨‹_›, ‹_›⟩
      rw [← si_funct h k1] at k2; exact absurd k2 brace_label
  | label s t u l ls r h1 h2 h3 ih =>
    cases h' with
    | «open» => rename_i h'; rw [si_funct h1 h'] at h2; exact absurd h2 brace_label
    | label =>
      rename_i t' u' l' ls' a b c
      obtain ⟨k1, k2, k3⟩ : SkipInline s t' ∧ IsLabel U t' l' u' ∧ IsLabels U u' ls' r' := ⟨‹_›, ‹_›, ‹_›⟩
      rw [← si_funct h1 k1] at k2
      obtain ⟨rfl, rfl⟩ := isLabel_functional h2 k2
      obtain ⟨rfl, rfl⟩ := ih k3
      exact ⟨rfl, rfl⟩

theorem stuck_not_label {u : Str} (h : StuckL u) (l : BlockLabel) (r : Str) : ¬ IsLabel U u l r := by
  obtain ⟨⟨t, rfl⟩, h2⟩ := h
  intro hl
  cases hl with
  | ident =>
    rename_i i h
    obtain ⟨e, h, -⟩ := h
    cases h with
    | mk c cs hc _ => injection e with e _; subst e; exact not_identStart (U := U) (by decide) (by decide) hc
  | string => exact h2 _ _ ‹_›

theorem labelAt_stuck {s u : Str} (h : LabelAt U s u) (hu : StuckL u) : ∀ ls r, ¬ IsLabels U s ls r := by
  induction h with
  | here s u h =>
    intro ls r hl
    cases hl with
    | «open» => rename_i h'; rw [si_funct h h'] at hu; obtain ⟨⟨t, h⟩, -⟩ := hu; cases h
    | label =>
      rename_i t u' l ls a b c
      obtain ⟨k1, k2⟩ : SkipInline s t ∧ IsLabel U t l u' := ⟨‹_›, ‹_›⟩
      rw [← si_funct h k1] at k2; exact stuck_not_label hu _ _ k2
  | next s t v u l h1 h2 _ ih =>
    intro ls r hl
    cases hl with
    | «open» => rename_i h'; rw [si_funct h1 h'] at h2; exact brace_label h2
    | label =>
      rename_i t' u' l' ls' a b c
      obtain ⟨k1, k2, k3⟩ : SkipInline s t' ∧ IsLabel U t' l' u' ∧ IsLabels U u' ls' r := ⟨‹_›, ‹_›, ‹_›⟩
      rw [← si_funct h1 k1] at k2
      obtain ⟨-, rfl⟩ := isLabel_functional h2 k2
      exact ih hu _ _ k3

theorem labelAt_head {s u : Str} (h : LabelAt U s u) (hu : StuckL u) :
    ∃ t, SkipInline s t ∧ ¬ Head (fun c => c = '=') t := by
  cases h with
  | here => rename_i h; obtain ⟨⟨t, rfl⟩, -⟩ := hu; exact ⟨_, h, by rw [head_cons]; decide⟩
  | next =>
    rename_i t v l a b c
    obtain ⟨k1, k2⟩ : SkipInline s t ∧ IsLabel U t l v := ⟨‹_›, ‹_›⟩
    refine ⟨t, k1, not_head (isLabel_head k2) ?_⟩
    rintro c (h | rfl) hc
    · subst hc; exact not_identStart (U := U) (by decide) (by decide) h
    · exact absurd hc (by decide)

theorem attributeAt_stuck {s u : Str} (h : AttributeAt U s u) (hu : Stuck u) (k : CowStr) (e : Expr) (r : Str) :
    ¬ IsAttribute U s k e r := by
  obtain ⟨i, t, v, w, h1, h2, h3, h4⟩ : ∃ i t v w, Ident U s i t ∧ SkipInline t ('=' :: v) ∧ SkipInline v w ∧
    ExprAt U w u := by cases h; exact ⟨_, _, _, _, ‹_›, ‹_›, ‹_›, ‹_›⟩
  intro h
  obtain ⟨i', t', v', w', x, k1, k2, k3, k4⟩ : ∃ i t v w x, Ident U s i t ∧ SkipInline t ('=' :: v) ∧ SkipInline v w ∧
    IsExpr U w e x := by cases h; exact ⟨_, _, _, _, _, ‹_›, ‹_›, ‹_›, ‹_›⟩
  obtain ⟨rfl, rfl⟩ := ident_functional h1 k1
  have := si_funct h2 k2; injection this with _ this; subst this
  have := si_funct h3 k3; subst this
  exact exprAt_stuck h4 hu _ _ k4

theorem attributeAt_ident {s u : Str} (h : AttributeAt U s u) : ∃ i t v, Ident U s i t ∧ SkipInline t ('=' :: v) := by
  cases h; exact ⟨_, _, _, ‹_›, ‹_›⟩

theorem ident_head {s i t : Str} (h : Ident U s i t) : Head (IdentStart U) s := by
  obtain ⟨rfl, h, -⟩ := h
  cases h with
  | mk c cs hc _ => exact ⟨_, _, rfl, hc⟩

/-- All ways of reading an element at `t`, given the identifier it begins with. -/
theorem isElement_inv {t i v r : Str} {el : BodyElement} (hi : Ident U t i v) (h : IsElement U t el r) :
    (∃ k e, IsAttribute U t k e r ∧ ∃ w, SkipInline v ('=' :: w)) ∨
    ∃ ls w, IsLabels U v ls w ∧ ((∃ x, SkipInline w ('}' :: x)) ∨
      (∃ x k e y, SkipInline w x ∧ IsAttribute U x k e ('}' :: y)) ∨
      (∃ x y b z, SkipInline w x ∧ Newlines x y ∧ IsBody U y b ('}' :: z))) := by
  cases h with
  | «attribute» =>
    rename_i k e h
    refine .inl ⟨k, e, h, ?_⟩
    obtain ⟨i', t', v', k1, k2⟩ : ∃ i x v, Ident U t i x ∧ SkipInline x ('=' :: v) := by cases h; exact ⟨_, _, _, ‹_›, ‹_›⟩
    obtain ⟨-, rfl⟩ := ident_functional hi k1
    exact ⟨_, k2⟩
  | emptyBlock =>
    rename_i i' t' w x ls a b c d
    obtain ⟨k1, k2, k3⟩ : Ident U t i' t' ∧ IsLabels U t' ls w ∧ SkipInline w ('}' :: x) := ⟨‹_›, ‹_›, ‹_›⟩
    obtain ⟨-, rfl⟩ := ident_functional hi k1
    exact .inr ⟨ls, w, k2, .inl ⟨x, k3⟩⟩
  | oneLineBlock =>
    rename_i i' t' w w' x ls k e a b c d f
    obtain ⟨k1, k2, k3, k4⟩ : Ident U t i' t' ∧ IsLabels U t' ls w ∧ SkipInline w w' ∧ IsAttribute U w' k e ('}' :: x) :=
      ⟨‹_›, ‹_›, ‹_›, ‹_›⟩
    obtain ⟨-, rfl⟩ := ident_functional hi k1
    exact .inr ⟨ls, w, k2, .inr (.inl ⟨w', k, e, x, k3, k4⟩)⟩
  | block =>
    rename_i i' t' w w' x y ls b a c d f g h
    obtain ⟨k1, k2, k3, k4, k5⟩ : Ident U t i' t' ∧ IsLabels U t' ls w ∧ SkipInline w w' ∧ Newlines w' x ∧
      IsBody U x b ('}' :: y) := ⟨‹_›, ‹_›, ‹_›, ‹_›, ‹_›⟩
    obtain ⟨-, rfl⟩ := ident_functional hi k1
    exact .inr ⟨ls, w, k2, .inr (.inr ⟨w', x, b, y, k3, k4, k5⟩)⟩

theorem isBody_newlines {x y y' r : Str} {b : Body} (h : Newlines x y) (h' : Newlines x y') (hb : IsBody U y b r) :
    IsBody U y' b r := by
  obtain ⟨i, l, hi, hl, e⟩ := h
  obtain ⟨i', l', hi', hl', e'⟩ := h'
  have := (isBody_layout (U := U) (b := b) (r := r) (s := y)
    ((newlineItem_seq hi).append (hl.mono fun _ => newlineItem_seq))).2 hb
  rw [← e, e'] at this
  exact (isBody_layout ((newlineItem_seq hi').append (hl'.mono fun _ => newlineItem_seq))).1 this

theorem isBody_elementEnd {x y y' r : Str} {b : Body} (h : IsElementEnd x y) (h' : IsElementEnd x y')
    (hb : IsBody U y b r) : IsBody U y' b r := by
  cases h with
  | newline =>
    rename_i h
    cases h' with
    | newline => rename_i h'; exact isBody_newlines h h' hb
    | eof => obtain ⟨c, t, e, -⟩ := newlines_head h; cases e
  | eof =>
    cases h' with
    | newline => rename_i h'; obtain ⟨c, t, e, -⟩ := newlines_head h'; cases e
    | eof => exact hb

theorem labels_not_eq {v w w' : Str} {ls : List BlockLabel} (h : IsLabels U v ls w) (h' : SkipInline v ('=' :: w')) : False := by
  obtain ⟨t, h1, h2⟩ := isLabels_head h
  rw [si_funct h1 h'] at h2
  exact h2 ⟨_, _, rfl, rfl⟩

/-- A body, given the element position it begins with. -/
theorem isBody_inv {s t i v r : Str} {b : Body} (hs : SkipLayout s t) (hi : Ident U t i v) (hr : BodyEnd r)
    (h : IsBody U s b r) : ∃ el u w els, IsElement U t el u ∧ IsElementEnd u w ∧ IsBody U w els r := by
  cases h with
  | done =>
    rename_i h
    rw [sl_funct hs h] at hi
    obtain ⟨c, x, e, hc⟩ := ident_head hi
    rcases hr with rfl | ⟨y, rfl⟩
    · cases e
    · injection e with e _; subst e; exact absurd hc (not_identStart (by decide) (by decide))
  | elem =>
    rename_i t' u w el els a b c d
    obtain ⟨k1, k2, k3, k4⟩ : SkipLayout s t' ∧ IsElement U t' el u ∧ IsElementEnd u w ∧ IsBody U w els r :=
      ⟨‹_›, ‹_›, ‹_›, ‹_›⟩
    rw [sl_funct k1 hs] at k2
    exact ⟨el, u, w, els, k2, k3, k4⟩

theorem identStart_ne {x : Str} {c : Char} {t : Str} (h : Head (IdentStart U) x) (hx : x = c :: t) (hc : c = '}' ∨ c = '\n' ∨
    c = '\r' ∨ c = '#' ∨ c = '/') : False := by
  obtain ⟨d, y, e, hd⟩ := h
  rw [e] at hx; injection hx with hx _; subst hx
  rcases hc with rfl | rfl | rfl | rfl | rfl <;> exact not_identStart (by decide) (by decide) hd

theorem bodyAt_stuck {k : Kind} {s u : Str} (h : BodyAt U k s u) (hu : StuckAt k u) : ∀ b r, BodyEnd r → ¬ IsBody U s b r := by
  induction h with
  | «attribute» s t u h1 h2 =>
    intro b r hr hb
    obtain ⟨i, v, w, hi, hw⟩ := attributeAt_ident h2
    obtain ⟨el, x, y, els, hel, -, -⟩ := isBody_inv h1 hi hr hb
    rcases isElement_inv hi hel with ⟨k, e, ha, -⟩ | ⟨ls, z, hl, -⟩
    · exact attributeAt_stuck h2 hu _ _ _ ha
    · exact labels_not_eq hl hw
  | label s t i v u h1 hi h2 =>
    intro b r hr hb
    obtain ⟨el, x, y, els, hel, -, -⟩ := isBody_inv h1 hi hr hb
    rcases isElement_inv hi hel with ⟨k, e, -, w, hw⟩ | ⟨ls, z, hl, -⟩
    · obtain ⟨t', h3, h4⟩ := labelAt_head h2 hu
      rw [si_funct h3 hw] at h4; exact h4 ⟨_, _, rfl, rfl⟩
    · exact labelAt_stuck h2 hu _ _ hl
  | oneLine s t i v w x u ls h1 hi hl hx ha =>
    intro b r hr hb
    obtain ⟨el, x', y, els, hel, -, -⟩ := isBody_inv h1 hi hr hb
    obtain ⟨j, v', w', hj, -⟩ := attributeAt_ident ha
    rcases isElement_inv hi hel with ⟨k, e, -, w, hw⟩ | ⟨ls', z, hl', h⟩
    · exact labels_not_eq hl hw
    · obtain ⟨rfl, rfl⟩ := isLabels_functional hl hl'
      rcases h with ⟨y, hy⟩ | ⟨x', k, e, y, hx', h⟩ | ⟨x', y, b, z, hx', hn, -⟩
      · exact identStart_ne (ident_head hj) (si_funct hx hy) (by simp)
      · rw [← si_funct hx hx'] at h; exact attributeAt_stuck ha hu _ _ _ h
      · rw [← si_funct hx hx'] at hn
        exact newline_not_identStart hn (ident_head hj)
  | block k s t i v w x y u ls h1 hi hl hx hn h ih =>
    intro b r hr hb
    obtain ⟨el, x', y', els, hel, -, -⟩ := isBody_inv h1 hi hr hb
    rcases isElement_inv hi hel with ⟨k, e, -, w, hw⟩ | ⟨ls', z, hl', h⟩
    · exact labels_not_eq hl hw
    · obtain ⟨rfl, rfl⟩ := isLabels_functional hl hl'
      rcases h with ⟨y, hy⟩ | ⟨x', k, e, y, hx', h⟩ | ⟨x', y', b, z, hx', hn', hb'⟩
      · obtain ⟨c, t', e, hc⟩ := newlines_head hn
        rw [si_funct hx hy] at e; injection e with e _; subst e
        revert hc; decide
      · rw [← si_funct hx hx'] at h
        obtain ⟨j, t', hj⟩ : ∃ j t', Ident U x j t' := by cases h; exact ⟨_, _, ‹_›⟩
        exact newline_not_identStart hn (ident_head hj)
      · rw [← si_funct hx hx'] at hn'
        exact ih hu _ _ (.inr ⟨_, rfl⟩) (isBody_newlines hn' hn hb')
  | next k s t v w u el h1 h2 h3 _ ih =>
    intro b r hr hb
    obtain ⟨i, x, hi⟩ := isElement_ident h2
    obtain ⟨el', x', y', els, hel, he, hb'⟩ := isBody_inv h1 hi hr hb
    obtain ⟨-, rfl⟩ := isElement_functional (skipInline_again h1) h2 hel
    exact ih hu _ _ hr (isBody_elementEnd he h3 hb')
end
end Verif
