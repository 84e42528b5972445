import Verif.Proofs.NumberEnd
import Verif.Proofs.Agree
import Verif.Props.Embed
/-! # C85: what is not supported is refused -/
set_option autoImplicit false

namespace Verif

section
open Spec
variable {U : CharClass}

theorem layoutChar_iff {c : Char} : LayoutChar c ↔ LayoutStart c := Iff.rfl

theorem isExpr_begins {s r : Str} {e : Expr} (h : IsExpr U s e r) :
    (∃ w ∈ valueWords, s = w ++ r) ∨ ∃ l c t, AnyLayout l ∧ s = l ++ c :: t ∧ ValueStart c := by
  cases h with
  | null => exact .inl ⟨['n', 'u', 'l', 'l'], by simp [valueWords], rfl⟩
  | true => exact .inl ⟨['t', 'r', 'u', 'e'], by simp [valueWords], rfl⟩
  | false => exact .inl ⟨['f', 'a', 'l', 's', 'e'], by simp [valueWords], rfl⟩
  | number =>
    rename_i k hk
    obtain ⟨x, rfl, hn, -⟩ := hk
    obtain ⟨c, t, e, hc⟩ := isNumber_head hn r
    refine .inr ⟨[], c, t, .nil, e, ?_⟩
    rcases hc with h | h | h | h
    all_goals first
      | exact .inl h
      | (subst h; simp [ValueStart])
  | string =>
    rename_i w hk
    cases hk with
    | quoted => rename_i h; obtain ⟨src, rfl, -⟩ := h; exact .inr ⟨[], _, _, .nil, rfl, by simp [ValueStart]⟩
    | heredoc => rename_i h; obtain ⟨t, rfl⟩ := h.head; exact .inr ⟨[], _, _, .nil, rfl, by simp [ValueStart]⟩
  | tuple => exact .inr ⟨[], _, _, .nil, rfl, by simp [ValueStart]⟩
  | object =>
    rename_i x es h1 h2
    obtain ⟨l, hl, rfl, -⟩ := h1
    exact .inr ⟨l, _, _, hl, rfl, by simp [ValueStart]⟩
  | bracket =>
    rename_i x u w a1 a2 a3 a4
    have h1 : SkipLayout s ('(' :: x) := ‹_›
    obtain ⟨l, hl, rfl, -⟩ := h1
    exact .inr ⟨l, _, _, hl, rfl, by simp [ValueStart]⟩

/-- A value begins in one of these ways. -/
theorem expr_not_begins {c : Char} {t r : Str} {e : Expr} (hv : ¬ ValueStart c) (hl : ¬ LayoutChar c)
    (hw : c ≠ 'n' ∧ c ≠ 't' ∧ c ≠ 'f') : ¬ IsExpr U (c :: t) e r := by
  intro h
  rcases isExpr_begins h with ⟨w, hw', h⟩ | ⟨l', c', t', hl', h, hv'⟩
  · simp only [valueWords, List.mem_cons, List.not_mem_nil, or_false] at hw'
    rcases hw' with rfl | rfl | rfl <;> injection h with h _ <;> subst h <;> simp at hw
  · cases hl' with
    | nil => injection h with h _; subst h; exact hv hv'
    | cons i l' hi _ => exact absurd ⟨i, _, hi, by rw [h, List.append_assoc]⟩ (not_starts_layout hl)

/-- What follows an opening bracket. -/
theorem expr_tuple_inv {s r : Str} {e : Expr} (h : IsExpr U ('[' :: s) e r) : ∃ es, IsTupleBody U s es r ∧ e = .tuple es := by
  generalize hz : '[' :: s = z at h
  have hs : SkipLayout z z := hz ▸ Skip.refl (not_starts_layout (by decide))
  cases h with
  | null => cases hz
  | true => cases hz
  | false => cases hz
  | number =>
    rename_i h
    obtain ⟨c, t, e1, hc⟩ := numberTok_head h
    rw [← hz] at e1
    injection e1 with e1 _
    subst e1
    rw [numHead_iff] at hc
    exact absurd hc (by decide)
  | string =>
    rename_i h
    cases h with
    | quoted => rename_i h; obtain ⟨src, e1, -⟩ := h; rw [← hz] at e1; cases e1
    | heredoc => rename_i h; obtain ⟨src, e1⟩ := h.head; rw [← hz] at e1; cases e1
  | tuple => injection hz with _ hz; subst hz; exact ⟨_, ‹_›, rfl⟩
  | object =>
    have := sl_funct ‹SkipLayout z ('{' :: _)› hs
    rw [← hz] at this
    cases this
  | bracket =>
    have := sl_funct ‹SkipLayout z ('(' :: _)› hs
    rw [← hz] at this
    cases this

/-- What follows an opening brace. -/
theorem expr_object_inv {s r : Str} {e : Expr} (h : IsExpr U ('{' :: s) e r) : ∃ es, IsObjectBody U s es r ∧ e = .object es := by
  generalize hz : '{' :: s = z at h
  have hs : SkipLayout z z := hz ▸ Skip.refl (not_starts_layout (by decide))
  cases h with
  | null => cases hz
  | true => cases hz
  | false => cases hz
  | number =>
    rename_i h
    obtain ⟨c, t, e1, hc⟩ := numberTok_head h
    rw [← hz] at e1
    injection e1 with e1 _
    subst e1
    rw [numHead_iff] at hc
    exact absurd hc (by decide)
  | string =>
    rename_i h
    cases h with
    | quoted => rename_i h; obtain ⟨src, e1, -⟩ := h; rw [← hz] at e1; cases e1
    | heredoc => rename_i h; obtain ⟨src, e1⟩ := h.head; rw [← hz] at e1; cases e1
  | tuple => cases hz
  | object =>
    have := sl_funct ‹SkipLayout z ('{' :: _)› hs
    rw [← hz] at this
    injection this with _ this
    subst this
    exact ⟨_, ‹_›, rfl⟩
  | bracket =>
    have := sl_funct ‹SkipLayout z ('(' :: _)› hs
    rw [← hz] at this
    cases this

/-- What follows an opening parenthesis. -/
theorem expr_paren_inv {s r : Str} {e : Expr} (h : IsExpr U ('(' :: s) e r) :
    ∃ u v, SkipLayout s u ∧ IsExpr U u e v ∧ SkipLayout v (')' :: r) := by
  generalize hz : '(' :: s = z at h
  have hs : SkipLayout z z := hz ▸ Skip.refl (not_starts_layout (by decide))
  cases h with
  | null => cases hz
  | true => cases hz
  | false => cases hz
  | number =>
    rename_i h
    obtain ⟨c, t, e1, hc⟩ := numberTok_head h
    rw [← hz] at e1
    injection e1 with e1 _
    subst e1
    rw [numHead_iff] at hc
    exact absurd hc (by decide)
  | string =>
    rename_i h
    cases h with
    | quoted => rename_i h; obtain ⟨src, e1, -⟩ := h; rw [← hz] at e1; cases e1
    | heredoc => rename_i h; obtain ⟨src, e1⟩ := h.head; rw [← hz] at e1; cases e1
  | tuple => cases hz
  | object =>
    have := sl_funct ‹SkipLayout z ('{' :: _)› hs
    rw [← hz] at this
    cases this
  | bracket s' t u v e r h1 h2 h3 h4 =>
    have := sl_funct h1 hs
    rw [← hz] at this
    injection this with _ this
    subst this
    exact ⟨_, _, h2, h3, h4⟩

/-- The first element of a document that begins with a name. -/
theorem document_name {k x : Str} {b : Body} (hk : IsIdent U k) (hx : ¬ Head (IdentChar U) x) (h : Document U (k ++ x) b) :
    ∃ el u v b', IsElement U (k ++ x) el u ∧ IsElementEnd u v ∧ IsBody U v b' [] ∧ b = el :: b' := by
  have hi : Ident U (k ++ x) k x := ⟨rfl, hk, hx⟩
  have hs := skipLayout_ident hi
  unfold Document at h
  generalize hz : k ++ x = z at h hs
  cases h with
  | done =>
    rename_i h
    have := h.functional layoutItem_prefix hs
    rw [← hz] at this
    cases hk with
    | mk c cs => cases this
  | elem =>
    rename_i t u v el b h1 h2 h3 h4
    have e0 := sl_funct ‹SkipLayout _ _› hs
    subst e0
    exact ⟨_, _, _, _, ‹_›, ‹_›, ‹_›, rfl⟩

theorem element_name {k x u : Str} {el : BodyElement} (hk : IsIdent U k) (hx : ¬ Head (IdentChar U) x) (h : IsElement U (k ++ x) el u) :
    (∃ y v w e, SkipInline x ('=' :: y) ∧ SkipInline y v ∧ IsExpr U v e w ∧ SkipInline w u ∧ el = .attribute (.borrowed k) e) ∨
    ∃ ls y, IsLabels U x ls y := by
  have hi : Ident U (k ++ x) k x := ⟨rfl, hk, hx⟩
  generalize hz : k ++ x = z at h hi
  cases h with
  | «attribute» _ k' e' _ ha =>
    cases ha with
    | mk =>
      rename_i j t u' v' w g1 g2 g3 g4 g5
      obtain ⟨e0, rfl⟩ := ident_functional hi g1
      subst e0
      exact .inl ⟨_, _, _, _, g2, g3, g4, g5, rfl⟩
  | emptyBlock =>
    rename_i g1 g2 g3 g4
    obtain ⟨e0, rfl⟩ := ident_functional hi ‹_›
    exact .inr ⟨_, _, ‹_›⟩
  | oneLineBlock =>
    obtain ⟨e0, rfl⟩ := ident_functional hi ‹_›
    exact .inr ⟨_, _, ‹_›⟩
  | block =>
    obtain ⟨e0, rfl⟩ := ident_functional hi ‹_›
    exact .inr ⟨_, _, ‹_›⟩

theorem labels_begin {x y : Str} {ls : List BlockLabel} (h : IsLabels U x ls y) :
    ∃ l c t, AnyInline l ∧ x = l ++ c :: t ∧ (c = '{' ∨ c = '"' ∨ IdentStart U c) := by
  cases h with
  | «open» =>
    rename_i h
    obtain ⟨l, hl, rfl, -⟩ := h
    exact ⟨l, _, _, hl, rfl, .inl rfl⟩
  | label =>
    rename_i h1 h2 h3
    obtain ⟨l, hl, rfl, -⟩ := ‹SkipInline _ _›
    cases ‹IsLabel U _ _ _› with
    | ident =>
      rename_i h
      obtain ⟨rfl, hi, -⟩ := h
      cases hi with
      | mk c cs hc hcs => exact ⟨l, c, _, hl, rfl, .inr (.inr hc)⟩
    | string =>
      rename_i h
      obtain ⟨src, rfl, -⟩ := h
      exact ⟨l, _, _, hl, rfl, .inr (.inl rfl)⟩

theorem inline_same {l l' : Str} {c c' : Char} {t t' : Str} (hl : AnyInline l) (hl' : AnyInline l')
    (hc : ¬ Starts InlineItem (c :: t)) (hc' : ¬ Starts InlineItem (c' :: t')) (h : l ++ c :: t = l' ++ c' :: t') : c = c' ∧ t = t' := by
  have h1 : SkipInline (l ++ c :: t) (c :: t) := ⟨l, hl, rfl, hc⟩
  have h2 : SkipInline (l ++ c :: t) (c' :: t') := ⟨l', hl', h, hc'⟩
  have := h1.functional inlineItem_prefix h2
  injection this with a b
  exact ⟨a, b⟩

theorem not_head_inline {l x : Str} (hl : AnyInline l) (hx : ¬ Head (IdentChar U) x) : ¬ Head (IdentChar U) (l ++ x) :=
  inline_head hl (fun _ h => layoutStart_not_identChar h) hx

theorem eq_not_ident (s : Str) : ¬ Head (IdentChar U) ('=' :: s) := by
  rw [head_cons]; exact not_identChar (by decide) (by decide)

theorem eq_not_inline (s : Str) : ¬ Starts InlineItem ('=' :: s) := not_inline_of (by decide) (by decide) (by decide)

theorem element_attribute {k l s u : Str} {el : BodyElement} (hk : IsIdent U k) (hl : AnyInline l)
    (h : IsElement U (k ++ (l ++ '=' :: s)) el u) :
    ∃ v e w, SkipInline s v ∧ IsExpr U v e w ∧ SkipInline w u ∧ el = .attribute (.borrowed k) e := by
  rcases element_name hk (not_head_inline hl (eq_not_ident s)) h with ⟨y, v, w, e, h1, h2, h3, h4, h5⟩ | ⟨ls, y, h⟩
  · have := si_funct h1 (skip_append hl (eq_not_inline s))
    injection this with _ this
    subst this
    exact ⟨v, e, w, h2, h3, h4, h5⟩
  · obtain ⟨l', c, t, hl', e, hc⟩ := labels_begin h
    have hn : ¬ Starts InlineItem (c :: t) := by
      rcases hc with rfl | rfl | hc
      · exact not_inline_of (by decide) (by decide) (by decide)
      · exact not_inline_of (by decide) (by decide) (by decide)
      · exact not_starts_inline (not_starts_layout (identStart_not_layout hc))
    obtain ⟨rfl, -⟩ := inline_same hl hl' (eq_not_inline s) hn e
    rcases hc with hc | hc | hc
    · cases hc
    · cases hc
    · exact absurd hc (not_identStart (by decide) (by decide))

theorem document_attr_inv {k l s : Str} {b : Body} (hk : IsIdent U k) (hl : AnyInline l)
    (h : Document U (k ++ (l ++ '=' :: s)) b) :
    ∃ v e w u z b', SkipInline s v ∧ IsExpr U v e w ∧ SkipInline w u ∧ IsElementEnd u z ∧ IsBody U z b' [] ∧
      b = .attribute (.borrowed k) e :: b' := by
  obtain ⟨el, u, z, b', h1, h2, h3, h4⟩ := document_name hk (not_head_inline hl (eq_not_ident s)) h
  obtain ⟨v, e, w, g1, g2, g3, rfl⟩ := element_attribute hk hl h1
  exact ⟨v, e, w, u, z, b', g1, g2, g3, h2, h3, h4⟩

/-- An accepted expression, followed by something that does not make it longer. -/
theorem parse_then {t r : Str} {e : Expr} (h : Expr.parse U t = .ok e) (hr : NotLonger t r) : IsExpr U (t ++ r) e r := by
  rw [Props.c15_every_expression_layout_is_read] at h
  refine laidExpr_isExpr_ends h r (.none _) fun n hn => ⟨t, rfl, hn, hr n hn⟩

theorem elementEnd_not {x z : Str} (hx : x ≠ []) (hn : ¬ Starts NewlineItem x) : ¬ IsElementEnd x z := by
  intro h
  cases h with
  | newline =>
    rename_i h
    obtain ⟨i, l, hi, hl, rfl⟩ := h
    exact hn ⟨i, _, hi, by rw [List.append_assoc]⟩
  | eof => exact hx rfl

end

namespace Props
open Spec

variable (U : CharClass)

/-- C85: a value that is not one of the words `null`, `true`, `false` begins with a digit, `+`, `-`, `.`, `"`, `<`, `[`, `{`
or `(`. -/
theorem c85_value_begins (s : Str) (e : Expr) (h : Expr.parse U s = .ok e) :
    s ∈ valueWords ∨ ∃ l c t, AnyLayout l ∧ s = l ++ c :: t ∧ ValueStart c := by
  rw [c20_expression_parse_ok] at h
  rcases isExpr_begins h with ⟨w, hw, rfl⟩ | h
  · exact .inl (by simpa using hw)
  · exact .inr h

/-- C85: so a reference, a call, a negation or anything else that begins differently is refused as the value of an attribute. -/
theorem c85_attribute_value_begins (k l m t : Str) (c : Char) (b : Body) (hk : IsIdent U k) (hl : AnyInline l) (hm : AnyInline m)
    (h : parseStr U (k ++ l ++ '=' :: m ++ c :: t) = .ok b) : LayoutChar c ∨ ValueStart c ∨ ∃ w ∈ valueWords, w <+: c :: t := by
  rcases Classical.em (LayoutChar c) with hc | hc
  · exact .inl hc
  right
  have e0 : k ++ l ++ '=' :: m ++ c :: t = k ++ (l ++ '=' :: (m ++ c :: t)) := by simp
  rw [parseStr_iff, e0] at h
  obtain ⟨v, e, w, u, z, b', h1, h2, -⟩ := document_attr_inv hk hl h
  have := si_funct h1 (skip_append hm (not_starts_inline (not_starts_layout hc)))
  subst this
  rcases isExpr_begins h2 with ⟨w', hw, h⟩ | ⟨l', c', t', hl', h, hv⟩
  · exact .inr ⟨w', hw, ⟨_, h.symm⟩⟩
  · cases hl' with
    | nil => injection h with h _; subst h; exact .inl hv
    | cons i l' hi _ => exact absurd ⟨i, _, hi, by rw [h, List.append_assoc]⟩ (not_starts_layout hc)

/-- C85: behind the value of an attribute there is nothing but layout up to the end of the line: an operator, an index, a second
value are refused. -/
theorem c85_one_value (k l m t n x : Str) (e : Expr) (b : Body) (hk : IsIdent U k) (hl : AnyInline l) (hm : AnyInline m)
    (hn : AnyInline n) (ht : Expr.parse U t = .ok e) (hx : x ≠ []) (hi : ¬ Starts InlineItem x) (hnl : ¬ Starts NewlineItem x)
    (hl' : NotLonger t (n ++ x)) : parseStr U (k ++ l ++ '=' :: m ++ t ++ n ++ x) ≠ .ok b := by
  intro h
  have e0 : k ++ l ++ '=' :: m ++ t ++ n ++ x = k ++ (l ++ '=' :: (m ++ (t ++ (n ++ x)))) := by simp
  rw [parseStr_iff, e0] at h
  obtain ⟨v, e', w, u, z, b', h1, h2, h3, h4, -⟩ := document_attr_inv hk hl h
  obtain ⟨v', g1, g2⟩ := inline_then_expr hm (parse_then ht hl')
  have := si_funct h1 g1
  subst this
  obtain ⟨-, rfl⟩ := isExpr_functional h2 g2
  have := si_funct h3 (skip_append hn hi)
  subst this
  exact elementEnd_not hx hnl h4

/-- C85: in particular: on the line of a value, no character follows that is not layout and does not continue a number. -/
theorem c85_nothing_follows_value (k l m t n x : Str) (c : Char) (e : Expr) (b : Body) (hk : IsIdent U k) (hl : AnyInline l)
    (hm : AnyInline m) (hn : AnyInline n) (ht : Expr.parse U t = .ok e) (hc : ¬ LayoutChar c)
    (hc' : ¬ (('0' ≤ c ∧ c ≤ '9') ∨ c = '.' ∨ c = 'e' ∨ c = 'E')) :
    parseStr U (k ++ l ++ '=' :: m ++ t ++ n ++ c :: x) ≠ .ok b := by
  refine c85_one_value U k l m t n (c :: x) e b hk hl hm hn ht (by simp) (not_starts_inline (not_starts_layout hc)) ?_ ?_
  · rintro ⟨i, q, hi, e⟩
    obtain ⟨d, q', e', hd⟩ := newlineItem_head_layout (t := q) hi
    rw [e'] at e
    injection e with e _
    exact hc (e ▸ hd)
  · refine notLonger_of (inline_head hn (fun d hd => ?_) (by rw [head_cons]; exact hc'))
    revert hd
    unfold LayoutStart
    rintro (rfl | rfl | rfl | rfl | rfl | rfl) <;> decide

/-- C85: in a tuple, a value is followed by a comma or the closing bracket. -/
theorem c85_one_value_in_tuple (m t n x : Str) (c : Char) (e e' : Expr) (hm : AnyLayout m) (hn : AnyLayout n)
    (ht : Expr.parse U t = .ok e) (hc : c ≠ ',') (hc' : c ≠ ']') (hi : ¬ Starts LayoutItem (c :: x)) (hl' : NotLonger t (n ++ c :: x)) :
    Expr.parse U ('[' :: m ++ t ++ n ++ c :: x) ≠ .ok e' := by
  intro h
  have e0 : '[' :: m ++ t ++ n ++ c :: x = '[' :: (m ++ (t ++ (n ++ c :: x))) := by simp
  rw [c20_expression_parse_ok, e0] at h
  obtain ⟨u, g1, g2⟩ := layout_then_expr hm (parse_then ht hl')
  have hend : ∀ {r : Str}, ¬ IsTupleEnd (n ++ c :: x) r := by
    intro r h
    cases h with
    | close =>
      rename_i h
      have := sl_funct h (skip_append hn hi)
      injection this with this _
      exact hc' this.symm
    | comma =>
      rename_i h h'
      have := sl_funct ‹SkipLayout (n ++ c :: x) _› (skip_append hn hi)
      injection this with this _
      exact hc this.symm
  obtain ⟨es, hb, -⟩ := expr_tuple_inv h
  cases hb with
  | empty =>
    rename_i h
    cases h with
    | close =>
      have := sl_funct g1 ‹_›
      subst this
      exact expr_not_begins (by decide) (by decide) (by decide) g2
    | comma =>
      have := sl_funct g1 ‹SkipLayout _ (',' :: _)›
      subst this
      exact expr_not_begins (by decide) (by decide) (by decide) g2
  | elems s' t' u' e1 es _ g4 g5 g6 =>
    have := sl_funct g4 g1
    subst this
    obtain ⟨-, rfl⟩ := isExpr_functional g5 g2
    cases g6 with
    | last => exact hend ‹_›
    | more =>
      have := sl_funct ‹SkipLayout (n ++ c :: x) (',' :: _)› (skip_append hn hi)
      injection this with this _
      exact hc this.symm

/-- C85: in parentheses there is one value. -/
theorem c85_one_value_in_parentheses (m t n x : Str) (c : Char) (e e' : Expr) (hm : AnyLayout m) (hn : AnyLayout n)
    (ht : Expr.parse U t = .ok e) (hc : c ≠ ')') (hi : ¬ Starts LayoutItem (c :: x)) (hl' : NotLonger t (n ++ c :: x)) :
    Expr.parse U ('(' :: m ++ t ++ n ++ c :: x) ≠ .ok e' := by
  intro h
  have e0 : '(' :: m ++ t ++ n ++ c :: x = '(' :: (m ++ (t ++ (n ++ c :: x))) := by simp
  rw [c20_expression_parse_ok, e0] at h
  obtain ⟨u, g1, g2⟩ := layout_then_expr hm (parse_then ht hl')
  obtain ⟨u', v, h1, h2, h3⟩ := expr_paren_inv h
  have := sl_funct h1 g1
  subst this
  obtain ⟨-, rfl⟩ := isExpr_functional h2 g2
  have := sl_funct h3 (skip_append hn hi)
  injection this with this _
  exact hc this.symm

/-- C85: in an object, a name is followed by `=`; `:` is not supported. -/
theorem c85_object_equals (l k i x : Str) (c : Char) (e : Expr) (hl : AnyLayout l) (hk : IsIdent U k) (hi : AnyInline i)
    (hc : c ≠ '=') (hx : ¬ Starts InlineItem (c :: x)) (hx' : ¬ Head (IdentChar U) (i ++ c :: x)) :
    Expr.parse U ('{' :: l ++ k ++ i ++ c :: x) ≠ .ok e := by
  intro h
  have e0 : '{' :: l ++ k ++ i ++ c :: x = '{' :: (l ++ (k ++ (i ++ c :: x))) := by simp
  rw [c20_expression_parse_ok, e0] at h
  obtain ⟨es, hb, -⟩ := expr_object_inv h
  have g1 : SkipLayout (l ++ (k ++ (i ++ c :: x))) (k ++ (i ++ c :: x)) := skip_append hl (ident_not_layout hk _)
  have g2 : Ident U (k ++ (i ++ c :: x)) k (i ++ c :: x) := ⟨rfl, hk, hx'⟩
  obtain ⟨t, k', u, v, h1, h2, h3⟩ : ∃ t k' u v, SkipLayout (l ++ (k ++ (i ++ c :: x))) t ∧ IsObjectKey U t k' u ∧
      SkipInline u ('=' :: v) := by
    cases hb with
    | close =>
      have := sl_funct ‹SkipLayout _ ('}' :: _)› g1
      cases hk with
      | mk d k hd _ =>
        injection this with this _
        subst this
        exact absurd hd (not_identStart (by decide) (by decide))
    | elem s t u v w x y z k e es _ h1 h2 h3 => exact ⟨_, _, _, _, h1, h2, h3⟩
  have := sl_funct h1 g1
  subst this
  have : u = i ++ c :: x := by
    generalize hz : k ++ (i ++ c :: x) = z at h2 g2
    cases h2 with
    | ident => exact (ident_functional ‹_› g2).2
    | expr =>
      refine absurd ?_ ‹¬ Head (IdentStart U) _›
      rw [← hz]
      cases hk with
      | mk d k hd _ => exact ⟨d, _, rfl, hd⟩
  subst this
  have := si_funct h3 (skip_append hi hx)
  injection this with this _
  exact hc this.symm

/-- C85: in an object, a value is followed by a comma, the end of the line or the closing brace. -/
theorem c85_one_value_in_object (l k i m t n x : Str) (e e' : Expr) (hl : AnyLayout l) (hk : IsIdent U k) (hi : AnyInline i)
    (hm : AnyInline m) (hn : AnyInline n) (ht : Expr.parse U t = .ok e) (hx : ¬ Starts InlineItem x) (hnl : ¬ Starts NewlineItem x)
    (hc : ∀ y, x ≠ ',' :: y ∧ x ≠ '}' :: y) (hl' : NotLonger t (n ++ x)) :
    Expr.parse U ('{' :: l ++ k ++ i ++ '=' :: m ++ t ++ n ++ x) ≠ .ok e' := by
  intro h
  have e0 : '{' :: l ++ k ++ i ++ '=' :: m ++ t ++ n ++ x = '{' :: (l ++ (k ++ (i ++ '=' :: (m ++ (t ++ (n ++ x)))))) := by simp
  rw [c20_expression_parse_ok, e0] at h
  obtain ⟨es, hb, -⟩ := expr_object_inv h
  generalize hX : i ++ '=' :: (m ++ (t ++ (n ++ x))) = X at hb
  have hX' : ¬ Head (IdentChar U) X := hX ▸ not_head_inline hi (eq_not_ident _)
  have g1 : SkipLayout (l ++ (k ++ X)) (k ++ X) := skip_append hl (ident_not_layout hk _)
  have g2 : Ident U (k ++ X) k X := ⟨rfl, hk, hX'⟩
  obtain ⟨w', g3, g4⟩ := inline_then_expr hm (parse_then ht hl')
  cases hb with
  | close =>
    have := sl_funct ‹SkipLayout _ ('}' :: _)› g1
    cases hk with
    | mk d k hd _ =>
      injection this with this _
      subst this
      exact absurd hd (not_identStart (by decide) (by decide))
  | elem s t' u v w x' y z k' e'' es _ h1 h2 h3 h4 h5 h6 h7 =>
    have := sl_funct h1 g1
    subst this
    have : u = X := by
      generalize hz : k ++ X = z at h2 g2
      cases h2 with
      | ident => exact (ident_functional ‹_› g2).2
      | expr =>
        refine absurd ?_ ‹¬ Head (IdentStart U) _›
        rw [← hz]
        cases hk with
        | mk d k hd _ => exact ⟨d, _, rfl, hd⟩
    subst this
    rw [← hX] at h3
    have := si_funct h3 (skip_append hi (eq_not_inline _))
    injection this with _ this
    subst this
    have := si_funct h4 g3
    subst this
    obtain ⟨-, rfl⟩ := isExpr_functional h5 g4
    have := si_funct h6 (skip_append hn hx)
    subst this
    cases h7 with
    | comma => exact (hc _).1 rfl
    | close => exact (hc _).2 rfl
    | newline =>
      rename_i h
      obtain ⟨a, b, ha, hb, rfl⟩ := h
      exact hnl ⟨a, _, ha, by rw [List.append_assoc]⟩

/-- C85: what stands in a file is layout, and elements that begin with a name: anything else – quoted names, braces, a byte order
mark – is refused. -/
theorem c85_element_begins (l t : Str) (c : Char) (b : Body) (hl : AnyLayout l) (hc : ¬ Starts LayoutItem (c :: t))
    (h : parseStr U (l ++ c :: t) = .ok b) : IdentStart U c := by
  rw [parseStr_iff] at h
  unfold Document at h
  have hs : SkipLayout (l ++ c :: t) (c :: t) := skip_append hl hc
  cases h with
  | done =>
    have := sl_funct ‹SkipLayout _ _› hs
    cases this
  | elem s t' u v el els _ h1 h2 =>
    have := sl_funct h1 hs
    subst this
    have : ∃ i r, Ident U (c :: t) i r := by
      generalize hz : c :: t = z at h2
      cases h2 with
      | «attribute» _ k' e' _ ha => cases ha with | mk => exact ⟨_, _, ‹_›⟩
      | emptyBlock => exact ⟨_, _, ‹_›⟩
      | oneLineBlock => exact ⟨_, _, ‹_›⟩
      | block => exact ⟨_, _, ‹_›⟩
    obtain ⟨i, r, e, hi, -⟩ := this
    cases hi with
    | mk d ds hd _ => injection e with e _; subst e; exact hd

/-- C85: a name is followed by `=`, or by labels and a brace: a name on its own, a comma, a dot are refused. -/
theorem c85_after_name (k l t : Str) (b : Body) (hk : IsIdent U k) (hl : AnyInline l) (ht : ¬ Starts InlineItem t)
    (hx : ¬ Head (IdentChar U) (l ++ t)) (h : parseStr U (k ++ l ++ t) = .ok b) :
    ∃ c t', t = c :: t' ∧ (c = '=' ∨ c = '{' ∨ c = '"' ∨ IdentStart U c) := by
  rw [parseStr_iff, List.append_assoc] at h
  obtain ⟨el, u, v, b', h1, -⟩ := document_name hk hx h
  rcases element_name hk hx h1 with ⟨y, v, w, e, h1, -⟩ | ⟨ls, y, h⟩
  · have := si_funct (skip_append hl ht) h1
    exact ⟨_, _, this, .inl rfl⟩
  · obtain ⟨l', c, t', hl', e, hc⟩ := labels_begin h
    have hn : ¬ Starts InlineItem (c :: t') := by
      rcases hc with rfl | rfl | hc
      · exact not_inline_of (by decide) (by decide) (by decide)
      · exact not_inline_of (by decide) (by decide) (by decide)
      · exact not_starts_inline (not_starts_layout (identStart_not_layout hc))
    have h2 : SkipInline (l ++ t) (c :: t') := ⟨l', hl', e, hn⟩
    exact ⟨c, t', si_funct (skip_append hl ht) h2, .inr hc⟩

/-- C85: the text between two quotes is kept as it is when it contains no quote and no backslash: `${…}` and `%{…}` are not
evaluated. -/
theorem c85_templates_are_text (s : Str) (h : ∀ c ∈ s, c ≠ '"' ∧ c ≠ '\\') :
    Expr.parse U ('"' :: s ++ ['"']) = .ok (.string (.ownedS s)) := by
  rw [c20_expression_parse_ok]
  refine .string _ _ _ (.quoted _ _ _ ⟨s, by simp, ?_⟩)
  generalize ['"'] = r
  induction s with
  | nil => exact .nil _
  | cons c s ih => exact .plain _ _ _ _ ⟨(h c (by simp)).2, (h c (by simp)).1⟩ (ih fun d hd => h d (by simp [hd]))

/-- Non-vacuity of C85: `a = 1 + 2`, `a = b.c`, `a = "x"[0]`, `[1 2]`, `(1 2)`, `{a : 1}`, `{a = 1 b = 2}`, `"a" = 1`, `a`,
`a.b = 1` meet the premises, and are refused. -/
example : Expr.parse asciiClass ['1'] = .ok (.number ⟨.borrowed ['1'], true, some (.borrowed ['1']), none, none⟩) ∧
    (∀ b, parseStr asciiClass "a = 1 + 2".toList ≠ .ok b) ∧ (∀ b, parseStr asciiClass "a = 1+2".toList ≠ .ok b) ∧
    (∀ b, parseStr asciiClass "a = b.c".toList ≠ .ok b) ∧ (∀ b, parseStr asciiClass "a = \"x\"[0]".toList ≠ .ok b) ∧
    (∀ e, Expr.parse asciiClass "[1 2]".toList ≠ .ok e) ∧ (∀ e, Expr.parse asciiClass "(1 2)".toList ≠ .ok e) ∧
    (∀ e, Expr.parse asciiClass "{a : 1}".toList ≠ .ok e) ∧ (∀ e, Expr.parse asciiClass "{a = 1 b = 2}".toList ≠ .ok e) ∧
    (∀ b, parseStr asciiClass "\"a\" = 1".toList ≠ .ok b) ∧ (∀ b, parseStr asciiClass "a".toList ≠ .ok b) ∧
    (∀ b, parseStr asciiClass "a.b = 1".toList ≠ .ok b) := by
  have h1 : Expr.parse asciiClass ['1'] = .ok (.number ⟨.borrowed ['1'], true, some (.borrowed ['1']), none, none⟩) := by
    decide +kernel
  have hx : Expr.parse asciiClass ['"', 'x', '"'] = .ok (.string (.ownedS ['x'])) := c85_templates_are_text _ ['x'] (by decide)
  have ha : IsIdent asciiClass ['a'] := .mk 'a' [] (.inl (by decide)) (by simp)
  have sp : AnyInline [' '] := .cons [' '] [] (.blank _ (.inl rfl)) .nil
  have spl : AnyLayout [' '] := .cons [' '] [] (.space _ (.inl rfl)) .nil
  have nl : ∀ (c : Char) (t : Str), ¬ LayoutChar c → ¬ Starts NewlineItem (c :: t) := by
    rintro c t hc ⟨i, q, hi, e⟩
    obtain ⟨d, q', e', hd⟩ := newlineItem_head_layout (t := q) hi
    rw [e'] at e
    injection e with e _
    exact hc (e ▸ hd)
  have nlon : ∀ (x : Str), NotLonger ['1'] (' ' :: x) := fun x => notLonger_of (by rw [head_cons]; decide)
  refine ⟨h1, fun b => ?_, fun b => ?_, fun b h => ?_, fun b => ?_, fun e => ?_, fun e => ?_, fun e => ?_, fun e => ?_, fun b h => ?_,
    fun b h => ?_, fun b h => ?_⟩
  · exact c85_nothing_follows_value _ ['a'] [' '] [' '] ['1'] [' '] [' ', '2'] '+' _ b ha sp sp sp h1 (by decide) (by decide)
  · exact c85_nothing_follows_value _ ['a'] [' '] [' '] ['1'] [] ['2'] '+' _ b ha sp sp .nil h1 (by decide) (by decide)
  · have := c85_attribute_value_begins _ ['a'] [' '] [' '] ['.', 'c'] 'b' b ha sp sp h
    revert this; unfold valueWords; decide
  · exact c85_nothing_follows_value _ ['a'] [' '] [' '] ['"', 'x', '"'] [] ['0', ']'] '[' _ b ha sp sp .nil hx (by decide) (by decide)
  · exact c85_one_value_in_tuple _ [] ['1'] [' '] [']'] '2' _ e .nil spl h1 (by decide) (by decide) (not_starts_layout (by decide))
      (nlon _)
  · exact c85_one_value_in_parentheses _ [] ['1'] [' '] [')'] '2' _ e .nil spl h1 (by decide) (not_starts_layout (by decide)) (nlon _)
  · exact c85_object_equals _ [] ['a'] [' '] [' ', '1', '}'] ':' e .nil ha sp (by decide)
      (not_starts_inline (not_starts_layout (by decide))) (not_head_inline sp (by rw [head_cons]; exact not_identChar (by decide) (by decide)))
  · exact c85_one_value_in_object _ [] ['a'] [' '] [' '] ['1'] [' '] ['b', ' ', '=', ' ', '2', '}'] _ e .nil ha sp sp sp h1
      (not_starts_inline (not_starts_layout (by decide))) (nl _ _ (by decide)) (by simp) (nlon _)
  · exact absurd (c85_element_begins _ [] ['a', '"', ' ', '=', ' ', '1'] '"' b .nil (not_starts_layout (by decide)) h)
      (not_identStart (by decide) (by decide))
  · obtain ⟨c, t, e, -⟩ := c85_after_name _ ['a'] [] [] b ha .nil (not_starts_inline not_starts_nil)
      (by rintro ⟨c, t, e, -⟩; cases e) h
    cases e
  · obtain ⟨c, t, e, hc⟩ := c85_after_name _ ['a'] [] ['.', 'b', ' ', '=', ' ', '1'] b ha .nil
      (not_starts_inline (not_starts_layout (by decide))) (by rw [List.nil_append, head_cons]; exact not_identChar (by decide) (by decide)) h
    injection e with e _
    subst e
    rcases hc with hc | hc | hc | hc
    · cases hc
    · cases hc
    · cases hc
    · exact absurd hc (not_identStart (by decide) (by decide))

end Props
end Verif
