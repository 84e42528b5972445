import Verif.Spec.Agree
import Verif.Proofs.OldConcat
import Verif.Proofs.Position
import Verif.Proofs.Replace
/-! # Where both grammars accept, the results agree -/
set_option autoImplicit false

namespace Verif
open PRes Spec

section
variable {U : CharClass} {P : F64Parse}

theorem quoted_line_plain {s v r : Str} (h : Quoted PlainLine s v r) : Quoted Plain s v r := by
  obtain ⟨src, rfl, h⟩ := h
  exact ⟨src, rfl, content_mono (fun c hc => by simp only [Plain, PlainLine] at *; exact ⟨hc.1, hc.2.1⟩) h⟩

/-- The first character of an expression after layout. -/
def ExprStart : Expr → Char → Prop
  | .null, c => c = 'n'
  | .boolean true, c => c = 't'
  | .boolean false, c => c = 'f'
  | .number _, c => IsDig c ∨ c = '.' ∨ c = '+' ∨ c = '-'
  | .string _, c => c = '"' ∨ c = '<'
  | .tuple _, c => c = '['
  | .object _, c => c = '{'

theorem skip_self {c : Char} {t : Str} (h : ¬ LayoutStart c) : SkipLayout (c :: t) (c :: t) := .refl (not_starts_layout h)

theorem num_not_layout {c : Char} (h : IsDig c ∨ c = '.' ∨ c = '+' ∨ c = '-') : ¬ LayoutStart c := by
  rw [numHead_iff] at h
  rintro (rfl | rfl | rfl | rfl | rfl | rfl) <;> revert h <;> decide

theorem numberTok_head {s r : Str} {n : Number} (h : NumberTok s n r) :
    Head (fun c => IsDig c ∨ c = '.' ∨ c = '+' ∨ c = '-') s := by
  obtain ⟨t, rfl, hn, -⟩ := h; exact isNumber_head hn r

theorem stringTok_head {s r : Str} {v : CowStr} (h : StringTok U s v r) : Head (fun c => c = '"' ∨ c = '<') s := by
  cases h with
  | quoted => rename_i h; obtain ⟨src, rfl, -⟩ := h; exact ⟨_, _, rfl, .inl rfl⟩
  | heredoc => rename_i h; obtain ⟨t, rfl⟩ := h.head; exact ⟨_, _, rfl, .inr rfl⟩

/-- Either a parenthesis or the expression's own first character. -/
theorem isExpr_first {s r : Str} {e : Expr} (h : IsExpr U s e r) :
    ∃ c u, SkipLayout s (c :: u) ∧ (c = '(' ∨ ExprStart e c) := by
  cases h with
  | null => exact ⟨_, _, skip_self (by decide), .inr rfl⟩
  | true => exact ⟨_, _, skip_self (by decide), .inr rfl⟩
  | false => exact ⟨_, _, skip_self (by decide), .inr rfl⟩
  | number =>
    rename_i n h
    obtain ⟨c, u, rfl, hc⟩ := numberTok_head h
    exact ⟨c, u, skip_self (num_not_layout hc), .inr hc⟩
  | string =>
    rename_i v h
    obtain ⟨c, u, rfl, hc⟩ := stringTok_head h
    exact ⟨c, u, skip_self (by rcases hc with rfl | rfl <;> decide), .inr hc⟩
  | tuple => exact ⟨_, _, skip_self (by decide), .inr rfl⟩
  | object => exact ⟨_, _, ‹_›, .inr rfl⟩
  | bracket =>
    rename_i t u v h1 h2 h3 h4
    exact ⟨'(', t, ‹_›, .inl rfl⟩

/-- The first character of a value after layout. -/
theorem isValue_first {s r : Str} {v : Value} (h : IsValue U P s v r) :
    ∃ c u, SkipLayout s (c :: u) ∧ (c = 'n' ∨ c = 't' ∨ c = 'f' ∨ (IsDig c ∨ c = '.' ∨ c = '+' ∨ c = '-') ∨
      (c = '"' ∨ c = '<') ∨ c = '[' ∨ c = '{') := by
  cases h with
  | null => exact ⟨_, _, skip_self (by decide), by simp⟩
  | true => exact ⟨_, _, skip_self (by decide), by simp⟩
  | false => exact ⟨_, _, skip_self (by decide), by simp⟩
  | number t n v r h =>
    obtain ⟨c, u, e, hc⟩ := numberTok_head h
    rw [e]
    exact ⟨c, u, skip_self (num_not_layout hc), by simp [hc]⟩
  | string =>
    rename_i v h
    obtain ⟨c, u, rfl, hc⟩ := stringTok_head h
    exact ⟨c, u, skip_self (by rcases hc with rfl | rfl <;> decide), by simp [hc]⟩
  | list => exact ⟨_, _, skip_self (by decide), by simp⟩
  | map => exact ⟨_, _, ‹_›, by simp⟩

theorem isExpr_inv {s r : Str} {e : Expr} {c : Char} {u : Str} (hs : SkipLayout s (c :: u)) (hc : c ≠ '(')
    (h : IsExpr U s e r) : ExprStart e c := by
  obtain ⟨d, w, h1, h2⟩ := isExpr_first h
  have := sl_funct h1 hs
  injection this with h3 h4; subst h3
  rcases h2 with rfl | h2
  · exact absurd rfl hc
  · exact h2

/-- A close bracket or comma cannot begin an expression or a value. -/
theorem no_expr {c : Char} {t r : Str} {e : Expr} (hc : c = ']' ∨ c = ',' ∨ c = '}') : ¬ IsExpr U (c :: t) e r := by
  intro h
  have := isExpr_inv (skip_self (by rcases hc with rfl | rfl | rfl <;> decide)) (by rcases hc with rfl | rfl | rfl <;> decide) h
  cases e with
  | boolean b => cases b <;> rcases hc with rfl | rfl | rfl <;> revert this <;> simp [ExprStart]
  | number n =>
    simp only [ExprStart, numHead_iff] at this
    rcases hc with rfl | rfl | rfl <;> revert this <;> decide
  | _ => rcases hc with rfl | rfl | rfl <;> revert this <;> simp [ExprStart]

theorem no_value {c : Char} {t r : Str} {v : Value} (hc : c = ']' ∨ c = ',' ∨ c = '}') : ¬ IsValue U P (c :: t) v r := by
  intro h
  obtain ⟨d, u, h1, h2⟩ := isValue_first h
  have := sl_funct (skip_self (by rcases hc with rfl | rfl | rfl <;> decide)) h1
  injection this with h3 h4; subst h3
  rw [numHead_iff] at h2
  rcases hc with rfl | rfl | rfl <;> revert h2 <;> decide

theorem tupleEnd_first {s r : Str} (h : IsTupleEnd s r) : ∃ c t, SkipLayout s (c :: t) ∧ (c = ']' ∨ c = ',') := by
  cases h with
  | close => exact ⟨_, _, ‹_›, .inl rfl⟩
  | comma => exact ⟨_, _, ‹_›, .inr rfl⟩

theorem tupleEnd_funct {s r r' : Str} (h : IsTupleEnd s r) (h' : IsTupleEnd s r') : r = r' := by
  have a := tupleEnd_iff.2 h
  rw [tupleEnd_iff.2 h'] at a
  injection a with a; exact a.symm

theorem numberTok_funct {s r r' : Str} {n n' : Number} (h : NumberTok s n r) (h' : NumberTok s n' r') : n = n' ∧ r = r' := by
  have a := number_iff.2 h
  rw [number_iff.2 h'] at a
  injection a with h1 h2; exact ⟨h2.symm, h1.symm⟩

theorem stringTok_funct {s r r' : Str} {n n' : CowStr} (h : StringTok U s n r) (h' : StringTok U s n' r') :
    n = n' ∧ r = r' := by
  have a := string_iff.2 h
  rw [string_iff.2 h'] at a
  injection a with h1 h2; exact ⟨h2.symm, h1.symm⟩

theorem quotedLine_funct {s r r' v v' : Str} (h : Quoted PlainLine s v r) (h' : Quoted PlainLine s v' r') :
    v = v' ∧ r = r' := by
  have a := stringLiteral_iff.2 h
  rw [stringLiteral_iff.2 h'] at a
  injection a with h1 h2; exact ⟨h2.symm, h1.symm⟩

/-- The keys agree. -/
theorem objectKey_agree {s t r : Str} {k : ObjKey} {k' : Key} (h : IsObjectKey U s k r) (h' : IsKey U s k' t) :
    r = t ∧ AgreeKey k k' := by
  cases h' with
  | ident =>
    rename_i i h'
    generalize hz : s = z at h
    cases h with
    | ident =>
      rename_i j h
      subst hz
      obtain ⟨rfl, rfl⟩ := ident_functional h h'
      exact ⟨rfl, .ident _ _ rfl⟩
    | expr x e r h1 h2 => subst hz; exact absurd (ident_head h') h1
  | string =>
    rename_i v h'
    generalize hz : s = z at h
    cases h with
    | ident =>
      rename_i j h
      subst hz
      obtain ⟨c, x, rfl, hc⟩ := ident_head h
      obtain ⟨src, e, -⟩ := h'
      injection e with e _; subst e
      exact absurd hc (not_identStart (by decide) (by decide))
    | expr x e r h1 h2 =>
      have h3 : IsExpr U s (.string (.ownedS v)) t := .string _ _ _ (.quoted _ _ _ (quoted_line_plain h'))
      subst hz
      obtain ⟨-, rfl⟩ := isExpr_functional h2 h3
      refine ⟨rfl, .string _ _ ?_⟩
      obtain ⟨y, hy, hr⟩ := quoted_replace h'
      have := List.append_cancel_right hy; subst this
      simpa [CowStr.borrowed, CowStr.ownedS] using hr []

/-- After an element: the new grammar's body or object goes on where the legacy entries do. -/
theorem newlines_eq {s u w t t' : Str} (h : Newlines s u) (h' : Newlines s w) (hu : SkipLayout u t) (hw : SkipLayout w t') :
    t = t' := by
  obtain ⟨l, hl, rfl⟩ := newlines_layout h
  obtain ⟨l', hl', e⟩ := newlines_layout h'
  have a := hu.prepend hl
  rw [e] at a
  exact sl_funct a (hw.prepend hl')

theorem entries_move {s u w r : Str} {es : List (Key × Value)} (h : Newlines s u) (h' : Newlines s w)
    (he : IsEntries U P w es r) : IsEntries U P u es r := by
  obtain ⟨t, ht⟩ := skipLayout_total u
  obtain ⟨t', ht'⟩ := skipLayout_total w
  have := newlines_eq h h' ht ht'; subst this
  exact (isEntries_skip ht).2 ((isEntries_skip ht').1 he)

theorem body_move {s u w r : Str} {b : Body} (h : Newlines s u) (h' : Newlines s w) (hb : IsBody U u b r) : IsBody U w b r :=
  isBody_newlines h h' hb

theorem body_no_comma {s t r : Str} {b : Body} (hr : BodyEnd r) (hs : SkipLayout s (',' :: t)) : ¬ IsBody U s b r := by
  intro h
  cases h with
  | done =>
    rename_i h
    have := sl_funct h hs; subst this
    rcases hr with h | ⟨_, h⟩ <;> cases h
  | elem =>
    rename_i t' u v el els a b c d
    have e : t' = ',' :: t := sl_funct ‹_› hs
    subst e
    have hel : IsElement U (',' :: t) el u := ‹_›
    exact isElement_not_head hel
  where
    isElement_not_head {t u : Str} {el : BodyElement} (h : IsElement U (',' :: t) el u) : False := by
      obtain ⟨i, v, hi⟩ : ∃ i v, Ident U (',' :: t) i v := by
        cases h with
        | «attribute» => rename_i h; cases h; exact ⟨_, _, ‹_›⟩
        | emptyBlock => exact ⟨_, _, ‹_›⟩
        | oneLineBlock => exact ⟨_, _, ‹_›⟩
        | block => exact ⟨_, _, ‹_›⟩
      obtain ⟨c, x, e, hc⟩ := ident_head hi
      injection e with e _; subst e
      exact absurd hc (not_identStart (by decide) (by decide))

theorem object_no_comma {s t r : Str} {es : List (ObjKey × Expr)} (hs : SkipLayout s (',' :: t)) :
    ¬ IsObjectBody U s es r := by
  intro h
  cases h with
  | close => rename_i h; have := sl_funct h hs; cases this
  | elem =>
    rename_i t' u v w x y z k e es a b c d e' f g h
    have e1 : t' = ',' :: t := sl_funct ‹_› hs
    subst e1
    have hk : IsObjectKey U (',' :: t) k u := ‹_›
    generalize hz : ',' :: t = s' at hk
    cases hk with
    | ident =>
      rename_i hi
      subst hz
      obtain ⟨c, x, e, hc⟩ := ident_head hi
      injection e with e _; subst e
      exact absurd hc (not_identStart (by decide) (by decide))
    | expr _ _ _ _ h2 => rw [← hz] at h2; exact no_expr (by simp) h2

theorem eq_not_layout {t : Str} : SkipLayout ('=' :: t) ('=' :: t) := skip_self (by decide)

theorem inline_eq_layout {s t u : Str} (h : SkipInline s ('=' :: t)) (h' : SkipLayout s u) : u = '=' :: t :=
  (sl_funct (layout_of_inline h eq_not_layout) h').symm

/-- A legacy key and an identifier. -/
theorem isKey_ident {s t v i : Str} {k : Key} (h : IsKey U s k t) (hi : Ident U s i v) :
    k = .identifier (.borrowed i) ∧ t = v := by
  cases h with
  | ident =>
    rename_i h
    obtain ⟨rfl, rfl⟩ := ident_functional h hi
    exact ⟨rfl, rfl⟩
  | string =>
    rename_i h
    obtain ⟨c, x, rfl, hc⟩ := ident_head hi
    obtain ⟨src, e, -⟩ := h
    injection e with e _; subst e
    exact absurd hc (not_identStart (by decide) (by decide))

theorem stringLabels_first {s r : Str} {ls : List Str} (h : IsStringLabels s ls r) (hn : ls ≠ []) :
    ∃ t, SkipInline s ('"' :: t) := by
  cases h with
  | nil => exact absurd rfl hn
  | cons =>
    rename_i t u l ls h1 h2 h3
    obtain ⟨src, rfl, -⟩ : Quoted PlainLine t l u := ‹_›
    exact ⟨_, ‹_›⟩

/-- The labels of a header agree. -/
theorem labels_agree {s u w r : Str} {ls : List BlockLabel} {ms : List Str} (h : IsLabels U s ls u)
    (h' : IsStringLabels s ms w) (hw : SkipLayout w ('{' :: r)) : ls = ms.map .stringLiteral ∧ u = r := by
  induction h' generalizing ls with
  | nil s =>
    cases h with
    | «open» =>
      rename_i h
      have := sl_funct (layout_of_inline h (skip_self (by decide))) hw
      injection this with _ this
      exact ⟨rfl, this⟩
    | label =>
      rename_i t v l ls a b c
      have k1 : SkipInline s t := ‹_›
      have k2 : IsLabel U t l v := ‹_›
      obtain ⟨d, x, rfl, hd⟩ := isLabel_head k2
      have hl : ¬ LayoutStart d := by
        rcases hd with hd | rfl
        · exact identStart_not_layout hd
        · decide
      have := sl_funct (layout_of_inline k1 (skip_self hl)) hw
      injection this with h1 _; subst h1
      rcases hd with hd | hd
      · exact absurd hd (not_identStart (by decide) (by decide))
      · cases hd
  | cons s t v l ms x h1 h2 _ ih =>
    cases h with
    | «open» =>
      rename_i h
      have := si_funct h h1; subst this
      obtain ⟨src, e, -⟩ := h2; cases e
    | label =>
      rename_i t' v' l' ls a b c
      have k1 : SkipInline s t' := ‹_›
      have k2 : IsLabel U t' l' v' := ‹_›
      have k3 : IsLabels U v' ls u := ‹_›
      have := si_funct k1 h1; subst this
      obtain ⟨rfl, rfl⟩ := isLabel_functional k2 (.string _ _ _ h2)
      obtain ⟨rfl, rfl⟩ := ih k3 hw
      exact ⟨rfl, rfl⟩

theorem not_entryEnd_brace {t w : Str} : ¬ IsEntryEnd ('}' :: t) w := by
  intro h
  cases h with
  | comma => rename_i h; have := sl_funct h (skip_self (by decide)); cases this
  | newline =>
    rename_i h
    obtain ⟨c, x, e, hc⟩ := newlines_head h
    injection e with e _; subst e; revert hc; decide

theorem newlines_not_comma {t w : Str} : ¬ Newlines (',' :: t) w := by
  intro h
  obtain ⟨c, x, e, hc⟩ := newlines_head h
  injection e with e _; subst e; revert hc; decide

theorem entry_first {s r : Str} {k : Key} {v : Value} (h : IsEntry U P s k v r) :
    Head (fun c => IdentStart U c ∨ c = '"') s := by
  obtain ⟨y, hy⟩ := isEntry_key h
  exact isKey_head hy

theorem entry_skip {s r : Str} {k : Key} {v : Value} (h : IsEntry U P s k v r) : SkipLayout s s := by
  obtain ⟨c, t, rfl, hc⟩ := entry_first h
  refine skip_self ?_
  rcases hc with hc | rfl
  · exact identStart_not_layout hc
  · decide

theorem entry_not_brace {t r : Str} {k : Key} {v : Value} : ¬ IsEntry U P ('}' :: t) k v r := by
  intro h
  have := entry_first h
  rw [head_cons] at this
  rcases this with h | h
  · exact absurd h (not_identStart (by decide) (by decide))
  · cases h

theorem objectKey_not_brace {t r : Str} {k : ObjKey} : ¬ IsObjectKey U ('}' :: t) k r := by
  intro hk
  generalize hz : '}' :: t = s' at hk
  cases hk with
  | ident =>
    rename_i hi
    subst hz
    obtain ⟨c, x, e, hc⟩ := ident_head hi
    injection e with e _; subst e
    exact absurd hc (not_identStart (by decide) (by decide))
  | expr _ _ _ _ h2 => rw [← hz] at h2; exact no_expr (by simp) h2

theorem entry_not_end {r u : Str} {k : Key} {v : Value} (hr : BodyEnd r) : ¬ IsEntry U P r k v u := by
  rcases hr with rfl | ⟨t, rfl⟩
  · intro h; obtain ⟨_, _, e, _⟩ := entry_first h; cases e
  · exact entry_not_brace

/-- What the three parts of the induction say. -/
def AgreesV (U : CharClass) (P : F64Parse) (s : Str) (v : Value) (r : Str) : Prop :=
  ∀ e r', IsExpr U s e r' → r' = r ∧ Agree P e v
def AgreesL (U : CharClass) (P : F64Parse) (s : Str) (vs : List Value) (r : Str) : Prop :=
  ∀ es r', IsTupleBody U s es r' → r' = r ∧ AgreeList P es vs
def AgreesT (U : CharClass) (P : F64Parse) (s : Str) (vs : List Value) (r : Str) : Prop :=
  ∀ es r', IsTupleTail U s es r' → r' = r ∧ AgreeList P es vs
def AgreesE (U : CharClass) (P : F64Parse) (s : Str) (kvs : List (Key × Value)) (r : Str) : Prop :=
  (∀ es r' x, r = '}' :: x → IsObjectBody U s es r' → r' = x ∧ AgreeObject P es kvs) ∧
  (∀ b r', BodyEnd r → BodyEnd r' → IsBody U s b r' → r' = r ∧ AgreeBody P b kvs) ∧
  ∀ t k e x, BodyEnd r → SkipLayout s t → ¬ IsAttribute U t k e ('}' :: x)
def AgreesA (U : CharClass) (P : F64Parse) (s : Str) (k : Key) (v : Value) (r : Str) : Prop :=
  (∀ k' e t u w x y, IsObjectKey U s k' t → SkipInline t ('=' :: u) → SkipInline u w → IsExpr U w e x →
    SkipInline x y → y = r ∧ AgreeKey k' k ∧ Agree P e v) ∧
  ∀ el r', IsElement U s el r' → r' = r ∧ AgreeElement P el k v

theorem agreesE_move {s u r : Str} {kvs : List (Key × Value)} (hs : SkipLayout s u) (h : AgreesE U P u kvs r) :
    AgreesE U P s kvs r := by
  obtain ⟨l, hl, rfl, -⟩ := hs
  exact ⟨fun es r' x hr ho => h.1 es r' x hr (isObjectBody_unprepend hl ho),
    fun b r' hr hr' hb => h.2.1 b r' hr hr' ((isBody_layout hl).1 hb),
    fun t k e x hr hs => h.2.2 t k e x hr (hs.unprepend layoutItem_prefix hl)⟩

theorem agreesE_of_move {s u r : Str} {kvs : List (Key × Value)} (hs : SkipLayout s u) (h : AgreesE U P s kvs r) :
    AgreesE U P u kvs r := by
  obtain ⟨l, hl, rfl, -⟩ := hs
  refine ⟨fun es r' x hr ho => h.1 es r' x hr ?_, fun b r' hr hr' hb => h.2.1 b r' hr hr' ((isBody_layout hl).2 hb),
    fun t k e x hr hs => h.2.2 t k e x hr (hs.prepend hl)⟩
  cases ho with
  | close => exact .close _ _ (Skip.prepend hl ‹_›)
  | elem => exact .elem _ _ _ _ _ _ _ _ _ _ _ _ (Skip.prepend hl ‹_›) ‹_› ‹_› ‹_› ‹_› ‹_› ‹_› ‹_›

theorem agreesE_newlines {s u w r : Str} {kvs : List (Key × Value)} (h : Newlines s u) (h' : Newlines s w)
    (he : AgreesE U P w kvs r) : AgreesE U P u kvs r := by
  obtain ⟨t, ht⟩ := skipLayout_total u
  obtain ⟨t', ht'⟩ := skipLayout_total w
  have := newlines_eq h h' ht ht'; subst this
  exact agreesE_move ht (agreesE_of_move ht' he)

/-- Both grammars on the same text. -/
theorem agree_aux : (∀ {s v r}, IsValue U P s v r → AgreesV U P s v r) ∧
    (∀ {s es r}, IsEntries U P s es r → AgreesE U P s es r) ∧
    (∀ {s k v r}, IsEntry U P s k v r → AgreesA U P s k v r) := by
  refine old_induct (m1 := AgreesV U P) (m2 := AgreesL U P) (m3 := AgreesT U P) (m4 := AgreesE U P)
    (m5 := AgreesA U P) ?_ ?_ ?_ ?_ ?_ ?_ ?_ ?_ ?_ ?_ ?_ ?_ ?_ ?_ ?_ ?_
  · intro r e r' h
    obtain ⟨rfl, rfl⟩ := isExpr_functional h (.null r)
    exact ⟨rfl, .null⟩
  · intro r e r' h
    obtain ⟨rfl, rfl⟩ := isExpr_functional h (.true r)
    exact ⟨rfl, .boolean _⟩
  · intro r e r' h
    obtain ⟨rfl, rfl⟩ := isExpr_functional h (.false r)
    exact ⟨rfl, .boolean _⟩
  · intro t n v r hn hv e r' h
    obtain ⟨rfl, rfl⟩ := isExpr_functional h (.number _ _ _ hn)
    refine ⟨rfl, .number _ _ ?_⟩
    obtain ⟨t', h1, h2, -⟩ := hn
    have := List.append_cancel_right h1; subst this
    cases h2; exact hv
  · intro s v r hs e r' h
    obtain ⟨rfl, rfl⟩ := isExpr_functional h (.string _ _ _ hs)
    exact ⟨rfl, .string _⟩
  · intro s vs r _ ih e r' h
    have hc := isExpr_inv (skip_self (by decide)) (by decide) h
    cases e with
    | tuple es =>
      cases h with
      | tuple =>
        rename_i h
        obtain ⟨rfl, h⟩ := ih _ _ h
        exact ⟨rfl, .tuple _ _ h⟩
      | bracket =>
        rename_i t u v h1 h2 h3 h4
        have : SkipLayout ('[' :: s) ('(' :: t) := ‹_›
        have := sl_funct this (skip_self (by decide)); cases this
    | boolean b => cases b <;> cases hc
    | number n => simp only [ExprStart, numHead_iff] at hc; exact absurd hc (by decide)
    | string n => rcases hc with h | h <;> cases h
    | _ => cases hc
  · intro s t es r hs _ ih e r' h
    have hc := isExpr_inv hs (by decide) h
    cases e with
    | object es' =>
      cases h with
      | object =>
        rename_i t' h1 h2
        have := sl_funct h1 hs; injection this with _ this; subst this
        obtain ⟨rfl, h⟩ := ih.1 _ _ _ rfl h2
        exact ⟨rfl, .object _ _ h⟩
      | bracket =>
        rename_i t' u v h1 h2 h3 h4
        have : SkipLayout s ('(' :: t') := ‹_›
        have := sl_funct this hs; cases this
    | boolean b => cases b <;> cases hc
    | number n => simp only [ExprStart, numHead_iff] at hc; exact absurd hc (by decide)
    | string n => rcases hc with h | h <;> cases h
    | _ => cases hc
  · intro s r hr es r' h
    cases h with
    | empty => rename_i h; exact ⟨tupleEnd_funct h hr, .nil⟩
    | elems =>
      rename_i t u e es h1 h2 h3
      obtain ⟨c, x, hx, hc⟩ := tupleEnd_first hr
      have k1 : SkipLayout s t := ‹_›
      have k2 : IsExpr U t e u := ‹_›
      rw [sl_funct k1 hx] at k2
      exact absurd k2 (no_expr (by rcases hc with h | h <;> simp [h]))
  · intro s t u v vs r hs hv _ ih1 ih2 es r' h
    cases h with
    | empty =>
      rename_i h
      obtain ⟨c, x, hx, hc⟩ := tupleEnd_first h
      rw [sl_funct hs hx] at hv
      exact absurd hv (no_value (by rcases hc with h | h <;> simp [h]))
    | elems =>
      rename_i t' u' e es h1 h2 h3
      have k1 : SkipLayout s t' := ‹_›
      have k2 : IsExpr U t' e u' := ‹_›
      have k3 : IsTupleTail U u' es r' := ‹_›
      have := sl_funct k1 hs; subst this
      obtain ⟨rfl, a1⟩ := ih1 _ _ k2
      obtain ⟨rfl, a2⟩ := ih2 _ _ k3
      exact ⟨rfl, .cons _ _ _ _ a1 a2⟩
  · intro s r hr es r' h
    cases h with
    | last => rename_i h; exact ⟨tupleEnd_funct h hr, .nil⟩
    | more =>
      rename_i t u v e es h1 h2 h3 h4
      have k1 : SkipLayout s (',' :: t) := ‹_›
      have k2 : SkipLayout t u := ‹_›
      have k3 : IsExpr U u e v := ‹_›
      cases hr with
      | close => rename_i hr; have := sl_funct hr k1; cases this
      | comma =>
        rename_i t' h5 h6
        have := sl_funct h5 k1; injection this with _ this; subst this
        have := sl_funct h6 k2; subst this
        exact absurd k3 (no_expr (by simp))
  · intro s t u w v vs r hs1 hs2 hv _ ih1 ih2 es r' h
    cases h with
    | last =>
      rename_i h
      cases h with
      | close => rename_i h; have := sl_funct h hs1; cases this
      | comma =>
        rename_i t' h5 h6
        have := sl_funct h5 hs1; injection this with _ this; subst this
        have := sl_funct h6 hs2; subst this
        exact absurd hv (no_value (by simp))
    | more =>
      rename_i t' u' v' e es h1 h2 h3 h4
      have k1 : SkipLayout s (',' :: t') := ‹_›
      have k2 : SkipLayout t' u' := ‹_›
      have k3 : IsExpr U u' e v' := ‹_›
      have k4 : IsTupleTail U v' es r' := ‹_›
      have := sl_funct k1 hs1; injection this with _ this; subst this
      have := sl_funct k2 hs2; subst this
      obtain ⟨rfl, a1⟩ := ih1 _ _ k3
      obtain ⟨rfl, a2⟩ := ih2 _ _ k4
      exact ⟨rfl, .cons _ _ _ _ a1 a2⟩
  · -- no entries
    intro s r hs
    refine ⟨?_, ?_, ?_⟩
    · rintro es r' x rfl h
      cases h with
      | close => rename_i h; have := sl_funct h hs; injection this with _ this; exact ⟨this, .nil⟩
      | elem =>
        rename_i t u v w y y' z k e es a1 a2 a3 a4 a5 a6 a7 a8
        have k1 : SkipLayout s t := ‹_›
        have k2 : IsObjectKey U t k u := ‹_›
        rw [sl_funct k1 hs] at k2
        exact absurd k2 objectKey_not_brace
    · intro b r' hr hr' h
      cases h with
      | done => rename_i h; exact ⟨sl_funct h hs, .nil⟩
      | elem =>
        rename_i t u v el els a1 a2 a3 a4
        have k1 : SkipLayout s t := ‹_›
        have k2 : IsElement U t el u := ‹_›
        exact absurd (sl_funct k1 hs) (isElement_not_end k2 hr)
    · intro t k e x hr ht h
      have := sl_funct ht hs; subst this
      have h' : IsElement U t (.attribute k e) ('}' :: x) := .attribute _ _ _ _ h
      exact absurd rfl (isElement_not_end h' hr)
  · -- an entry
    intro s t u w k v kvs r hs he hend _ ih1 ih2
    refine ⟨?_, ?_, ?_⟩
    · rintro es r' x rfl h
      cases h with
      | close =>
        rename_i h
        rw [sl_funct hs h] at he
        exact absurd he entry_not_brace
      | elem =>
        rename_i t' u' v' w' y y' z k' e es' a1 a2 a3 a4 a5 a6 a7 a8
        have k1 : SkipLayout s t' := ‹_›
        have k2 : IsObjectKey U t' k' u' := ‹_›
        have k3 : SkipInline u' ('=' :: v') := ‹_›
        have k4 : SkipInline v' w' := ‹_›
        have k5 : IsExpr U w' e y := ‹_›
        have k6 : SkipInline y y' := ‹_›
        have k7 : IsObjectSep y' z := ‹_›
        have k8 : IsObjectBody U z es' r' := ‹_›
        have := sl_funct k1 hs; subst this
        obtain ⟨rfl, b1, b2⟩ := ih1.1 _ _ _ _ _ _ _ k2 k3 k4 k5 k6
        cases k7 with
        | comma =>
          cases hend with
          | comma =>
            rename_i h
            have := sl_funct h (skip_self (by decide)); injection this with _ this; subst this
            obtain ⟨rfl, b3⟩ := ih2.1 _ _ _ rfl k8
            exact ⟨rfl, .cons _ _ _ _ _ _ b1 b2 b3⟩
          | newline => rename_i h; exact absurd h newlines_not_comma
        | newline =>
          rename_i hn
          cases hend with
          | comma =>
            rename_i h
            obtain ⟨l, hl, rfl⟩ := newlines_layout hn
            exact absurd k8 (object_no_comma (h.unprepend layoutItem_prefix hl))
          | newline =>
            rename_i h
            obtain ⟨rfl, b3⟩ := (agreesE_newlines hn h ih2).1 _ _ _ rfl k8
            exact ⟨rfl, .cons _ _ _ _ _ _ b1 b2 b3⟩
          | eof => obtain ⟨c, t, e, -⟩ := newlines_head hn; cases e
        | close => exact absurd hend not_entryEnd_brace
    · intro b r' hr hr' h
      cases h with
      | done =>
        rename_i h
        rw [sl_funct hs h] at he
        exact absurd he (entry_not_end hr')
      | elem =>
        rename_i t' u' v' el els a1 a2 a3 a4
        have k1 : SkipLayout s t' := ‹_›
        have k2 : IsElement U t' el u' := ‹_›
        have k3 : IsElementEnd u' v' := ‹_›
        have k4 : IsBody U v' els r' := ‹_›
        have := sl_funct k1 hs; subst this
        obtain ⟨rfl, b1⟩ := ih1.2 _ _ k2
        cases k3 with
        | newline =>
          rename_i hn
          cases hend with
          | comma =>
            rename_i h
            obtain ⟨l, hl, rfl⟩ := newlines_layout hn
            exact absurd k4 (body_no_comma hr' (h.unprepend layoutItem_prefix hl))
          | newline =>
            rename_i h
            obtain ⟨rfl, b3⟩ := (agreesE_newlines hn h ih2).2.1 _ _ hr hr' k4
            exact ⟨rfl, .cons _ _ _ _ _ b1 b3⟩
          | eof => obtain ⟨c, t, e, -⟩ := newlines_head hn; cases e
        | eof =>
          cases hend with
          | comma => rename_i h; obtain ⟨l, -, e, -⟩ := h; cases l <;> cases e
          | newline => rename_i h; obtain ⟨c, t, e, -⟩ := newlines_head h; cases e
          | eof =>
            obtain ⟨rfl, b3⟩ := ih2.2.1 _ _ hr hr' k4
            exact ⟨rfl, .cons _ _ _ _ _ b1 b3⟩
    · intro t' k' e x hr ht h
      have := sl_funct ht hs; subst this
      obtain ⟨e, -⟩ := ih1.2 _ _ (.attribute _ _ _ _ h)
      rw [← e] at hend
      exact not_entryEnd_brace hend
  · -- key = value
    intro s t u w x r k v hk h1 h2 _ h3 ih
    constructor
    · intro k' e t' u' w' x' y' c1 c2 c3 c4 c5
      obtain ⟨rfl, b1⟩ := objectKey_agree c1 hk
      have := si_funct c2 h1; injection this with _ this; subst this
      have := si_funct c3 h2; subst this
      obtain ⟨rfl, b2⟩ := ih _ _ c4
      exact ⟨si_funct c5 h3, b1, b2⟩
    · intro el r' h
      have hb : ∀ {i t' ls u'}, Ident U s i t' → IsLabels U t' ls u' → False := by
        intro i t' ls u' hi hl
        obtain ⟨-, rfl⟩ := isKey_ident hk hi
        exact labels_not_eq hl h1
      cases h with
      | «attribute» =>
        rename_i k' e h
        cases h with
        | mk =>
          rename_i i t' u' v' w' c1 c2 c3 c4 c5
          have d1 : Ident U s i t' := ‹_›
          have d2 : SkipInline t' ('=' :: u') := ‹_›
          have d3 : SkipInline u' v' := ‹_›
          have d4 : IsExpr U v' e w' := ‹_›
          have d5 : SkipInline w' r' := ‹_›
          obtain ⟨rfl, rfl⟩ := isKey_ident hk d1
          have := si_funct d2 h1; injection this with _ this; subst this
          have := si_funct d3 h2; subst this
          obtain ⟨rfl, b2⟩ := ih _ _ d4
          exact ⟨si_funct d5 h3, .attribute _ _ _ _ rfl b2⟩
      | emptyBlock => exact (hb ‹_› ‹_›).elim
      | oneLineBlock => exact (hb ‹_› ‹_›).elim
      | block => exact (hb ‹_› ‹_›).elim
  · -- identifier { … }
    intro s i t u w r es hi h1 he h3 ih
    have hno : ∀ {t' u'}, t' = t → SkipInline t' ('=' :: u') → False := by
      rintro t' u' rfl h
      have := inline_eq_layout h h1; cases this
    have hl : ∀ {ls u'}, IsLabels U t ls u' → ls = [] ∧ u' = u := by
      intro ls u' h
      have := labels_agree h (.nil t) h1
      simpa using this
    constructor
    · intro k' e t' u' w' x' y' c1 c2 c3 c4 c5
      obtain ⟨rfl, -⟩ := objectKey_agree c1 (.ident _ _ _ hi)
      exact (hno rfl c2).elim
    · exact block_agree hi hl hno he h3 ih (fun b h => .object _ _ _ _ rfl h)
  · -- identifier "label" … { … }
    intro s i t u w x r ls es hi hls hne h1 he h3 ih
    obtain ⟨t0, ht0⟩ := stringLabels_first hls hne
    have hno : ∀ {t' u'}, t' = t → SkipInline t' ('=' :: u') → False := by
      rintro t' u' rfl h
      have := si_funct h ht0; cases this
    have hl : ∀ {ls' u'}, IsLabels U t ls' u' → ls' = ls.map .stringLiteral ∧ u' = w :=
      fun h => labels_agree h hls h1
    constructor
    · intro k' e t' u' w' x' y' c1 c2 c3 c4 c5
      obtain ⟨rfl, -⟩ := objectKey_agree c1 (.ident _ _ _ hi)
      exact (hno rfl c2).elim
    · exact block_agree hi hl hno he h3 ih (fun b h => .block _ _ _ _ _ rfl hne h)
  where
    block_agree {s i t u w r : Str} {es : List (Key × Value)} {ls : List BlockLabel} {k : Key} {v : Value}
        (hi : Ident U s i t)
        (hl : ∀ {ls' u'}, IsLabels U t ls' u' → ls' = ls ∧ u' = u) (hno : ∀ {t' u'}, t' = t → SkipInline t' ('=' :: u') → False)
        (he : IsEntries U P u es ('}' :: w)) (h3 : SkipInline w r) (ih : AgreesE U P u es ('}' :: w))
        (hk : ∀ b, AgreeBody P b es → AgreeElement P (.block (.borrowed i) ls b) k v) :
        ∀ el r', IsElement U s el r' → r' = r ∧ AgreeElement P el k v := by
      intro el r' h
      cases h with
      | «attribute» =>
        rename_i k' e h
        cases h with
        | mk =>
          rename_i i' t' u' v' w' c1 c2 c3 c4 c5
          have d1 : Ident U s i' t' := ‹_›
          have d2 : SkipInline t' ('=' :: u') := ‹_›
          obtain ⟨rfl, rfl⟩ := ident_functional d1 hi
          exact (hno rfl d2).elim
      | emptyBlock =>
        rename_i i' t' u' v' ls' c1 c2 c3 c4
        have d1 : Ident U s i' t' := ‹_›
        have d2 : IsLabels U t' ls' u' := ‹_›
        have d3 : SkipInline u' ('}' :: v') := ‹_›
        have d4 : SkipInline v' r' := ‹_›
        obtain ⟨rfl, rfl⟩ := ident_functional d1 hi
        obtain ⟨rfl, rfl⟩ := hl d2
        have hb : IsBody U u' [] ('}' :: v') := .done _ _ (layout_of_inline d3 (skip_self (by decide)))
        obtain ⟨e, hb⟩ := ih.2.1 _ _ (.inr ⟨_, rfl⟩) (.inr ⟨_, rfl⟩) hb
        injection e with _ e; subst e
        exact ⟨si_funct d4 h3, hk _ hb⟩
      | oneLineBlock =>
        rename_i i' t' u' u'' v' ls' k' e c1 c2 c3 c4 c5
        have d1 : Ident U s i' t' := ‹_›
        have d2 : IsLabels U t' ls' u' := ‹_›
        have d3 : SkipInline u' u'' := ‹_›
        have d4 : IsAttribute U u'' k' e ('}' :: v') := ‹_›
        obtain ⟨rfl, rfl⟩ := ident_functional d1 hi
        obtain ⟨rfl, rfl⟩ := hl d2
        have hi' : SkipLayout u'' u'' := by
          cases d4 with
          | mk => exact skipLayout_ident ‹Ident U _ _ _›
        exact absurd d4 (ih.2.2 _ _ _ _ (.inr ⟨_, rfl⟩) (layout_of_inline d3 hi'))
      | block =>
        rename_i i' t' u' u'' v' w' ls' b c1 c2 c3 c4 c5 c6
        have d1 : Ident U s i' t' := ‹_›
        have d2 : IsLabels U t' ls' u' := ‹_›
        have d3 : SkipInline u' u'' := ‹_›
        have d4 : Newlines u'' v' := ‹_›
        have d5 : IsBody U v' b ('}' :: w') := ‹_›
        have d6 : SkipInline w' r' := ‹_›
        obtain ⟨rfl, rfl⟩ := ident_functional d1 hi
        obtain ⟨rfl, rfl⟩ := hl d2
        have hb : IsBody U u' b ('}' :: w') := by
          obtain ⟨l, hl, e, -⟩ := d3
          obtain ⟨l', hl', e'⟩ := newlines_layout d4
          rw [e, e', ← List.append_assoc]
          exact (isBody_layout ((hl.mono fun _ h => .single (inlineItem_layout h)).append hl')).2 d5
        obtain ⟨e, hb⟩ := ih.2.1 _ _ (.inr ⟨_, rfl⟩) (.inr ⟨_, rfl⟩) hb
        injection e with _ e; subst e
        exact ⟨si_funct d6 h3, hk _ hb⟩

/-- Where both grammars accept a document, the tree and the entries agree. -/
theorem document_agree {s : Str} {b : Body} {es : List (Key × Value)} (h : Document U s b) (h' : OldDocument U P s es) :
    AgreeBody P b es := ((agree_aux.2.1 h').2.1 _ _ (.inl rfl) (.inl rfl) h).2

/-- Where both grammars accept a value, they end at the same place and agree. -/
theorem value_agree {s r r' : Str} {e : Expr} {v : Value} (h : IsExpr U s e r) (h' : IsValue U P s v r') :
    r = r' ∧ Agree P e v := agree_aux.1 h' _ _ h

end
end Verif
