import Verif.Spec.Laid
import Verif.Proofs.Print
/-! # Layout may be chosen freely -/
set_option autoImplicit false

namespace Verif
open PRes Spec

section
variable {U : CharClass}

/-! ## Putting texts together -/

theorem Spec.Next.none (s : Str) : Next none s := fun _ h => by cases h

theorem Spec.Next.append {h : Option Str} {s : Str} (hn : Next h s) (r : Str) : Next h (s ++ r) :=
  fun e he => (hn e he).trans (List.prefix_append _ _)

theorem isExpr_layout {s t r : Str} {e : Expr} (h : SkipLayout s t) (he : IsExpr U s e r) : IsExpr U t e r := by
  rcases isExpr_start he with hs | ⟨c, u, rfl, hc⟩
  · have hl : ¬ Head (fun c => ¬ LayoutStart c) s := by
      obtain ⟨i, t, hi, rfl⟩ := hs
      exact not_head (layoutItem_head hi) fun c hc hn => hn hc
    cases he with
    | null => exact absurd ⟨_, _, rfl, by decide⟩ hl
    | true => exact absurd ⟨_, _, rfl, by decide⟩ hl
    | false => exact absurd ⟨_, _, rfl, by decide⟩ hl
    | number =>
      rename_i k hk
      obtain ⟨x, rfl, hn, -⟩ := hk
      refine absurd ?_ hl
      obtain ⟨c, t, e, hc⟩ := isNumber_head hn r
      refine ⟨c, t, e, ?_⟩
      rw [numHead_iff] at hc
      rintro (rfl | rfl | rfl | rfl | rfl | rfl) <;> revert hc <;> decide
    | string =>
      rename_i w hk
      refine absurd ?_ hl
      cases hk with
      | quoted => rename_i h; obtain ⟨src, rfl, -⟩ := h; exact ⟨_, _, rfl, by decide⟩
      | heredoc => rename_i h; obtain ⟨t, rfl⟩ := h.head; exact ⟨_, _, rfl, by decide⟩
    | tuple => exact absurd ⟨_, _, rfl, by decide⟩ hl
    | object =>
      rename_i x es h1 h2
      have := h.functional layoutItem_prefix h1
      subst this
      exact .object _ _ _ _ h.again h2
    | bracket =>
      rename_i x u w a1 a2 a3 a4
      have h1 : SkipLayout s ('(' :: x) := ‹_›
      have := h.functional layoutItem_prefix h1
      subst this
      exact .bracket _ x u w _ _ h.again ‹_› ‹_› ‹_›
  · have : c :: u = t := skip_eq_of_not_starts h (not_starts_layout hc)
    rw [← this]; exact he

theorem layoutStart_not_num {c : Char} (h : LayoutStart c) : ¬ NumChar c := by
  rcases h with rfl | rfl | rfl | rfl | rfl | rfl <;> simp [NumChar, IsDig]

theorem layout_head {l : Str} (h : Seq LayoutItem l) {P : Char → Prop} (hP : ∀ c, LayoutStart c → ¬ P c) {s : Str}
    (hs : ¬ Head P s) : ¬ Head P (l ++ s) := by
  cases h with
  | nil => exact hs
  | cons i l hi _ => rw [List.append_assoc]; exact not_head (layoutItem_head hi) hP

theorem layout_num {l : Str} (h : Seq LayoutItem l) {c : Char} (hc : ¬ NumChar c) (s : Str) :
    ¬ Head NumChar (l ++ c :: s) := layout_head h (fun _ => layoutStart_not_num) (by rw [head_cons]; exact hc)

theorem inline_num {l : Str} (h : Seq InlineItem l) {s : Str} (hs : ¬ Head NumChar s) :
    ¬ Head NumChar (l ++ s) := inline_head h (fun _ => layoutStart_not_num) hs

theorem lineEnds_num {n : Str} (h : LineEnds n) (s : Str) : ¬ Head NumChar (n ++ s) := by
  cases h with
  | mk i l hi _ =>
    rw [List.append_assoc]
    exact not_head (newlineItem_head_layout hi) fun _ => layoutStart_not_num

theorem lineEnds_newlines {n : Str} (h : LineEnds n) (s : Str) : Newlines (n ++ s) s := by
  cases h with
  | mk i l hi hl => exact ⟨i, l, hi, hl, by simp⟩

/-- Inline layout before line ends. -/
theorem inline_lineEnds {l n : Str} (hl : Seq InlineItem l) (hn : LineEnds n) (s : Str) :
    ∃ u, SkipInline (l ++ (n ++ s)) u ∧ Newlines u s := by
  cases hn with
  | mk i m hi hm =>
    obtain ⟨N', u, hN', rfl, hs⟩ := inline_newline hl hi (m ++ s)
    exact ⟨_, by simpa using hs, ⟨N', m, hN', hm, by simp⟩⟩

theorem tupleEnd_of {s : Str} (h : LaidTupleEnd s) (r : Str) : IsTupleEnd (s ++ r) r ∧ ¬ Head NumChar (s ++ r) := by
  cases h with
  | close l hl =>
    have e : l ++ [']'] ++ r = l ++ ']' :: r := by simp
    rw [e]
    exact ⟨.close _ _ (skip_append hl (not_starts_layout (by decide))), layout_num hl (by simp [NumChar, IsDig]) _⟩
  | comma l m hl hm =>
    have e : l ++ ',' :: m ++ [']'] ++ r = l ++ ',' :: (m ++ ']' :: r) := by simp
    rw [e]
    exact ⟨.comma _ _ _ (skip_append hl (not_starts_layout (by decide))) (skip_append hm (not_starts_layout (by decide))),
      layout_num hl (by simp [NumChar, IsDig]) _⟩

theorem laidNumberTok {t r : Str} {n : Number} (h : IsNumber t n) (hr : ¬ Head NumChar r) : NumberTok (t ++ r) n r := by
  refine ⟨t, rfl, h, ?_⟩
  rintro p ⟨q, rfl⟩ hne m hm
  cases p with
  | nil => exact hne rfl
  | cons d p => exact hr ⟨d, p ++ q, rfl, isNumber_chars hm d (by simp)⟩

theorem ident_not_layout {i : Str} (h : IsIdent U i) (r : Str) : ¬ Starts LayoutItem (i ++ r) := by
  cases h with
  | mk c cs hc _ => exact not_starts_layout (identStart_not_layout hc)

/-- An expression with the layout before it. -/
theorem layout_then_expr {l s r : Str} {e : Expr} (hl : Seq LayoutItem l) (h : IsExpr U s e r) :
    ∃ t, SkipLayout (l ++ s) t ∧ IsExpr U t e r := by
  obtain ⟨t, ht⟩ := skipLayout_total s
  exact ⟨t, ht.prepend hl, isExpr_layout ht h⟩

theorem inline_then_expr {l s r : Str} {e : Expr} (hl : Seq InlineItem l) (h : IsExpr U s e r) :
    ∃ t, SkipInline (l ++ s) t ∧ IsExpr U t e r := by
  obtain ⟨t, ht⟩ := skipInline_total s
  exact ⟨t, ht.prepend hl, isExpr_inline ht h⟩

/-- `r` does not make a longer number of `t`. -/
def NumberEnds (t r : Str) : Prop := ∀ n, IsNumber t n → NumberTok (t ++ r) n r

theorem numberEnds_of {t r : Str} (h : ¬ Head NumChar r) : NumberEnds t r := fun _ hn => laidNumberTok hn h

theorem laidExpr_isExpr_ends {h : Option Str} {e : Expr} {t : Str} (hl : LaidExpr U h e t) :
    ∀ r, Next h r → NumberEnds t r → IsExpr U (t ++ r) e r := by
  refine LaidExpr.rec
    (motive_1 := fun h e t _ => ∀ r, Next h r → NumberEnds t r → IsExpr U (t ++ r) e r)
    (motive_2 := fun es s _ => ∀ r, IsTupleBody U (s ++ r) es r)
    (motive_3 := fun es s _ => ∀ r, IsTupleTail U (s ++ r) es r ∧ ¬ Head NumChar (s ++ r))
    (motive_4 := fun k s _ => ∀ r, ¬ Head NumChar r → ¬ Head (IdentChar U) r →
      IsObjectKey U (s ++ r) k r ∧ ¬ Starts LayoutItem (s ++ r))
    (motive_5 := fun h k e p _ => ∀ r, Next h r → ¬ Head NumChar r → ∃ t u v w, SkipLayout (p ++ r) t ∧
      IsObjectKey U t k u ∧ SkipInline u ('=' :: v) ∧ SkipInline v w ∧ IsExpr U w e r)
    (motive_6 := fun es s _ => ∀ r, IsObjectBody U (s ++ r) es r)
    ?_ ?_ ?_ ?_ ?_ ?_ ?_ ?_ ?_ ?_ ?_ ?_ ?_ ?_ ?_ ?_ ?_ ?_ ?_ ?_ hl
  · intro r _ _; exact .null _
  · intro r _ _; exact .true _
  · intro r _ _; exact .false _
  · intro t n hn r _ hr; exact .number _ _ _ (hr n hn)
  · intro src v hc r _ _
    exact .string _ _ _ (.quoted _ _ _ ⟨src, by simp, content_ext (r := ['"']) (by simp) hc⟩)
  · intro t e v _ hh r hr _
    obtain ⟨y, rfl⟩ := hr e rfl
    have := heredoc_ext (y := y) hh
    rw [List.append_assoc] at this
    exact .string _ _ _ (.heredoc _ _ _ this)
  · intro es s _ ih r _ _; exact .tuple _ _ _ (ih r)
  · intro l es s hl _ ih r _ _
    rw [List.append_assoc]
    exact .object _ _ _ _ (skip_append hl (not_starts_layout (by decide))) (ih r)
  · intro l m n t h e hl hm _ hn hx ih r _ _
    obtain ⟨u, h1, h2⟩ := layout_then_expr hm (ih (n ++ ')' :: r) (by simpa using hx.append r)
      (numberEnds_of (layout_num hn (by simp [NumChar, IsDig]) _)))
    refine .bracket _ (m ++ (t ++ (n ++ ')' :: r))) _ _ _ _ ?_ h1 h2 (skip_append hn (not_starts_layout (by decide)))
    have e : l ++ '(' :: m ++ t ++ n ++ [')'] ++ r = l ++ '(' :: (m ++ (t ++ (n ++ ')' :: r))) := by simp
    rw [e]
    exact skip_append hl (not_starts_layout (by decide))
  · intro s hs r; exact .empty _ _ (tupleEnd_of hs r).1
  · intro l t s h e es hl _ _ hx ih ih' r
    obtain ⟨u, h1, h2⟩ := layout_then_expr hl (ih (s ++ r) (hx.append r) (numberEnds_of (ih' r).2))
    refine .elems _ u _ _ _ _ ?_ h2 (ih' r).1
    simpa using h1
  · intro s hs r; exact ⟨.last _ _ (tupleEnd_of hs r).1, (tupleEnd_of hs r).2⟩
  · intro l m t s h e es hl hm _ _ hx ih ih' r
    obtain ⟨u, h1, h2⟩ := layout_then_expr hm (ih (s ++ r) (hx.append r) (numberEnds_of (ih' r).2))
    have e : l ++ ',' :: m ++ t ++ s ++ r = l ++ ',' :: (m ++ (t ++ (s ++ r))) := by simp
    rw [e]
    exact ⟨.more _ _ _ _ _ _ _ (skip_append hl (not_starts_layout (by decide))) h1 h2 (ih' r).1,
      layout_num hl (by simp [NumChar, IsDig]) _⟩
  · intro i hi r _ hr
    exact ⟨.ident _ _ _ ⟨rfl, hi, hr⟩, ident_not_layout hi r⟩
  · intro t e h1 h2 _ ih r hr _
    have he := ih r (.none _) (numberEnds_of hr)
    rcases isExpr_start_inside he with h | ⟨c, u, rfl, hc⟩
    · exact absurd h h2
    · refine ⟨.expr _ _ _ ?_ he, not_starts_layout hc⟩
      rw [List.cons_append, head_cons] at *; exact h1
  · intro l ks m n t h k e hl _ hm hn _ ihk ihe r hx hr
    obtain ⟨w, h1, h2⟩ := inline_then_expr hn (ihe r hx (numberEnds_of hr))
    have hs : ∀ {P : Char → Prop}, (∀ c, LayoutStart c → ¬ P c) → ¬ P '=' → ¬ Head P (m ++ '=' :: (n ++ (t ++ r))) :=
      fun h1 h2 => inline_head hm h1 (by rw [head_cons]; exact h2)
    obtain ⟨k1, k2⟩ := ihk (m ++ '=' :: (n ++ (t ++ r))) (hs (fun _ => layoutStart_not_num) (by simp [NumChar, IsDig]))
      (hs (fun _ h => layoutStart_not_identChar h) (not_identChar (by decide) (by decide)))
    refine ⟨_, _, _, w, ?_, k1, skip_append hm (not_inline_of (by decide) (by decide) (by decide)), h1, h2⟩
    have e : l ++ ks ++ m ++ '=' :: n ++ t ++ r = l ++ (ks ++ (m ++ '=' :: (n ++ (t ++ r)))) := by simp
    rw [e]
    exact skip_append hl k2
  · intro l hl r
    rw [List.append_assoc]
    exact .close _ _ (skip_append hl (not_starts_layout (by decide)))
  · intro p l s k e es _ hl _ ih ih' r
    obtain ⟨t, u, v, w, h1, h2, h3, h4, h5⟩ := ih (l ++ ',' :: (s ++ r)) (.none _)
      (inline_num hl (by rw [head_cons]; simp [NumChar, IsDig]))
    refine .elem _ t u v w _ _ _ _ _ _ _ ?_ h2 h3 h4 h5 (skip_append hl (not_inline_of (by decide) (by decide) (by decide)))
      (.comma _) (ih' r)
    simpa using h1
  · intro p l n s h k e es _ hl hn hx _ ih ih' r
    obtain ⟨t, u, v, w, h1, h2, h3, h4, h5⟩ := ih (l ++ (n ++ (s ++ r))) (by simpa using hx.append (s ++ r))
      (inline_num hl (lineEnds_num hn _))
    obtain ⟨y, k1, k2⟩ := inline_lineEnds hl hn (s ++ r)
    refine .elem _ t u v w _ y _ _ _ _ _ ?_ h2 h3 h4 h5 k1 (.newline _ _ k2) (ih' r)
    simpa using h1
  · intro p l k e _ hl ih r
    obtain ⟨t, u, v, w, h1, h2, h3, h4, h5⟩ := ih (l ++ '}' :: r) (.none _)
      (inline_num hl (by rw [head_cons]; simp [NumChar, IsDig]))
    refine .elem _ t u v w _ _ _ _ _ _ _ ?_ h2 h3 h4 h5 (skip_append hl (not_inline_of (by decide) (by decide) (by decide)))
      (.close _) (.close _ _ (.refl (not_starts_layout (by decide))))
    simpa using h1

theorem laidExpr_isExpr {h : Option Str} {e : Expr} {t : Str} (hl : LaidExpr U h e t) (r : Str) (hr : Next h r)
    (hn : ¬ Head NumChar r) : IsExpr U (t ++ r) e r := laidExpr_isExpr_ends hl r hr (numberEnds_of hn)

theorem laidAttribute_isAttribute {h : Option Str} {k : CowStr} {e : Expr} {s : Str} (hl : LaidAttribute U h k e s)
    {r x : Str} (hx : SkipInline r x) (hn : Next h r) (hr : ¬ Head NumChar r) : IsAttribute U (s ++ r) k e x := by
  cases hl with
  | mk i l m t n h e hi hl hm ht hnn h0 =>
    have hnext : Next h (n ++ r) := by
      cases h with
      | none => exact .none _
      | some e => rw [h0 (by simp)]; exact hn
    obtain ⟨w, h1, h2⟩ := inline_then_expr hm (laidExpr_isExpr ht (n ++ r) hnext (inline_num hnn hr))
    have e : i ++ l ++ '=' :: m ++ t ++ n ++ r = i ++ (l ++ '=' :: (m ++ (t ++ (n ++ r)))) := by simp
    rw [e]
    exact .mk _ _ _ _ w _ _ _ (ident_inline hi hl (by rw [head_cons]; exact not_identChar (by decide) (by decide)))
      (skip_append hl (not_inline_of (by decide) (by decide) (by decide))) h1 h2 (hx.prepend hnn)

theorem laidLabels_isLabels {ls : List BlockLabel} {s : Str} (h : LaidLabels U ls s) (r : Str) :
    IsLabels U (s ++ r) ls r ∧ s ≠ [] := by
  induction h with
  | «open» l hl =>
    refine ⟨?_, by simp⟩
    rw [List.append_assoc]
    exact .open _ _ (skip_append hl (not_inline_of (by decide) (by decide) (by decide)))
  | ident l i s ls hl hi hs _ ih =>
    refine ⟨?_, by cases hi; simp⟩
    have e : l ++ i ++ s ++ r = l ++ (i ++ (s ++ r)) := by simp
    rw [e]
    exact .label _ _ _ _ _ _ (skip_append hl (not_starts_inline (ident_not_layout hi _)))
      (.ident _ _ _ ⟨rfl, hi, notHead_ext' ih.2 hs⟩) ih.1
  | string l src v s ls hl hc _ ih =>
    refine ⟨?_, by simp⟩
    have e : l ++ '"' :: src ++ '"' :: s ++ r = l ++ ('"' :: (src ++ '"' :: (s ++ r))) := by simp
    rw [e]
    refine .label _ _ _ _ _ _ (skip_append hl (not_inline_of (by decide) (by decide) (by decide))) (.string _ _ _ ?_) ih.1
    exact ⟨src, by simp, content_ext (r := ['"']) (by simp) hc⟩

theorem laidHeader_spec {i : CowStr} {ls : List BlockLabel} {s : Str} (h : LaidHeader U i ls s) (r : Str) :
    ∃ j t, i = .borrowed j ∧ Ident U (s ++ r) j t ∧ IsLabels U t ls r := by
  cases h with
  | mk i s ls hi hs hl =>
    obtain ⟨h1, h2⟩ := laidLabels_isLabels hl r
    exact ⟨i, s ++ r, rfl, ⟨by simp, hi, notHead_ext' h2 hs⟩, h1⟩

theorem laidElement_isElement {h : Option Str} {el : BodyElement} {s : Str} (hl : LaidElement U h el s) :
    ∀ r x, SkipInline r x → Next h r → ¬ Head NumChar r → IsElement U (s ++ r) el x := by
  refine LaidElement.rec
    (motive_1 := fun h el s _ => ∀ r x, SkipInline r x → Next h r → ¬ Head NumChar r → IsElement U (s ++ r) el x)
    (motive_2 := fun b s _ => ∀ r c q, IsBody U r c q → IsBody U (s ++ r) (b ++ c) q)
    ?_ ?_ ?_ ?_ ?_ ?_ hl
  · intro h k e s ha r x hx hn hr
    exact .attribute _ _ _ _ (laidAttribute_isAttribute ha hx hn hr)
  · intro i ls s l m hh hl hm r x hx _ _
    obtain ⟨j, t, rfl, h1, h2⟩ := laidHeader_spec hh (l ++ '}' :: (m ++ r))
    have e : s ++ l ++ '}' :: m ++ r = s ++ (l ++ '}' :: (m ++ r)) := by simp
    rw [e]
    exact .emptyBlock _ _ _ _ _ _ _ h1 h2 (skip_append hl (not_inline_of (by decide) (by decide) (by decide)))
      (hx.prepend hm)
  · intro i ls s l a m k e hh hl ha hm r x hx _ _
    obtain ⟨j, t, rfl, h1, h2⟩ := laidHeader_spec hh (l ++ (a ++ '}' :: (m ++ r)))
    have e : s ++ l ++ a ++ '}' :: m ++ r = s ++ (l ++ (a ++ '}' :: (m ++ r))) := by simp
    rw [e]
    refine .oneLineBlock _ _ _ _ (a ++ '}' :: (m ++ r)) _ _ _ _ _ h1 h2 (skip_append hl ?_)
      (laidAttribute_isAttribute ha (.refl (not_inline_of (by decide) (by decide) (by decide))) (.none _)
        (by rw [head_cons]; simp [NumChar, IsDig])) (hx.prepend hm)
    cases ha with
    | mk =>
      simp only [List.append_assoc]; exact not_starts_inline (ident_not_layout ‹_› _)
  · intro i ls s l n t m b hh hl hn _ hm ih r x hx _ _
    obtain ⟨j, t', rfl, h1, h2⟩ := laidHeader_spec hh (l ++ (n ++ (t ++ '}' :: (m ++ r))))
    have e : s ++ l ++ n ++ t ++ '}' :: m ++ r = s ++ (l ++ (n ++ (t ++ '}' :: (m ++ r)))) := by simp
    rw [e]
    obtain ⟨y, k1, k2⟩ := inline_lineEnds hl hn (t ++ '}' :: (m ++ r))
    refine .block _ _ _ _ _ _ _ _ _ _ h1 h2 k1 k2 ?_ (hx.prepend hm)
    have := ih ('}' :: (m ++ r)) [] ('}' :: (m ++ r)) (.done _ _ (.refl (not_starts_layout (by decide))))
    simpa using this
  · intro l hl r c q hb; exact isBody_prepend hl hb
  · intro l s n t h el b hl _ hn hx _ ih ih' r c q hb
    obtain ⟨y, k1, k2⟩ := inline_lineEnds (l := []) .nil hn (t ++ r)
    have hel := ih (n ++ (t ++ r)) y k1 (hx.append _) (lineEnds_num hn _)
    have e : l ++ s ++ n ++ t ++ r = l ++ (s ++ (n ++ (t ++ r))) := by simp
    rw [e]
    obtain ⟨c, u, hu, hc⟩ := isElement_start hel
    exact .elem _ _ _ _ _ _ _ (skip_append hl (by rw [hu]; exact not_starts_layout hc)) hel (.newline _ _ k2) (ih' r _ q hb)

theorem laidBody_isBody {b : Body} {s : Str} (hl : LaidBody U b s) :
    ∀ r c q, IsBody U r c q → IsBody U (s ++ r) (b ++ c) q := by
  refine LaidBody.rec (motive_1 := fun _ _ _ _ => True)
    (motive_2 := fun b s _ => ∀ r c q, IsBody U r c q → IsBody U (s ++ r) (b ++ c) q)
    ?_ ?_ ?_ ?_ ?_ ?_ hl
  · intros; trivial
  · intros; trivial
  · intros; trivial
  · intros; trivial
  · intro l hl r c q hb; exact isBody_prepend hl hb
  · intro l s n t h el b hl he hn hx _ _ ih' r c q hb
    obtain ⟨y, k1, k2⟩ := inline_lineEnds (l := []) .nil hn (t ++ r)
    have hel := laidElement_isElement he (n ++ (t ++ r)) y k1 (hx.append _) (lineEnds_num hn _)
    have e : l ++ s ++ n ++ t ++ r = l ++ (s ++ (n ++ (t ++ r))) := by simp
    rw [e]
    obtain ⟨c, u, hu, hc⟩ := isElement_start hel
    exact .elem _ _ _ _ _ _ _ (skip_append hl (by rw [hu]; exact not_starts_layout hc)) hel (.newline _ _ k2) (ih' r _ q hb)

theorem laidDocument_document {b : Body} {s : Str} (h : LaidDocument U b s) : Document U s b := by
  have h0 : IsBody U [] [] [] := .done _ _ (.refl not_starts_nil)
  cases h with
  | lines b s h => simpa [Document] using laidBody_isBody h [] [] [] h0
  | last b s el t h he =>
    refine laidBody_isBody h t [el] [] ?_
    have := laidElement_isElement he [] [] (.refl (not_starts_inline not_starts_nil)) (.none _) Head.not_nil
    rw [List.append_nil] at this
    obtain ⟨c, u, rfl, hc⟩ := isElement_start this
    exact .elem _ _ _ _ _ _ _ (.refl (not_starts_layout hc)) this .eof h0

/-! ## Taking texts apart -/

theorem eol_prefix_shrink {e s r : Str} {c : Char} (he : Eol e) (hc : c ∈ s) (hr : c ≠ '\r') (h : e <+: s ++ r) : e <+: s := by
  cases he with
  | lf =>
    cases s with
    | nil => simp at hc
    | cons d s => obtain ⟨q, hq⟩ := h; injection hq with h1 _; subst h1; exact ⟨s, rfl⟩
  | crlf =>
    match s, hc, h with
    | [d], hc, ⟨q, hq⟩ =>
      injection hq with h1 _; subst h1
      simp at hc; exact absurd hc hr
    | d :: d' :: s, _, ⟨q, hq⟩ =>
      injection hq with h1 h2; injection h2 with h2 _; subst h1; subst h2; exact ⟨s, rfl⟩

/-- What a text that must be followed by `h` is followed by. -/
structure Ending (h : Option Str) (r : Str) : Prop where
  next : Next h r
  eol : ∀ e, h = some e → Eol e

theorem Ending.shrink {h : Option Str} {s r : Str} {c : Char} (hn : Ending h (s ++ r)) (hc : c ∈ s) (hr : c ≠ '\r') :
    Next h s := fun e he => eol_prefix_shrink (hn.eol e he) hc hr (hn.next e he)

theorem Ending.none (r : Str) : Ending none r := ⟨.none _, fun _ h => by cases h⟩

/-- After inline layout and a character that does not begin a line end, nothing had to follow. -/
theorem Ending.inline {h : Option Str} {l r : Str} {c : Char} (hn : Ending h (l ++ c :: r)) (hl : Seq InlineItem l)
    (h1 : c ≠ '\n') (h2 : c ≠ '\r') : h = .none := by
  cases h with
  | none => rfl
  | some e =>
    exfalso
    have he := hn.eol e rfl
    obtain ⟨q, hq⟩ := hn.next e rfl
    have hd : ∀ d, (d = '\n' ∨ d = '\r') → ∀ q, d :: q ≠ l ++ c :: r := by
      intro d hd q hq
      cases hl with
      | nil => injection hq with hq _; subst hq; rcases hd with h | h; exact h1 h; exact h2 h
      | cons i l hi _ =>
        cases hi with
        | blank b hb => injection hq with hq _; subst hq; rcases hd with rfl | rfl <;> rcases hb with h | h <;> cases h
        | comment _ hc =>
          cases hc with
          | mk b _ => injection hq with hq _; subst hq; rcases hd with h | h <;> cases h
    cases he with
    | lf => exact hd '\n' (.inl rfl) q hq
    | crlf => exact hd '\r' (.inr rfl) ('\n' :: q) hq

/-- Only nothing fits between an expression that must be followed by a line end and that line end. -/
theorem Ending.no_inline {h : Option Str} {l r : Str} (hn : Ending h (l ++ r)) (hl : Seq InlineItem l) (hh : h ≠ .none) : l = [] := by
  cases hl with
  | nil => rfl
  | cons i l hi _ =>
    exfalso
    cases hi with
    | blank b hb =>
      refine hh (Ending.inline (l := []) (c := b) (r := l ++ r) (by simpa using hn) .nil ?_ ?_) <;>
        rcases hb with rfl | rfl <;> decide
    | comment _ hc =>
      cases hc with
      | mk b _ =>
        exact hh (Ending.inline (l := []) (c := '/') (r := '*' :: b ++ ['*', '/'] ++ l ++ r) (by simpa using hn) .nil
          (by decide) (by decide))

theorem laidTupleEnd_of {s r : Str} (h : IsTupleEnd s r) : ∃ p, s = p ++ r ∧ LaidTupleEnd p ∧ ']' ∈ p := by
  cases h with
  | close =>
    rename_i h
    obtain ⟨l, hl, rfl, -⟩ := h
    exact ⟨l ++ [']'], by simp, .close _ hl, by simp⟩
  | comma t _ h h' =>
    obtain ⟨m, hm, rfl, -⟩ := h'
    obtain ⟨l, hl, rfl, -⟩ := h
    exact ⟨l ++ ',' :: m ++ [']'], by simp, .comma _ _ hl hm, by simp⟩

theorem laidHeredoc_of {s r : Str} {v : CowStr} (h : Heredoc U s v r) :
    ∃ t e, s = t ++ r ∧ Eol e ∧ e <+: r ∧ Heredoc U (t ++ e) v e := by
  have hr : StartsEol r := by
    cases h with
    | empty ind m s b _ h1 h2 h3 => obtain ⟨_, -, -, -, h⟩ := h3; exact h
    | content ind m e0 s c b _ _ h1 h2 h3 h4 h5 h6 =>
      obtain ⟨⟨t, rfl, h7⟩, -⟩ := h5
      obtain ⟨_, -, -, -, h⟩ := h7; exact h
  obtain ⟨t, rfl, h2⟩ := heredoc_replace h
  obtain ⟨e, q, he, rfl⟩ := hr
  refine ⟨t, e, rfl, he, ⟨q, rfl⟩, h2 e ?_⟩
  refine ⟨?_, ?_, ?_⟩
  · intro e' q' he' hq
    have : e' = e := by
      cases he <;> cases he' <;> first | rfl | (injection hq with h1 _; cases h1)
    exact ⟨[], by simp [this]⟩
  · rintro p ⟨w, hw⟩ hp
    cases p with
    | nil => exact List.nil_prefix
    | cons d p =>
      have hd := hp d (by simp)
      cases he <;> injection hw with h1 _ <;> subst h1 <;> simp [NumChar, IsDig] at hd
  · intro _
    cases he <;> rw [head_cons] <;> exact not_identChar (by decide) (by decide)

theorem objectBody_at_close {r r' : Str} {es : List (ObjKey × Expr)} (h : IsObjectBody U ('}' :: r) es r') :
    es = [] ∧ r' = r := by
  cases h with
  | close =>
    rename_i h
    have := h.functional layoutItem_prefix (.refl (not_starts_layout (c := '}') (t := r) (by decide)))
    injection this with _ h; exact ⟨rfl, h⟩
  | elem =>
    exfalso
    rename_i t u v w x y z k e es h1 h2 h3 h4 h5 h6 h7 h8
    have k1 : SkipLayout ('}' :: r) t := ‹_›
    have k2 : IsObjectKey U t k u := ‹_›
    have := k1.functional layoutItem_prefix (.refl (not_starts_layout (c := '}') (t := r) (by decide)))
    subst this
    have hs : ¬ Head (IdentStart U) ('}' :: r) := by rw [head_cons]; exact not_identStart (by decide) (by decide)
    generalize hz : '}' :: r = z at k2
    cases k2 with
    | ident => rename_i i hi; rw [hz] at hs; exact hs hi.head
    | expr p ex _ hn he =>
      rw [← hz] at he
      have h1 := expression_iff.2 he
      have h2 := exprStep_err (U := U) (e := exprN U ('}' :: r).length) (c := '}') (t := r) (by simp)
      unfold expression at h1
      simp only [exprN] at h1
      rw [h2] at h1; cases h1

theorem isExpr_laid {s r : Str} {e : Expr} (h : IsExpr U s e r) :
    ∃ t h, s = t ++ r ∧ LaidExpr U h e t ∧ Ending h r := by
  refine IsExpr.rec
    (motive_1 := fun s e r _ => ∃ t h, s = t ++ r ∧ LaidExpr U h e t ∧ Ending h r)
    (motive_2 := fun s es r _ => ∃ p, s = p ++ r ∧ LaidTuple U es p)
    (motive_3 := fun s es r _ => ∃ p c, s = p ++ r ∧ LaidTail U es p ∧ c ∈ p ∧ c ≠ '\r')
    (motive_4 := fun s k r _ => ¬ Starts LayoutItem s → ¬ StartsEol r → ∃ p, s = p ++ r ∧ LaidKey U k p)
    (motive_5 := fun s es r _ => ∃ p, s = p ++ r ∧ LaidObject U es p)
    ?_ ?_ ?_ ?_ ?_ ?_ ?_ ?_ ?_ ?_ ?_ ?_ ?_ ?_ ?_ ?_ h
  · intro r; exact ⟨_, _, rfl, .null, .none _⟩
  · intro r; exact ⟨_, _, rfl, .true, .none _⟩
  · intro r; exact ⟨_, _, rfl, .false, .none _⟩
  · rintro s n r ⟨t, rfl, hn, -⟩; exact ⟨t, _, rfl, .number _ _ hn, .none _⟩
  · intro s v r hv
    cases hv with
    | quoted =>
      rename_i v h
      obtain ⟨src, rfl, hc⟩ := h
      exact ⟨'"' :: src ++ ['"'], none, by simp, .quoted _ _ (content_shrink (r := ['"']) (y := r) (by simp) hc), .none _⟩
    | heredoc =>
      rename_i h
      obtain ⟨t, e, rfl, he, hp, hh⟩ := laidHeredoc_of h
      refine ⟨t, some e, rfl, .heredoc _ _ _ he hh, fun e' h => ?_, fun e' h => ?_⟩ <;> cases h
      · exact hp
      · exact he
  · rintro s es r _ ⟨p, rfl, hp⟩; exact ⟨'[' :: p, none, rfl, .tuple _ _ hp, .none _⟩
  · rintro s t es r ⟨l, hl, rfl, -⟩ _ ⟨p, rfl, hp⟩
    exact ⟨l ++ '{' :: p, none, by simp, .object _ _ _ hl hp, .none _⟩
  · rintro s t u v e r ⟨l, hl, rfl, -⟩ ⟨m, hm, rfl, -⟩ _ ⟨n, hn, rfl, -⟩ ⟨p, h, rfl, hp, hx⟩
    refine ⟨l ++ '(' :: m ++ p ++ n ++ [')'], none, by simp, .bracket _ _ _ _ _ _ hl hm hp hn ?_, .none _⟩
    exact Ending.shrink (r := r) (c := ')') (by simpa using hx) (by simp) (by decide)
  · intro s r h
    obtain ⟨p, rfl, hp, -⟩ := laidTupleEnd_of h
    exact ⟨p, rfl, .empty _ hp⟩
  · rintro s t u e es r ⟨l, hl, rfl, -⟩ _ _ ⟨p, h, rfl, hp, hx⟩ ⟨p', c, rfl, hp', hc, hr⟩
    exact ⟨l ++ p ++ p', by simp, .elems _ _ _ _ _ _ hl hp hp' (hx.shrink hc hr)⟩
  · intro s r h
    obtain ⟨p, rfl, hp, hc⟩ := laidTupleEnd_of h
    exact ⟨p, ']', rfl, .last _ hp, hc, by decide⟩
  · rintro s t u v e es r ⟨l, hl, rfl, -⟩ ⟨m, hm, rfl, -⟩ _ _ ⟨p, h, rfl, hp, hx⟩ ⟨p', c, rfl, hp', hc, hr⟩
    exact ⟨l ++ ',' :: m ++ p ++ p', ',', by simp, .more _ _ _ _ _ _ _ hl hm hp hp' (hx.shrink hc hr), by simp, by decide⟩
  · rintro s i r ⟨rfl, hi, -⟩ _ _; exact ⟨i, rfl, .ident _ hi⟩
  · rintro t e r hn he ⟨p, h, hp, hl, hx⟩ hs hr
    have hp := List.append_cancel_right hp
    subst hp
    have h0 : h = none := by
      cases h with
      | none => rfl
      | some e => obtain ⟨q, hq⟩ := hx.next e rfl; exact absurd ⟨e, q, hx.eol e rfl, hq.symm⟩ hr
    subst h0
    refine ⟨t, rfl, .expr _ _ ?_ ?_ hl⟩
    · rintro ⟨c, u, rfl, hc⟩; exact hn ⟨c, u ++ r, rfl, hc⟩
    · rintro ⟨i, u, hi, rfl⟩; exact hs ⟨i, u ++ r, hi, by simp⟩
  · rintro s r ⟨l, hl, rfl, -⟩; exact ⟨l ++ ['}'], by simp, .close _ hl⟩
  · rintro s t u v w x y z k e es r ⟨l, hl, rfl, hns⟩ hk hm0 ⟨n, hn, rfl, -⟩ _ ⟨q, hq, rfl, -⟩ hsep hob ihk ⟨p, h, rfl, hp, hx⟩
      ⟨p', rfl, hp'⟩
    obtain ⟨ks, rfl, hks⟩ := ihk hns (inline_to_eq_not_eol hm0)
    obtain ⟨m, hm, rfl, -⟩ := hm0
    have hpair : LaidPair U h k e (l ++ ks ++ m ++ '=' :: n ++ p) := .mk _ _ _ _ _ _ _ _ hl hks hm hn hp
    generalize hz : p' ++ r = z at *
    cases hsep with
    | comma =>
      have h0 := hx.inline hq (by decide) (by decide)
      subst h0; subst hz
      exact ⟨(l ++ ks ++ m ++ '=' :: n ++ p) ++ q ++ ',' :: p', by simp, .comma _ _ _ _ _ _ hpair hq hp'⟩
    | newline =>
      rename_i hnl
      obtain ⟨i, j, hi, hj, rfl⟩ := hnl
      subst hz
      refine ⟨(l ++ ks ++ m ++ '=' :: n ++ p) ++ q ++ (i ++ j) ++ p', by simp,
        .newline _ _ _ _ _ _ _ _ hpair hq (.mk _ _ hi hj) ?_ hp'⟩
      obtain ⟨y, hy, -, -⟩ := newlines_replace (s := i ++ j) (r := []) ⟨i, j, hi, hj, by simp⟩
      exact Ending.shrink (r := p' ++ r) (c := '\n') (by simpa using hx) (by rw [hy]; simp) (by decide)
    | close =>
      rename_i y
      obtain ⟨rfl, rfl⟩ := objectBody_at_close hob
      have h0 := hx.inline hq (by decide) (by decide)
      subst h0
      exact ⟨(l ++ ks ++ m ++ '=' :: n ++ p) ++ q ++ ['}'], by simp, .last _ _ _ _ hpair hq⟩

theorem isAttribute_laid {s r : Str} {k : CowStr} {e : Expr} (h : IsAttribute U s k e r) :
    ∃ p h, s = p ++ r ∧ LaidAttribute U h k e p ∧ Ending h r := by
  cases h with
  | mk =>
    rename_i i t u v w h1 h2 h3 h4 h5
    obtain ⟨p, h, rfl, hp, hx⟩ := isExpr_laid h4
    obtain ⟨n, hn, rfl, -⟩ := h5
    obtain ⟨m, hm, rfl, -⟩ := h3
    obtain ⟨l, hl, rfl, -⟩ := h2
    obtain ⟨rfl, hi, -⟩ := h1
    have h0 := fun hh => hx.no_inline hn hh
    refine ⟨i ++ l ++ '=' :: m ++ p ++ n, h, by simp, .mk _ _ _ _ _ _ _ hi hl hm hp hn h0, ?_⟩
    by_cases hh : h = none
    · subst hh; exact .none _
    · have := h0 hh; subst this; exact hx

theorem isLabels_laid {s r : Str} {ls : List BlockLabel} (h : IsLabels U s ls r) :
    ∃ p, s = p ++ r ∧ LaidLabels U ls p := by
  induction h with
  | «open» s r h => obtain ⟨l, hl, rfl, -⟩ := h; exact ⟨l ++ ['{'], by simp, .open _ hl⟩
  | label s t u lb ls r h1 h2 _ ih =>
    obtain ⟨p, rfl, hp⟩ := ih
    obtain ⟨l, hl, rfl, -⟩ := h1
    cases h2 with
    | ident =>
      rename_i i hi
      obtain ⟨rfl, hi, hn⟩ := hi
      refine ⟨l ++ i ++ p, by simp, .ident _ _ _ _ hl hi ?_ hp⟩
      rintro ⟨c, u, rfl, hc⟩; exact hn ⟨c, u ++ r, rfl, hc⟩
    | string =>
      rename_i v hv
      obtain ⟨src, rfl, hc⟩ := hv
      exact ⟨l ++ '"' :: src ++ '"' :: p, by simp,
        .string _ _ _ _ _ hl (content_shrink (r := ['"']) (y := p ++ r) (by simp) hc) hp⟩

theorem laidHeader_of {s i t r : Str} {ls : List BlockLabel} (h : Ident U s i t) (hl : IsLabels U t ls r) :
    ∃ p, s = p ++ r ∧ LaidHeader U (.borrowed i) ls p := by
  obtain ⟨p, rfl, hp⟩ := isLabels_laid hl
  obtain ⟨rfl, hi, hn⟩ := h
  refine ⟨i ++ p, by simp, .mk _ _ _ hi ?_ hp⟩
  rintro ⟨c, u, rfl, hc⟩; exact hn ⟨c, u ++ r, rfl, hc⟩

theorem isBody_nil {b : Body} {r : Str} (h : IsBody U [] b r) : b = [] ∧ r = [] := by
  cases h with
  | done =>
    rename_i h; obtain ⟨l, -, h, -⟩ := h
    simp at h; exact ⟨rfl, h.2⟩
  | elem =>
    exfalso
    rename_i t u v el els h1 h2 h3 h4
    have k1 : SkipLayout [] t := ‹_›
    have k2 : IsElement U t el u := ‹_›
    obtain ⟨l, -, h, -⟩ := k1
    obtain ⟨c, w, rfl, -⟩ := isElement_start k2
    simp at h

theorem laidDocument_cons {l s n t : Str} {h : Option Str} {el : BodyElement} {b : Body} (hl : AnyLayout l)
    (he : LaidElement U h el s) (hn : LineEnds n) (hx : Next h n) (hb : LaidDocument U b t) :
    LaidDocument U (el :: b) (l ++ s ++ n ++ t) := by
  cases hb with
  | lines _ _ hb => exact .lines _ _ (.elem _ _ _ _ _ _ _ hl he hn hx hb)
  | last b s' el' t' hb he' =>
    have := LaidDocument.last _ _ _ _ (LaidBody.elem l s n s' h el b hl he hn hx hb) he'
    simpa using this

theorem isBody_laid {s r : Str} {b : Body} (h : IsBody U s b r) :
    (∃ p, s = p ++ r ∧ LaidBody U b p) ∨ r = [] ∧ LaidDocument U b s := by
  refine IsBody.rec
    (motive_1 := fun s b r _ => (∃ p, s = p ++ r ∧ LaidBody U b p) ∨ r = [] ∧ LaidDocument U b s)
    (motive_2 := fun s el r _ => ∃ p h, s = p ++ r ∧ LaidElement U h el p ∧ Ending h r)
    ?_ ?_ ?_ ?_ ?_ ?_ h
  · rintro s r ⟨l, hl, rfl, -⟩; exact .inl ⟨l, rfl, .done _ hl⟩
  · rintro s t u v el els r ⟨l, hl, rfl, -⟩ _ hend hb ⟨p, h, rfl, hp, hx⟩ ihb
    cases hend with
    | newline =>
      rename_i hnl
      obtain ⟨i, j, hi, hj, rfl⟩ := hnl
      have hle : LineEnds (i ++ j) := .mk _ _ hi hj
      have hnx : Next h (i ++ j) := by
        obtain ⟨y, hy, -, -⟩ := newlines_replace (s := i ++ j) (r := []) ⟨i, j, hi, hj, by simp⟩
        exact Ending.shrink (r := v) (c := '\n') (by simpa using hx) (by rw [hy]; simp) (by decide)
      rcases ihb with ⟨q, rfl, hq⟩ | ⟨rfl, hq⟩
      · exact .inl ⟨l ++ p ++ (i ++ j) ++ q, by simp, .elem _ _ _ _ _ _ _ hl hp hle hnx hq⟩
      · have := laidDocument_cons hl hp hle hnx hq
        exact .inr ⟨rfl, by simpa using this⟩
    | eof =>
      obtain ⟨rfl, rfl⟩ := isBody_nil hb
      have h0 : h = none := by
        cases h with
        | none => rfl
        | some e =>
          obtain ⟨q, hq⟩ := hx.next e rfl
          have he := hx.eol e rfl
          cases he <;> cases hq
      subst h0
      refine .inr ⟨rfl, ?_⟩
      have := LaidDocument.last _ _ _ _ (LaidBody.done l hl) hp
      simpa using this
  · intro s k e r ha
    obtain ⟨p, h, rfl, hp, hx⟩ := isAttribute_laid ha
    exact ⟨p, h, rfl, .attribute _ _ _ _ hp, hx⟩
  · rintro s i t u v r ls h1 h2 ⟨l, hl, rfl, -⟩ ⟨m, hm, rfl, -⟩
    obtain ⟨p, rfl, hp⟩ := laidHeader_of h1 h2
    exact ⟨p ++ l ++ '}' :: m, none, by simp, .emptyBlock _ _ _ _ _ hp hl hm, .none _⟩
  · rintro s i t u u' v r ls k e h1 h2 ⟨l, hl, rfl, -⟩ ha ⟨m, hm, rfl, -⟩
    obtain ⟨a, h, rfl, ha, hx⟩ := isAttribute_laid ha
    have h0 := hx.inline (l := []) .nil (by decide) (by decide)
    subst h0
    obtain ⟨p, rfl, hp⟩ := laidHeader_of h1 h2
    exact ⟨p ++ l ++ a ++ '}' :: m, none, by simp, .oneLineBlock _ _ _ _ _ _ _ _ hp hl ha hm, .none _⟩
  · rintro s i t u u' v w r ls b h1 h2 ⟨l, hl, rfl, -⟩ ⟨y, z, hy, hz, rfl⟩ _ ⟨m, hm, rfl, -⟩ ihb
    rcases ihb with ⟨q, rfl, hq⟩ | ⟨h, -⟩
    · obtain ⟨p, rfl, hp⟩ := laidHeader_of h1 h2
      exact ⟨p ++ l ++ (y ++ z) ++ q ++ '}' :: m, none, by simp,
        .block _ _ _ _ _ _ _ _ hp hl (.mk _ _ hy hz) hq hm, .none _⟩
    · cases h

theorem document_laid {s : Str} {b : Body} (h : Document U s b) : LaidDocument U b s := by
  rcases isBody_laid h with ⟨p, rfl, hp⟩ | ⟨-, h⟩
  · rw [List.append_nil]; exact .lines _ _ hp
  · exact h

end
end Verif
