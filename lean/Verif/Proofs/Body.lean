import Verif.Proofs.Expr
/-! # Bodies and documents: the parser accepts exactly the grammar -/
set_option autoImplicit false

namespace Verif
open PRes Spec

section
variable {U : CharClass}

/-! ## attributes -/

theorem attributeP_iff {s r : Str} {a : Attribute} :
    attributeP U s = .ok r a ↔ ∃ t, SkipInline s t ∧ IsAttribute U t a.1 a.2 r := by
  unfold attributeP
  rw [inlineThen_eq_ok]
  simp only [bindP_eq_ok, tag_eq_ok, identifier_iff, expression_iff, pure_apply]
  constructor
  · rintro ⟨t, h1, u, i, h2, v0, _, h3, v, _, ⟨rfl, -⟩, w, _, h4, x, ex, h5, y, _, h6, h7⟩
    injection h7 with h8 h9; subst h8 h9
    exact ⟨t, h1, .mk _ _ _ _ _ _ _ _ h2 (inlineWs_skip h3) (inlineWs_skip h4) h5 (inlineWs_skip h6)⟩
  · rintro ⟨t, h1, h⟩
    obtain ⟨k, ex⟩ := a
    obtain ⟨i, u, v, w, x, rfl, h2, h3, h4, h5, h6⟩ : ∃ i u v w x, k = .borrowed i ∧ Ident U t i u ∧
        SkipInline u ('=' :: v) ∧ SkipInline v w ∧ IsExpr U w ex x ∧ SkipInline x r := by
      cases h; exact ⟨_, _, _, _, _, rfl, ‹_›, ‹_›, ‹_›, ‹_›, ‹_›⟩
    obtain ⟨_, h3⟩ := inlineWs_iff.2 h3
    obtain ⟨_, h4⟩ := inlineWs_iff.2 h4
    obtain ⟨_, h6⟩ := inlineWs_iff.2 h6
    exact ⟨t, h1, u, i, h2, _, _, h3, v, _, ⟨rfl, rfl⟩, w, _, h4, x, _, h5, r, _, h6, rfl⟩

theorem attributeP_err {s t : Str} (h : SkipInline s t) (ht : ¬ Head (IdentStart U) t) : attributeP U s = .err := by
  unfold attributeP
  rw [inlineWs_bind (fun _ _ => rfl) h, bind_apply, identifier_err ht]; rfl

/-- No attribute when the name is not followed by `=`. -/
theorem attributeP_err' {s i t u : Str} (h0 : SkipInline s s) (h : Ident U s i t) (h1 : SkipInline t u)
    (hu : ¬ Head (fun c => c = '=') u) : attributeP U s = .err := by
  unfold attributeP
  rw [inlineWs_bind (fun _ _ => rfl) h0, bind_apply, identifier_iff.2 h, bind_ok,
    inlineWs_bind (fun _ _ => rfl) h1, bind_apply, tag_eq_err.2]
  · rfl
  · rintro ⟨x, rfl⟩; exact hu ⟨_, _, rfl, rfl⟩

theorem isAttribute_consumes {s r : Str} {k : CowStr} {e : Expr} (h : IsAttribute U s k e r) : Consumes s r := by
  obtain ⟨i, u, v, w, x, h2, h3, h4, h5, h6⟩ : ∃ i u v w x, Ident U s i u ∧
      SkipInline u ('=' :: v) ∧ SkipInline v w ∧ IsExpr U w e x ∧ SkipInline x r := by
    cases h; exact ⟨_, _, _, _, _, ‹_›, ‹_›, ‹_›, ‹_›, ‹_›⟩
  exact (ident_consumes h2).then (h6.suffix.trans ((isExpr_consumes h5).suffix.trans
    (h4.suffix.trans ((List.suffix_cons _ _).trans h3.suffix))))

/-! ## labels -/

theorem blockLabel_iff {s r : Str} {l : BlockLabel} : blockLabel U s = .ok r l ↔ IsLabel U s l r := by
  unfold blockLabel
  simp only [orElse_eq_ok, mapP_eq_ok, identifier_iff, stringLiteral_iff]
  constructor
  · rintro (⟨i, h, rfl⟩ | ⟨-, v, h, rfl⟩)
    · exact .ident _ _ _ h
    · exact .string _ _ _ h
  · intro h
    cases h with
    | ident i _ h => exact .inl ⟨i, h, rfl⟩
    | string v _ h =>
      refine .inr ⟨?_, v, h, rfl⟩
      obtain ⟨src, rfl, -⟩ := h
      rw [mapP_apply, identifier_err]
      · rfl
      · rw [List.cons_append, head_cons]; exact not_identStart (by decide) (by decide)

theorem isLabel_consumes {s r : Str} {l : BlockLabel} (h : IsLabel U s l r) : Consumes s r := by
  cases h with
  | ident i _ h => exact ident_consumes h
  | string v _ h => exact quoted_consumes h

theorem isLabel_head {s r : Str} {l : BlockLabel} (h : IsLabel U s l r) :
    Head (fun c => IdentStart U c ∨ c = '"') s := by
  cases h with
  | ident i _ h =>
    obtain ⟨rfl, h, -⟩ := h
    cases h with
    | mk c cs hc _ => exact ⟨c, _, rfl, .inl hc⟩
  | string v _ h => obtain ⟨src, rfl, -⟩ := h; exact ⟨_, _, rfl, .inr rfl⟩

theorem inlineWsAround_eq_ok {α : Type} {p : Parser α} {s r : Str} {v : α} :
    inlineWsAround p s = .ok r v ↔ ∃ t u, SkipInline s t ∧ p t = .ok u v ∧ SkipInline u r := by
  unfold inlineWsAround
  simp only [bind_apply, bind_eq_ok, pure_apply]
  constructor
  · rintro ⟨t, _, h1, u, v', h2, r', _, h3, h4⟩
    injection h4 with h5 h6; subst h5 h6
    exact ⟨t, u, inlineWs_skip h1, h2, inlineWs_skip h3⟩
  · rintro ⟨t, u, h1, h2, h3⟩
    obtain ⟨x, hx⟩ := inlineWs_iff.2 h1
    obtain ⟨y, hy⟩ := inlineWs_iff.2 h3
    exact ⟨t, x, hx, u, v, h2, r, y, hy, rfl⟩

theorem inline_trans {s t r : Str} (h : SkipInline s t) (h' : SkipInline t r) : SkipInline s r := by
  have := inline_again_eq h h'; rwa [this]

/-- Inline layout in front of the labels does not matter. -/
theorem isLabels_inline {s t r : Str} {ls : List BlockLabel} (h : SkipInline s t) :
    IsLabels U s ls r ↔ IsLabels U t ls r := by
  constructor
  · intro h'
    cases h' with
    | «open» =>
      rename_i h'
      have := h'.functional inlineItem_prefix h; subst this
      exact .open _ _ h.again
    | label =>
      rename_i t' u l ls h1 h2 h3
      have := Skip.functional inlineItem_prefix ‹SkipInline s t'› h; subst this
      exact .label _ _ _ _ _ _ h.again ‹_› ‹_›
  · intro h'
    cases h' with
    | «open» => rename_i h'; exact .open _ _ (inline_trans h h')
    | label =>
      rename_i t' u l ls h1 h2 h3
      exact .label _ _ _ _ _ _ (inline_trans h ‹SkipInline t t'›) ‹_› ‹_›

theorem blockLabel_err {s : Str} (h : ¬ Head (fun c => IdentStart U c ∨ c = '"') s) : blockLabel U s = .err := by
  unfold blockLabel
  rw [orElse_eq_err]
  constructor
  · rw [mapP_apply, identifier_err fun ⟨c, t, e, hc⟩ => h ⟨c, t, e, .inl hc⟩]; rfl
  · unfold stringLiteral
    have : tag ['"'] s = .err := by
      rw [tag_eq_err]; rintro ⟨t, rfl⟩; exact h ⟨_, _, rfl, .inr rfl⟩
    simp [this]

theorem blockLabels_sound {s t r : Str} {ls : List BlockLabel} (h : blockLabels U s = .ok t ls)
    (ht : SkipInline t ('{' :: r)) : IsLabels U s ls r := by
  unfold blockLabels at h
  rw [many0_eq_ok] at h
  induction h with
  | stop s h => exact .open _ _ ht
  | stuck s r' v h hl =>
    obtain ⟨t, u, h1, h2, h3⟩ := inlineWsAround_eq_ok.1 h
    have := ((isLabel_consumes (blockLabel_iff.1 h2)).of_suffix h1.suffix).then h3.suffix
    exact absurd this.length (by omega)
  | cons s r' v vs t h hl _ ih =>
    obtain ⟨x, y, h1, h2, h3⟩ := inlineWsAround_eq_ok.1 h
    exact .label _ _ _ _ _ _ h1 (blockLabel_iff.1 h2) ((isLabels_inline h3).2 (ih ht))

theorem brace_not_label {r : Str} : ¬ Head (fun c => IdentStart U c ∨ c = '"') ('{' :: r) := by
  rw [head_cons]
  rintro (h | h)
  · exact not_identStart (U := U) (by decide) (by decide) h
  · exact absurd h (by decide)

theorem blockLabels_complete {r : Str} : ∀ (ls : List BlockLabel) (s : Str), IsLabels U s ls r →
    ∃ t, blockLabels U s = .ok t ls ∧ SkipInline t ('{' :: r) := by
  intro ls
  induction ls with
  | nil =>
    intro s h
    have h : SkipInline s ('{' :: r) := by cases h; assumption
    refine ⟨s, many0_stop ?_, h⟩
    unfold inlineWsAround
    rw [inlineWs_bind (fun _ _ => rfl) h, bind_apply, blockLabel_err brace_not_label]; rfl
  | cons l ls ih =>
    intro s h
    obtain ⟨t, u, h1, h2, h3⟩ : ∃ t u, SkipInline s t ∧ IsLabel U t l u ∧ IsLabels U u ls r := by
      cases h; exact ⟨_, _, ‹_›, ‹_›, ‹_›⟩
    obtain ⟨v, hv⟩ := skipInline_total u
    obtain ⟨w, h4, h5⟩ := ih v ((isLabels_inline hv).1 h3)
    refine ⟨w, ?_, h5⟩
    have l1 := h1.length
    have l2 := (isLabel_consumes h2).length
    have l3 := hv.length
    unfold blockLabels at *
    rw [many0_cons (inlineWsAround_eq_ok.2 ⟨t, u, h1, blockLabel_iff.2 h2, hv⟩) (by omega), h4]; rfl

theorem isLabels_consumes {s r : Str} {ls : List BlockLabel} (h : IsLabels U s ls r) : Consumes s r := by
  induction h with
  | «open» s r h => exact (consumes_cons _ _).of_suffix h.suffix
  | label s t u l ls r h1 h2 _ ih => exact ih.of_suffix ((isLabel_consumes h2).suffix.trans h1.suffix)

/-- After skipping inline layout, a block header continues with a label or `{`, never `=`. -/
theorem isLabels_head {s r : Str} {ls : List BlockLabel} (h : IsLabels U s ls r) :
    ∃ t, SkipInline s t ∧ ¬ Head (fun c => c = '=') t := by
  cases h with
  | «open» => rename_i h; exact ⟨_, h, by rw [head_cons]; decide⟩
  | label =>
    rename_i t u l ls h1 h2 h3
    refine ⟨t, ‹_›, not_head (isLabel_head ‹_›) ?_⟩
    rintro c (h | rfl) hc
    · subst hc; exact not_identStart (U := U) (by decide) (by decide) h
    · exact absurd hc (by decide)

/-- The common beginning of both kinds of blocks. -/
theorem header_eq_ok {α : Type} {f : Str → List BlockLabel → Parser α} {s r : Str} {v : α} :
    (do let _ ← inlineWs
        let t ← identifier U
        let _ ← inlineWs
        let ls ← blockLabels U
        let _ ← inlineWs
        let _ ← tag ['{']
        f t ls : Parser α) s = .ok r v ↔
    ∃ s' i t ls u, SkipInline s s' ∧ Ident U s' i t ∧ IsLabels U t ls u ∧ f i ls u = .ok r v := by
  simp only [bindP_eq_ok, tag_eq_ok, identifier_iff]
  constructor
  · rintro ⟨s', _, h1, t, i, h2, t', _, h3, x, ls, h4, y, _, h5, u, _, ⟨rfl, -⟩, h6⟩
    exact ⟨s', i, t, ls, u, inlineWs_skip h1, h2,
      (isLabels_inline (inlineWs_skip h3)).2 (blockLabels_sound h4 (inlineWs_skip h5)), h6⟩
  · rintro ⟨s', i, t, ls, u, h1, h2, h3, h4⟩
    obtain ⟨_, h1⟩ := inlineWs_iff.2 h1
    obtain ⟨t', ht'⟩ := skipInline_total t
    obtain ⟨x, h5, h6⟩ := blockLabels_complete _ _ ((isLabels_inline ht').1 h3)
    obtain ⟨_, h7⟩ := inlineWs_iff.2 ht'
    obtain ⟨_, h8⟩ := inlineWs_iff.2 h6
    exact ⟨s', _, h1, t, i, h2, t', _, h7, x, ls, h5, _, _, h8, u, _, ⟨rfl, rfl⟩, h4⟩

theorem header_eq {α : Type} (f : Str → List BlockLabel → Parser α) {s i t u : Str} {ls : List BlockLabel}
    (h0 : SkipInline s s) (h1 : Ident U s i t) (h2 : IsLabels U t ls u) :
    (do let _ ← inlineWs
        let t ← identifier U
        let _ ← inlineWs
        let ls ← blockLabels U
        let _ ← inlineWs
        let _ ← tag ['{']
        f t ls : Parser α) s = f i ls u := by
  obtain ⟨t', ht'⟩ := skipInline_total t
  obtain ⟨x, h5, h6⟩ := blockLabels_complete _ _ ((isLabels_inline ht').1 h2)
  rw [inlineWs_bind (fun _ _ => rfl) h0, bind_apply, identifier_iff.2 h1, bind_ok,
    inlineWs_bind (fun _ _ => rfl) ht', bind_apply, h5, bind_ok, inlineWs_bind (fun _ _ => rfl) h6, bind_apply,
    show '{' :: u = ['{'] ++ u from rfl, tag_append, bind_ok]

/-! ## one-line blocks -/

theorem oneLineBlock_sound {s r : Str} {el : BodyElement} (h : oneLineBlock U s = .ok r el) :
    ∃ t, SkipInline s t ∧ IsElement U t el r := by
  unfold oneLineBlock at h
  obtain ⟨s', i, t, ls, u, h1, h2, h3, h4⟩ := header_eq_ok.1 h
  refine ⟨s', h1, ?_⟩
  simp only [bindP_eq_ok, tag_eq_ok, pure_apply, opt_eq_ok] at h4
  obtain ⟨u', _, h5, w, a, h6, w', _, h7, v, _, ⟨rfl, -⟩, r', _, h8, h9⟩ := h4
  injection h9 with h10 h11; subst h10 h11
  rcases h6 with ⟨⟨k, e⟩, h6, rfl⟩ | ⟨-, rfl, rfl⟩
  · obtain ⟨x, hx, ha⟩ := attributeP_iff.1 h6
    have h5 := inlineWs_skip h5
    have := inline_again_eq h5 hx; subst this
    have hw : SkipInline w w := by cases ha; exact Skip.again ‹_›
    have := inline_again_eq hw (inlineWs_skip h7); subst this
    exact .oneLineBlock _ _ _ _ _ _ _ _ _ _ h2 h3 h5 ha (inlineWs_skip h8)
  · exact .emptyBlock _ _ _ _ _ _ _ h2 h3 (inline_trans (inlineWs_skip h5) (inlineWs_skip h7)) (inlineWs_skip h8)

theorem isAttribute_again {s r : Str} {k : CowStr} {e : Expr} (h : IsAttribute U s k e r) : SkipInline r r := by
  cases h; exact Skip.again ‹_›

theorem rbrace_not_ident {r : Str} : ¬ Head (IdentStart U) ('}' :: r) := by
  rw [head_cons]; exact not_identStart (by decide) (by decide)

/-! ## blocks -/

/-- `b` is a sound body parser. -/
def SoundBody (U : CharClass) (b : Parser Body) : Prop := ∀ s r v, b s = .ok r v → IsBody U s v r

/-- Bodies are followed by `}` or the end of the input. -/
def BodyEnd (r : Str) : Prop := r = [] ∨ ∃ t, r = '}' :: t

/-- `b` is complete on inputs shorter than `n`. -/
def CompleteBody (U : CharClass) (b : Parser Body) (n : Nat) : Prop :=
  ∀ s v r, s.length < n → BodyEnd r → IsBody U s v r → b s = .ok r v

theorem isBody_prepend {l s r : Str} {v : Body} (hl : Seq LayoutItem l) (h : IsBody U s v r) :
    IsBody U (l ++ s) v r := by
  cases h with
  | done => rename_i h; exact .done _ _ (h.prepend hl)
  | elem =>
    rename_i t u x el els h1 h2 h3 h4
    exact .elem _ _ _ _ _ _ _ (Skip.prepend hl ‹_›) ‹_› ‹_› ‹_›

theorem isBody_unprepend {l s r : Str} {v : Body} (hl : Seq LayoutItem l) (h : IsBody U (l ++ s) v r) :
    IsBody U s v r := by
  generalize hs : l ++ s = s' at h
  cases h with
  | done => rename_i h; subst hs; exact .done _ _ (h.unprepend layoutItem_prefix hl)
  | elem =>
    rename_i t u x el els h1 h2 h3 h4
    subst hs
    exact .elem _ _ _ _ _ _ _ (Skip.unprepend layoutItem_prefix hl ‹_›) ‹_› ‹_› ‹_›

theorem seq_inline_layout {l : Str} (h : Seq InlineItem l) : Seq LayoutItem l :=
  h.mono fun _ hi => .single (inlineItem_layout hi)

theorem block_sound {b : Parser Body} (hb : SoundBody U b) {s r : Str} {el : BodyElement}
    (h : block U b s = .ok r el) : ∃ t, SkipInline s t ∧ IsElement U t el r := by
  unfold block at h
  obtain ⟨s', i, t, ls, u, h1, h2, h3, h4⟩ := header_eq_ok.1 h
  refine ⟨s', h1, ?_⟩
  simp only [bindP_eq_ok, tag_eq_ok, pure_apply] at h4
  obtain ⟨u', _, h5, v, _, h6, v', _, h7, w, body, h8, w', _, h9, x, _, ⟨rfl, -⟩, r', _, h10, h11⟩ := h4
  injection h11 with h12 h13; subst h12 h13
  have h8 := hb _ _ _ h8
  have hw : SkipInline w w := by
    clear h9
    have aux : ∀ {s : Str} {v : Body} {r : Str}, IsBody U s v r → SkipInline r r := by
      intro s v r h
      refine IsBody.rec (motive_1 := fun _ _ r _ => SkipInline r r) (motive_2 := fun _ _ _ _ => True)
        ?_ ?_ ?_ ?_ ?_ ?_ h
      · intro s r h; exact skipInline_again h
      · intros; assumption
      all_goals intros; trivial
    exact aux h8
  have := inline_again_eq hw (inlineWs_skip h9); subst this
  obtain ⟨l, hl, rfl, -⟩ := inlineWs_skip h7
  exact .block _ _ _ _ _ _ _ _ _ _ h2 h3 (inlineWs_skip h5) (newline_sound h6)
    (isBody_prepend (seq_inline_layout hl) h8) (inlineWs_skip h10)

theorem bodyElement_sound {b : Parser Body} (hb : SoundBody U b) {s r : Str} {el : BodyElement}
    (h : bodyElement U b s = .ok r el) : ∃ t, SkipInline s t ∧ IsElement U t el r := by
  unfold bodyElement at h
  simp only [orElse_eq_ok, mapP_eq_ok] at h
  rcases h with ⟨⟨k, e⟩, h, rfl⟩ | ⟨-, h | ⟨-, h⟩⟩
  · obtain ⟨t, h1, h2⟩ := attributeP_iff.1 h
    exact ⟨t, h1, .attribute _ _ _ _ h2⟩
  · exact oneLineBlock_sound h
  · exact block_sound hb h

theorem isElement_ident {s r : Str} {el : BodyElement} (h : IsElement U s el r) : ∃ i t, Ident U s i t := by
  cases h with
  | «attribute» => rename_i k e h; cases h; exact ⟨_, _, ‹_›⟩
  | emptyBlock => exact ⟨_, _, ‹_›⟩
  | oneLineBlock => exact ⟨_, _, ‹_›⟩
  | block => exact ⟨_, _, ‹_›⟩

theorem isBody_suffix_aux {s r : Str} {v : Body} (h : IsBody U s v r) :
    r <:+ s ∧ (∀ c t, r = c :: t → ¬ Starts LayoutItem r) := by
  refine IsBody.rec (motive_1 := fun s _ r _ => r <:+ s ∧ ∀ c t, r = c :: t → ¬ Starts LayoutItem r)
    (motive_2 := fun s _ r _ => Consumes s r) ?_ ?_ ?_ ?_ ?_ ?_ h
  · intro s r h; exact ⟨h.suffix, fun _ _ _ => h.not_starts⟩
  · intro s t u v el els r h1 _ h3 _ ih2 ih4
    refine ⟨ih4.1.trans (List.IsSuffix.trans ?_ (ih2.suffix.trans h1.suffix)), ih4.2⟩
    cases h3 with
    | newline _ _ h => exact (newlines_consumes h).suffix
    | eof => exact List.suffix_refl _
  · intro s k e r h; exact isAttribute_consumes h
  · intro s i t u v r ls h1 h2 h3 h4
    exact (ident_consumes h1).then (h4.suffix.trans ((List.suffix_cons _ _).trans (h3.suffix.trans
      (isLabels_consumes h2).suffix)))
  · intro s i t u u' v r ls k e h1 h2 h3 h4 h5
    exact (ident_consumes h1).then (h5.suffix.trans ((List.suffix_cons _ _).trans ((isAttribute_consumes h4).suffix.trans
      (h3.suffix.trans (isLabels_consumes h2).suffix))))
  · intro s i t u u' v w r ls b h1 h2 h3 h4 _ h6 ih
    exact (ident_consumes h1).then (h6.suffix.trans ((List.suffix_cons _ _).trans (ih.1.trans
      ((newlines_consumes h4).suffix.trans (h3.suffix.trans (isLabels_consumes h2).suffix)))))

theorem isBody_suffix {s r : Str} {v : Body} (h : IsBody U s v r) : r <:+ s := (isBody_suffix_aux h).1

theorem isElement_consumes {s r : Str} {el : BodyElement} (h : IsElement U s el r) : Consumes s r := by
  cases h with
  | «attribute» => rename_i h; exact isAttribute_consumes h
  | emptyBlock =>
    obtain ⟨i, t, u, v, h1, h2, h3, h4⟩ : ∃ i t u v, Ident U s i t ∧ IsLabels U t _ u ∧
      SkipInline u ('}' :: v) ∧ SkipInline v r := ⟨_, _, _, _, ‹_›, ‹_›, ‹_›, ‹_›⟩
    exact (ident_consumes h1).then (h4.suffix.trans ((List.suffix_cons _ _).trans (h3.suffix.trans
      (isLabels_consumes h2).suffix)))
  | oneLineBlock =>
    obtain ⟨i, t, u, u', v, h1, h2, h3, h4, h5⟩ : ∃ i t u u' v, Ident U s i t ∧ IsLabels U t _ u ∧ SkipInline u u' ∧
      IsAttribute U u' _ _ ('}' :: v) ∧ SkipInline v r := ⟨_, _, _, _, _, ‹_›, ‹_›, ‹_›, ‹_›, ‹_›⟩
    exact (ident_consumes h1).then (h5.suffix.trans ((List.suffix_cons _ _).trans ((isAttribute_consumes h4).suffix.trans
      (h3.suffix.trans (isLabels_consumes h2).suffix))))
  | block =>
    obtain ⟨i, t, u, u', v, w, h1, h2, h3, h4, h5, h6⟩ : ∃ i t u u' v w, Ident U s i t ∧ IsLabels U t _ u ∧
      SkipInline u u' ∧ Newlines u' v ∧ IsBody U v _ ('}' :: w) ∧ SkipInline w r :=
      ⟨_, _, _, _, _, _, ‹_›, ‹_›, ‹_›, ‹_›, ‹_›, ‹_›⟩
    exact (ident_consumes h1).then (h6.suffix.trans ((List.suffix_cons _ _).trans ((isBody_suffix h5).trans
      ((newlines_consumes h4).suffix.trans (h3.suffix.trans (isLabels_consumes h2).suffix)))))

theorem newline_not_identStart {s r : Str} (h : Newlines s r) : ¬ Head (IdentStart U) s := by
  refine not_head (newlines_head h) ?_
  rintro c (rfl | rfl | rfl | rfl) <;> exact not_identStart (by decide) (by decide)

theorem bodyElement_complete {b : Parser Body} {n : Nat} (hb : CompleteBody U b n) {s r : Str} {el : BodyElement}
    (h0 : SkipInline s s) (hs : s.length ≤ n) (h : IsElement U s el r) : bodyElement U b s = .ok r el := by
  unfold bodyElement
  cases h with
  | «attribute» =>
    rename_i k e h
    rw [orElse_of_ok (r := r) (v := .attribute k e)]
    rw [mapP_eq_ok]
    exact ⟨(k, e), attributeP_iff.2 ⟨s, h0, h⟩, rfl⟩
  | emptyBlock =>
    rename_i i t u v ls a1 a2 a3 a4
    obtain ⟨h1, h2, h3, h4⟩ : Ident U s i t ∧ IsLabels U t ls u ∧
      SkipInline u ('}' :: v) ∧ SkipInline v r := ⟨‹_›, ‹_›, ‹_›, ‹_›⟩
    obtain ⟨x, hx, hne⟩ := isLabels_head h2
    rw [orElse_of_err (by rw [mapP_apply, attributeP_err' h0 h1 hx hne]; rfl)]
    apply orElse_of_ok
    unfold oneLineBlock
    rw [header_eq _ h0 h1 h2, inlineWs_bind (fun _ _ => rfl) h3, bind_apply]
    have : opt (attributeP U) ('}' :: v) = .ok ('}' :: v) none := by
      rw [opt_eq_ok]; exact .inr ⟨attributeP_err h3.again rbrace_not_ident, rfl, rfl⟩
    rw [this, bind_ok, inlineWs_bind (fun _ _ => rfl) h3.again, bind_apply, show '}' :: v = ['}'] ++ v from rfl,
      tag_append, bind_ok, inlineWs_bind (fun _ _ => rfl) h4]
    rfl
  | oneLineBlock =>
    rename_i i t u u' v ls k e a1 a2 a3 a4 a5
    obtain ⟨h1, h2, h3, h4, h5⟩ : Ident U s i t ∧ IsLabels U t ls u ∧ SkipInline u u' ∧
      IsAttribute U u' k e ('}' :: v) ∧ SkipInline v r := ⟨‹_›, ‹_›, ‹_›, ‹_›, ‹_›⟩
    obtain ⟨x, hx, hne⟩ := isLabels_head h2
    rw [orElse_of_err (by rw [mapP_apply, attributeP_err' h0 h1 hx hne]; rfl)]
    apply orElse_of_ok
    unfold oneLineBlock
    rw [header_eq _ h0 h1 h2, inlineWs_bind (fun _ _ => rfl) h3, bind_apply]
    have : opt (attributeP U) u' = .ok ('}' :: v) (some (k, e)) := by
      rw [opt_eq_ok]; exact .inl ⟨(k, e), attributeP_iff.2 ⟨u', h3.again, h4⟩, rfl⟩
    rw [this, bind_ok, inlineWs_bind (fun _ _ => rfl) (isAttribute_again h4), bind_apply,
      show '}' :: v = ['}'] ++ v from rfl, tag_append, bind_ok, inlineWs_bind (fun _ _ => rfl) h5]
    rfl
  | block =>
    rename_i i t u u' v w ls b' a1 a2 a3 a4 a5 a6
    obtain ⟨h1, h2, h3, h4, h5, h6⟩ : Ident U s i t ∧ IsLabels U t ls u ∧ SkipInline u u' ∧ Newlines u' v ∧
      IsBody U v b' ('}' :: w) ∧ SkipInline w r := ⟨‹_›, ‹_›, ‹_›, ‹_›, ‹_›, ‹_›⟩
    obtain ⟨x, hx, hne⟩ := isLabels_head h2
    rw [orElse_of_err (by rw [mapP_apply, attributeP_err' h0 h1 hx hne]; rfl), orElse_of_err]
    · unfold block
      rw [header_eq _ h0 h1 h2, inlineWs_bind (fun _ _ => rfl) h3, bind_apply]
      obtain ⟨v1, _, l, h7, hl, rfl⟩ := newline_complete h4
      have h8 := isBody_unprepend hl h5
      obtain ⟨v2, hv2⟩ := skipInline_total v1
      have h9 : IsBody U v2 b' ('}' :: w) := by
        obtain ⟨l, hl, rfl, -⟩ := hv2
        exact isBody_unprepend (seq_inline_layout hl) h8
      have l1 := (ident_consumes h1).length
      have l2 := (isLabels_consumes h2).length
      have l3 := h3.length
      have l4 := (newlines_consumes h4).length
      have l5 := hv2.length
      simp only [List.length_append] at l4
      rw [h7, bind_ok, inlineWs_bind (fun _ _ => rfl) hv2, bind_apply,
        hb _ _ _ (by omega) (.inr ⟨_, rfl⟩) h9, bind_ok]
      have hw : SkipInline ('}' :: w) ('}' :: w) :=
        .refl (not_starts_inline ((isBody_suffix_aux h9).2 _ _ rfl))
      rw [inlineWs_bind (fun _ _ => rfl) hw, bind_apply,
        show '}' :: w = ['}'] ++ w from rfl, tag_append, bind_ok, inlineWs_bind (fun _ _ => rfl) h6]
      rfl
    · unfold oneLineBlock
      rw [header_eq _ h0 h1 h2, inlineWs_bind (fun _ _ => rfl) h3, bind_apply]
      have : opt (attributeP U) u' = .ok u' none := by
        rw [opt_eq_ok]; exact .inr ⟨attributeP_err h3.again (newline_not_identStart h4), rfl, rfl⟩
      rw [this, bind_ok, inlineWs_bind (fun _ _ => rfl) h3.again, bind_apply, tag_eq_err.2]
      · rfl
      · rintro ⟨x, rfl⟩
        have := newlines_head h4
        rw [List.cons_append, head_cons] at this; revert this; decide

theorem header_err {α : Type} (f : Str → List BlockLabel → Parser α) {s : Str}
    (h0 : SkipInline s s) (h1 : ¬ Head (IdentStart U) s) :
    (do let _ ← inlineWs
        let t ← identifier U
        let _ ← inlineWs
        let ls ← blockLabels U
        let _ ← inlineWs
        let _ ← tag ['{']
        f t ls : Parser α) s = .err := by
  rw [inlineWs_bind (fun _ _ => rfl) h0, bind_apply, identifier_err h1]; rfl

theorem bodyElement_err {b : Parser Body} {s : Str} (h0 : SkipInline s s) (h1 : ¬ Head (IdentStart U) s) :
    bodyElement U b s = .err := by
  unfold bodyElement
  rw [orElse_of_err (by rw [mapP_apply, attributeP_err h0 h1]; rfl), orElse_of_err]
  · exact header_err _ h0 h1
  · exact header_err _ h0 h1

/-! ## bodies -/

/-- What may follow an element: the parser. -/
theorem elementEnd_sound {s r : Str} (h : (mapP (fun _ => ()) newline <//> eof) s = .ok r ()) : IsElementEnd s r := by
  simp only [orElse_eq_ok, mapP_eq_ok, eof_eq_ok] at h
  rcases h with ⟨_, h, -⟩ | ⟨-, rfl, rfl⟩
  · exact .newline _ _ (newline_sound h)
  · exact .eof

theorem elementEnd_complete {s r : Str} (h : IsElementEnd s r) : ∃ r' l,
    (mapP (fun _ => ()) newline <//> eof) s = .ok r' () ∧ Seq LayoutItem l ∧ r = l ++ r' := by
  cases h with
  | newline =>
    rename_i h
    obtain ⟨r', v, l, h1, h2, h3⟩ := newline_complete h
    exact ⟨r', l, by rw [orElse_of_ok (r := r') (v := ())]; simp [h1], h2, h3⟩
  | eof =>
    refine ⟨[], [], ?_, .nil, rfl⟩
    rw [orElse_of_err]
    · rfl
    · rw [mapP_apply, map_eq_err]
      refine Tame.newline.not_ok fun r v hk => ?_
      obtain ⟨c, t, h, -⟩ := newlines_head (newline_sound hk)
      cases h

theorem elementEnd_suffix {s r : Str} (h : IsElementEnd s r) : r <:+ s := by
  cases h with
  | newline => rename_i h; exact (newlines_consumes h).suffix
  | eof => exact List.suffix_refl _

theorem bodyItem_eq_ok {b : Parser Body} {s r : Str} {el : BodyElement} :
    bodyItem U b s = .ok r el ↔ ∃ t u, SkipLayout s t ∧ bodyElement U b t = .ok u el ∧
      (mapP (fun _ => ()) newline <//> eof) u = .ok r () := by
  unfold bodyItem
  rw [wsThen_eq_ok]
  simp only [bindP_eq_ok, pure_apply]
  constructor
  · rintro ⟨t, h1, u, _, h2, r', _, h3, h4⟩
    injection h4 with h5 h6; subst h5 h6
    exact ⟨t, u, h1, h2, h3⟩
  · rintro ⟨t, u, h1, h2, h3⟩
    exact ⟨t, h1, u, _, h2, r, _, h3, rfl⟩

theorem bodyItem_sound {b : Parser Body} (hb : SoundBody U b) {s r : Str} {el : BodyElement}
    (h : bodyItem U b s = .ok r el) : ∃ t u, SkipLayout s t ∧ IsElement U t el u ∧ IsElementEnd u r := by
  obtain ⟨t, u, h1, h2, h3⟩ := bodyItem_eq_ok.1 h
  obtain ⟨t', h4, h5⟩ := bodyElement_sound hb h2
  have := inline_after_layout h1 h4; subst this
  exact ⟨t', u, h1, h5, elementEnd_sound h3⟩

theorem bodyStep_sound {b : Parser Body} (hb : SoundBody U b) : SoundBody U (bodyStep U b) := by
  intro s r v h
  unfold bodyStep at h
  simp only [bindP_eq_ok, pure_apply] at h
  obtain ⟨t, vs, h1, r', _, h2, h3⟩ := h
  injection h3 with h4 h5; subst h4 h5
  replace h2 := ws_skip h2
  rw [many0_eq_ok] at h1
  induction h1 with
  | stop s h => exact .done _ _ h2
  | stuck s r' v h hl =>
    obtain ⟨t, u, h3, h4, h5⟩ := bodyItem_sound hb h
    exact absurd (((isElement_consumes h4).of_suffix h3.suffix).then (elementEnd_suffix h5)).length (by omega)
  | cons s r' v vs t h hl _ ih =>
    obtain ⟨t, u, h3, h4, h5⟩ := bodyItem_sound hb h
    exact .elem _ _ _ _ _ _ _ h3 h4 h5 (ih h2)

theorem bodyN_sound : ∀ n : Nat, SoundBody U (bodyN U n) := by
  intro n
  induction n with
  | zero => intro s r v h; cases h
  | succ n ih => exact bodyStep_sound ih

theorem bodyMany_complete {b : Parser Body} {n : Nat} (hb : CompleteBody U b n) : ∀ (v : Body) (s r : Str),
    s.length ≤ n → BodyEnd r → IsBody U s v r →
    ∃ t, many0 (bodyItem U b) s = .ok t v ∧ SkipLayout t r := by
  intro v
  induction v with
  | nil =>
    intro s r hs hr h
    have h : SkipLayout s r := by cases h; assumption
    refine ⟨s, many0_stop ?_, h⟩
    unfold bodyItem
    rw [ws_bind (fun _ _ => rfl) h, bind_apply, bodyElement_err (skipInline_again h)]
    · rfl
    · rcases hr with rfl | ⟨t, rfl⟩
      · rintro ⟨c, t, h, -⟩; cases h
      · exact rbrace_not_ident
  | cons el els ih =>
    intro s r hs hr h
    obtain ⟨t, u, w, h1, h2, h3, h4⟩ : ∃ t u w, SkipLayout s t ∧ IsElement U t el u ∧ IsElementEnd u w ∧
      IsBody U w els r := by cases h; exact ⟨_, _, _, ‹_›, ‹_›, ‹_›, ‹_›⟩
    obtain ⟨w', l, h5, hl, rfl⟩ := elementEnd_complete h3
    have l1 := h1.length
    have l2 := (isElement_consumes h2).length
    have l3 := (elementEnd_suffix h3).length_le
    simp at l3
    obtain ⟨x, h6, h7⟩ := ih w' r (by omega) hr (isBody_unprepend hl h4)
    refine ⟨x, ?_, h7⟩
    have hi : bodyItem U b s = .ok w' el :=
      bodyItem_eq_ok.2 ⟨t, u, h1, bodyElement_complete hb (skipInline_again h1) (by omega) h2, h5⟩
    rw [many0_cons hi (by omega), h6]; rfl

theorem bodyStep_complete {b : Parser Body} {n : Nat} (hb : CompleteBody U b n) :
    CompleteBody U (bodyStep U b) (n + 1) := by
  intro s v r hs hr h
  obtain ⟨t, h1, h2⟩ := bodyMany_complete hb v s r (by omega) hr h
  obtain ⟨_, h3⟩ := ws_iff.2 h2
  unfold bodyStep
  simp [h1, h3]

theorem bodyN_complete : ∀ n : Nat, CompleteBody U (bodyN U n) n := by
  intro n
  induction n with
  | zero => intro s v r h; omega
  | succ n ih => exact bodyStep_complete ih

theorem body_sound {s r : Str} {v : Body} (h : body U s = .ok r v) : IsBody U s v r := bodyN_sound _ _ _ _ h

theorem body_complete {s r : Str} {v : Body} (hr : BodyEnd r) (h : IsBody U s v r) : body U s = .ok r v :=
  bodyN_complete _ _ _ _ (by omega) hr h

theorem parseStr_iff {s : Str} {v : Body} : parseStr U s = .ok v ↔ Document U s v := by
  unfold parseStr configFile exact Document
  constructor
  · intro h
    cases hb : body U s with
    | ok r v' =>
      rw [hb, bind_ok] at h
      cases r with
      | nil => simp [PRes.toRes] at h; subst h; exact body_sound hb
      | cons c r => simp [PRes.toRes] at h
    | _ => rw [hb] at h; simp [PRes.bind, PRes.toRes] at h
  · intro h
    rw [body_complete (.inl rfl) h]
    simp [PRes.toRes]

end
end Verif
