import Verif.Proofs.Body
import Verif.Spec.Pieces
/-! # The public parsers of the pieces -/
set_option autoImplicit false

namespace Verif
open PRes Spec

/-- A repetition whose item is described by `I`. -/
theorem many0_pieces {p : Parser Str} {I : Str → Str → Str → Prop} (ht : Tame p)
    (hp : ∀ s r v, (p s = .ok r v ∧ r.length < s.length) ↔ I s v r) {s r : Str} {vs : List Str} :
    many0 p s = .ok r vs ↔ Pieces I s vs r := by
  rw [many0_eq_ok]
  constructor
  · intro h
    induction h with
    | stop s h =>
      refine .done _ fun v t hi => ?_
      rw [((hp _ _ _).2 hi).1] at h; cases h
    | stuck s r v h hl =>
      refine .done _ fun v' t hi => ?_
      obtain ⟨h1, h2⟩ := (hp _ _ _).2 hi
      rw [h1] at h; injection h with h3 h4; subst h3; omega
    | cons s r v vs t h hl _ ih => exact .piece _ _ _ _ _ ((hp _ _ _).1 ⟨h, hl⟩) ih
  · intro h
    induction h with
    | done r h =>
      rcases ht r with ⟨t, v, hk⟩ | hk
      · by_cases hl : t.length < r.length
        · exact absurd ((hp _ _ _).1 ⟨hk, hl⟩) (h _ _)
        · exact .stuck _ _ _ hk (by omega)
      · exact .stop _ hk
    | piece s t r v vs h _ ih =>
      obtain ⟨h1, h2⟩ := (hp _ _ _).2 h
      exact .cons _ _ _ _ _ h1 h2 ih

/-- A run of the characters of a class. -/
theorem run_iff {f : Char → Bool} {P : Char → Prop} (hf : ∀ c, f c = true ↔ P c) {s r v : Str} :
    (takeWhile f s = .ok r v ∧ r.length < s.length) ↔ s = v ++ r ∧ v ≠ [] ∧ (∀ c ∈ v, P c) ∧ ¬ Head P r := by
  have : (takeWhile f s = .ok r v ∧ r.length < s.length) ↔ takeWhile1 f s = .ok r v := by
    simp only [takeWhile, takeWhile1]
    constructor
    · rintro ⟨h, hl⟩
      injection h with h1 h2
      cases hw : List.takeWhile f s with
      | nil =>
        exfalso
        have := List.takeWhile_append_dropWhile (p := f) (l := s)
        rw [hw, List.nil_append] at this
        rw [← h1, this] at hl; omega
      | cons c t => rw [hw] at h2; simp [← h2, h1]
    · intro h
      cases hw : List.takeWhile f s with
      | nil => simp [hw] at h
      | cons c t =>
        simp [hw] at h
        obtain ⟨h1, h2⟩ := h
        refine ⟨by rw [h1, h2], ?_⟩
        have := congrArg List.length (List.takeWhile_append_dropWhile (p := f) (l := s))
        rw [hw, h1] at this; simp at this; omega
  rw [this, takeWhile1_iff]
  constructor
  · rintro ⟨rfl, h1, h2, h3⟩
    refine ⟨rfl, h1, fun c hc => (hf c).1 (h2 c hc), ?_⟩
    rintro ⟨c, t, rfl, hc⟩
    have := h3 c t rfl
    rw [(hf c).2 hc] at this; cases this
  · rintro ⟨rfl, h1, h2, h3⟩
    refine ⟨rfl, h1, fun c hc => (hf c).2 (h2 c hc), ?_⟩
    intro c t e
    cases hfc : f c with
    | false => rfl
    | true => exact absurd ⟨c, t, e, (hf c).1 hfc⟩ h3


theorem inlineComment_lt {s r v : Str} (h : inlineComment s = .ok r v) : r.length < s.length := by
  obtain ⟨rfl, -⟩ := inlineComment_eq_ok.1 h; simp; omega
theorem hashComment_lt {s r v : Str} (h : hashComment s = .ok r v) : r.length < s.length := by
  obtain ⟨e, -, rfl, -⟩ := hashComment_eq_ok.1 h; simp; omega
theorem slashComment_lt {s r v : Str} (h : slashComment s = .ok r v) : r.length < s.length := by
  obtain ⟨e, -, rfl, -⟩ := slashComment_eq_ok.1 h; simp; omega

theorem not_hash {s : Str} (h : ∀ t, s ≠ '#' :: t) : hashComment s = .err :=
  Tame.hashComment.not_ok fun r v hk => by obtain ⟨e, -, rfl, -⟩ := hashComment_eq_ok.1 hk; exact h _ rfl
theorem not_slash {s : Str} (h : ∀ t, s ≠ '/' :: '/' :: t) : slashComment s = .err :=
  Tame.slashComment.not_ok fun r v hk => by obtain ⟨e, -, rfl, -⟩ := slashComment_eq_ok.1 hk; exact h _ rfl
theorem not_inlineComment {s : Str} (h : ∀ t, s ≠ '/' :: '*' :: t) : inlineComment s = .err :=
  Tame.inlineComment.not_ok fun r v hk => by obtain ⟨rfl, -⟩ := inlineComment_eq_ok.1 hk; exact h _ rfl

theorem inlineWs_pieces {s r : Str} {vs : List Str} : inlineWs s = .ok r vs ↔ Pieces InlinePiece s vs r := by
  unfold inlineWs
  refine many0_pieces (.orElse .inlineComment (.takeWhile _)) ?_
  intro s r v
  simp only [orElse_eq_ok]
  constructor
  · rintro ⟨h | ⟨-, h⟩, hl⟩
    · obtain ⟨rfl, hh⟩ := inlineComment_eq_ok.1 h
      exact .comment _ _ hh
    · obtain ⟨rfl, h1, h2, h3⟩ := (run_iff fun c => isBlank_iff (c := c)).1 ⟨h, hl⟩
      exact .run _ _ h1 h2 h3
  · intro h
    cases h with
    | comment =>
      rename_i h
      exact ⟨.inl (inlineComment_eq_ok.2 ⟨rfl, h⟩), by simp; omega⟩
    | run =>
      rename_i h1 h2 h3
      obtain ⟨h4, h5⟩ := (run_iff fun c => isBlank_iff (c := c)).2 ⟨rfl, h1, h2, h3⟩
      refine ⟨.inr ⟨not_inlineComment ?_, h4⟩, h5⟩
      intro t e
      cases v with
      | nil => exact h1 rfl
      | cons c v =>
        simp at e
        rcases h2 c (List.mem_cons_self ..) with h | h <;> (rw [h] at e; exact absurd e.1 (by decide))

theorem ws_pieces {s r : Str} {vs : List Str} : ws s = .ok r vs ↔ Pieces LayoutPiece s vs r := by
  unfold ws
  refine many0_pieces (.orElse .hashComment (.orElse .slashComment (.orElse .inlineComment (.takeWhile _)))) ?_
  intro s r v
  simp only [orElse_eq_ok]
  constructor
  · rintro ⟨h | ⟨-, h | ⟨-, h | ⟨-, h⟩⟩⟩, hl⟩
    · obtain ⟨e, he, rfl, hh⟩ := hashComment_eq_ok.1 h
      exact .hash _ _ _ hh he
    · obtain ⟨e, he, rfl, hh⟩ := slashComment_eq_ok.1 h
      exact .slash _ _ _ hh he
    · obtain ⟨rfl, hh⟩ := inlineComment_eq_ok.1 h
      exact .comment _ _ hh
    · obtain ⟨rfl, h1, h2, h3⟩ := (run_iff fun c => isSpace_iff (c := c)).1 ⟨h, hl⟩
      exact .run _ _ h1 h2 h3
  · intro h
    cases h with
    | hash =>
      rename_i e h2 h1
      have h := hashComment_eq_ok (r := r).2 ⟨e, h2, rfl, h1⟩
      exact ⟨.inl h, hashComment_lt h⟩
    | slash =>
      rename_i e h2 h1
      have h := slashComment_eq_ok (r := r).2 ⟨e, h2, rfl, h1⟩
      exact ⟨.inr ⟨not_hash (by simp), .inl h⟩, slashComment_lt h⟩
    | comment =>
      rename_i h
      have h := inlineComment_eq_ok (r := r).2 ⟨rfl, h⟩
      exact ⟨.inr ⟨not_hash (by simp), .inr ⟨not_slash (by simp), .inl h⟩⟩, inlineComment_lt h⟩
    | run =>
      rename_i h1 h2 h3
      obtain ⟨h4, h5⟩ := (run_iff fun c => isSpace_iff (c := c)).2 ⟨rfl, h1, h2, h3⟩
      have key : ∀ d t, v ++ r = d :: t → d = ' ' ∨ d = '\t' ∨ d = '\r' ∨ d = '\n' := by
        intro d t e
        cases v with
        | nil => exact absurd rfl h1
        | cons c v =>
          simp at e; rw [← e.1]; exact h2 c (List.mem_cons_self ..)
      refine ⟨.inr ⟨not_hash fun t e => ?_, .inr ⟨not_slash fun t e => ?_, .inr ⟨not_inlineComment fun t e => ?_, h4⟩⟩⟩, h5⟩
      all_goals exact absurd (key _ _ e) (by decide)

theorem newlineItem_iff {s r v : Str} : newlineItem s = .ok r v ↔ NewlinePiece s v r := by
  unfold newlineItem
  simp only [orElse_eq_ok, bindP_eq_ok, eol_eq_ok, pure_apply]
  constructor
  · rintro (h | ⟨-, h | ⟨-, ⟨t, c, h, u, e, ⟨he, rfl⟩, h'⟩ | ⟨-, he, rfl⟩⟩⟩)
    · obtain ⟨e, he, rfl, hh⟩ := hashComment_eq_ok.1 h
      exact .hash _ _ _ hh he
    · obtain ⟨e, he, rfl, hh⟩ := slashComment_eq_ok.1 h
      exact .slash _ _ _ hh he
    · injection h' with h1 h2; subst h1 h2
      obtain ⟨rfl, hh⟩ := inlineComment_eq_ok.1 h
      have := NewlinePiece.comment _ _ u hh he
      simpa using this
    · exact .eol _ _ he
  · intro h
    cases h with
    | hash =>
      rename_i e h2 h1
      exact .inl (hashComment_eq_ok.2 ⟨e, h2, rfl, h1⟩)
    | slash =>
      rename_i e h2 h1
      exact .inr ⟨not_hash (by simp), .inl (slashComment_eq_ok.2 ⟨e, h2, rfl, h1⟩)⟩
    | comment =>
      rename_i e h2 h1
      refine .inr ⟨not_hash (by simp), .inr ⟨not_slash (by simp), .inl ⟨e ++ r, v, ?_, r, e, ⟨h2, rfl⟩, rfl⟩⟩⟩
      exact inlineComment_eq_ok.2 ⟨by simp, h1⟩
    | eol =>
      rename_i h
      have key : ∀ d t, v ++ r = d :: t → d = '\r' ∨ d = '\n' := by
        intro d t e; cases h <;> (simp at e; rw [← e.1]; simp)
      refine .inr ⟨not_hash fun t e => ?_, .inr ⟨not_slash fun t e => ?_, .inr ⟨?_, h, rfl⟩⟩⟩
      · exact absurd (key _ _ e) (by decide)
      · exact absurd (key _ _ e) (by decide)
      · rw [bind_apply, not_inlineComment fun t e => absurd (key _ _ e) (by decide)]; rfl

theorem newlinePiece_lt {s r v : Str} (h : NewlinePiece s v r) : r.length < s.length := by
  cases h with
  | eol => rename_i h; cases h <;> (simp; try omega)
  | _ => simp; omega

theorem newline_pieces {s r : Str} {vs : List Str} :
    newline s = .ok r vs ↔ ∃ v ws t, vs = v :: ws ∧ NewlinePiece s v t ∧ Pieces NewlinePiece t ws r := by
  have hm : ∀ {s r : Str} {vs : List Str}, many0 newlineItem s = .ok r vs ↔ Pieces NewlinePiece s vs r :=
    many0_pieces Tame.newlineItem fun s r v =>
      ⟨fun h => newlineItem_iff.1 h.1, fun h => ⟨newlineItem_iff.2 h, newlinePiece_lt h⟩⟩
  unfold newline many1
  rw [bind_eq_ok]
  constructor
  · rintro ⟨t, v, h1, h2⟩
    obtain ⟨ws, h3, rfl⟩ := map_eq_ok.1 h2
    exact ⟨v, ws, t, rfl, newlineItem_iff.1 h1, hm.1 h3⟩
  · rintro ⟨v, ws, t, rfl, h1, h2⟩
    exact ⟨t, v, newlineItem_iff.2 h1, map_eq_ok.2 ⟨ws, hm.2 h2, rfl⟩⟩

section
variable {U : CharClass}

theorem expression_sound : ∀ s r v, expression U s = .ok r v → IsExpr U s v r := fun _ _ _ => expression_iff.1

theorem expression_completeBelow (n : Nat) : CompleteBelow U (expression U) n :=
  ⟨fun _ _ _ _ h => expression_iff.2 h, fun _ _ hc _ => exprStep_err hc⟩

theorem tuple_iff {s r : Str} {es : List Expr} :
    tuple (expression U) s = .ok r es ↔ ∃ t, s = '[' :: t ∧ IsTupleBody U t es r := by
  constructor
  · exact tuple_sound expression_sound
  · rintro ⟨t, rfl, h⟩; exact tuple_complete (expression_completeBelow (t.length + 1)) (by omega) h

theorem object_iff {s r : Str} {es : List (ObjKey × Expr)} :
    object U (expression U) s = .ok r es ↔ ∃ t, SkipLayout s ('{' :: t) ∧ IsObjectBody U t es r := by
  constructor
  · exact object_sound expression_sound
  · rintro ⟨t, h, hb⟩; exact object_complete (expression_completeBelow _) (Nat.le_refl _) h hb

theorem objectKey_iff {s r : Str} {k : ObjKey} :
    objectElementIdentifier U (expression U) s = .ok r k ↔ IsObjectKey U s k r := by
  constructor
  · exact objectKey_sound expression_sound
  · exact objectKey_complete (expression_completeBelow (s.length + 1)) (by omega)

theorem objectElement_iff {s r : Str} {k : ObjKey} {v : Expr} :
    objectElement U (expression U) s = .ok r (k, v) ↔ ObjectElem U s k v r := by
  unfold objectElement
  rw [inlineThen_eq_ok]
  simp only [bindP_eq_ok, tag_eq_ok, objectKey_iff, expression_iff, pure_apply]
  constructor
  · rintro ⟨t, h1, u, k', h2, v0, _, h3, v1, _, ⟨rfl, -⟩, w, _, h4, x, e', h5, y, _, h6, h7⟩
    injection h7 with h8 h9; injection h9 with h10 h11; subst h8 h10 h11
    exact .mk _ _ _ _ _ _ _ _ _ h1 h2 (inlineWs_skip h3) (inlineWs_skip h4) h5 (inlineWs_skip h6)
  · intro h
    cases h with
    | mk t u v0 w x _ _ _ h1 h2 h3 h4 h5 h6 =>
    obtain ⟨_, h3⟩ := inlineWs_iff.2 h3
    obtain ⟨_, h4⟩ := inlineWs_iff.2 h4
    obtain ⟨_, h6⟩ := inlineWs_iff.2 h6
    exact ⟨t, h1, u, k, h2, _, _, h3, v0, _, ⟨rfl, rfl⟩, w, _, h4, x, _, h5, r, _, h6, rfl⟩

/-- Quoted labels that cannot be read: the label parser then stops everything instead of leaving the text. -/
theorem blockLabels_iff {s r : Str} {ls : List BlockLabel} (hr : ∀ t, SkipInline r t → ¬ Head (· = '"') t) :
    blockLabels U s = .ok r ls ↔ LabelList U s ls r := by
  unfold blockLabels
  rw [many0_eq_ok]
  constructor
  · intro h
    induction h with
    | stop s h =>
      obtain ⟨t, ht⟩ := skipInline_total s
      refine .done _ t ht ?_
      rintro ⟨l, r, hl⟩
      obtain ⟨w, hw⟩ := skipInline_total r
      rw [inlineWsAround_eq_ok.2 ⟨t, r, ht, blockLabel_iff.2 hl, hw⟩] at h; cases h
    | stuck s r' v h hl =>
      obtain ⟨t, u, h1, h2, h3⟩ := inlineWsAround_eq_ok.1 h
      have := ((isLabel_consumes (blockLabel_iff.1 h2)).of_suffix h1.suffix).then h3.suffix
      exact absurd this.length (by omega)
    | cons s r' v vs t h hl _ ih =>
      obtain ⟨x, y, h1, h2, h3⟩ := inlineWsAround_eq_ok.1 h
      exact .label _ _ _ _ _ _ _ h1 (blockLabel_iff.1 h2) h3 (ih hr)
  · intro h
    induction h with
    | done s t h1 h2 =>
      refine .stop _ ?_
      unfold inlineWsAround
      rw [inlineWs_bind (fun _ _ => rfl) h1, bind_apply, blockLabel_err]
      · rfl
      · rintro ⟨c, u, rfl, hc | rfl⟩
        · obtain ⟨x, i, hx⟩ := identifier_ok_of_head ⟨c, u, rfl, hc⟩
          exact h2 ⟨_, _, .ident _ _ _ (identifier_iff.1 hx)⟩
        · exact hr _ h1 ⟨_, _, rfl, rfl⟩
    | label s t u v r l ls h1 h2 h3 _ ih =>
      have c := ((isLabel_consumes h2).of_suffix h1.suffix).then h3.suffix
      exact .cons _ _ _ _ _ (inlineWsAround_eq_ok.2 ⟨t, u, h1, blockLabel_iff.2 h2, h3⟩) c.length (ih hr)

theorem body_completeBody (n : Nat) : CompleteBody U (body U) n := fun _ _ _ _ hr h => body_complete hr h

theorem body_soundBody : SoundBody U (body U) := fun _ _ _ => body_sound

/-- Spaces and comments before an element do not matter. -/
theorem inlineFirst_skip {α : Type} {f : Parser α} {s t : Str} (h : SkipInline s t) :
    (inlineWs >>= fun _ => f) s = (inlineWs >>= fun _ => f) t := by
  rw [inlineWs_bind (fun _ _ => rfl) h, inlineWs_bind (fun _ _ => rfl) h.again]

theorem attributeP_skip {s t : Str} (h : SkipInline s t) : attributeP U s = attributeP U t := inlineFirst_skip h
theorem oneLineBlock_skip {s t : Str} (h : SkipInline s t) : oneLineBlock U s = oneLineBlock U t := inlineFirst_skip h
theorem block_skip {b : Parser Body} {s t : Str} (h : SkipInline s t) : block U b s = block U b t := inlineFirst_skip h

theorem bodyElement_skip {b : Parser Body} {s t : Str} (h : SkipInline s t) : bodyElement U b s = bodyElement U b t := by
  simp only [bodyElement, Verif.orElse, mapP_apply, attributeP_skip h, oneLineBlock_skip h, block_skip h]

theorem bodyElement_iff {s r : Str} {el : BodyElement} :
    bodyElement U (body U) s = .ok r el ↔ ∃ t, SkipInline s t ∧ IsElement U t el r := by
  constructor
  · exact bodyElement_sound body_soundBody
  · rintro ⟨t, h1, h2⟩
    have h3 := bodyElement_complete (body_completeBody t.length) h1.again (Nat.le_refl _) h2
    rw [← h3, bodyElement_skip h1]


theorem oneLineBlock_iff {s r : Str} {el : BodyElement} :
    oneLineBlock U s = .ok r el ↔
      ∃ t i ls b, SkipInline s t ∧ OneLine U t i ls b r ∧ el = .block (.borrowed i) ls b := by
  constructor
  · intro h
    unfold oneLineBlock at h
    obtain ⟨s', i, t, ls, u, h1, h2, h3, h4⟩ := header_eq_ok.1 h
    simp only [bindP_eq_ok, tag_eq_ok, pure_apply, opt_eq_ok] at h4
    obtain ⟨u', _, h5, w, a, h6, w', _, h7, v, _, ⟨rfl, -⟩, r', _, h8, h9⟩ := h4
    injection h9 with h10 h11; subst h10 h11
    rcases h6 with ⟨⟨k, e⟩, h6, rfl⟩ | ⟨-, rfl, rfl⟩
    · obtain ⟨x, hx, ha⟩ := attributeP_iff.1 h6
      have h5 := inlineWs_skip h5
      have := inline_again_eq h5 hx; subst this
      have hw : SkipInline w w := by cases ha; exact Skip.again ‹_›
      have := inline_again_eq hw (inlineWs_skip h7); subst this
      exact ⟨s', i, ls, _, h1, .one _ _ _ _ _ _ _ _ _ _ h2 h3 h5 ha (inlineWs_skip h8), rfl⟩
    · exact ⟨s', i, ls, _, h1,
        .empty _ _ _ _ _ _ _ h2 h3 (inline_trans (inlineWs_skip h5) (inlineWs_skip h7)) (inlineWs_skip h8), rfl⟩
  · rintro ⟨t, i, ls, b, h0, h, rfl⟩
    rw [oneLineBlock_skip h0]
    replace h0 := h0.again
    cases h with
    | empty =>
      obtain ⟨x, u, v, h1, h2, h3, h4⟩ : ∃ x u v, Ident U t i x ∧ IsLabels U x ls u ∧ SkipInline u ('}' :: v) ∧
        SkipInline v r := ⟨_, _, _, ‹_›, ‹_›, ‹_›, ‹_›⟩
      unfold oneLineBlock
      rw [header_eq _ h0 h1 h2, inlineWs_bind (fun _ _ => rfl) h3, bind_apply]
      have : opt (attributeP U) ('}' :: v) = .ok ('}' :: v) none := by
        rw [opt_eq_ok]; exact .inr ⟨attributeP_err h3.again rbrace_not_ident, rfl, rfl⟩
      rw [this, bind_ok, inlineWs_bind (fun _ _ => rfl) h3.again, bind_apply, show '}' :: v = ['}'] ++ v from rfl,
        tag_append, bind_ok, inlineWs_bind (fun _ _ => rfl) h4]
      rfl
    | one =>
      rename_i k e _ _ _ _ _
      obtain ⟨x, u, u', v, h1, h2, h3, h4, h5⟩ : ∃ x u u' v, Ident U t i x ∧ IsLabels U x ls u ∧ SkipInline u u' ∧
        IsAttribute U u' k e ('}' :: v) ∧ SkipInline v r := ⟨_, _, _, _, ‹_›, ‹_›, ‹_›, ‹_›, ‹_›⟩
      unfold oneLineBlock
      rw [header_eq _ h0 h1 h2, inlineWs_bind (fun _ _ => rfl) h3, bind_apply]
      have : opt (attributeP U) u' = .ok ('}' :: v) (some (k, e)) := by
        rw [opt_eq_ok]; exact .inl ⟨(k, e), attributeP_iff.2 ⟨u', h3.again, h4⟩, rfl⟩
      rw [this, bind_ok, inlineWs_bind (fun _ _ => rfl) (isAttribute_again h4), bind_apply,
        show '}' :: v = ['}'] ++ v from rfl, tag_append, bind_ok, inlineWs_bind (fun _ _ => rfl) h5]
      rfl

theorem isBody_inline {s r : Str} {v : Body} (h : IsBody U s v r) : SkipInline r r := by
  refine IsBody.rec (motive_1 := fun _ _ r _ => SkipInline r r) (motive_2 := fun _ _ _ _ => True)
    ?_ ?_ ?_ ?_ ?_ ?_ h
  · intro s r h; exact skipInline_again h
  · intros; assumption
  all_goals intros; trivial

theorem block_iff {s r : Str} {el : BodyElement} :
    block U (body U) s = .ok r el ↔
      ∃ t i ls b, SkipInline s t ∧ ManyLines U t i ls b r ∧ el = .block (.borrowed i) ls b := by
  constructor
  · intro h
    unfold block at h
    obtain ⟨s', i, t, ls, u, h1, h2, h3, h4⟩ := header_eq_ok.1 h
    simp only [bindP_eq_ok, tag_eq_ok, pure_apply] at h4
    obtain ⟨u', _, h5, v, _, h6, v', _, h7, w, b, h8, w', _, h9, x, _, ⟨rfl, -⟩, r', _, h10, h11⟩ := h4
    injection h11 with h12 h13; subst h12 h13
    have h8 := body_sound h8
    have := inline_again_eq (isBody_inline h8) (inlineWs_skip h9); subst this
    obtain ⟨l, hl, rfl, -⟩ := inlineWs_skip h7
    exact ⟨s', i, ls, b, h1, .mk _ _ _ _ _ _ _ _ _ _ h2 h3 (inlineWs_skip h5) (newline_sound h6)
      (isBody_prepend (seq_inline_layout hl) h8) (inlineWs_skip h10), rfl⟩
  · rintro ⟨t, i, ls, b, h0, h, rfl⟩
    rw [block_skip h0]
    replace h0 := h0.again
    cases h with
    | mk =>
    obtain ⟨x, u, u', v, w, h1, h2, h3, h4, h5, h6⟩ : ∃ x u u' v w, Ident U t i x ∧ IsLabels U x ls u ∧ SkipInline u u' ∧
      Newlines u' v ∧ IsBody U v b ('}' :: w) ∧ SkipInline w r := ⟨_, _, _, _, _, ‹_›, ‹_›, ‹_›, ‹_›, ‹_›, ‹_›⟩
    unfold block
    rw [header_eq _ h0 h1 h2, inlineWs_bind (fun _ _ => rfl) h3, bind_apply]
    obtain ⟨v1, _, l, h7, hl, rfl⟩ := newline_complete h4
    have h8 := isBody_unprepend hl h5
    obtain ⟨v2, hv2⟩ := skipInline_total v1
    have h9 : IsBody U v2 b ('}' :: w) := by
      obtain ⟨l, hl, rfl, -⟩ := hv2
      exact isBody_unprepend (seq_inline_layout hl) h8
    rw [h7, bind_ok, inlineWs_bind (fun _ _ => rfl) hv2, bind_apply,
      body_complete (.inr ⟨_, rfl⟩) h9, bind_ok]
    have hw : SkipInline ('}' :: w) ('}' :: w) :=
      .refl (not_starts_inline ((isBody_suffix_aux h9).2 _ _ rfl))
    rw [inlineWs_bind (fun _ _ => rfl) hw, bind_apply,
      show '}' :: w = ['}'] ++ w from rfl, tag_append, bind_ok, inlineWs_bind (fun _ _ => rfl) h6]
    rfl

/-- An element of a body on its line is taken by the parser. -/
theorem bodyItem_of {n : Nat} {b : Parser Body} (hb : CompleteBody U b n) {s : Str} (hs : s.length ≤ n)
    (h0 : SkipLayout s s) (h : ElementLine U s) : ∃ r v, bodyItem U b s = .ok r v ∧ r.length < s.length := by
  obtain ⟨el, t, u, h1, h2⟩ := h
  obtain ⟨u', l, h3, -, rfl⟩ := elementEnd_complete h2
  refine ⟨u', el, bodyItem_eq_ok.2 ⟨s, t, h0, bodyElement_complete hb (skipInline_again h0) hs h1, h3⟩, ?_⟩
  have l1 := (isElement_consumes h1).length
  have l2 := (elementEnd_suffix h2).length_le
  simp at l2; omega

theorem many_length {α : Type} {p : Parser α} {s t : Str} {vs : List α} (h : Many p s vs t) : t.length ≤ s.length := by
  induction h with
  | stop => exact Nat.le_refl _
  | stuck => exact Nat.le_refl _
  | cons s r v vs t _ hl _ ih => omega

theorem many_end {α : Type} {p : Parser α} {s t : Str} {vs : List α} (h : Many p s vs t) {r : Str} {v : α}
    (hk : p t = .ok r v) : t.length ≤ r.length := by
  induction h with
  | stop s h => rw [h] at hk; cases hk
  | stuck s r v h hl => rw [h] at hk; injection hk with h1 h2; subst h1; exact hl
  | cons s r v vs t _ hl _ ih => exact ih hk

/-- The body parser stops only where no element begins. -/
theorem body_stops_elem {s r : Str} {v : Body} (h : body U s = .ok r v) : ¬ ElementLine U r := by
  intro he
  unfold body bodyN bodyStep at h
  simp only [bindP_eq_ok, pure_apply] at h
  obtain ⟨t, vs, h1, r', _, h2, h3⟩ := h
  injection h3 with h4 h5; subst h4 h5
  replace h2 := ws_skip h2
  rw [many0_eq_ok] at h1
  have hlen := many_length h1
  obtain ⟨w, x, h6, h7⟩ := bodyItem_of (bodyN_complete s.length) (by have := h2.length; omega) h2.again he
  have h8 : bodyItem U (bodyN U s.length) t = bodyItem U (bodyN U s.length) r' := by
    unfold bodyItem
    rw [ws_bind (fun _ _ => rfl) h2, ws_bind (fun _ _ => rfl) h2.again]
  rw [h6] at h8
  have := many_end h1 h8
  have := h2.length
  omega

theorem bodyMany_complete' {b : Parser Body} {n : Nat} (hb : CompleteBody U b n) : ∀ (v : Body) (s r : Str),
    s.length ≤ n → ¬ Head (IdentStart U) r → IsBody U s v r →
    ∃ t, many0 (bodyItem U b) s = .ok t v ∧ SkipLayout t r := by
  intro v
  induction v with
  | nil =>
    intro s r hs hr h
    have h : SkipLayout s r := by cases h; assumption
    refine ⟨s, many0_stop ?_, h⟩
    unfold bodyItem
    rw [ws_bind (fun _ _ => rfl) h, bind_apply, bodyElement_err (skipInline_again h) hr]
    rfl
  | cons el els ih =>
    intro s r hs hr h
    obtain ⟨t, u, w, h1, h2, h3, h4⟩ : ∃ t u w, SkipLayout s t ∧ IsElement U t el u ∧ IsElementEnd u w ∧
      IsBody U w els r := by cases h; exact ⟨_, _, _, ‹_›, ‹_›, ‹_›, ‹_›⟩
    obtain ⟨w', l, h5, hl, rfl⟩ := elementEnd_complete h3
    have l1 := h1.length
    have l2 := (isElement_consumes h2).length
    have l3 := (elementEnd_suffix h3).length_le
    simp at l3
    obtain ⟨x, h6, h7⟩ := ih w' r (by omega) hr (isBody_unprepend hl h4)
    refine ⟨x, ?_, h7⟩
    have hi : bodyItem U b s = .ok w' el :=
      bodyItem_eq_ok.2 ⟨t, u, h1, bodyElement_complete hb (skipInline_again h1) (by omega) h2, h5⟩
    rw [many0_cons hi (by omega), h6]; rfl

theorem body_complete' {s r : Str} {v : Body} (hr : ¬ Head (IdentStart U) r) (h : IsBody U s v r) :
    body U s = .ok r v := by
  obtain ⟨t, h1, h2⟩ := bodyMany_complete' (bodyN_complete s.length) v s r (Nat.le_refl _) hr h
  obtain ⟨_, h3⟩ := ws_iff.2 h2
  unfold body bodyN bodyStep
  simp [h1, h3]

end
end Verif
