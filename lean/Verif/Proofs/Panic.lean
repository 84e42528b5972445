import Verif.Spec.Position
import Verif.Proofs.Position
import Verif.Proofs.Safety
/-! # Parsing panics exactly when an expression position holds a heredoc that cannot be unindented -/
set_option autoImplicit false

namespace Verif
open PRes Spec

section
variable {U : CharClass}

theorem bindP_eq_panic {α β : Type} {p : Parser α} {f : α → Parser β} {s : Str} :
    (p >>= f) s = .panic ↔ p s = .panic ∨ ∃ r v, p s = .ok r v ∧ f v r = .panic := by
  rw [bind_apply, bind_eq_panic]

theorem ws_ne_panic {s : Str} : ws s ≠ .panic := (Tame.ws.safe s).1
theorem inlineWs_ne_panic {s : Str} : inlineWs s ≠ .panic := (Tame.inlineWs.safe s).1
theorem newline_ne_panic {s : Str} : newline s ≠ .panic := (Tame.newline.safe s).1
theorem identifier_ne_panic {s : Str} : identifier U s ≠ .panic := ((Tame.identifier U).safe s).1
theorem number_ne_panic {s : Str} : number s ≠ .panic := (Tame.number.safe s).1
theorem boolean_ne_panic {s : Str} : boolean s ≠ .panic := (Tame.boolean.safe s).1
theorem null_ne_panic {s : Str} : null s ≠ .panic := by unfold null; simp [tag_eq_panic]
theorem eof_ne_panic {s : Str} : eof s ≠ .panic := (Tame.eof.safe s).1

theorem string_eq_panic {s : Str} : string U s = .panic ↔ HeredocPanics U s := by
  unfold string
  rw [orElse_eq_panic]
  constructor
  · rintro (h | ⟨-, h⟩)
    · exact absurd h (Safe.quotedString.mapP s).1
    · exact heredocString_panic.1 h
  · intro h
    refine .inr ⟨?_, heredocString_panic.2 h⟩
    obtain ⟨m, e, t, c, b, r, -, -, -, rfl, -⟩ := h
    rw [mapP_apply, quotedString_err (by simp)]; rfl

theorem opt_eq_panic {α : Type} {p : Parser α} {s : Str} : opt p s = .panic ↔ p s = .panic := by
  unfold opt; cases p s <;> simp

/-- Every panic of `e` is explained by a position. -/
def PanicSound (U : CharClass) (e : Parser Expr) : Prop := ∀ s, e s = .panic → ∃ u, ExprAt U s u ∧ HeredocPanics U u

variable {e : Parser Expr}

theorem tupleElem_panic (hp : PanicSound U e) {s : Str} (h : tupleElem e s = .panic) :
    ∃ u, TupleAt U s u ∧ HeredocPanics U u := by
  unfold tupleElem at h
  replace h := bindP_eq_panic.1 h; rcases h with h | ⟨t, _, h1, h2⟩
  · exact absurd h ws_ne_panic
  · obtain ⟨u, h3, h4⟩ := hp _ h2
    exact ⟨u, .elem _ _ _ (ws_skip h1) h3, h4⟩

theorem tupleSep_ne_panic {s : Str} : tupleSep s ≠ .panic := by
  intro h
  unfold tupleSep at h
  replace h := bindP_eq_panic.1 h; rcases h with h | ⟨t, _, h1, h2⟩
  · exact ws_ne_panic h
  · exact tag_eq_panic h2

/-- A panic after an element. -/
theorem sepTail_panic (he : ∀ s r v, e s = .ok r v → IsExpr U s v r) (hp : PanicSound U e) :
    ∀ (n : Nat) (s : Str), sepTailAux tupleSep (tupleElem e) n s = .panic →
      ∃ t u, SkipLayout s (',' :: t) ∧ TupleAt U t u ∧ HeredocPanics U u := by
  intro n
  induction n with
  | zero => intro s h; cases h
  | succ n ih =>
    intro s h
    rw [sepTailAux_succ] at h
    split at h
    · cases h
    · cases h
    · exact absurd ‹_› tupleSep_ne_panic
    · cases h
    · rename_i t v hs
      have hs := (tupleSep_iff.1 hs).2
      split at h
      · cases h
      · cases h
      · obtain ⟨u, h1, h2⟩ := tupleElem_panic hp ‹_›
        exact ⟨t, u, hs, h1, h2⟩
      · cases h
      · rename_i x w hx
        split at h
        · rw [map_eq_panic] at h
          obtain ⟨t', u, h1, h2, h3⟩ := ih _ h
          obtain ⟨y, hy, hx⟩ := tupleElem_iff.1 hx
          exact ⟨t, u, hs, .next _ _ _ _ _ _ hy (he _ _ _ hx) h1 h2, h3⟩
        · cases h

theorem tupleEnd_ne_panic {s : Str} : tupleEnd s ≠ .panic := by
  intro h
  have : Loc (fun _ => False) 0 tupleEnd :=
    .bind .ws fun _ => .bind (.wsAround (.opt (.tag _))) fun _ => .bind (.tag _) fun _ => .pure _
  obtain ⟨_, _, h⟩ := this.pan s h
  exact h

theorem tuple_panic (he : ∀ s r v, e s = .ok r v → IsExpr U s v r) (hp : PanicSound U e) {s : Str}
    (h : tuple e s = .panic) : ∃ t u, s = '[' :: t ∧ TupleAt U t u ∧ HeredocPanics U u := by
  unfold tuple at h
  replace h := bindP_eq_panic.1 h; rcases h with h | ⟨t, _, h1, h2⟩
  · exact absurd h tag_eq_panic
  obtain ⟨rfl, -⟩ := tag_eq_ok.1 h1
  refine ⟨t, ?_⟩
  rcases bindP_eq_panic.1 h2 with h | ⟨x, _, h3, h4⟩
  · unfold separatedList at h
    split at h
    · cases h
    · cases h
    · obtain ⟨u, h1, h2⟩ := tupleElem_panic hp ‹_›
      exact ⟨u, rfl, h1, h2⟩
    · cases h
    · rename_i x w hx
      split at h
      · rw [map_eq_panic] at h
        obtain ⟨t', u, h1, h2, h3⟩ := sepTail_panic he hp _ _ h
        obtain ⟨y, hy, hx⟩ := tupleElem_iff.1 hx
        exact ⟨u, rfl, .next _ _ _ _ _ _ hy (he _ _ _ hx) h1 h2, h3⟩
      · cases h
  · rcases bindP_eq_panic.1 h4 with h | ⟨_, _, _, h⟩
    · exact absurd h tupleEnd_ne_panic
    · cases h

theorem objectSeparator_ne_panic {s : Str} : objectSeparator s ≠ .panic := by
  intro h
  have : Loc (fun _ => False) 0 objectSeparator :=
    .orElse (.mapP (.tag _)) (.orElse (.mapP .newline) (.mapP (.peek (.tag _))))
  obtain ⟨_, _, h⟩ := this.pan s h
  exact h

theorem objectKey_panic (hp : PanicSound U e) {s : Str}
    (h : objectElementIdentifier U e s = .panic) : ¬ Head (IdentStart U) s ∧ ∃ u, ExprAt U s u ∧ HeredocPanics U u := by
  unfold objectElementIdentifier at h
  rcases orElse_eq_panic.1 h with h | ⟨h1, h2⟩
  · rw [mapP_apply, map_eq_panic] at h; exact absurd h identifier_ne_panic
  · constructor
    · intro hh
      obtain ⟨r', i, hk⟩ := identifier_ok_of_head hh
      rw [mapP_apply, map_eq_err, hk] at h1; cases h1
    · rw [mapP_apply, map_eq_panic] at h2
      unfold recognize at h2
      rcases bind_eq_panic.1 h2 with h | ⟨_, _, _, h⟩
      · exact hp _ h
      · cases h

theorem objectItem_panic (he : ∀ s r v, e s = .ok r v → IsExpr U s v r) (hp : PanicSound U e) {s : Str}
    (h : objectItem U e s = .panic) : ∃ u, ObjectAt U s u ∧ HeredocPanics U u := by
  unfold objectItem objectElement at h
  replace h := bindP_eq_panic.1 h; rcases h with h | ⟨t, _, h1, h⟩
  · exact absurd h ws_ne_panic
  have h1 := ws_skip h1
  replace h := bindP_eq_panic.1 h; rcases h with h | ⟨_, _, -, h⟩
  · replace h := bindP_eq_panic.1 h; rcases h with h | ⟨t', _, h2, h⟩
    · exact absurd h inlineWs_ne_panic
    have := inline_after_layout h1 (inlineWs_skip h2); subst this
    replace h := bindP_eq_panic.1 h; rcases h with h | ⟨v, k, h3, h⟩
    · obtain ⟨hn, u, h3, h4⟩ := objectKey_panic hp h
      exact ⟨u, .key _ _ _ h1 hn h3, h4⟩
    have h3 := objectKey_sound he h3
    replace h := bindP_eq_panic.1 h; rcases h with h | ⟨w, _, h4, h⟩
    · exact absurd h inlineWs_ne_panic
    replace h := bindP_eq_panic.1 h; rcases h with h | ⟨w', _, h5, h⟩
    · exact absurd h tag_eq_panic
    obtain ⟨rfl, -⟩ := tag_eq_ok.1 h5
    replace h := bindP_eq_panic.1 h; rcases h with h | ⟨x, _, h6, h⟩
    · exact absurd h inlineWs_ne_panic
    replace h := bindP_eq_panic.1 h; rcases h with h | ⟨y, _, h7, h⟩
    · obtain ⟨u, h7, h8⟩ := hp _ h
      exact ⟨u, .value _ _ _ _ _ _ _ h1 h3 (inlineWs_skip h4) (inlineWs_skip h6) h7, h8⟩
    replace h := bindP_eq_panic.1 h; rcases h with h | ⟨_, _, _, h⟩
    · exact absurd h inlineWs_ne_panic
    · cases h
  · replace h := bindP_eq_panic.1 h; rcases h with h | ⟨_, _, _, h⟩
    · exact absurd h objectSeparator_ne_panic
    · cases h

theorem objectAt_prepend {l s u : Str} (hl : Seq LayoutItem l) (h : ObjectAt U s u) : ObjectAt U (l ++ s) u := by
  cases h with
  | key => exact .key _ _ _ (Skip.prepend hl ‹_›) ‹_› ‹_›
  | value => exact .value _ _ _ _ _ _ _ (Skip.prepend hl ‹_›) ‹_› ‹_› ‹_› ‹_›
  | next => exact .next _ _ _ _ _ _ _ _ _ _ _ (Skip.prepend hl ‹_›) ‹_› ‹_› ‹_› ‹_› ‹_› ‹_› ‹_›

theorem objectBody_panic (he : ∀ s r v, e s = .ok r v → IsExpr U s v r) (hp : PanicSound U e) {s : Str}
    (h : objectBody U e s = .panic) : ∃ u, ObjectAt U s u ∧ HeredocPanics U u := by
  unfold objectBody at h
  replace h := bindP_eq_panic.1 h; rcases h with h | ⟨_, _, _, h⟩
  · obtain ⟨t, ht, h⟩ := (many0_bad (fun t => ∀ u, ObjectAt U t u → ObjectAt U s u) (fun _ h => h)
      (fun s' r v h1 h2 _ u hu => h1 u (by
        obtain ⟨t, t', u, v', w, x, y, h1, h2, h3, h4, h5, h6, h7, h8⟩ := objectItem_eq_ok.1 h2
        have := inline_after_layout h1 h2; subst this
        exact .next _ _ _ _ _ _ _ _ _ _ _ h1 (objectKey_sound he h3) h4 h5 (he _ _ _ h6) h7
          (objectSeparator_sound h8) hu)) _ rfl).1 h
    obtain ⟨u, h1, h2⟩ := objectItem_panic he hp h
    exact ⟨u, ht u h1, h2⟩
  · replace h := bindP_eq_panic.1 h; rcases h with h | ⟨_, _, _, h⟩
    · exact absurd h ws_ne_panic
    · cases h

theorem wsAround_panic {α : Type} {p : Parser α} {s : Str} (h : wsAround p s = .panic) :
    ∃ t, SkipLayout s t ∧ p t = .panic := by
  unfold wsAround at h
  replace h := bindP_eq_panic.1 h; rcases h with h | ⟨t, _, h1, h⟩
  · exact absurd h ws_ne_panic
  replace h := bindP_eq_panic.1 h; rcases h with h | ⟨_, _, _, h⟩
  · exact ⟨t, ws_skip h1, h⟩
  replace h := bindP_eq_panic.1 h; rcases h with h | ⟨_, _, _, h⟩
  · exact absurd h ws_ne_panic
  · cases h

theorem object_panic (he : ∀ s r v, e s = .ok r v → IsExpr U s v r) (hp : PanicSound U e) {s : Str}
    (h : object U e s = .panic) : ∃ t u, SkipLayout s ('{' :: t) ∧ ObjectAt U t u ∧ HeredocPanics U u := by
  unfold object at h
  replace h := bindP_eq_panic.1 h; rcases h with h | ⟨t, _, h1, h⟩
  · obtain ⟨_, _, h⟩ := wsAround_panic h; exact absurd h tag_eq_panic
  obtain ⟨t1, t2, h2, h3, h4⟩ := wsAround_eq_ok.1 h1
  obtain ⟨rfl, -⟩ := tag_eq_ok.1 h3
  refine ⟨t2, ?_⟩
  replace h := bindP_eq_panic.1 h; rcases h with h | ⟨_, _, _, h⟩
  · obtain ⟨t', h5, h⟩ := wsAround_panic h
    obtain ⟨u, h6, h7⟩ := objectBody_panic he hp h
    refine ⟨u, h2, ?_, h7⟩
    have := layout_again_eq h4 h5; subst this
    obtain ⟨l, hl, rfl, -⟩ := h4
    exact objectAt_prepend hl h6
  · replace h := bindP_eq_panic.1 h; rcases h with h | ⟨_, _, _, h⟩
    · exact absurd h tag_eq_panic
    · cases h

theorem bracket_panic (hp : PanicSound U e) {s : Str} (h : bracketExpression e s = .panic) :
    ∃ t v u, SkipLayout s ('(' :: t) ∧ SkipLayout t v ∧ ExprAt U v u ∧ HeredocPanics U u := by
  unfold bracketExpression at h
  replace h := bindP_eq_panic.1 h; rcases h with h | ⟨t, _, h1, h⟩
  · obtain ⟨_, _, h⟩ := wsAround_panic h; exact absurd h tag_eq_panic
  obtain ⟨t1, t2, h2, h3, h4⟩ := wsAround_eq_ok.1 h1
  obtain ⟨rfl, -⟩ := tag_eq_ok.1 h3
  replace h := bindP_eq_panic.1 h; rcases h with h | ⟨_, _, _, h⟩
  · obtain ⟨t', h5, h⟩ := wsAround_panic h
    obtain ⟨u, h6, h7⟩ := hp _ h
    have := layout_again_eq h4 h5; subst this
    exact ⟨t2, _, u, h2, h4, h6, h7⟩
  · replace h := bindP_eq_panic.1 h; rcases h with h | ⟨_, _, _, h⟩
    · exact absurd h tag_eq_panic
    · cases h

theorem exprStep_panic (he : ∀ s r v, e s = .ok r v → IsExpr U s v r) (hp : PanicSound U e) :
    PanicSound U (exprStep U e) := by
  intro s h
  unfold exprStep at h
  simp only [orElse_eq_panic, mapP_apply, map_eq_panic, null_ne_panic, number_ne_panic, boolean_ne_panic, false_or,
    string_eq_panic] at h
  rcases h with ⟨-, -, -, h | ⟨-, h | ⟨-, h | ⟨-, h⟩⟩⟩⟩
  · exact ⟨s, .here s, h⟩
  · obtain ⟨t, u, rfl, h1, h2⟩ := tuple_panic he hp h
    exact ⟨u, .tuple _ _ h1, h2⟩
  · obtain ⟨t, u, h0, h1, h2⟩ := object_panic he hp h
    exact ⟨u, .object _ _ _ h0 h1, h2⟩
  · obtain ⟨t, v, u, h0, h1, h2, h3⟩ := bracket_panic hp h
    exact ⟨u, .bracket _ _ _ _ h0 h1 h2, h3⟩

theorem exprN_panic : ∀ n : Nat, PanicSound U (exprN U n) := by
  intro n
  induction n with
  | zero => intro s h; cases h
  | succ n ih => exact exprStep_panic (exprN_sound n) ih

theorem expression_panic : PanicSound U (expression U) := fun s h => exprN_panic (s.length + 1) s h

/-! ## bodies -/

theorem attributeP_panic {s : Str} (h : attributeP U s = .panic) :
    ∃ t u, SkipInline s t ∧ AttributeAt U t u ∧ HeredocPanics U u := by
  unfold attributeP at h
  replace h := bindP_eq_panic.1 h; rcases h with h | ⟨t, _, h1, h⟩
  · exact absurd h inlineWs_ne_panic
  replace h := bindP_eq_panic.1 h; rcases h with h | ⟨v, i, h2, h⟩
  · exact absurd h identifier_ne_panic
  replace h := bindP_eq_panic.1 h; rcases h with h | ⟨w, _, h3, h⟩
  · exact absurd h inlineWs_ne_panic
  replace h := bindP_eq_panic.1 h; rcases h with h | ⟨x, _, h4, h⟩
  · exact absurd h tag_eq_panic
  obtain ⟨rfl, -⟩ := tag_eq_ok.1 h4
  replace h := bindP_eq_panic.1 h; rcases h with h | ⟨y, _, h5, h⟩
  · exact absurd h inlineWs_ne_panic
  replace h := bindP_eq_panic.1 h; rcases h with h | ⟨z, _, h6, h⟩
  · obtain ⟨u, h7, h8⟩ := expression_panic _ h
    exact ⟨t, u, inlineWs_skip h1, .mk _ _ _ _ _ _ (identifier_iff.1 h2) (inlineWs_skip h3) (inlineWs_skip h5) h7, h8⟩
  replace h := bindP_eq_panic.1 h; rcases h with h | ⟨_, _, _, h⟩
  · exact absurd h inlineWs_ne_panic
  · cases h

theorem blockLabels_ne_panic {s : Str} : blockLabels U s ≠ .panic := by
  intro h
  obtain ⟨_, _, h⟩ := (Loc.blockLabels (B := fun _ => False) (n := 0)).pan s h
  exact h

theorem header_panic {α : Type} {f : Str → List BlockLabel → Parser α} {s : Str} (h :
    (do let _ ← inlineWs
        let t ← identifier U
        let _ ← inlineWs
        let ls ← blockLabels U
        let _ ← inlineWs
        let _ ← tag ['{']
        f t ls : Parser α) s = .panic) :
    ∃ s' i t ls u, SkipInline s s' ∧ Ident U s' i t ∧ IsLabels U t ls u ∧ f i ls u = .panic := by
  replace h := bindP_eq_panic.1 h; rcases h with h | ⟨t, _, h1, h⟩
  · exact absurd h inlineWs_ne_panic
  replace h := bindP_eq_panic.1 h; rcases h with h | ⟨v, i, h2, h⟩
  · exact absurd h identifier_ne_panic
  replace h := bindP_eq_panic.1 h; rcases h with h | ⟨w, _, h3, h⟩
  · exact absurd h inlineWs_ne_panic
  replace h := bindP_eq_panic.1 h; rcases h with h | ⟨x, _, h4, h⟩
  · exact absurd h blockLabels_ne_panic
  replace h := bindP_eq_panic.1 h; rcases h with h | ⟨y, _, h5, h⟩
  · exact absurd h inlineWs_ne_panic
  replace h := bindP_eq_panic.1 h; rcases h with h | ⟨z, _, h6, h⟩
  · exact absurd h tag_eq_panic
  obtain ⟨rfl, -⟩ := tag_eq_ok.1 h6
  exact ⟨t, i, v, _, z, inlineWs_skip h1, identifier_iff.1 h2,
    (isLabels_inline (inlineWs_skip h3)).2 (blockLabels_sound h4 (inlineWs_skip h5)), h⟩

theorem oneLineBlock_panic {s : Str} (h : oneLineBlock U s = .panic) :
    ∃ s' i t ls v w u, SkipInline s s' ∧ Ident U s' i t ∧ IsLabels U t ls v ∧ SkipInline v w ∧ AttributeAt U w u ∧
      HeredocPanics U u := by
  unfold oneLineBlock at h
  obtain ⟨s', i, t, ls, v, h1, h2, h3, h⟩ := header_panic h
  replace h := bindP_eq_panic.1 h; rcases h with h | ⟨w, _, h4, h⟩
  · exact absurd h inlineWs_ne_panic
  have h4 := inlineWs_skip h4
  replace h := bindP_eq_panic.1 h; rcases h with h | ⟨x, _, h5, h⟩
  · rw [opt_eq_panic] at h
    obtain ⟨w', u, h5, h6, h7⟩ := attributeP_panic h
    have := inline_again_eq h4 h5; subst this
    exact ⟨s', i, t, ls, v, _, u, h1, h2, h3, h4, h6, h7⟩
  replace h := bindP_eq_panic.1 h; rcases h with h | ⟨_, _, _, h⟩
  · exact absurd h inlineWs_ne_panic
  replace h := bindP_eq_panic.1 h; rcases h with h | ⟨_, _, _, h⟩
  · exact absurd h tag_eq_panic
  replace h := bindP_eq_panic.1 h; rcases h with h | ⟨_, _, _, h⟩
  · exact absurd h inlineWs_ne_panic
  · cases h

/-- Every panic of a body parser is explained by a position. -/
def PanicSoundBody (U : CharClass) (b : Parser Body) : Prop :=
  ∀ s, b s = .panic → ∃ u, BodyAt U .expression s u ∧ HeredocPanics U u

theorem bodyAt_prepend {k : Kind} {l s u : Str} (hl : Seq LayoutItem l) (h : BodyAt U k s u) : BodyAt U k (l ++ s) u := by
  cases h with
  | «attribute» => exact .attribute _ _ _ (Skip.prepend hl ‹_›) ‹_›
  | label => exact .label _ _ _ _ _ (Skip.prepend hl ‹_›) ‹_› ‹_›
  | oneLine => exact .oneLine _ _ _ _ _ _ _ _ (Skip.prepend hl ‹_›) ‹_› ‹_› ‹_› ‹_›
  | block => exact .block _ _ _ _ _ _ _ _ _ _ (Skip.prepend hl ‹_›) ‹_› ‹_› ‹_› ‹_› ‹_›
  | next => exact .next _ _ _ _ _ _ _ (Skip.prepend hl ‹_›) ‹_› ‹_› ‹_›

variable {b : Parser Body}

theorem block_panic (hp : PanicSoundBody U b) {s : Str} (h : block U b s = .panic) :
    ∃ s' i t ls v w x u, SkipInline s s' ∧ Ident U s' i t ∧ IsLabels U t ls v ∧ SkipInline v w ∧ Newlines w x ∧
      BodyAt U .expression x u ∧ HeredocPanics U u := by
  unfold block at h
  obtain ⟨s', i, t, ls, v, h1, h2, h3, h⟩ := header_panic h
  replace h := bindP_eq_panic.1 h; rcases h with h | ⟨w, _, h4, h⟩
  · exact absurd h inlineWs_ne_panic
  replace h := bindP_eq_panic.1 h; rcases h with h | ⟨x, _, h5, h⟩
  · exact absurd h newline_ne_panic
  replace h := bindP_eq_panic.1 h; rcases h with h | ⟨y, _, h6, h⟩
  · exact absurd h inlineWs_ne_panic
  replace h := bindP_eq_panic.1 h; rcases h with h | ⟨_, _, _, h⟩
  · obtain ⟨u, h7, h8⟩ := hp _ h
    obtain ⟨l, hl, rfl, -⟩ := inlineWs_skip h6
    exact ⟨s', i, t, ls, v, w, _, u, h1, h2, h3, inlineWs_skip h4, newline_sound h5,
      bodyAt_prepend (seq_inline_layout hl) h7, h8⟩
  replace h := bindP_eq_panic.1 h; rcases h with h | ⟨_, _, _, h⟩
  · exact absurd h inlineWs_ne_panic
  replace h := bindP_eq_panic.1 h; rcases h with h | ⟨_, _, _, h⟩
  · exact absurd h tag_eq_panic
  replace h := bindP_eq_panic.1 h; rcases h with h | ⟨_, _, _, h⟩
  · exact absurd h inlineWs_ne_panic
  · cases h

theorem bodyItem_panic (hp : PanicSoundBody U b) {s : Str} (h : bodyItem U b s = .panic) :
    ∃ u, BodyAt U .expression s u ∧ HeredocPanics U u := by
  unfold bodyItem at h
  replace h := bindP_eq_panic.1 h; rcases h with h | ⟨t, _, h1, h⟩
  · exact absurd h ws_ne_panic
  have h1 := ws_skip h1
  replace h := bindP_eq_panic.1 h; rcases h with h | ⟨_, _, _, h⟩
  · unfold bodyElement at h
    simp only [orElse_eq_panic, mapP_apply, map_eq_panic] at h
    rcases h with h | ⟨-, h | ⟨-, h⟩⟩
    · obtain ⟨t', u, h2, h3, h4⟩ := attributeP_panic h
      have := inline_after_layout h1 h2; subst this
      exact ⟨u, .attribute _ _ _ h1 h3, h4⟩
    · obtain ⟨t', i, x, ls, v, w, u, h2, h3, h4, h5, h6, h7⟩ := oneLineBlock_panic h
      have := inline_after_layout h1 h2; subst this
      exact ⟨u, .oneLine _ _ _ _ _ _ _ _ h1 h3 h4 h5 h6, h7⟩
    · obtain ⟨t', i, x, ls, v, w, y, u, h2, h3, h4, h5, h6, h7, h8⟩ := block_panic hp h
      have := inline_after_layout h1 h2; subst this
      exact ⟨u, .block _ _ _ _ _ _ _ _ _ _ h1 h3 h4 h5 h6 h7, h8⟩
  replace h := bindP_eq_panic.1 h; rcases h with h | ⟨_, _, _, h⟩
  · simp only [orElse_eq_panic, mapP_apply, map_eq_panic, newline_ne_panic, eof_ne_panic, and_false, or_self] at h
  · cases h

theorem bodyStep_panic (hb : SoundBody U b) (hp : PanicSoundBody U b) : PanicSoundBody U (bodyStep U b) := by
  intro s h
  unfold bodyStep at h
  replace h := bindP_eq_panic.1 h; rcases h with h | ⟨_, _, _, h⟩
  · obtain ⟨t, ht, h⟩ := (many0_bad (fun t => ∀ u, BodyAt U .expression t u → BodyAt U .expression s u) (fun _ h => h)
      (fun s' r v h1 h2 _ u hu => h1 u (by
        unfold bodyItem at h2
        obtain ⟨x, _, h3, h2⟩ := bindP_eq_ok.1 h2
        obtain ⟨y, el, h4, h2⟩ := bindP_eq_ok.1 h2
        obtain ⟨z, _, h5, h2⟩ := bindP_eq_ok.1 h2
        injection h2 with h6 h7; subst h6 h7
        have h3 := ws_skip h3
        obtain ⟨x', h6, h7⟩ := bodyElement_sound hb h4
        have := inline_after_layout h3 h6; subst this
        refine .next _ _ _ _ _ _ _ h3 h7 ?_ hu
        simp only [orElse_eq_ok, mapP_eq_ok, eof_eq_ok] at h5
        rcases h5 with ⟨_, h5, -⟩ | ⟨-, rfl, rfl⟩
        · exact .newline _ _ (newline_sound h5)
        · exact .eof)) _ rfl).1 h
    obtain ⟨u, h1, h2⟩ := bodyItem_panic hp h
    exact ⟨u, ht u h1, h2⟩
  · replace h := bindP_eq_panic.1 h; rcases h with h | ⟨_, _, _, h⟩
    · exact absurd h ws_ne_panic
    · cases h

theorem bodyN_panic : ∀ n : Nat, PanicSoundBody U (bodyN U n) := by
  intro n
  induction n with
  | zero => intro s h; cases h
  | succ n ih => exact bodyStep_panic (bodyN_sound n) ih

/-! ## The converse: such a position is reached, and nothing catches the panic -/

/-- `e` panics wherever a position demands it, on inputs shorter than `n`. -/
def PanicBelow (U : CharClass) (e : Parser Expr) (n : Nat) : Prop :=
  ∀ s u, s.length < n → ExprAt U s u → HeredocPanics U u → e s = .panic

theorem orElse_of_panic {α : Type} {p q : Parser α} {s : Str} (h : p s = .panic) : (p <//> q) s = .panic := by
  unfold orElse; rw [h]

theorem many0_panic {α : Type} {p : Parser α} {s : Str} (h : p s = .panic) : many0 p s = .panic := by
  rw [many0_unfold, h]

theorem heredocPanics_head {u : Str} (h : HeredocPanics U u) : Head (fun c => c = '<') u := by
  obtain ⟨m, e, t, c, b, r, -, -, -, rfl, -⟩ := h
  exact ⟨_, _, rfl, rfl⟩

theorem exprStep_here {u : Str} (h : HeredocPanics U u) : exprStep U e u = .panic := by
  have hh := heredocPanics_head h
  unfold exprStep
  rw [orElse_of_err (null_err (not_head hh _)), orElse_of_err, orElse_of_err (boolean_err (not_head hh _))]
  · apply orElse_of_panic
    rw [mapP_apply, string_eq_panic.2 h]; rfl
  · rintro c rfl; decide
  · rw [mapP_apply, number_err (not_head hh _)]
    · rfl
    · rintro c rfl; rw [numHead_iff]; decide
  · rintro c rfl; decide

theorem tupleElem_eq {s t : Str} (h : SkipLayout s t) : tupleElem e s = e t := by
  unfold tupleElem; rw [ws_bind (fun _ _ => rfl) h]

theorem tupleAt_panics {n : Nat} (hc : CompleteBelow U e n) (hp : PanicBelow U e n) {s u : Str} (h : TupleAt U s u)
    (hs : s.length < n) (hu : HeredocPanics U u) :
    tupleElem e s = .panic ∨ ∃ v x, tupleElem e s = .ok v x ∧ v.length < s.length ∧
      ∀ m, v.length < m → sepTailAux tupleSep (tupleElem e) m v = .panic := by
  refine TupleAt.rec (motive_1 := fun _ _ _ => True) (motive_2 := fun s u _ => s.length < n → HeredocPanics U u →
      (tupleElem e s = .panic ∨ ∃ v x, tupleElem e s = .ok v x ∧ v.length < s.length ∧
      ∀ m, v.length < m → sepTailAux tupleSep (tupleElem e) m v = .panic))
    (motive_3 := fun _ _ _ => True) ?_ ?_ ?_ ?_ ?_ ?_ ?_ ?_ ?_ h hs hu
  all_goals try (intros; trivial)
  · intro s t u h1 h2 _ hs hu
    left
    rw [tupleElem_eq h1]
    exact hp _ _ (by have := h1.length; omega) h2 hu
  · intro s t v w u x h1 h2 h3 h4 ih hs hu
    right
    have l1 := h1.length
    have l2 := (isExpr_consumes h2).length
    have l3 := h3.length
    simp at l3
    refine ⟨v, x, by rw [tupleElem_eq h1]; exact hc.1 _ _ _ (by omega) h2, by omega, ?_⟩
    intro m hm
    cases m with
    | zero => omega
    | succ m =>
      rw [sepTailAux_succ, tupleSep_iff.2 ⟨rfl, h3⟩]
      rcases ih (by omega) hu with h | ⟨v', x', h5, h6, h7⟩
      · simp only [h]
      · simp only [h5]
        rw [if_pos (by omega), h7 m (by omega)]; rfl

theorem objectAt_unprepend {l s u : Str} (hl : Seq LayoutItem l) (h : ObjectAt U (l ++ s) u) : ObjectAt U s u := by
  generalize hs : l ++ s = s' at h
  cases h with
  | key => subst hs; exact .key _ _ _ (Skip.unprepend layoutItem_prefix hl ‹_›) ‹_› ‹_›
  | value => subst hs; exact .value _ _ _ _ _ _ _ (Skip.unprepend layoutItem_prefix hl ‹_›) ‹_› ‹_› ‹_› ‹_›
  | next =>
    subst hs
    exact .next _ _ _ _ _ _ _ _ _ _ _ (Skip.unprepend layoutItem_prefix hl ‹_›) ‹_› ‹_› ‹_› ‹_› ‹_› ‹_› ‹_›

theorem objectItem_key_panic {s t : Str} (h1 : SkipLayout s t) (h2 : ¬ Head (IdentStart U) t) (h3 : e t = .panic) :
    objectItem U e s = .panic := by
  have : objectElementIdentifier U e t = .panic := by
    unfold objectElementIdentifier
    rw [orElse_of_err (by simp [identifier_err h2]), mapP_apply]
    unfold recognize; rw [h3]; rfl
  unfold objectItem objectElement
  rw [ws_bind (fun _ _ => rfl) h1, bind_apply, inlineWs_bind (fun _ _ => rfl) (skipInline_again h1), bind_apply, this]
  rfl

theorem objectItem_value_panic {s t v w x : Str} {k : ObjKey} (h1 : SkipLayout s t)
    (h2 : objectElementIdentifier U e t = .ok v k) (h3 : SkipInline v ('=' :: w)) (h4 : SkipInline w x) (h5 : e x = .panic) :
    objectItem U e s = .panic := by
  unfold objectItem objectElement
  rw [ws_bind (fun _ _ => rfl) h1, bind_apply, inlineWs_bind (fun _ _ => rfl) (skipInline_again h1), bind_apply, h2,
    bind_ok, inlineWs_bind (fun _ _ => rfl) h3, bind_apply, show '=' :: w = ['='] ++ w from rfl, tag_append, bind_ok,
    inlineWs_bind (fun _ _ => rfl) h4, bind_apply, h5]
  rfl

theorem objectAt_panics {n : Nat} (hc : CompleteBelow U e n) (hp : PanicBelow U e n) {s u : Str} (h : ObjectAt U s u)
    (hs : s.length < n) (hu : HeredocPanics U u) : many0 (objectItem U e) s = .panic := by
  refine ObjectAt.rec (motive_1 := fun _ _ _ => True) (motive_2 := fun _ _ _ => True)
    (motive_3 := fun s u _ => ∀ l s', Seq LayoutItem l → s = l ++ s' → s'.length < n → HeredocPanics U u →
      many0 (objectItem U e) s' = .panic) ?_ ?_ ?_ ?_ ?_ ?_ ?_ ?_ ?_ h [] s .nil rfl hs hu
  all_goals try (intros; trivial)
  · rintro s t u h1 h2 h3 - l s' hl rfl hs hu
    have h1 := Skip.unprepend layoutItem_prefix hl h1
    exact many0_panic (objectItem_key_panic h1 h2 (hp _ _ (by have := h1.length; omega) h3 hu))
  · rintro s t v w x u k h1 h2 h3 h4 h5 - l s' hl rfl hs hu
    have h1 := Skip.unprepend layoutItem_prefix hl h1
    have l1 := h1.length
    have l2 := (isObjectKey_consumes h2).length
    have l3 := h3.length
    have l4 := h4.length
    simp at l3
    exact many0_panic (objectItem_value_panic h1 (objectKey_complete hc (by omega) h2) h3 h4 (hp _ _ (by omega) h5 hu))
  · rintro s t v w x y z a u k ex h1 h2 h3 h4 h5 h6 h7 - ih l s' hl rfl hs hu
    have h1 := Skip.unprepend layoutItem_prefix hl h1
    obtain ⟨z', l', h9, hl', rfl⟩ := objectSeparator_complete h7
    have l1 := h1.length
    have l2 := (isObjectKey_consumes h2).length
    have l3 := h3.length
    have l4 := h4.length
    have l5 := (isExpr_consumes h5).length
    have l6 := h6.length
    have l7 := (objectSep_suffix h7).length_le
    simp at l3 l7
    have hi : objectItem U e s' = .ok z' (k, ex) := objectItem_eq_ok.2 ⟨t, t, v, w, x, y, z, h1, skipInline_again h1,
      objectKey_complete hc (by omega) h2, h3, h4, hc.1 _ _ _ (by omega) h5, h6, h9⟩
    rw [many0_cons hi (by omega), ih l' z' hl' rfl (by omega) hu]; rfl

theorem exprStep_panics {n : Nat} (hc : CompleteBelow U e n) (hp : PanicBelow U e n) :
    PanicBelow U (exprStep U e) (n + 1) := by
  intro s u hs h hu
  cases h with
  | here => exact exprStep_here hu
  | tuple =>
    rename_i t h
    have hh : Head (fun c => c = '[') ('[' :: t) := ⟨_, _, rfl, rfl⟩
    unfold exprStep
    rw [orElse_of_err (null_err (not_head hh _)), orElse_of_err, orElse_of_err (boolean_err (not_head hh _)),
      orElse_of_err (string_err (not_head hh _))]
    · apply orElse_of_panic
      rw [mapP_apply, map_eq_panic]
      unfold tuple
      rw [bind_apply, tag_cons_self, bind_ok, bind_apply]
      have : separatedList tupleSep (tupleElem e) t = .panic := by
        unfold separatedList
        rcases tupleAt_panics hc hp h (by simp at hs; omega) hu with h | ⟨v, x, h1, h2, h3⟩
        · rw [h]
        · rw [h1]; simp only; rw [if_pos h2, h3 _ (by omega)]; rfl
      rw [this]; rfl
    · rintro c rfl; decide
    · rintro c rfl; decide
    · rw [mapP_apply, number_err (not_head hh _)]
      · rfl
      · rintro c rfl; rw [numHead_iff]; decide
    · rintro c rfl; decide
  | object =>
    rename_i t h1 h2
    rw [exprStep_notToken (skip_notToken h1 (by unfold NotToken; decide))]
    apply orElse_of_panic
    rw [mapP_apply, map_eq_panic]
    obtain ⟨t', ht'⟩ := skipLayout_total t
    have l1 := h1.length
    have l2 := ht'.length
    simp at l1
    have hb : ObjectAt U t' u := by
      obtain ⟨l, hl, rfl, -⟩ := ht'
      exact objectAt_unprepend hl h2
    have h3 := objectAt_panics hc hp hb (by omega) hu
    unfold object
    rw [bind_apply, wsAround_eq_ok.2 ⟨_, t, h1, tag_cons_self _ _, ht'⟩, bind_ok, bind_apply]
    unfold wsAround
    rw [ws_bind (fun _ _ => rfl) ht'.again, bind_apply]
    unfold objectBody
    rw [bind_apply, h3]; rfl
  | bracket =>
    rename_i t v h1 h2 h3
    obtain ⟨k1, k2, k3⟩ : SkipLayout s ('(' :: t) ∧ SkipLayout t v ∧ ExprAt U v u := ⟨‹_›, ‹_›, ‹_›⟩
    rw [exprStep_notToken (skip_notToken k1 (by unfold NotToken; decide)),
      orElse_of_err (object_err k1 (by rw [head_cons]; decide))]
    have l1 := k1.length
    have l2 := k2.length
    simp at l1
    unfold bracketExpression
    rw [bind_apply, wsAround_eq_ok.2 ⟨_, t, k1, tag_cons_self _ _, k2⟩, bind_ok, bind_apply]
    unfold wsAround
    rw [ws_bind (fun _ _ => rfl) k2.again, bind_apply, hp _ _ (by omega) k3 hu]; rfl

theorem exprN_panics : ∀ n : Nat, PanicBelow U (exprN U n) n := by
  intro n
  induction n with
  | zero => intro s u h; omega
  | succ n ih => exact exprStep_panics (exprN_complete n) ih

/-- An expression panics exactly when a position in it holds a bad heredoc. -/
theorem expression_eq_panic {s : Str} : expression U s = .panic ↔ ∃ u, ExprAt U s u ∧ HeredocPanics U u :=
  ⟨expression_panic s, fun ⟨u, h, hu⟩ => exprN_panics _ _ _ (by omega) h hu⟩

theorem attributeAt_panics {s u : Str} (h0 : SkipInline s s) (h : AttributeAt U s u) (hu : HeredocPanics U u) :
    attributeP U s = .panic := by
  obtain ⟨i, t, v, w, h1, h2, h3, h4⟩ : ∃ i t v w, Ident U s i t ∧ SkipInline t ('=' :: v) ∧ SkipInline v w ∧
    ExprAt U w u := by cases h; exact ⟨_, _, _, _, ‹_›, ‹_›, ‹_›, ‹_›⟩
  unfold attributeP
  rw [inlineWs_bind (fun _ _ => rfl) h0, bind_apply, identifier_iff.2 h1, bind_ok,
    inlineWs_bind (fun _ _ => rfl) h2, bind_apply, show '=' :: v = ['='] ++ v from rfl, tag_append, bind_ok,
    inlineWs_bind (fun _ _ => rfl) h3, bind_apply, expression_eq_panic.2 ⟨u, h4, hu⟩]
  rfl

theorem bodyAt_unprepend {k : Kind} {l s u : Str} (hl : Seq LayoutItem l) (h : BodyAt U k (l ++ s) u) : BodyAt U k s u := by
  generalize hs : l ++ s = s' at h
  cases h with
  | «attribute» => subst hs; exact .attribute _ _ _ (Skip.unprepend layoutItem_prefix hl ‹_›) ‹_›
  | label => subst hs; exact .label _ _ _ _ _ (Skip.unprepend layoutItem_prefix hl ‹_›) ‹_› ‹_›
  | oneLine => subst hs; exact .oneLine _ _ _ _ _ _ _ _ (Skip.unprepend layoutItem_prefix hl ‹_›) ‹_› ‹_› ‹_› ‹_›
  | block => subst hs; exact .block _ _ _ _ _ _ _ _ _ _ (Skip.unprepend layoutItem_prefix hl ‹_›) ‹_› ‹_› ‹_› ‹_› ‹_›
  | next => subst hs; exact .next _ _ _ _ _ _ _ (Skip.unprepend layoutItem_prefix hl ‹_›) ‹_› ‹_› ‹_›

/-- `b` panics wherever a position demands it, on inputs shorter than `n`. -/
def PanicBelowBody (U : CharClass) (b : Parser Body) (n : Nat) : Prop :=
  ∀ s u, s.length < n → BodyAt U .expression s u → HeredocPanics U u → b s = .panic

theorem bodyItem_panics {s t : Str} (h : SkipLayout s t) (h' : bodyElement U b t = .panic) : bodyItem U b s = .panic := by
  unfold bodyItem
  rw [ws_bind (fun _ _ => rfl) h, bind_apply, h']; rfl

theorem bodyAt_panics {n : Nat} (hc : CompleteBody U b n) (hp : PanicBelowBody U b n) {k : Kind} {s u : Str} (h : BodyAt U k s u)
    (hk : k = .expression) (hu : HeredocPanics U u) : ∀ l s', Seq LayoutItem l → s = l ++ s' → s'.length ≤ n →
      many0 (bodyItem U b) s' = .panic := by
  induction h with
  | «attribute» s t u h1 h2 =>
    rintro l s' hl rfl hs
    have h1 := Skip.unprepend layoutItem_prefix hl h1
    refine many0_panic (bodyItem_panics h1 ?_)
    unfold bodyElement
    apply orElse_of_panic
    rw [mapP_apply, attributeAt_panics (skipInline_again h1) h2 hu]; rfl
  | label => cases hk
  | oneLine s t i v w x u ls h1 hi hl hx ha =>
    rintro l s' hl' rfl hs
    have h1 := Skip.unprepend layoutItem_prefix hl' h1
    refine many0_panic (bodyItem_panics h1 ?_)
    obtain ⟨y, hy, hne⟩ := isLabels_head hl
    unfold bodyElement
    rw [orElse_of_err (by rw [mapP_apply, attributeP_err' (skipInline_again h1) hi hy hne]; rfl)]
    apply orElse_of_panic
    unfold oneLineBlock
    rw [header_eq _ (skipInline_again h1) hi hl, inlineWs_bind (fun _ _ => rfl) hx, bind_apply,
      opt_eq_panic.2 (attributeAt_panics hx.again ha hu)]
    rfl
  | block k s t i v w x y u ls h1 hi hl hx hn h ih =>
    rintro l s' hl' rfl hs
    have h1 := Skip.unprepend layoutItem_prefix hl' h1
    refine many0_panic (bodyItem_panics h1 ?_)
    have h0 := skipInline_again h1
    obtain ⟨z, hz, hne⟩ := isLabels_head hl
    unfold bodyElement
    rw [orElse_of_err (by rw [mapP_apply, attributeP_err' h0 hi hz hne]; rfl), orElse_of_err]
    · unfold block
      rw [header_eq _ h0 hi hl, inlineWs_bind (fun _ _ => rfl) hx, bind_apply]
      obtain ⟨v1, _, l, h7, hl, rfl⟩ := newline_complete hn
      have h8 := bodyAt_unprepend hl h
      obtain ⟨v2, hv2⟩ := skipInline_total v1
      have h9 : BodyAt U .expression v2 u := by
        obtain ⟨l, hl, rfl, -⟩ := hv2
        subst hk
        exact bodyAt_unprepend (seq_inline_layout hl) h8
      have l0 := h1.length
      have l1 := (ident_consumes hi).length
      have l2 := (isLabels_consumes ‹IsLabels U v ls w›).length
      have l3 := hx.length
      have l4 := (newlines_consumes hn).length
      have l5 := hv2.length
      simp only [List.length_append] at l4
      rw [h7, bind_ok, inlineWs_bind (fun _ _ => rfl) hv2, bind_apply, hp _ _ (by omega) h9 hu]
      rfl
    · unfold oneLineBlock
      rw [header_eq _ h0 hi hl, inlineWs_bind (fun _ _ => rfl) hx, bind_apply]
      have : opt (attributeP U) x = .ok x none := by
        rw [opt_eq_ok]; exact .inr ⟨attributeP_err hx.again (newline_not_identStart hn), rfl, rfl⟩
      rw [this, bind_ok, inlineWs_bind (fun _ _ => rfl) hx.again, bind_apply, tag_eq_err.2]
      · rfl
      · rintro ⟨x, rfl⟩
        have := newlines_head hn
        rw [List.cons_append, head_cons] at this; revert this; decide
  | next k s t v w u el h1 h2 h3 _ ih =>
    rintro l s' hl rfl hs
    have h1 := Skip.unprepend layoutItem_prefix hl h1
    obtain ⟨w', l', h5, hl', rfl⟩ := elementEnd_complete h3
    have l1 := h1.length
    have l2 := (isElement_consumes h2).length
    have l3 := (elementEnd_suffix h3).length_le
    simp at l3
    have hi : bodyItem U b s' = .ok w' el :=
      bodyItem_eq_ok.2 ⟨t, v, h1, bodyElement_complete hc (skipInline_again h1) (by omega) h2, h5⟩
    rw [many0_cons hi (by omega), ih hk hu l' w' hl' rfl (by omega)]; rfl

theorem bodyN_panics : ∀ n : Nat, PanicBelowBody U (bodyN U n) n := by
  intro n
  induction n with
  | zero => intro s u h; omega
  | succ n ih =>
    intro s u hs h hu
    show bodyStep U (bodyN U n) s = .panic
    unfold bodyStep
    rw [bind_apply, bodyAt_panics (bodyN_complete n) ih h rfl hu [] s .nil rfl (by omega)]; rfl

theorem body_eq_panic {s : Str} : body U s = .panic ↔ ∃ u, BodyAt U .expression s u ∧ HeredocPanics U u :=
  ⟨bodyN_panic _ s, fun ⟨u, h, hu⟩ => bodyN_panics _ _ _ (by omega) h hu⟩

/-- `parse_str` panics exactly when an expression position of the text holds a bad heredoc. -/
theorem parseStr_eq_panic {s : Str} : parseStr U s = .panic ↔ ∃ u, BodyAt U .expression s u ∧ HeredocPanics U u := by
  rw [← body_eq_panic]
  constructor
  · intro h
    unfold parseStr PRes.toRes at h
    split at h
    · dsimp only at h; split at h <;> cases h
    · cases h
    · cases h
    · exact configFile_bad.1 ‹_›
    · cases h
  · intro h
    unfold parseStr configFile exact
    rw [h]; rfl

/-- `Expression::parse` panics exactly when an expression position of the text holds a bad heredoc. -/
theorem exprParse_eq_panic {s : Str} : Expr.parse U s = .panic ↔ ∃ u, ExprAt U s u ∧ HeredocPanics U u := by
  rw [← expression_eq_panic]
  constructor
  · intro h
    unfold Expr.parse PRes.toRes at h
    split at h
    · dsimp only at h; split at h <;> cases h
    · cases h
    · cases h
    · assumption
    · cases h
  · intro h
    unfold Expr.parse
    rw [h]; rfl

/-! ## bad lines -/

theorem replicate_space_inj {k k' : Nat} {u u' : Str} (h : List.replicate k ' ' ++ u = List.replicate k' ' ' ++ u')
    (hu : ∀ t, u ≠ ' ' :: t) (hu' : ∀ t, u' ≠ ' ' :: t) : k = k' ∧ u = u' := by
  induction k generalizing k' with
  | zero =>
    cases k' with
    | zero => exact ⟨rfl, h⟩
    | succ k' => simp [List.replicate_succ] at h; exact absurd h (hu _)
  | succ k ih =>
    cases k' with
    | zero => simp [List.replicate_succ] at h; exact absurd h.symm (hu' _)
    | succ k' =>
      simp [List.replicate_succ] at h
      obtain ⟨h1, h2⟩ := ih h
      exact ⟨by omega, h2⟩

theorem badLine_iff {n : Nat} {l : Str} : BadLine n l ↔ unindentLine n l = none := by
  obtain ⟨k, u, rfl, hu⟩ := split_spaces l
  by_cases hk : n ≤ k
  · have e : List.replicate k ' ' ++ u = List.replicate n ' ' ++ (List.replicate (k - n) ' ' ++ u) := by
      rw [← List.append_assoc, List.replicate_append_replicate]; congr 2; omega
    have h1 : unindentLine n (List.replicate k ' ' ++ u) = some (List.replicate (k - n) ' ' ++ u) := by
      rw [e, unindentLine_full]
    rw [h1]
    constructor
    · intro h
      exfalso
      generalize hz : List.replicate k ' ' ++ u = z at h
      cases h with
      | blank k' h => have := (replicate_space_inj (u' := []) (by rw [hz, List.append_nil]) hu (by simp)).1; omega
      | single k' c h hc =>
        have := (replicate_space_inj hz hu (by rintro t ht; injection ht with ht _; exact hc ht)).1; omega
      | oneShort k' c l h hc =>
        have := (replicate_space_inj hz hu (by rintro t ht; injection ht with ht _; exact hc ht)).1; omega
      | multibyte k' c l h hc =>
        have := (replicate_space_inj hz hu (by rintro t ht; injection ht with ht _; subst ht; revert hc; decide)).1; omega
    · intro h; cases h
  · cases u with
    | nil =>
      rw [List.append_nil, unindentLine_spaces (by omega)]
      exact ⟨fun _ => rfl, fun _ => .blank k (by omega)⟩
    | cons c u =>
      have hc : c ≠ ' ' := fun h => hu u (by rw [h])
      rw [unindentLine_short (by omega) hc]
      constructor
      · intro h
        rw [if_neg]
        rintro ⟨h1, h2, h3⟩
        generalize hz : List.replicate k ' ' ++ c :: u = z at h
        cases h with
        | blank k' h => have := (replicate_space_inj (u' := []) (by rw [hz, List.append_nil]) hu (by simp)).2; cases this
        | single k' d h hd =>
          have := (replicate_space_inj hz hu (by rintro t ht; injection ht with ht _; exact hd ht)).2
          injection this with _ this; exact h3 this
        | oneShort k' d l h hd =>
          have := (replicate_space_inj hz hu (by rintro t ht; injection ht with ht _; exact hd ht)).1; omega
        | multibyte k' d l h hd =>
          have := (replicate_space_inj hz hu (by rintro t ht; injection ht with ht _; subst ht; revert hd; decide)).2
          injection this with this _; subst this; omega
      · intro h
        by_cases h1 : k + 1 < n
        · by_cases h2 : c.toNat < 128
          · cases u with
            | nil => exact .single k c (by omega) hc
            | cons d u => rw [if_pos ⟨h1, h2, by simp⟩] at h; cases h
          · exact .multibyte k c u (by omega) (by omega)
        · exact .oneShort k c u (by omega) hc

theorem mapM_eq_none {α β : Type} {f : α → Option β} {l : List α} : l.mapM f = none ↔ ∃ a ∈ l, f a = none := by
  induction l with
  | nil => simp
  | cons a l ih =>
    rw [List.mapM_cons]
    cases h : f a with
    | none => simp [h]
    | some b =>
      cases h' : l.mapM f with
      | none => simp [h, ih.1 h']
      | some bs =>
        have hn : ¬ ∃ a ∈ l, f a = none := fun hh => by rw [ih.2 hh] at h'; cases h'
        simp only [Option.bind_eq_bind, Option.bind_some, List.mem_cons, exists_eq_or_imp, h]
        simpa using hn

/-- A content has no value exactly when it has a bad line. -/
theorem heredocValue_none {s : Str} {n : Nat} : (¬ ∃ v, HeredocValue s n v) ↔ ∃ ls l, Lines s ls ∧ l ∈ ls ∧ BadLine n l := by
  have : (¬ ∃ v, HeredocValue s n v) ↔ unindentHeredoc s n = none := by
    constructor
    · intro h
      cases hh : unindentHeredoc s n with
      | none => rfl
      | some v => exact absurd ⟨v, unindentHeredoc_iff.1 hh⟩ h
    · rintro h ⟨v, hv⟩
      rw [unindentHeredoc_iff.2 hv] at h; cases h
  rw [this]
  unfold unindentHeredoc
  split
  · rename_i h; subst h
    constructor
    · intro h; cases h
    · rintro ⟨ls, l, -, -, h⟩
      cases h with
      | blank _ h => omega
      | single _ _ h => omega
      | oneShort _ _ _ h => omega
      | multibyte _ _ _ h => omega
  · rw [Option.map_eq_none_iff, mapM_eq_none]
    constructor
    · rintro ⟨l, h1, h2⟩; exact ⟨_, l, lines_splitLines s, h1, badLine_iff.2 h2⟩
    · rintro ⟨ls, l, h0, h1, h2⟩
      refine ⟨l, ?_, badLine_iff.1 h2⟩
      rw [h0.functional]; exact h1

theorem badHeredoc_iff {s : Str} : BadHeredoc U s ↔ HeredocPanics U s := by
  constructor
  · rintro ⟨m, e, t, c, b, r, ls, l, h1, h2, h3, h4, h5, h6, h7, h8, h9⟩
    exact ⟨m, e, t, c, b, r, h1, h2, h3, h4, h5, h6, heredocValue_none.2 ⟨ls, l, h7, h8, h9⟩⟩
  · rintro ⟨m, e, t, c, b, r, h1, h2, h3, h4, h5, h6, h7⟩
    obtain ⟨ls, l, h7, h8, h9⟩ := heredocValue_none.1 h7
    exact ⟨m, e, t, c, b, r, ls, l, h1, h2, h3, h4, h5, h6, h7, h8, h9⟩

/-! ## positions after a document -/

theorem bodyAt_concat {k : Kind} {s : Str} {a : Body} {r : Str} (h : IsBody U s a r) (hr : r = []) {t u : Str}
    (ht : BodyAt U k t u) : BodyAt U k (s ++ '\n' :: t) u := by
  refine IsBody.rec
    (motive_1 := fun s _ r _ => r = [] → BodyAt U k (s ++ '\n' :: t) u)
    (motive_2 := fun _ _ _ _ => True) ?_ ?_ ?_ ?_ ?_ ?_ h hr
  · rintro s r h rfl
    obtain ⟨l, hl, rfl, -⟩ := h
    rw [List.append_nil, show l ++ '\n' :: t = (l ++ ['\n']) ++ t by simp]
    exact bodyAt_prepend (hl.append nl_layout) ht
  · rintro s t0 u v el els r h1 h2 h3 h4 - ih rfl
    have hn := elementEnd_inline (x' := t) h3 (isElement_again h2).not_starts
    have h2' := isElement_ext (x' := t) h2 hn
    obtain ⟨d, t1, rfl, hd⟩ := isElement_start h2
    have h1' := skip_ext_cons (y := '\n' :: t) hd h1
    cases h3 with
    | newline => rename_i h3; exact .next _ _ _ _ _ _ _ h1' h2' (.newline _ _ (newlines_ext h3)) (ih rfl)
    | eof => exact .next _ _ _ _ _ _ _ h1' h2' (.newline _ _ ⟨['\n'], [], .eol _ .lf, .nil, rfl⟩) ht
  all_goals intros; trivial

end
end Verif
