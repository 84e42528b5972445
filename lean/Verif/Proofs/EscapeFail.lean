import Verif.Spec.Position
import Verif.Proofs.Position
import Verif.Proofs.Panic
/-! # An invalid escape is reported exactly when a position of the text holds a string with one -/
set_option autoImplicit false

namespace Verif
open PRes Spec

section
variable {U : CharClass} {z : Str}

theorem bindP_eq_fail {α β : Type} {p : Parser α} {f : α → Parser β} {s : Str} :
    (p >>= f) s = .fail z ↔ p s = .fail z ∨ ∃ r v, p s = .ok r v ∧ f v r = .fail z := by
  rw [bind_apply, bind_eq_fail]

theorem Tame.ne_fail {α : Type} {p : Parser α} (h : Tame p) {s : Str} : p s ≠ .fail z := by
  rcases h s with ⟨_, _, h⟩ | h <;> rw [h] <;> simp

theorem ws_ne_fail {s : Str} : ws s ≠ .fail z := Tame.ws.ne_fail
theorem inlineWs_ne_fail {s : Str} : inlineWs s ≠ .fail z := Tame.inlineWs.ne_fail
theorem newline_ne_fail {s : Str} : newline s ≠ .fail z := Tame.newline.ne_fail
theorem identifier_ne_fail {s : Str} : identifier U s ≠ .fail z := (Tame.identifier U).ne_fail
theorem number_ne_fail {s : Str} : number s ≠ .fail z := Tame.number.ne_fail
theorem boolean_ne_fail {s : Str} : boolean s ≠ .fail z := Tame.boolean.ne_fail
theorem null_ne_fail {s : Str} : null s ≠ .fail z := (Tame.mapP (.tag _)).ne_fail
theorem eof_ne_fail {s : Str} : eof s ≠ .fail z := Tame.eof.ne_fail

/-! ## strings -/

/-- The content of a quoted string fails exactly at a backslash that begins no valid escape. -/
theorem escaped_eq_fail {normal : Char → Bool} {plain : Char → Prop} (hp : ∀ c, normal c = true ↔ plain c)
    (hn : normal '\\' = false) {s : Str} :
    escapedTransform normal unescape s = .fail z ↔ z ≠ [] ∧ ∃ src v, s = src ++ '\\' :: z ∧ Content plain src v ('\\' :: z) ∧
      ¬ ∃ e c r, z = e ++ r ∧ Escape e c r := by
  constructor
  · generalize hl : s.length = n
    induction n using Nat.strongRecOn generalizing s with
    | ind n ih =>
    intro h
    cases s with
    | nil => rw [escaped_nil] at h; cases h
    | cons c s =>
      by_cases hc : normal c = true
      · rw [escaped_plain hc, map_eq_fail] at h
        obtain ⟨hz, src, v, rfl, h1, h2⟩ := ih s.length (by simp at hl; omega) rfl h
        exact ⟨hz, c :: src, c :: v, rfl, .plain _ _ _ _ ((hp c).1 hc) h1, h2⟩
      · by_cases hb : c = '\\'
        · subst hb
          by_cases hs : s = []
          · subst hs; rw [escaped_backslash_end hn] at h; cases h
          · rw [escaped_backslash hn hs] at h
            rcases unescape_ok_or_fail s with ⟨r, v, hu⟩ | hu
            · rw [hu, bind_ok, if_pos (unescape_length hu), map_eq_fail] at h
              have hr := unescape_length hu
              obtain ⟨hz, src, w, rfl, h1, h2⟩ := ih r.length (by simp at hl; omega) rfl h
              obtain ⟨e, c, rfl, rfl, hE⟩ := unescape_eq_ok.1 hu
              exact ⟨hz, '\\' :: e ++ src, c :: w, by simp, .escape _ _ _ _ _ hE h1, h2⟩
            · have hv : ¬ ∃ e c r, s = e ++ r ∧ Escape e c r := by
                rintro ⟨e, c, r, rfl, hE⟩
                rw [unescape_eq_ok.2 ⟨e, c, rfl, rfl, hE⟩] at hu; cases hu
              rw [hu] at h
              injection h with h; subst h
              exact ⟨hs, [], [], rfl, .nil _, hv⟩
        · rw [escaped_stop (by simpa using hc) hb] at h; cases h
  · rintro ⟨hz, src, v, rfl, h1, h2⟩
    rw [escaped_content hp hn h1, map_eq_fail, escaped_backslash hn hz]
    rcases unescape_ok_or_fail z with ⟨r, v, hu⟩ | hu
    · obtain ⟨e, c, -, he, hE⟩ := unescape_eq_ok.1 hu
      exact absurd ⟨e, c, r, he, hE⟩ h2
    · rw [hu]; rfl

theorem quoted_eq_fail {normal : Char → Bool} {plain : Char → Prop} (hp : ∀ c, normal c = true ↔ plain c)
    (hn : normal '\\' = false) {s : Str} :
    ((tag ['"'] >>= fun _ => escapedTransform normal unescape >>= fun v => tag ['"'] >>= fun _ => pure v :
      Parser Str) s) = .fail z ↔ EscapeError plain s z := by
  constructor
  · intro h
    replace h := bindP_eq_fail.1 h; rcases h with h | ⟨t, _, h1, h⟩
    · exact absurd h tag_eq_fail
    obtain ⟨rfl, -⟩ := tag_eq_ok.1 h1
    replace h := bindP_eq_fail.1 h; rcases h with h | ⟨_, _, _, h⟩
    · obtain ⟨hz, src, v, rfl, h'⟩ := (escaped_eq_fail hp hn).1 h
      exact ⟨hz, src, v, rfl, h'⟩
    · replace h := bindP_eq_fail.1 h; rcases h with h | ⟨_, _, _, h⟩
      · exact absurd h tag_eq_fail
      · cases h
  · rintro ⟨hz, src, v, rfl, h⟩
    rw [List.cons_append, bind_apply, tag_cons_self, bind_ok, bind_apply, (escaped_eq_fail hp hn).2 ⟨hz, src, v, rfl, h⟩]; rfl

theorem quotedString_eq_fail {s : Str} : quotedString s = .fail z ↔ EscapeError Plain s z :=
  quoted_eq_fail legalChar_iff (by decide)
theorem stringLiteral_eq_fail {s : Str} : stringLiteral s = .fail z ↔ EscapeError PlainLine s z :=
  quoted_eq_fail legalSingleLineChar_iff (by decide)

theorem string_eq_fail {s : Str} : string U s = .fail z ↔ EscapeError Plain s z := by
  unfold string
  rw [orElse_eq_fail, mapP_apply, map_eq_fail, quotedString_eq_fail]
  constructor
  · rintro (h | ⟨-, h⟩)
    · exact h
    · exact absurd h ((heredocString_not U s).1 z)
  · exact .inl

/-- The text at a failure begins with a double quote. -/
theorem escapeError_head {plain : Char → Prop} {u : Str} (h : EscapeError plain u z) : Head (fun c => c = '"') u := by
  obtain ⟨_, src, v, rfl, -⟩ := h
  exact ⟨_, _, rfl, rfl⟩

theorem EscapeError.bad {u : Str} (h : EscapeError Plain u z) : BadEscape u := by
  obtain ⟨_, src, v, rfl, h1, h2⟩ := h
  exact ⟨src, v, z, rfl, h1, h2⟩

theorem EscapeErrorAt.stuck {k : Kind} {u : Str} (h : EscapeErrorAt k u z) : StuckAt k u := by
  cases k with
  | expression => exact BadEscape.stuck (EscapeError.bad h) _
  | label =>
    obtain ⟨hz, src, v, rfl, h1, h2⟩ := h
    exact BadEscape.stuck ⟨src, v, z, rfl, content_mono (fun c h => ⟨h.1, h.2.1⟩) h1, h2⟩ _

theorem opt_eq_fail {α : Type} {p : Parser α} {s : Str} : opt p s = .fail z ↔ p s = .fail z := by
  unfold opt; cases p s <;> simp

theorem many0_fail_at {α : Type} {p : Parser α} {s : Str} (P : Str → Prop) (hs : P s)
    (hstep : ∀ s r v, P s → p s = .ok r v → r.length < s.length → P r) (h : many0 p s = .fail z) : ∃ t, P t ∧ p t = .fail z :=
  (many0_bad P hs hstep _ rfl).2.2 _ h

/-- Every failure of `e` is explained by a position. -/
def FailSound (U : CharClass) (z : Str) (e : Parser Expr) : Prop := ∀ s, e s = .fail z → ∃ u, ExprAt U s u ∧ EscapeError Plain u z

variable {e : Parser Expr}

theorem tupleElem_fail (hp : FailSound U z e) {s : Str} (h : tupleElem e s = .fail z) :
    ∃ u, TupleAt U s u ∧ EscapeError Plain u z := by
  unfold tupleElem at h
  replace h := bindP_eq_fail.1 h; rcases h with h | ⟨t, _, h1, h2⟩
  · exact absurd h ws_ne_fail
  · obtain ⟨u, h3, h4⟩ := hp _ h2
    exact ⟨u, .elem _ _ _ (ws_skip h1) h3, h4⟩

theorem tupleSep_ne_fail {s : Str} : tupleSep s ≠ .fail z := by
  intro h
  unfold tupleSep at h
  replace h := bindP_eq_fail.1 h; rcases h with h | ⟨t, _, h1, h2⟩
  · exact ws_ne_fail h
  · exact tag_eq_fail h2

/-- A failure after an element. -/
theorem sepTail_fail (he : ∀ s r v, e s = .ok r v → IsExpr U s v r) (hp : FailSound U z e) :
    ∀ (n : Nat) (s : Str), sepTailAux tupleSep (tupleElem e) n s = .fail z →
      ∃ t u, SkipLayout s (',' :: t) ∧ TupleAt U t u ∧ EscapeError Plain u z := by
  intro n
  induction n with
  | zero => intro s h; cases h
  | succ n ih =>
    intro s h
    rw [sepTailAux_succ] at h
    split at h
    · cases h
    · rename_i hs; injection h with h; subst h; exact absurd hs tupleSep_ne_fail
    · cases h
    · cases h
    · rename_i t v hs
      have hs := (tupleSep_iff.1 hs).2
      split at h
      · cases h
      · rename_i hx; injection h with h; subst h
        obtain ⟨u, h1, h2⟩ := tupleElem_fail hp hx
        exact ⟨t, u, hs, h1, h2⟩
      · cases h
      · cases h
      · rename_i x w hx
        split at h
        · rw [map_eq_fail] at h
          obtain ⟨t', u, h1, h2, h3⟩ := ih _ h
          obtain ⟨y, hy, hx⟩ := tupleElem_iff.1 hx
          exact ⟨t, u, hs, .next _ _ _ _ _ _ hy (he _ _ _ hx) h1 h2, h3⟩
        · cases h

theorem Tame.wsAround {α : Type} {p : Parser α} (hp : Tame p) : Tame (wsAround p) :=
  .bind .ws fun _ => .bind hp fun _ => .bind .ws fun _ => .pure _

theorem Tame.tupleEnd : Tame tupleEnd :=
  .bind .ws fun _ => .bind (.wsAround (.opt (.tag _))) fun _ => .bind (.tag _) fun _ => .pure _

theorem tupleEnd_ne_fail {s : Str} : tupleEnd s ≠ .fail z := Tame.tupleEnd.ne_fail

theorem tuple_fail (he : ∀ s r v, e s = .ok r v → IsExpr U s v r) (hp : FailSound U z e) {s : Str}
    (h : tuple e s = .fail z) : ∃ t u, s = '[' :: t ∧ TupleAt U t u ∧ EscapeError Plain u z := by
  unfold tuple at h
  replace h := bindP_eq_fail.1 h; rcases h with h | ⟨t, _, h1, h2⟩
  · exact absurd h tag_eq_fail
  obtain ⟨rfl, -⟩ := tag_eq_ok.1 h1
  refine ⟨t, ?_⟩
  rcases bindP_eq_fail.1 h2 with h | ⟨x, _, h3, h4⟩
  · unfold separatedList at h
    split at h
    · cases h
    · rename_i hx; injection h with h; subst h
      obtain ⟨u, h1, h2⟩ := tupleElem_fail hp hx
      exact ⟨u, rfl, h1, h2⟩
    · cases h
    · cases h
    · rename_i x w hx
      split at h
      · rw [map_eq_fail] at h
        obtain ⟨t', u, h1, h2, h3⟩ := sepTail_fail he hp _ _ h
        obtain ⟨y, hy, hx⟩ := tupleElem_iff.1 hx
        exact ⟨u, rfl, .next _ _ _ _ _ _ hy (he _ _ _ hx) h1 h2, h3⟩
      · cases h
  · rcases bindP_eq_fail.1 h4 with h | ⟨_, _, _, h⟩
    · exact absurd h tupleEnd_ne_fail
    · cases h

theorem Tame.objectSeparator : Tame objectSeparator :=
  .orElse (.mapP (.tag _)) (.orElse (.mapP .newline) (.mapP (.peek (.tag _))))

theorem objectSeparator_ne_fail {s : Str} : objectSeparator s ≠ .fail z := Tame.objectSeparator.ne_fail

theorem objectKey_fail (hp : FailSound U z e) {s : Str}
    (h : objectElementIdentifier U e s = .fail z) : ¬ Head (IdentStart U) s ∧ ∃ u, ExprAt U s u ∧ EscapeError Plain u z := by
  unfold objectElementIdentifier at h
  rcases orElse_eq_fail.1 h with h | ⟨h1, h2⟩
  · rw [mapP_apply, map_eq_fail] at h; exact absurd h identifier_ne_fail
  · constructor
    · intro hh
      obtain ⟨r', i, hk⟩ := identifier_ok_of_head hh
      rw [mapP_apply, map_eq_err, hk] at h1; cases h1
    · rw [mapP_apply, map_eq_fail] at h2
      unfold recognize at h2
      rcases bind_eq_fail.1 h2 with h | ⟨_, _, _, h⟩
      · exact hp _ h
      · cases h

theorem objectItem_fail (he : ∀ s r v, e s = .ok r v → IsExpr U s v r) (hp : FailSound U z e) {s : Str}
    (h : objectItem U e s = .fail z) : ∃ u, ObjectAt U s u ∧ EscapeError Plain u z := by
  unfold objectItem objectElement at h
  replace h := bindP_eq_fail.1 h; rcases h with h | ⟨t, _, h1, h⟩
  · exact absurd h ws_ne_fail
  have h1 := ws_skip h1
  replace h := bindP_eq_fail.1 h; rcases h with h | ⟨_, _, -, h⟩
  · replace h := bindP_eq_fail.1 h; rcases h with h | ⟨t', _, h2, h⟩
    · exact absurd h inlineWs_ne_fail
    have := inline_after_layout h1 (inlineWs_skip h2); subst this
    replace h := bindP_eq_fail.1 h; rcases h with h | ⟨v, k, h3, h⟩
    · obtain ⟨hn, u, h3, h4⟩ := objectKey_fail hp h
      exact ⟨u, .key _ _ _ h1 hn h3, h4⟩
    have h3 := objectKey_sound he h3
    replace h := bindP_eq_fail.1 h; rcases h with h | ⟨w, _, h4, h⟩
    · exact absurd h inlineWs_ne_fail
    replace h := bindP_eq_fail.1 h; rcases h with h | ⟨w', _, h5, h⟩
    · exact absurd h tag_eq_fail
    obtain ⟨rfl, -⟩ := tag_eq_ok.1 h5
    replace h := bindP_eq_fail.1 h; rcases h with h | ⟨x, _, h6, h⟩
    · exact absurd h inlineWs_ne_fail
    replace h := bindP_eq_fail.1 h; rcases h with h | ⟨y, _, h7, h⟩
    · obtain ⟨u, h7, h8⟩ := hp _ h
      exact ⟨u, .value _ _ _ _ _ _ _ h1 h3 (inlineWs_skip h4) (inlineWs_skip h6) h7, h8⟩
    replace h := bindP_eq_fail.1 h; rcases h with h | ⟨_, _, _, h⟩
    · exact absurd h inlineWs_ne_fail
    · cases h
  · replace h := bindP_eq_fail.1 h; rcases h with h | ⟨_, _, _, h⟩
    · exact absurd h objectSeparator_ne_fail
    · cases h

theorem objectBody_fail (he : ∀ s r v, e s = .ok r v → IsExpr U s v r) (hp : FailSound U z e) {s : Str}
    (h : objectBody U e s = .fail z) : ∃ u, ObjectAt U s u ∧ EscapeError Plain u z := by
  unfold objectBody at h
  replace h := bindP_eq_fail.1 h; rcases h with h | ⟨_, _, _, h⟩
  · obtain ⟨t, ht, h⟩ := (many0_fail_at (fun t => ∀ u, ObjectAt U t u → ObjectAt U s u) (fun _ h => h)
      (fun s' r v h1 h2 _ u hu => h1 u (by
        obtain ⟨t, t', u, v', w, x, y, h1, h2, h3, h4, h5, h6, h7, h8⟩ := objectItem_eq_ok.1 h2
        have := inline_after_layout h1 h2; subst this
        exact .next _ _ _ _ _ _ _ _ _ _ _ h1 (objectKey_sound he h3) h4 h5 (he _ _ _ h6) h7
          (objectSeparator_sound h8) hu))) h
    obtain ⟨u, h1, h2⟩ := objectItem_fail he hp h
    exact ⟨u, ht u h1, h2⟩
  · replace h := bindP_eq_fail.1 h; rcases h with h | ⟨_, _, _, h⟩
    · exact absurd h ws_ne_fail
    · cases h

theorem wsAround_fail {α : Type} {p : Parser α} {s : Str} (h : wsAround p s = .fail z) :
    ∃ t, SkipLayout s t ∧ p t = .fail z := by
  unfold wsAround at h
  replace h := bindP_eq_fail.1 h; rcases h with h | ⟨t, _, h1, h⟩
  · exact absurd h ws_ne_fail
  replace h := bindP_eq_fail.1 h; rcases h with h | ⟨_, _, _, h⟩
  · exact ⟨t, ws_skip h1, h⟩
  replace h := bindP_eq_fail.1 h; rcases h with h | ⟨_, _, _, h⟩
  · exact absurd h ws_ne_fail
  · cases h

theorem object_fail (he : ∀ s r v, e s = .ok r v → IsExpr U s v r) (hp : FailSound U z e) {s : Str}
    (h : object U e s = .fail z) : ∃ t u, SkipLayout s ('{' :: t) ∧ ObjectAt U t u ∧ EscapeError Plain u z := by
  unfold object at h
  replace h := bindP_eq_fail.1 h; rcases h with h | ⟨t, _, h1, h⟩
  · obtain ⟨_, _, h⟩ := wsAround_fail h; exact absurd h tag_eq_fail
  obtain ⟨t1, t2, h2, h3, h4⟩ := wsAround_eq_ok.1 h1
  obtain ⟨rfl, -⟩ := tag_eq_ok.1 h3
  refine ⟨t2, ?_⟩
  replace h := bindP_eq_fail.1 h; rcases h with h | ⟨_, _, _, h⟩
  · obtain ⟨t', h5, h⟩ := wsAround_fail h
    obtain ⟨u, h6, h7⟩ := objectBody_fail he hp h
    refine ⟨u, h2, ?_, h7⟩
    have := layout_again_eq h4 h5; subst this
    obtain ⟨l, hl, rfl, -⟩ := h4
    exact objectAt_prepend hl h6
  · replace h := bindP_eq_fail.1 h; rcases h with h | ⟨_, _, _, h⟩
    · exact absurd h tag_eq_fail
    · cases h

theorem bracket_fail (hp : FailSound U z e) {s : Str} (h : bracketExpression e s = .fail z) :
    ∃ t v u, SkipLayout s ('(' :: t) ∧ SkipLayout t v ∧ ExprAt U v u ∧ EscapeError Plain u z := by
  unfold bracketExpression at h
  replace h := bindP_eq_fail.1 h; rcases h with h | ⟨t, _, h1, h⟩
  · obtain ⟨_, _, h⟩ := wsAround_fail h; exact absurd h tag_eq_fail
  obtain ⟨t1, t2, h2, h3, h4⟩ := wsAround_eq_ok.1 h1
  obtain ⟨rfl, -⟩ := tag_eq_ok.1 h3
  replace h := bindP_eq_fail.1 h; rcases h with h | ⟨_, _, _, h⟩
  · obtain ⟨t', h5, h⟩ := wsAround_fail h
    obtain ⟨u, h6, h7⟩ := hp _ h
    have := layout_again_eq h4 h5; subst this
    exact ⟨t2, _, u, h2, h4, h6, h7⟩
  · replace h := bindP_eq_fail.1 h; rcases h with h | ⟨_, _, _, h⟩
    · exact absurd h tag_eq_fail
    · cases h

theorem exprStep_fail (he : ∀ s r v, e s = .ok r v → IsExpr U s v r) (hp : FailSound U z e) :
    FailSound U z (exprStep U e) := by
  intro s h
  unfold exprStep at h
  simp only [orElse_eq_fail, mapP_apply, map_eq_fail, null_ne_fail, number_ne_fail, boolean_ne_fail, false_or,
    string_eq_fail] at h
  rcases h with ⟨-, -, -, h | ⟨-, h | ⟨-, h | ⟨-, h⟩⟩⟩⟩
  · exact ⟨s, .here s, h⟩
  · obtain ⟨t, u, rfl, h1, h2⟩ := tuple_fail he hp h
    exact ⟨u, .tuple _ _ h1, h2⟩
  · obtain ⟨t, u, h0, h1, h2⟩ := object_fail he hp h
    exact ⟨u, .object _ _ _ h0 h1, h2⟩
  · obtain ⟨t, v, u, h0, h1, h2, h3⟩ := bracket_fail hp h
    exact ⟨u, .bracket _ _ _ _ h0 h1 h2, h3⟩

theorem exprN_fail : ∀ n : Nat, FailSound U z (exprN U n) := by
  intro n
  induction n with
  | zero => intro s h; cases h
  | succ n ih => exact exprStep_fail (exprN_sound n) ih

theorem expression_fail : FailSound U z (expression U) := fun s h => exprN_fail (s.length + 1) s h

/-! ## bodies -/

theorem attributeP_fail {s : Str} (h : attributeP U s = .fail z) :
    ∃ t u, SkipInline s t ∧ AttributeAt U t u ∧ EscapeError Plain u z := by
  unfold attributeP at h
  replace h := bindP_eq_fail.1 h; rcases h with h | ⟨t, _, h1, h⟩
  · exact absurd h inlineWs_ne_fail
  replace h := bindP_eq_fail.1 h; rcases h with h | ⟨v, i, h2, h⟩
  · exact absurd h identifier_ne_fail
  replace h := bindP_eq_fail.1 h; rcases h with h | ⟨w, _, h3, h⟩
  · exact absurd h inlineWs_ne_fail
  replace h := bindP_eq_fail.1 h; rcases h with h | ⟨x, _, h4, h⟩
  · exact absurd h tag_eq_fail
  obtain ⟨rfl, -⟩ := tag_eq_ok.1 h4
  replace h := bindP_eq_fail.1 h; rcases h with h | ⟨y, _, h5, h⟩
  · exact absurd h inlineWs_ne_fail
  replace h := bindP_eq_fail.1 h; rcases h with h | ⟨z, _, h6, h⟩
  · obtain ⟨u, h7, h8⟩ := expression_fail _ h
    exact ⟨t, u, inlineWs_skip h1, .mk _ _ _ _ _ _ (identifier_iff.1 h2) (inlineWs_skip h3) (inlineWs_skip h5) h7, h8⟩
  replace h := bindP_eq_fail.1 h; rcases h with h | ⟨_, _, _, h⟩
  · exact absurd h inlineWs_ne_fail
  · cases h

theorem inlineWsAround_fail {α : Type} {p : Parser α} {s : Str} (h : inlineWsAround p s = .fail z) :
    ∃ t, SkipInline s t ∧ p t = .fail z := by
  unfold inlineWsAround at h
  replace h := bindP_eq_fail.1 h; rcases h with h | ⟨t, _, h1, h⟩
  · exact absurd h inlineWs_ne_fail
  replace h := bindP_eq_fail.1 h; rcases h with h | ⟨_, _, _, h⟩
  · exact ⟨t, inlineWs_skip h1, h⟩
  replace h := bindP_eq_fail.1 h; rcases h with h | ⟨_, _, _, h⟩
  · exact absurd h inlineWs_ne_fail
  · cases h

theorem blockLabel_fail {s : Str} (h : blockLabel U s = .fail z) : EscapeError PlainLine s z := by
  unfold blockLabel at h
  simp only [orElse_eq_fail, mapP_apply, map_eq_fail, identifier_ne_fail, false_or, stringLiteral_eq_fail] at h
  exact h.2

theorem labelAt_inline {s t u : Str} (h : SkipInline s t) (h' : LabelAt U t u) : LabelAt U s u := by
  cases h' with
  | here => exact .here _ _ (inline_trans h ‹_›)
  | next => exact .next _ _ _ _ _ (inline_trans h ‹_›) ‹_› ‹_›

theorem labelAt_uninline {s t u : Str} (h : SkipInline s t) (h' : LabelAt U s u) : LabelAt U t u := by
  cases h' with
  | here => rename_i h'; have := h'.functional inlineItem_prefix h; subst this; exact .here _ _ h.again
  | next =>
    rename_i t' v l h1 h2 h3
    have := Skip.functional inlineItem_prefix ‹SkipInline s t'› h; subst this
    exact .next _ _ _ _ _ h.again ‹_› ‹_›

theorem blockLabels_fail {s : Str} (h : blockLabels U s = .fail z) : ∃ u, LabelAt U s u ∧ EscapeError PlainLine u z := by
  unfold blockLabels at h
  obtain ⟨t, ht, h⟩ := many0_fail_at (fun t => ∀ u, LabelAt U t u → LabelAt U s u) (fun _ h => h)
    (fun s' r v h1 h2 _ u hu => h1 u (by
      obtain ⟨x, y, h3, h4, h5⟩ := inlineWsAround_eq_ok.1 h2
      exact .next _ _ _ _ _ h3 (blockLabel_iff.1 h4) (labelAt_inline h5 hu))) h
  obtain ⟨u, h1, h2⟩ := inlineWsAround_fail h
  exact ⟨u, ht u (.here _ _ h1), blockLabel_fail h2⟩

theorem labelAt_fails {s u : Str} (h : LabelAt U s u) (hu : EscapeError PlainLine u z) : blockLabels U s = .fail z := by
  unfold blockLabels
  suffices ∀ s', SkipInline s s' → many0 (inlineWsAround (blockLabel U)) s' = .fail z ∧
      many0 (inlineWsAround (blockLabel U)) s = .fail z by
    obtain ⟨s', hs⟩ := skipInline_total s
    exact (this s' hs).2
  have hd := escapeError_head hu
  have key : ∀ s, SkipInline s u → many0 (inlineWsAround (blockLabel U)) s = .fail z := by
    intro s h
    have : inlineWsAround (blockLabel U) s = .fail z := by
      unfold inlineWsAround
      rw [inlineWs_bind (fun _ _ => rfl) h, bind_apply]
      have : blockLabel U u = .fail z := by
        unfold blockLabel
        rw [orElse_of_err, mapP_apply, stringLiteral_eq_fail.2 hu]
        · rfl
        · rw [mapP_apply, identifier_err (not_head hd _)]
          · rfl
          · rintro c rfl; exact not_identStart (U := U) (by decide) (by decide)
      rw [this]; rfl
    rw [many0_unfold, this]
  induction h with
  | here s u h =>
    intro s' hs
    have := hs.functional inlineItem_prefix h; subst this
    exact ⟨key _ h.again, key _ h⟩
  | next s t v u l h1 h2 h3 ih =>
    intro s' hs
    have := hs.functional inlineItem_prefix h1; subst this
    obtain ⟨w, hw⟩ := skipInline_total v
    have l1 := h1.length
    have l2 := (isLabel_consumes h2).length
    have l3 := hw.length
    have := (ih hu hd key w hw).1
    constructor
    · rw [many0_cons (inlineWsAround_eq_ok.2 ⟨s', v, h1.again, blockLabel_iff.2 h2, hw⟩) (by omega), this]; rfl
    · rw [many0_cons (inlineWsAround_eq_ok.2 ⟨s', v, h1, blockLabel_iff.2 h2, hw⟩) (by omega), this]; rfl

theorem header_fail {α : Type} {f : Str → List BlockLabel → Parser α} {s : Str} (h :
    (do let _ ← inlineWs
        let t ← identifier U
        let _ ← inlineWs
        let ls ← blockLabels U
        let _ ← inlineWs
        let _ ← tag ['{']
        f t ls : Parser α) s = .fail z) :
    ∃ s' i t, SkipInline s s' ∧ Ident U s' i t ∧
      ((∃ u, LabelAt U t u ∧ EscapeError PlainLine u z) ∨ ∃ ls u, IsLabels U t ls u ∧ f i ls u = .fail z) := by
  replace h := bindP_eq_fail.1 h; rcases h with h | ⟨t, _, h1, h⟩
  · exact absurd h inlineWs_ne_fail
  replace h := bindP_eq_fail.1 h; rcases h with h | ⟨v, i, h2, h⟩
  · exact absurd h identifier_ne_fail
  replace h := bindP_eq_fail.1 h; rcases h with h | ⟨w, _, h3, h⟩
  · exact absurd h inlineWs_ne_fail
  replace h := bindP_eq_fail.1 h; rcases h with h | ⟨x, _, h4, h⟩
  · obtain ⟨u, h4, h5⟩ := blockLabels_fail h
    exact ⟨t, i, v, inlineWs_skip h1, identifier_iff.1 h2, .inl ⟨u, labelAt_inline (inlineWs_skip h3) h4, h5⟩⟩
  replace h := bindP_eq_fail.1 h; rcases h with h | ⟨y, _, h5, h⟩
  · exact absurd h inlineWs_ne_fail
  replace h := bindP_eq_fail.1 h; rcases h with h | ⟨z, _, h6, h⟩
  · exact absurd h tag_eq_fail
  obtain ⟨rfl, -⟩ := tag_eq_ok.1 h6
  exact ⟨t, i, v, inlineWs_skip h1, identifier_iff.1 h2,
    .inr ⟨_, _, (isLabels_inline (inlineWs_skip h3)).2 (blockLabels_sound h4 (inlineWs_skip h5)), h⟩⟩

theorem oneLineBlock_fail {s : Str} (h : oneLineBlock U s = .fail z) :
    ∃ s' i t, SkipInline s s' ∧ Ident U s' i t ∧
      ((∃ u, LabelAt U t u ∧ EscapeError PlainLine u z) ∨
        ∃ ls v w u, IsLabels U t ls v ∧ SkipInline v w ∧ AttributeAt U w u ∧ EscapeError Plain u z) := by
  unfold oneLineBlock at h
  obtain ⟨s', i, t, h1, h2, h | ⟨ls, v, h3, h⟩⟩ := header_fail h
  · exact ⟨s', i, t, h1, h2, .inl h⟩
  replace h := bindP_eq_fail.1 h; rcases h with h | ⟨w, _, h4, h⟩
  · exact absurd h inlineWs_ne_fail
  have h4 := inlineWs_skip h4
  replace h := bindP_eq_fail.1 h; rcases h with h | ⟨x, _, h5, h⟩
  · rw [opt_eq_fail] at h
    obtain ⟨w', u, h5, h6, h7⟩ := attributeP_fail h
    have := inline_again_eq h4 h5; subst this
    exact ⟨s', i, t, h1, h2, .inr ⟨ls, v, _, u, h3, h4, h6, h7⟩⟩
  replace h := bindP_eq_fail.1 h; rcases h with h | ⟨_, _, _, h⟩
  · exact absurd h inlineWs_ne_fail
  replace h := bindP_eq_fail.1 h; rcases h with h | ⟨_, _, _, h⟩
  · exact absurd h tag_eq_fail
  replace h := bindP_eq_fail.1 h; rcases h with h | ⟨_, _, _, h⟩
  · exact absurd h inlineWs_ne_fail
  · cases h

/-- Every failure of a body parser is explained by a position. -/
def FailSoundBody (U : CharClass) (z : Str) (b : Parser Body) : Prop :=
  ∀ s, b s = .fail z → ∃ k u, BodyAt U k s u ∧ EscapeErrorAt k u z

variable {b : Parser Body}

theorem block_fail (hp : FailSoundBody U z b) {s : Str} (h : block U b s = .fail z) :
    ∃ s' i t, SkipInline s s' ∧ Ident U s' i t ∧
      ((∃ u, LabelAt U t u ∧ EscapeError PlainLine u z) ∨
        ∃ ls v w x k u, IsLabels U t ls v ∧ SkipInline v w ∧ Newlines w x ∧ BodyAt U k x u ∧ EscapeErrorAt k u z) := by
  unfold block at h
  obtain ⟨s', i, t, h1, h2, h | ⟨ls, v, h3, h⟩⟩ := header_fail h
  · exact ⟨s', i, t, h1, h2, .inl h⟩
  replace h := bindP_eq_fail.1 h; rcases h with h | ⟨w, _, h4, h⟩
  · exact absurd h inlineWs_ne_fail
  replace h := bindP_eq_fail.1 h; rcases h with h | ⟨x, _, h5, h⟩
  · exact absurd h newline_ne_fail
  replace h := bindP_eq_fail.1 h; rcases h with h | ⟨y, _, h6, h⟩
  · exact absurd h inlineWs_ne_fail
  replace h := bindP_eq_fail.1 h; rcases h with h | ⟨_, _, _, h⟩
  · obtain ⟨k, u, h7, h8⟩ := hp _ h
    obtain ⟨l, hl, rfl, -⟩ := inlineWs_skip h6
    exact ⟨s', i, t, h1, h2, .inr ⟨ls, v, w, _, k, u, h3, inlineWs_skip h4, newline_sound h5,
      bodyAt_prepend (seq_inline_layout hl) h7, h8⟩⟩
  replace h := bindP_eq_fail.1 h; rcases h with h | ⟨_, _, _, h⟩
  · exact absurd h inlineWs_ne_fail
  replace h := bindP_eq_fail.1 h; rcases h with h | ⟨_, _, _, h⟩
  · exact absurd h tag_eq_fail
  replace h := bindP_eq_fail.1 h; rcases h with h | ⟨_, _, _, h⟩
  · exact absurd h inlineWs_ne_fail
  · cases h

theorem bodyItem_fail (hp : FailSoundBody U z b) {s : Str} (h : bodyItem U b s = .fail z) :
    ∃ k u, BodyAt U k s u ∧ EscapeErrorAt k u z := by
  unfold bodyItem at h
  replace h := bindP_eq_fail.1 h; rcases h with h | ⟨t, _, h1, h⟩
  · exact absurd h ws_ne_fail
  have h1 := ws_skip h1
  replace h := bindP_eq_fail.1 h; rcases h with h | ⟨_, _, _, h⟩
  · unfold bodyElement at h
    simp only [orElse_eq_fail, mapP_apply, map_eq_fail] at h
    rcases h with h | ⟨-, h | ⟨-, h⟩⟩
    · obtain ⟨t', u, h2, h3, h4⟩ := attributeP_fail h
      have := inline_after_layout h1 h2; subst this
      exact ⟨_, u, .attribute _ _ _ h1 h3, h4⟩
    · obtain ⟨t', i, x, h2, h3, ⟨u, h4, h5⟩ | ⟨ls, v, w, u, h4, h5, h6, h7⟩⟩ := oneLineBlock_fail h <;>
        have := inline_after_layout h1 h2 <;> subst this
      · exact ⟨_, u, .label _ _ _ _ _ h1 h3 h4, h5⟩
      exact ⟨_, u, .oneLine _ _ _ _ _ _ _ _ h1 h3 h4 h5 h6, h7⟩
    · obtain ⟨t', i, x, h2, h3, ⟨u, h4, h5⟩ | ⟨ls, v, w, y, k, u, h4, h5, h6, h7, h8⟩⟩ := block_fail hp h <;>
        have := inline_after_layout h1 h2 <;> subst this
      · exact ⟨_, u, .label _ _ _ _ _ h1 h3 h4, h5⟩
      exact ⟨k, u, .block _ _ _ _ _ _ _ _ _ _ h1 h3 h4 h5 h6 h7, h8⟩
  replace h := bindP_eq_fail.1 h; rcases h with h | ⟨_, _, _, h⟩
  · simp only [orElse_eq_fail, mapP_apply, map_eq_fail, newline_ne_fail, eof_ne_fail, and_false, or_self] at h
  · cases h

theorem bodyStep_fail (hb : SoundBody U b) (hp : FailSoundBody U z b) : FailSoundBody U z (bodyStep U b) := by
  intro s h
  unfold bodyStep at h
  replace h := bindP_eq_fail.1 h; rcases h with h | ⟨_, _, _, h⟩
  · obtain ⟨t, ht, h⟩ := (many0_fail_at (fun t => ∀ k u, BodyAt U k t u → BodyAt U k s u) (fun _ _ h => h)
      (fun s' r v h1 h2 _ k u hu => h1 k u (by
        unfold bodyItem at h2
        obtain ⟨x, _, h3, h2⟩ := bindP_eq_ok.1 h2
        obtain ⟨y, el, h4, h2⟩ := bindP_eq_ok.1 h2
        obtain ⟨z, _, h5, h2⟩ := bindP_eq_ok.1 h2
        injection h2 with h6 h7; subst h6 h7
        have h3 := ws_skip h3
        obtain ⟨x', h6, h7⟩ := bodyElement_sound hb h4
        have := inline_after_layout h3 h6; subst this
        refine .next _ _ _ _ _ _ _ h3 h7 ?_ hu
        simp only [orElse_eq_ok, mapP_eq_ok, eof_eq_ok] at h5
        rcases h5 with ⟨_, h5, -⟩ | ⟨-, rfl, rfl⟩
        · exact .newline _ _ (newline_sound h5)
        · exact .eof))) h
    obtain ⟨k, u, h1, h2⟩ := bodyItem_fail hp h
    exact ⟨k, u, ht k u h1, h2⟩
  · replace h := bindP_eq_fail.1 h; rcases h with h | ⟨_, _, _, h⟩
    · exact absurd h ws_ne_fail
    · cases h

theorem bodyN_fail : ∀ n : Nat, FailSoundBody U z (bodyN U n) := by
  intro n
  induction n with
  | zero => intro s h; cases h
  | succ n ih => exact bodyStep_fail (bodyN_sound n) ih

/-! ## The converse: such a position is reached, and nothing catches the failure -/

/-- `e` fails wherever a position demands it, on inputs shorter than `n`. -/
def FailBelow (U : CharClass) (z : Str) (e : Parser Expr) (n : Nat) : Prop :=
  ∀ s u, s.length < n → ExprAt U s u → EscapeError Plain u z → e s = .fail z

theorem orElse_of_fail {α : Type} {p q : Parser α} {s : Str} (h : p s = .fail z) : (p <//> q) s = .fail z := by
  unfold orElse; rw [h]

theorem many0_fail {α : Type} {p : Parser α} {s : Str} (h : p s = .fail z) : many0 p s = .fail z := by
  rw [many0_unfold, h]

theorem exprStep_escape {u : Str} (h : EscapeError Plain u z) : exprStep U e u = .fail z := by
  have hh := escapeError_head h
  unfold exprStep
  rw [orElse_of_err (null_err (not_head hh _)), orElse_of_err, orElse_of_err (boolean_err (not_head hh _))]
  · apply orElse_of_fail
    rw [mapP_apply, string_eq_fail.2 h]; rfl
  · rintro c rfl; decide
  · rw [mapP_apply, number_err (not_head hh _)]
    · rfl
    · rintro c rfl; rw [numHead_iff]; decide
  · rintro c rfl; decide

theorem tupleAt_fails {n : Nat} (hc : CompleteBelow U e n) (hp : FailBelow U z e n) {s u : Str} (h : TupleAt U s u)
    (hs : s.length < n) (hu : EscapeError Plain u z) :
    tupleElem e s = .fail z ∨ ∃ v x, tupleElem e s = .ok v x ∧ v.length < s.length ∧
      ∀ m, v.length < m → sepTailAux tupleSep (tupleElem e) m v = .fail z := by
  refine TupleAt.rec (motive_1 := fun _ _ _ => True) (motive_2 := fun s u _ => s.length < n → EscapeError Plain u z →
      (tupleElem e s = .fail z ∨ ∃ v x, tupleElem e s = .ok v x ∧ v.length < s.length ∧
      ∀ m, v.length < m → sepTailAux tupleSep (tupleElem e) m v = .fail z))
    (motive_3 := fun _ _ _ => True) ?_ ?_ ?_ ?_ ?_ ?_ ?_ ?_ ?_ h hs hu
  all_goals try (intros; trivial)
  · intro s t u h1 h2 _ hs hu
    left
    rw [tupleElem_eq h1]
    exact hp _ _ (by have := h1.length; omega) h2 hu
  · intro s t v w u x h1 h2 h3 h4 ih hs hu
    right
    have l1 := h1.length
    have l2 := (isExpr_consumes h2).length
    have l3 := h3.length
    simp at l3
    refine ⟨v, x, by rw [tupleElem_eq h1]; exact hc.1 _ _ _ (by omega) h2, by omega, ?_⟩
    intro m hm
    cases m with
    | zero => omega
    | succ m =>
      rw [sepTailAux_succ, tupleSep_iff.2 ⟨rfl, h3⟩]
      rcases ih (by omega) hu with h | ⟨v', x', h5, h6, h7⟩
      · simp only [h]
      · simp only [h5]
        rw [if_pos (by omega), h7 m (by omega)]; rfl

theorem objectItem_key_fail {s t : Str} (h1 : SkipLayout s t) (h2 : ¬ Head (IdentStart U) t) (h3 : e t = .fail z) :
    objectItem U e s = .fail z := by
  have : objectElementIdentifier U e t = .fail z := by
    unfold objectElementIdentifier
    rw [orElse_of_err (by simp [identifier_err h2]), mapP_apply]
    unfold recognize; rw [h3]; rfl
  unfold objectItem objectElement
  rw [ws_bind (fun _ _ => rfl) h1, bind_apply, inlineWs_bind (fun _ _ => rfl) (skipInline_again h1), bind_apply, this]
  rfl

theorem objectItem_value_fail {s t v w x : Str} {k : ObjKey} (h1 : SkipLayout s t)
    (h2 : objectElementIdentifier U e t = .ok v k) (h3 : SkipInline v ('=' :: w)) (h4 : SkipInline w x) (h5 : e x = .fail z) :
    objectItem U e s = .fail z := by
  unfold objectItem objectElement
  rw [ws_bind (fun _ _ => rfl) h1, bind_apply, inlineWs_bind (fun _ _ => rfl) (skipInline_again h1), bind_apply, h2,
    bind_ok, inlineWs_bind (fun _ _ => rfl) h3, bind_apply, show '=' :: w = ['='] ++ w from rfl, tag_append, bind_ok,
    inlineWs_bind (fun _ _ => rfl) h4, bind_apply, h5]
  rfl

theorem objectAt_fails {n : Nat} (hc : CompleteBelow U e n) (hp : FailBelow U z e n) {s u : Str} (h : ObjectAt U s u)
    (hs : s.length < n) (hu : EscapeError Plain u z) : many0 (objectItem U e) s = .fail z := by
  refine ObjectAt.rec (motive_1 := fun _ _ _ => True) (motive_2 := fun _ _ _ => True)
    (motive_3 := fun s u _ => ∀ l s', Seq LayoutItem l → s = l ++ s' → s'.length < n → EscapeError Plain u z →
      many0 (objectItem U e) s' = .fail z) ?_ ?_ ?_ ?_ ?_ ?_ ?_ ?_ ?_ h [] s .nil rfl hs hu
  all_goals try (intros; trivial)
  · rintro s t u h1 h2 h3 - l s' hl rfl hs hu
    have h1 := Skip.unprepend layoutItem_prefix hl h1
    exact many0_fail (objectItem_key_fail h1 h2 (hp _ _ (by have := h1.length; omega) h3 hu))
  · rintro s t v w x u k h1 h2 h3 h4 h5 - l s' hl rfl hs hu
    have h1 := Skip.unprepend layoutItem_prefix hl h1
    have l1 := h1.length
    have l2 := (isObjectKey_consumes h2).length
    have l3 := h3.length
    have l4 := h4.length
    simp at l3
    exact many0_fail (objectItem_value_fail h1 (objectKey_complete hc (by omega) h2) h3 h4 (hp _ _ (by omega) h5 hu))
  · rintro s t v w x y z a u k ex h1 h2 h3 h4 h5 h6 h7 - ih l s' hl rfl hs hu
    have h1 := Skip.unprepend layoutItem_prefix hl h1
    obtain ⟨z', l', h9, hl', rfl⟩ := objectSeparator_complete h7
    have l1 := h1.length
    have l2 := (isObjectKey_consumes h2).length
    have l3 := h3.length
    have l4 := h4.length
    have l5 := (isExpr_consumes h5).length
    have l6 := h6.length
    have l7 := (objectSep_suffix h7).length_le
    simp at l3 l7
    have hi : objectItem U e s' = .ok z' (k, ex) := objectItem_eq_ok.2 ⟨t, t, v, w, x, y, z, h1, skipInline_again h1,
      objectKey_complete hc (by omega) h2, h3, h4, hc.1 _ _ _ (by omega) h5, h6, h9⟩
    rw [many0_cons hi (by omega), ih l' z' hl' rfl (by omega) hu]; rfl

theorem exprStep_fails {n : Nat} (hc : CompleteBelow U e n) (hp : FailBelow U z e n) :
    FailBelow U z (exprStep U e) (n + 1) := by
  intro s u hs h hu
  cases h with
  | here => exact exprStep_escape hu
  | tuple =>
    rename_i t h
    have hh : Head (fun c => c = '[') ('[' :: t) := ⟨_, _, rfl, rfl⟩
    unfold exprStep
    rw [orElse_of_err (null_err (not_head hh _)), orElse_of_err, orElse_of_err (boolean_err (not_head hh _)),
      orElse_of_err (string_err (not_head hh _))]
    · apply orElse_of_fail
      rw [mapP_apply, map_eq_fail]
      unfold tuple
      rw [bind_apply, tag_cons_self, bind_ok, bind_apply]
      have : separatedList tupleSep (tupleElem e) t = .fail z := by
        unfold separatedList
        rcases tupleAt_fails hc hp h (by simp at hs; omega) hu with h | ⟨v, x, h1, h2, h3⟩
        · rw [h]
        · rw [h1]; simp only; rw [if_pos h2, h3 _ (by omega)]; rfl
      rw [this]; rfl
    · rintro c rfl; decide
    · rintro c rfl; decide
    · rw [mapP_apply, number_err (not_head hh _)]
      · rfl
      · rintro c rfl; rw [numHead_iff]; decide
    · rintro c rfl; decide
  | object =>
    rename_i t h1 h2
    rw [exprStep_notToken (skip_notToken h1 (by unfold NotToken; decide))]
    apply orElse_of_fail
    rw [mapP_apply, map_eq_fail]
    obtain ⟨t', ht'⟩ := skipLayout_total t
    have l1 := h1.length
    have l2 := ht'.length
    simp at l1
    have hb : ObjectAt U t' u := by
      obtain ⟨l, hl, rfl, -⟩ := ht'
      exact objectAt_unprepend hl h2
    have h3 := objectAt_fails hc hp hb (by omega) hu
    unfold object
    rw [bind_apply, wsAround_eq_ok.2 ⟨_, t, h1, tag_cons_self _ _, ht'⟩, bind_ok, bind_apply]
    unfold wsAround
    rw [ws_bind (fun _ _ => rfl) ht'.again, bind_apply]
    unfold objectBody
    rw [bind_apply, h3]; rfl
  | bracket =>
    rename_i t v h1 h2 h3
    obtain ⟨k1, k2, k3⟩ : SkipLayout s ('(' :: t) ∧ SkipLayout t v ∧ ExprAt U v u := ⟨‹_›, ‹_›, ‹_›⟩
    rw [exprStep_notToken (skip_notToken k1 (by unfold NotToken; decide)),
      orElse_of_err (object_err k1 (by rw [head_cons]; decide))]
    have l1 := k1.length
    have l2 := k2.length
    simp at l1
    unfold bracketExpression
    rw [bind_apply, wsAround_eq_ok.2 ⟨_, t, k1, tag_cons_self _ _, k2⟩, bind_ok, bind_apply]
    unfold wsAround
    rw [ws_bind (fun _ _ => rfl) k2.again, bind_apply, hp _ _ (by omega) k3 hu]; rfl

theorem exprN_fails : ∀ n : Nat, FailBelow U z (exprN U n) n := by
  intro n
  induction n with
  | zero => intro s u h; omega
  | succ n ih => exact exprStep_fails (exprN_complete n) ih

/-- An expression fails exactly when a position in it holds a bad escape. -/
theorem expression_eq_fail {s : Str} : expression U s = .fail z ↔ ∃ u, ExprAt U s u ∧ EscapeError Plain u z :=
  ⟨expression_fail s, fun ⟨u, h, hu⟩ => exprN_fails _ _ _ (by omega) h hu⟩

theorem attributeAt_fails {s u : Str} (h0 : SkipInline s s) (h : AttributeAt U s u) (hu : EscapeError Plain u z) :
    attributeP U s = .fail z := by
  obtain ⟨i, t, v, w, h1, h2, h3, h4⟩ : ∃ i t v w, Ident U s i t ∧ SkipInline t ('=' :: v) ∧ SkipInline v w ∧
    ExprAt U w u := by cases h; exact ⟨_, _, _, _, ‹_›, ‹_›, ‹_›, ‹_›⟩
  unfold attributeP
  rw [inlineWs_bind (fun _ _ => rfl) h0, bind_apply, identifier_iff.2 h1, bind_ok,
    inlineWs_bind (fun _ _ => rfl) h2, bind_apply, show '=' :: v = ['='] ++ v from rfl, tag_append, bind_ok,
    inlineWs_bind (fun _ _ => rfl) h3, bind_apply, expression_eq_fail.2 ⟨u, h4, hu⟩]
  rfl

/-- `b` fails wherever a position demands it, on inputs shorter than `n`. -/
def FailBelowBody (U : CharClass) (z : Str) (b : Parser Body) (n : Nat) : Prop :=
  ∀ s k u, s.length < n → BodyAt U k s u → EscapeErrorAt k u z → b s = .fail z

theorem bodyItem_fails {s t : Str} (h : SkipLayout s t) (h' : bodyElement U b t = .fail z) : bodyItem U b s = .fail z := by
  unfold bodyItem
  rw [ws_bind (fun _ _ => rfl) h, bind_apply, h']; rfl

theorem bodyAt_fails {n : Nat} (hc : CompleteBody U b n) (hp : FailBelowBody U z b n) {k : Kind} {s u : Str} (h : BodyAt U k s u)
    (hu : EscapeErrorAt k u z) : ∀ l s', Seq LayoutItem l → s = l ++ s' → s'.length ≤ n →
      many0 (bodyItem U b) s' = .fail z := by
  induction h with
  | «attribute» s t u h1 h2 =>
    rintro l s' hl rfl hs
    have h1 := Skip.unprepend layoutItem_prefix hl h1
    refine many0_fail (bodyItem_fails h1 ?_)
    unfold bodyElement
    apply orElse_of_fail
    rw [mapP_apply, attributeAt_fails (skipInline_again h1) h2 hu]; rfl
  | label s t i v u h1 h2 h3 =>
    rintro l s' hl rfl hs
    have h1 := Skip.unprepend layoutItem_prefix hl h1
    refine many0_fail (bodyItem_fails h1 ?_)
    obtain ⟨y, hy, hne⟩ := labelAt_head h3 (EscapeErrorAt.stuck hu)
    unfold bodyElement
    rw [orElse_of_err (by rw [mapP_apply, attributeP_err' (skipInline_again h1) h2 hy hne]; rfl)]
    apply orElse_of_fail
    unfold oneLineBlock
    obtain ⟨w, hw⟩ := skipInline_total v
    rw [inlineWs_bind (fun _ _ => rfl) (skipInline_again h1), bind_apply, identifier_iff.2 h2, bind_ok,
      inlineWs_bind (fun _ _ => rfl) hw, bind_apply, labelAt_fails (labelAt_uninline hw h3) hu]
    rfl
  | oneLine s t i v w x u ls h1 hi hl hx ha =>
    rintro l s' hl' rfl hs
    have h1 := Skip.unprepend layoutItem_prefix hl' h1
    refine many0_fail (bodyItem_fails h1 ?_)
    obtain ⟨y, hy, hne⟩ := isLabels_head hl
    unfold bodyElement
    rw [orElse_of_err (by rw [mapP_apply, attributeP_err' (skipInline_again h1) hi hy hne]; rfl)]
    apply orElse_of_fail
    unfold oneLineBlock
    rw [header_eq _ (skipInline_again h1) hi hl, inlineWs_bind (fun _ _ => rfl) hx, bind_apply,
      opt_eq_fail.2 (attributeAt_fails hx.again ha hu)]
    rfl
  | block k s t i v w x y u ls h1 hi hl hx hn h ih =>
    rintro l s' hl' rfl hs
    have h1 := Skip.unprepend layoutItem_prefix hl' h1
    refine many0_fail (bodyItem_fails h1 ?_)
    have h0 := skipInline_again h1
    obtain ⟨z, hz, hne⟩ := isLabels_head hl
    unfold bodyElement
    rw [orElse_of_err (by rw [mapP_apply, attributeP_err' h0 hi hz hne]; rfl), orElse_of_err]
    · unfold block
      rw [header_eq _ h0 hi hl, inlineWs_bind (fun _ _ => rfl) hx, bind_apply]
      obtain ⟨v1, _, l, h7, hl, rfl⟩ := newline_complete hn
      have h8 := bodyAt_unprepend hl h
      obtain ⟨v2, hv2⟩ := skipInline_total v1
      have h9 : BodyAt U k v2 u := by
        obtain ⟨l, hl, rfl, -⟩ := hv2
        exact bodyAt_unprepend (seq_inline_layout hl) h8
      have l0 := h1.length
      have l1 := (ident_consumes hi).length
      have l2 := (isLabels_consumes ‹IsLabels U v ls w›).length
      have l3 := hx.length
      have l4 := (newlines_consumes hn).length
      have l5 := hv2.length
      simp only [List.length_append] at l4
      rw [h7, bind_ok, inlineWs_bind (fun _ _ => rfl) hv2, bind_apply, hp _ _ _ (by omega) h9 hu]
      rfl
    · unfold oneLineBlock
      rw [header_eq _ h0 hi hl, inlineWs_bind (fun _ _ => rfl) hx, bind_apply]
      have : opt (attributeP U) x = .ok x none := by
        rw [opt_eq_ok]; exact .inr ⟨attributeP_err hx.again (newline_not_identStart hn), rfl, rfl⟩
      rw [this, bind_ok, inlineWs_bind (fun _ _ => rfl) hx.again, bind_apply, tag_eq_err.2]
      · rfl
      · rintro ⟨x, rfl⟩
        have := newlines_head hn
        rw [List.cons_append, head_cons] at this; revert this; decide
  | next k s t v w u el h1 h2 h3 _ ih =>
    rintro l s' hl rfl hs
    have h1 := Skip.unprepend layoutItem_prefix hl h1
    obtain ⟨w', l', h5, hl', rfl⟩ := elementEnd_complete h3
    have l1 := h1.length
    have l2 := (isElement_consumes h2).length
    have l3 := (elementEnd_suffix h3).length_le
    simp at l3
    have hi : bodyItem U b s' = .ok w' el :=
      bodyItem_eq_ok.2 ⟨t, v, h1, bodyElement_complete hc (skipInline_again h1) (by omega) h2, h5⟩
    rw [many0_cons hi (by omega), ih hu l' w' hl' rfl (by omega)]; rfl

theorem bodyN_fails : ∀ n : Nat, FailBelowBody U z (bodyN U n) n := by
  intro n
  induction n with
  | zero => intro s k u h; omega
  | succ n ih =>
    intro s k u hs h hu
    show bodyStep U (bodyN U n) s = .fail z
    unfold bodyStep
    rw [bind_apply, bodyAt_fails (bodyN_complete n) ih h hu [] s .nil rfl (by omega)]; rfl

theorem body_eq_fail {s : Str} : body U s = .fail z ↔ ∃ k u, BodyAt U k s u ∧ EscapeErrorAt k u z :=
  ⟨bodyN_fail _ s, fun ⟨k, u, h, hu⟩ => bodyN_fails _ _ _ _ (by omega) h hu⟩

/-- `parse_str` reports an invalid escape exactly when a position of the text holds one. -/
theorem parseStr_eq_escape {s : Str} : parseStr U s = .error (.invalidUnicodeCodePoint z) ↔
    ∃ k u, BodyAt U k s u ∧ EscapeErrorAt k u z := by
  rw [← body_eq_fail]
  constructor
  · intro h
    unfold parseStr PRes.toRes at h
    split at h
    · dsimp only at h; split at h <;> cases h
    · cases h
    · rename_i hc
      injection h with h; injection h with h; subst h
      unfold configFile exact at hc
      rcases bind_eq_fail.1 hc with h | ⟨r, v, _, h⟩
      · exact h
      · split at h <;> cases h
    · cases h
    · cases h
  · intro h
    unfold parseStr configFile exact
    rw [h]; rfl

/-- `Expression::parse` reports an invalid escape exactly when an expression position of the text holds one. -/
theorem exprParse_eq_escape {s : Str} : Expr.parse U s = .error (.invalidUnicodeCodePoint z) ↔
    ∃ u, ExprAt U s u ∧ EscapeError Plain u z := by
  rw [← expression_eq_fail]
  constructor
  · intro h
    unfold Expr.parse PRes.toRes at h
    split at h
    · dsimp only at h; split at h <;> cases h
    · cases h
    · rename_i hc
      injection h with h; injection h with h; subst h
      exact hc
    · cases h
    · cases h
  · intro h
    unfold Expr.parse
    rw [h]; rfl

end
end Verif
