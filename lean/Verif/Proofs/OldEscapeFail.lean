import Verif.Spec.OldPosition
import Verif.Proofs.EscapeFail
import Verif.Proofs.OldPanic
import Verif.Proofs.OldParser
/-! # The legacy parser reports an invalid escape exactly when a position of the text holds a string with one -/
set_option autoImplicit false

namespace Verif
open PRes Spec

section
variable {U : CharClass} {P : F64Parse} {v : Parser Value} {m : Parser MapValues} {z : Str}

/-- Every failure of `v` and `m` is explained by a position. -/
def FailSoundOld (U : CharClass) (P : F64Parse) (z : Str) (v : Parser Value) (m : Parser MapValues) : Prop :=
  (∀ s, v s = .fail z → ∃ k u, ValueAt U P k s u ∧ EscapeErrorAt k u z) ∧
  (∀ s, m s = .fail z → ∃ k u, EntriesAt U P k s u ∧ EscapeErrorAt k u z)

theorem listElem_fail (hp : FailSoundOld U P z v m) {s : Str} (h : listElem v s = .fail z) :
    ∃ k u, ListAt U P k s u ∧ EscapeErrorAt k u z := by
  unfold listElem at h
  replace h := bindP_eq_fail.1 h; rcases h with h | ⟨t, _, h1, h2⟩
  · exact absurd h ws_ne_fail
  · obtain ⟨k, u, h3, h4⟩ := hp.1 _ h2
    exact ⟨k, u, .elem _ _ _ (ws_skip h1) h3, h4⟩

theorem listTail_fail (hs : SoundOld U P v m) (hp : FailSoundOld U P z v m) :
    ∀ (n : Nat) (s : Str), sepTailAux tupleSep (listElem v) n s = .fail z →
      ∃ t k u, SkipLayout s (',' :: t) ∧ ListAt U P k t u ∧ EscapeErrorAt k u z := by
  intro n
  induction n with
  | zero => intro s h; cases h
  | succ n ih =>
    intro s h
    rw [sepTailAux_succ] at h
    split at h
    · cases h
    · rename_i hs; injection h with h; subst h; exact absurd hs tupleSep_ne_fail
    · cases h
    · cases h
    · rename_i t x hx
      have hx := (tupleSep_iff.1 hx).2
      split at h
      · cases h
      · rename_i hy; injection h with h; subst h
        obtain ⟨k, u, h1, h2⟩ := listElem_fail hp hy
        exact ⟨t, k, u, hx, h1, h2⟩
      · cases h
      · cases h
      · rename_i y w hy
        split at h
        · rw [map_eq_fail] at h
          obtain ⟨t', k, u, h1, h2, h3⟩ := ih _ h
          obtain ⟨z, hz, hy⟩ := listElem_iff.1 hy
          exact ⟨t, k, u, hx, .next _ _ _ _ _ _ hz (hs.1 _ _ _ hy) h1 h2, h3⟩
        · cases h

theorem list_fail (hs : SoundOld U P v m) (hp : FailSoundOld U P z v m) {s : Str}
    (h : list v s = .fail z) : ∃ t k u, s = '[' :: t ∧ ListAt U P k t u ∧ EscapeErrorAt k u z := by
  unfold list at h
  replace h := bindP_eq_fail.1 h; rcases h with h | ⟨t, _, h1, h2⟩
  · exact absurd h tag_eq_fail
  obtain ⟨rfl, -⟩ := tag_eq_ok.1 h1
  refine ⟨t, ?_⟩
  rcases bindP_eq_fail.1 h2 with h | ⟨x, _, h3, h4⟩
  · unfold separatedList at h
    split at h
    · cases h
    · rename_i hx; injection h with h; subst h
      obtain ⟨k, u, h1, h2⟩ := listElem_fail hp hx
      exact ⟨k, u, rfl, h1, h2⟩
    · cases h
    · cases h
    · rename_i x w hx
      split at h
      · rw [map_eq_fail] at h
        obtain ⟨t', k, u, h1, h2, h3⟩ := listTail_fail hs hp _ _ h
        obtain ⟨y, hy, hx⟩ := listElem_iff.1 hx
        exact ⟨k, u, rfl, .next _ _ _ _ _ _ hy (hs.1 _ _ _ hx) h1 h2, h3⟩
      · cases h
  · rcases bindP_eq_fail.1 h4 with h | ⟨_, _, _, h⟩
    · exact absurd h tupleEnd_ne_fail
    · cases h

theorem mapExpression_fail (hp : FailSoundOld U P z v m) {s : Str} (h : mapExpression m s = .fail z) :
    ∃ t k u, SkipLayout s ('{' :: t) ∧ EntriesAt U P k t u ∧ EscapeErrorAt k u z := by
  unfold mapExpression at h
  replace h := bindP_eq_fail.1 h; rcases h with h | ⟨t, _, h1, h⟩
  · obtain ⟨_, _, h⟩ := wsAround_fail h; exact absurd h tag_eq_fail
  obtain ⟨t1, t2, h2, h3, h4⟩ := wsAround_eq_ok.1 h1
  obtain ⟨rfl, -⟩ := tag_eq_ok.1 h3
  refine ⟨t2, ?_⟩
  replace h := bindP_eq_fail.1 h; rcases h with h | ⟨_, _, _, h⟩
  · obtain ⟨t', h5, h⟩ := wsAround_fail h
    obtain ⟨k, u, h6, h7⟩ := hp.2 _ h
    refine ⟨k, u, h2, ?_, h7⟩
    have := layout_again_eq h4 h5; subst this
    obtain ⟨l, hl, rfl, -⟩ := h4
    exact entriesAt_prepend hl h6
  · replace h := bindP_eq_fail.1 h; rcases h with h | ⟨_, _, _, h⟩
    · exact absurd h tag_eq_fail
    · cases h

theorem oldNumber_ne_fail {s : Str} : oldNumber P s ≠ .fail z := by
  intro h
  rw [oldNumber_eq] at h
  unfold mapRes recognize at h
  rcases bind_eq_fail.1 h with h | ⟨_, _, _, h⟩
  · rcases bind_eq_fail.1 h with h | ⟨_, _, _, h⟩
    · exact number_ne_fail h
    · cases h
  · split at h <;> cases h

theorem valueStep_fail (hs : SoundOld U P v m) (hp : FailSoundOld U P z v m) {s : Str}
    (h : valueStep U P v m s = .fail z) : ∃ k u, ValueAt U P k s u ∧ EscapeErrorAt k u z := by
  unfold valueStep at h
  simp only [orElse_eq_fail, mapP_apply, map_eq_fail, null_ne_fail, oldNumber_ne_fail, boolean_ne_fail, false_or,
    string_eq_fail] at h
  rcases h with ⟨-, -, -, h | ⟨-, h | ⟨-, h⟩⟩⟩
  · exact ⟨_, s, .here s, h⟩
  · obtain ⟨t, k, u, rfl, h1, h2⟩ := list_fail hs hp h
    exact ⟨k, u, .list _ _ h1, h2⟩
  · obtain ⟨t, k, u, h0, h1, h2⟩ := mapExpression_fail hp h
    exact ⟨k, u, .map _ _ _ h0 h1, h2⟩

theorem oldKey_fail {s : Str} (h : oldKey U s = .fail z) : EscapeError PlainLine s z := by
  unfold oldKey at h
  simp only [orElse_eq_fail, mapP_apply, map_eq_fail, identifier_ne_fail, false_or, stringLiteral_eq_fail] at h
  exact h.2

theorem stringLabels_fail {s : Str} (h : many0 (do let _ ← inlineWs; stringLiteral : Parser Str) s = .fail z) :
    ∃ ls v u, IsStringLabels s ls v ∧ SkipInline v u ∧ EscapeError PlainLine u z := by
  obtain ⟨t, ht, h⟩ := many0_fail_at (fun t => ∀ ls v, IsStringLabels t ls v → ∃ ls, IsStringLabels s ls v) (fun ls _ h => ⟨ls, h⟩)
    (fun s' r l h1 h2 _ ls v hl => by
      obtain ⟨x, _, h3, h4⟩ := bindP_eq_ok.1 h2
      exact h1 (l :: ls) v (.cons _ _ _ _ _ _ (inlineWs_skip h3) (stringLiteral_iff.1 h4) hl)) h
  replace h := bindP_eq_fail.1 h; rcases h with h | ⟨u, _, h1, h⟩
  · exact absurd h inlineWs_ne_fail
  · obtain ⟨ls, hl⟩ := ht [] t (.nil _)
    exact ⟨ls, t, u, hl, inlineWs_skip h1, stringLiteral_eq_fail.1 h⟩

theorem stringLabels_fails {s v u : Str} {ls : List Str} (h : IsStringLabels s ls v) (h1 : SkipInline v u)
    (hu : EscapeError PlainLine u z) : many0 (do let _ ← inlineWs; stringLiteral : Parser Str) s = .fail z := by
  induction h with
  | nil s =>
    rw [many0_unfold, inlineWs_bind (fun _ _ => rfl) h1, stringLiteral_eq_fail.2 hu]
  | cons s t w l ls r h2 h3 h4 ih =>
    have l1 := h2.length
    have l2 := (quoted_consumes h3).length
    rw [many0_cons (r := w) (v := l) (by rw [inlineWs_bind (fun _ _ => rfl) h2]; exact stringLiteral_iff.2 h3) (by omega), ih h1]
    rfl

theorem oldAttribute_fail (hp : FailSoundOld U P z v m) {s : Str}
    (h : oldAttribute U v m s = .fail z) : ∃ t k u, SkipInline s t ∧ EntryAt U P k t u ∧ EscapeErrorAt k u z := by
  unfold oldAttribute at h
  replace h := bindP_eq_fail.1 h; rcases h with h | ⟨_, _, _, h⟩
  · simp only [orElse_eq_fail] at h
    rcases h with h | ⟨-, h | ⟨hm, h⟩⟩
    · unfold attributeEq at h
      replace h := bindP_eq_fail.1 h; rcases h with h | ⟨t, _, h1, h⟩
      · exact absurd h inlineWs_ne_fail
      replace h := bindP_eq_fail.1 h; rcases h with h | ⟨w, i, h2, h⟩
      · have he := oldKey_fail h
        obtain ⟨_, x, rfl, rfl⟩ := escapeError_head he
        exact ⟨_, .label, _, inlineWs_skip h1, .key _, he⟩
      replace h := bindP_eq_fail.1 h; rcases h with h | ⟨x, _, h3, h⟩
      · exact absurd h inlineWs_ne_fail
      replace h := bindP_eq_fail.1 h; rcases h with h | ⟨y, _, h4, h⟩
      · exact absurd h tag_eq_fail
      obtain ⟨rfl, -⟩ := tag_eq_ok.1 h4
      replace h := bindP_eq_fail.1 h; rcases h with h | ⟨z, _, h5, h⟩
      · exact absurd h inlineWs_ne_fail
      replace h := bindP_eq_fail.1 h; rcases h with h | ⟨_, _, _, h⟩
      · obtain ⟨k, u, h7, h8⟩ := hp.1 _ h
        exact ⟨t, k, u, inlineWs_skip h1, .attribute _ _ _ _ _ _ (oldKey_iff.1 h2) (inlineWs_skip h3) (inlineWs_skip h5) h7, h8⟩
      · cases h
    · unfold attributeMap at h
      replace h := bindP_eq_fail.1 h; rcases h with h | ⟨t, _, h1, h⟩
      · exact absurd h inlineWs_ne_fail
      replace h := bindP_eq_fail.1 h; rcases h with h | ⟨w, i, h2, h⟩
      · exact absurd h identifier_ne_fail
      replace h := bindP_eq_fail.1 h; rcases h with h | ⟨x, _, h3, h⟩
      · exact absurd h inlineWs_ne_fail
      have h2 := identifier_iff.1 h2
      have h3 := inlineWs_skip h3
      replace h := bindP_eq_fail.1 h; rcases h with h | ⟨y, _, h4, h⟩
      · rw [opt_eq_fail] at h; exact absurd h tag_eq_fail
      replace h := bindP_eq_fail.1 h; rcases h with h | ⟨z, _, h5, h⟩
      · exact absurd h inlineWs_ne_fail
      have h5 := inlineWs_skip h5
      replace h := bindP_eq_fail.1 h; rcases h with h | ⟨_, _, _, h⟩
      · obtain ⟨a, k, u, h6, h7, h8⟩ := mapExpression_fail hp h
        refine ⟨t, k, u, inlineWs_skip h1, ?_, h8⟩
        rcases opt_eq_ok.1 h4 with ⟨_, h4, -⟩ | ⟨-, h4, -⟩
        · obtain ⟨rfl, -⟩ := tag_eq_ok.1 h4
          exact .attribute _ _ _ _ _ _ (.ident _ _ _ h2) h3 h5 (.map _ _ _ h6 h7)
        · subst h4
          exact .map _ _ _ _ _ h2 (layout_of_inline h3 (layout_of_inline h5 h6)) h7
      · cases h
    · unfold attributeBlock at h
      replace h := bindP_eq_fail.1 h; rcases h with h | ⟨t, _, h1, h⟩
      · exact absurd h inlineWs_ne_fail
      replace h := bindP_eq_fail.1 h; rcases h with h | ⟨w, i, h2, h⟩
      · exact absurd h identifier_ne_fail
      replace h := bindP_eq_fail.1 h; rcases h with h | ⟨x, ls, h3, h⟩
      · obtain ⟨ls, y, u, h3, h4, he⟩ := stringLabels_fail h
        obtain ⟨_, x, rfl, rfl⟩ := escapeError_head he
        exact ⟨t, .label, _, inlineWs_skip h1, .label _ _ _ _ _ _ (identifier_iff.1 h2) h3 h4, he⟩
      have h2 := identifier_iff.1 h2
      replace h := bindP_eq_fail.1 h; rcases h with h | ⟨z, _, h5, h⟩
      · exact absurd h inlineWs_ne_fail
      have h5 := inlineWs_skip h5
      replace h := bindP_eq_fail.1 h; rcases h with h | ⟨_, _, _, h⟩
      · obtain ⟨a, k, u, h6, h7, h8⟩ := mapExpression_fail hp h
        refine ⟨t, k, u, inlineWs_skip h1, ?_, h8⟩
        have hl := labels_sound h3
        cases ls with
        | nil =>
          cases hl
          exact .map _ _ _ _ _ h2 (layout_of_inline h5 h6) h7
        | cons l ls => exact .block _ _ _ _ _ _ _ h2 hl (by simp) (layout_of_inline h5 h6) h7
      · cases h
  · replace h := bindP_eq_fail.1 h; rcases h with h | ⟨_, _, _, h⟩
    · exact absurd h inlineWs_ne_fail
    · cases h

theorem Tame.attributeEnd : Tame attributeEnd :=
  .orElse (.mapP (.wsAround (.tag _))) (.orElse (.mapP .newline) .eof)

theorem attributeEnd_ne_fail {s : Str} : attributeEnd s ≠ .fail z := Tame.attributeEnd.ne_fail

theorem mapItem_fail (hp : FailSoundOld U P z v m) {s : Str} (h : mapItem U v m s = .fail z) :
    ∃ k u, EntriesAt U P k s u ∧ EscapeErrorAt k u z := by
  unfold mapItem at h
  replace h := bindP_eq_fail.1 h; rcases h with h | ⟨t, _, h1, h⟩
  · exact absurd h ws_ne_fail
  have h1 := ws_skip h1
  replace h := bindP_eq_fail.1 h; rcases h with h | ⟨_, _, _, h⟩
  · obtain ⟨t', k, u, h2, h3, h4⟩ := oldAttribute_fail hp h
    have := inline_after_layout h1 h2; subst this
    exact ⟨k, u, .entry _ _ _ h1 h3, h4⟩
  replace h := bindP_eq_fail.1 h; rcases h with h | ⟨_, _, _, h⟩
  · exact absurd h attributeEnd_ne_fail
  · cases h

theorem mapStep_fail (hs : SoundOld U P v m) (hp : FailSoundOld U P z v m) {s : Str} (h : mapStep U v m s = .fail z) :
    ∃ k u, EntriesAt U P k s u ∧ EscapeErrorAt k u z := by
  unfold mapStep at h
  replace h := bindP_eq_fail.1 h; rcases h with h | ⟨_, _, _, h⟩
  · obtain ⟨t, ht, h⟩ := (many0_fail_at (fun t => ∀ k u, EntriesAt U P k t u → EntriesAt U P k s u) (fun _ _ h => h)
      (fun s' r x h1 h2 _ k u hu => h1 k u (by
        obtain ⟨t, y, w, l, h3, h4, h5, hl, rfl⟩ := mapItem_sound hs h2
        exact .next _ _ _ _ _ _ _ h3 h4 h5 (entriesAt_prepend hl hu)))) h
    obtain ⟨k, u, h1, h2⟩ := mapItem_fail hp h
    exact ⟨k, u, ht k u h1, h2⟩
  · replace h := bindP_eq_fail.1 h; rcases h with h | ⟨_, _, _, h⟩
    · exact absurd h ws_ne_fail
    · cases h

theorem oldN_fail : ∀ n : Nat, FailSoundOld U P z (oldN U P n).1 (oldN U P n).2 := by
  intro n
  induction n with
  | zero => exact ⟨fun s h => (by cases h), fun s h => (by cases h)⟩
  | succ n ih => exact ⟨fun s h => valueStep_fail (oldN_sound n) ih h, fun s h => mapStep_fail (oldN_sound n) ih h⟩

/-! ## The converse -/


/-- `v` and `m` fail wherever a position demands it, on inputs shorter than `n`. -/
def FailBelowOld (U : CharClass) (P : F64Parse) (z : Str) (v : Parser Value) (m : Parser MapValues) (n : Nat) : Prop :=
  (∀ s k u, s.length < n → ValueAt U P k s u → EscapeErrorAt k u z → v s = .fail z) ∧
  (∀ s k u, s.length < n → EntriesAt U P k s u → EscapeErrorAt k u z → m s = .fail z)

variable {n : Nat} {k : Kind}

theorem listAt_fails (hc : CompleteOld U P v m n) (hp : FailBelowOld U P z v m n) {s u : Str} (h : ListAt U P k s u)
    (hs : s.length < n) (hu : EscapeErrorAt k u z) :
    listElem v s = .fail z ∨ ∃ w x, listElem v s = .ok w x ∧ w.length < s.length ∧
      ∀ j, w.length < j → sepTailAux tupleSep (listElem v) j w = .fail z := by
  refine ListAt.rec (motive_1 := fun _ _ _ _ => True) (motive_2 := fun k s u _ => s.length < n → EscapeErrorAt k u z →
      (listElem v s = .fail z ∨ ∃ w x, listElem v s = .ok w x ∧ w.length < s.length ∧
      ∀ j, w.length < j → sepTailAux tupleSep (listElem v) j w = .fail z))
    (motive_3 := fun _ _ _ _ => True) (motive_4 := fun _ _ _ _ => True) ?_ ?_ ?_ ?_ ?_ ?_ ?_ ?_ ?_ ?_ ?_ ?_ h hs hu
  all_goals try (intros; trivial)
  · intro k s t u h1 h2 _ hs hu
    left
    rw [listElem_eq h1]
    exact hp.1 _ _ _ (by have := h1.length; omega) h2 hu
  · intro k s t y w u x h1 h2 h3 h4 ih hs hu
    right
    have l1 := h1.length
    have l2 := (isValue_consumes h2).length
    have l3 := h3.length
    simp at l3
    refine ⟨y, x, by rw [listElem_eq h1]; exact hc.1 _ _ _ (by omega) h2, by omega, ?_⟩
    intro j hj
    cases j with
    | zero => omega
    | succ j =>
      rw [sepTailAux_succ, tupleSep_iff.2 ⟨rfl, h3⟩]
      rcases ih (by omega) hu with h | ⟨v', x', h5, h6, h7⟩
      · simp only [h]
      · simp only [h5]
        rw [if_pos (by omega), h7 j (by omega)]; rfl

theorem mapExpression_fails (hp : FailBelowOld U P z v m n) {s t u : Str} (hs : s.length ≤ n)
    (h1 : SkipLayout s ('{' :: t)) (h2 : EntriesAt U P k t u) (hu : EscapeErrorAt k u z) : mapExpression m s = .fail z := by
  obtain ⟨t', ht'⟩ := skipLayout_total t
  have l1 := h1.length
  have l2 := ht'.length
  simp at l1
  have hb : EntriesAt U P k t' u := by
    obtain ⟨l, hl, rfl, -⟩ := ht'
    exact entriesAt_unprepend hl h2
  unfold mapExpression
  rw [bind_apply, wsAround_eq_ok.2 ⟨_, t, h1, tag_cons_self _ _, ht'⟩, bind_ok, bind_apply]
  unfold wsAround
  rw [ws_bind (fun _ _ => rfl) ht'.again, bind_apply, hp.2 _ _ _ (by omega) hb hu]; rfl

theorem valueStep_escape {u : Str} (h : EscapeError Plain u z) : valueStep U P v m u = .fail z := by
  have hh := escapeError_head h
  unfold valueStep
  rw [orElse_of_err (nullV_err (not_head hh _)), orElse_of_err, orElse_of_err (booleanV_err (not_head hh _))]
  · apply orElse_of_fail
    rw [mapP_apply, string_eq_fail.2 h]; rfl
  · rintro c rfl; decide
  · rw [oldNumber_err (not_head hh _)]
    rintro c rfl; rw [numHead_iff]; decide
  · rintro c rfl; decide

theorem valueStep_fails (hc : CompleteOld U P v m n) (hp : FailBelowOld U P z v m n) {s u : Str} (hs : s.length ≤ n)
    (h : ValueAt U P k s u) (hu : EscapeErrorAt k u z) : valueStep U P v m s = .fail z := by
  cases h with
  | here => exact valueStep_escape hu
  | list =>
    rename_i t h
    have hh : Head (fun c => c = '[') ('[' :: t) := ⟨_, _, rfl, rfl⟩
    unfold valueStep
    rw [orElse_of_err (nullV_err (not_head hh _)), orElse_of_err, orElse_of_err (booleanV_err (not_head hh _)),
      orElse_of_err (stringV_err (not_head hh _))]
    · apply orElse_of_fail
      rw [mapP_apply, map_eq_fail]
      unfold list
      rw [bind_apply, tag_cons_self, bind_ok, bind_apply]
      have : separatedList tupleSep (listElem v) t = .fail z := by
        unfold separatedList
        rcases listAt_fails hc hp h (by simp at hs; omega) hu with h | ⟨w, x, h1, h2, h3⟩
        · rw [h]
        · rw [h1]; simp only; rw [if_pos h2, h3 _ (by omega)]; rfl
      rw [this]; rfl
    · rintro c rfl; decide
    · rintro c rfl; decide
    · rw [oldNumber_err (not_head hh _)]
      rintro c rfl; rw [numHead_iff]; decide
    · rintro c rfl; decide
  | map =>
    rename_i t h1 h2
    rw [valueStep_notToken (skip_notToken h1 (by unfold NotToken; decide)), mapP_apply,
      mapExpression_fails hp hs h1 h2 hu]
    rfl

theorem oldAttribute_fails (hp : FailBelowOld U P z v m n) {s u : Str} (h0 : SkipInline s s) (hs : s.length ≤ n)
    (h : EntryAt U P k s u) (hu : EscapeErrorAt k u z) : oldAttribute U v m s = .fail z := by
  unfold oldAttribute
  cases h with
  | «attribute» =>
    rename_i t y w key a1 a2 a3 a4
    obtain ⟨h1, h2, h3, h4⟩ : IsKey U s key t ∧ SkipInline t ('=' :: y) ∧ SkipInline y w ∧ ValueAt U P k w u :=
      ⟨‹_›, ‹_›, ‹_›, ‹_›⟩
    have l1 := (isKey_consumes h1).length
    have l2 := h2.length
    have l3 := h3.length
    simp at l2
    have : attributeEq U v s = .fail z := by
      unfold attributeEq
      rw [inlineWs_bind (fun _ _ => rfl) h0, bind_apply, oldKey_iff.2 h1, bind_ok,
        inlineWs_bind (fun _ _ => rfl) h2, bind_apply, show '=' :: y = ['='] ++ y from rfl, tag_append, bind_ok,
        inlineWs_bind (fun _ _ => rfl) h3, bind_apply, hp.1 _ _ _ (by omega) h4 hu]
      rfl
    rw [bind_apply, orElse_of_fail this]; rfl
  | map =>
    rename_i i t y a1 a2 a3
    obtain ⟨h1, h2, h3⟩ : Ident U s i t ∧ SkipLayout t ('{' :: y) ∧ EntriesAt U P k y u := ⟨‹_›, ‹_›, ‹_›⟩
    obtain ⟨t', ht'⟩ := skipInline_total t
    have hb := layout_of_inline' ht' h2
    have hne : ¬ Head (fun c => c = '=') t' := skip_not_head hb (by simp [LayoutStart]) (by decide)
    have l1 := (ident_consumes h1).length
    have l2 := ht'.length
    have : attributeMap U m s = .fail z := by
      unfold attributeMap
      rw [inlineWs_bind (fun _ _ => rfl) h0, bind_apply, identifier_iff.2 h1, bind_ok,
        inlineWs_bind (fun _ _ => rfl) ht', bind_apply]
      have ho : opt (tag ['=']) t' = .ok t' none := by
        rw [opt_eq_ok]
        refine .inr ⟨?_, rfl, rfl⟩
        rw [tag_eq_err]; rintro ⟨x, rfl⟩; exact hne ⟨_, _, rfl, rfl⟩
      rw [ho, bind_ok, inlineWs_bind (fun _ _ => rfl) ht'.again, bind_apply,
        mapExpression_fails hp (by omega) hb h3 hu]
      rfl
    rw [bind_apply, orElse_of_err (attributeEq_err h0 h1 ht' hne), orElse_of_fail this]; rfl
  | block =>
    rename_i i t y w ls a1 a2 a3 a4 a5
    obtain ⟨h1, h2, h3, h4, h5⟩ : Ident U s i t ∧ IsStringLabels t ls y ∧ ls ≠ [] ∧ SkipLayout y ('{' :: w) ∧
      EntriesAt U P k w u := ⟨‹_›, ‹_›, ‹_›, ‹_›, ‹_›⟩
    obtain ⟨y', hy'⟩ := skipInline_total y
    have hb := layout_of_inline' hy' h4
    have l1 := (ident_consumes h1).length
    have l2 := (stringLabels_suffix h2).length_le
    have l3 := hy'.length
    have hq : ∃ z, SkipInline t ('"' :: z) := by
      cases h2 with
      | nil => exact absurd rfl h3
      | cons =>
        rename_i z l1 l2 l3 l4 l5 l6
        have hz : ∃ a b, Quoted PlainLine z a b := ⟨_, _, ‹_›⟩
        obtain ⟨a, b, src, rfl, -⟩ := hz
        exact ⟨_, ‹_›⟩
    obtain ⟨x, hz⟩ := hq
    have : attributeBlock U m s = .fail z := by
      unfold attributeBlock
      rw [inlineWs_bind (fun _ _ => rfl) h0, bind_apply, identifier_iff.2 h1, bind_ok, bind_apply,
        labels_complete h2 h4, bind_ok, inlineWs_bind (fun _ _ => rfl) hy', bind_apply,
        mapExpression_fails hp (by omega) hb h5 hu]
      rfl
    rw [bind_apply, orElse_of_err (attributeEq_err h0 h1 hz (by rw [head_cons]; decide)),
      orElse_of_err (attributeMap_err h0 h1 hz), this]; rfl
  | key =>
    rename_i t
    have hd := escapeError_head hu
    have : attributeEq U v ('"' :: t) = .fail z := by
      unfold attributeEq
      have hk : oldKey U ('"' :: t) = .fail z := by
        unfold oldKey
        rw [orElse_of_err, mapP_apply, stringLiteral_eq_fail.2 hu]
        · rfl
        · rw [mapP_apply, identifier_err (not_head hd _)]
          · rfl
          · rintro c rfl; exact not_identStart (U := U) (by decide) (by decide)
      rw [inlineWs_bind (fun _ _ => rfl) h0, bind_apply, hk]; rfl
    rw [bind_apply, orElse_of_fail this]; rfl
  | label =>
    rename_i i t y u ls a1 a2 a3
    obtain ⟨h1, h2, h3⟩ : Ident U s i t ∧ IsStringLabels t ls y ∧ SkipInline y ('"' :: u) := ⟨‹_›, ‹_›, ‹_›⟩
    have hq : ∃ z, SkipInline t ('"' :: z) := by
      cases h2 with
      | nil => exact ⟨_, h3⟩
      | cons =>
        rename_i z l1 l2 l3 l4 l5 l6
        have hz : ∃ a b, Quoted PlainLine z a b := ⟨_, _, ‹_›⟩
        obtain ⟨a, b, src, rfl, -⟩ := hz
        exact ⟨_, ‹_›⟩
    obtain ⟨x, hx⟩ := hq
    have : attributeBlock U m s = .fail z := by
      unfold attributeBlock
      rw [inlineWs_bind (fun _ _ => rfl) h0, bind_apply, identifier_iff.2 h1, bind_ok, bind_apply,
        stringLabels_fails h2 h3 hu]
      rfl
    rw [bind_apply, orElse_of_err (attributeEq_err h0 h1 hx (by rw [head_cons]; decide)),
      orElse_of_err (attributeMap_err h0 h1 hx), this]; rfl

theorem entriesAt_fails (hc : CompleteOld U P v m n) (hp : FailBelowOld U P z v m n) {s u : Str} (h : EntriesAt U P k s u)
    (hs : s.length ≤ n) (hu : EscapeErrorAt k u z) : many0 (mapItem U v m) s = .fail z := by
  refine EntriesAt.rec (motive_1 := fun _ _ _ _ => True) (motive_2 := fun _ _ _ _ => True)
    (motive_3 := fun k s u _ => ∀ l s', Seq LayoutItem l → s = l ++ s' → s'.length ≤ n → EscapeErrorAt k u z →
      many0 (mapItem U v m) s' = .fail z) (motive_4 := fun _ _ _ _ => True) ?_ ?_ ?_ ?_ ?_ ?_ ?_ ?_ ?_ ?_ ?_ ?_ h [] s .nil rfl hs hu
  all_goals try (intros; trivial)
  · rintro k s t u h1 h2 - l s' hl rfl hs hu
    have h1 := Skip.unprepend layoutItem_prefix hl h1
    refine many0_fail ?_
    unfold mapItem
    rw [ws_bind (fun _ _ => rfl) h1, bind_apply,
      oldAttribute_fails hp (skipInline_again h1) (by have := h1.length; omega) h2 hu]
    rfl
  · rintro k s t y w u key x h1 h2 h3 h4 ih l s' hl rfl hs hu
    have h1 := Skip.unprepend layoutItem_prefix hl h1
    obtain ⟨w', l', h5, hl', rfl⟩ := attributeEnd_complete' h3 fun t ht => entriesAt_no_comma ht h4
    have l1 := h1.length
    have l2 := (isEntry_consumes h2).length
    have l3 := (entryEnd_suffix h3).length_le
    simp at l3
    have hi : mapItem U v m s' = .ok w' (key, x) :=
      mapItem_eq_ok.2 ⟨t, y, h1, oldAttribute_complete hc (skipInline_again h1) (by omega) h2, h5⟩
    rw [many0_cons hi (by omega), ih l' w' hl' rfl (by omega) hu]; rfl

theorem oldN_fails : ∀ n : Nat, FailBelowOld U P z (oldN U P n).1 (oldN U P n).2 n := by
  intro n
  induction n with
  | zero => exact ⟨fun s k u h => absurd h (by omega), fun s k u h => absurd h (by omega)⟩
  | succ n ih =>
    refine ⟨fun s k u hs h hu => valueStep_fails (oldN_complete n) ih (by omega) h hu, fun s k u hs h hu => ?_⟩
    show mapStep U _ _ s = .fail z
    unfold mapStep
    rw [bind_apply, entriesAt_fails (oldN_complete n) ih h (by omega) hu]; rfl

theorem oldBody_eq_fail {s : Str} : oldBody U P s = .fail z ↔ ∃ k u, EntriesAt U P k s u ∧ EscapeErrorAt k u z := by
  have : oldBody U P s = .fail z ↔ mapValues U P s = .fail z := by
    unfold oldBody exact
    constructor
    · intro h
      rcases bind_eq_fail.1 h with h | ⟨r, x, _, h⟩
      · exact h
      · cases r <;> cases h
    · intro h; rw [h]; rfl
  rw [this]
  exact ⟨(oldN_fail _).2 s, fun ⟨k, u, h, hu⟩ => (oldN_fails _).2 _ _ _ (by omega) h hu⟩

end
end Verif
