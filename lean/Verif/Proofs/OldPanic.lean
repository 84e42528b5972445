import Verif.Spec.OldPosition
import Verif.Proofs.Panic
import Verif.Proofs.OldParser
/-! # The legacy parser panics exactly when a value position holds a heredoc that cannot be unindented -/
set_option autoImplicit false

namespace Verif
open PRes Spec

section
variable {U : CharClass} {P : F64Parse} {v : Parser Value} {m : Parser MapValues}

/-- Every panic of `v` and `m` is explained by a position. -/
def PanicSoundOld (U : CharClass) (P : F64Parse) (v : Parser Value) (m : Parser MapValues) : Prop :=
  (∀ s, v s = .panic → ∃ u, ValueAt U P .expression s u ∧ HeredocPanics U u) ∧
  (∀ s, m s = .panic → ∃ u, EntriesAt U P .expression s u ∧ HeredocPanics U u)

theorem listElem_panic (hp : PanicSoundOld U P v m) {s : Str} (h : listElem v s = .panic) :
    ∃ u, ListAt U P .expression s u ∧ HeredocPanics U u := by
  unfold listElem at h
  replace h := bindP_eq_panic.1 h; rcases h with h | ⟨t, _, h1, h2⟩
  · exact absurd h ws_ne_panic
  · obtain ⟨u, h3, h4⟩ := hp.1 _ h2
    exact ⟨u, .elem _ _ _ (ws_skip h1) h3, h4⟩

theorem listTail_panic (hs : SoundOld U P v m) (hp : PanicSoundOld U P v m) :
    ∀ (n : Nat) (s : Str), sepTailAux tupleSep (listElem v) n s = .panic →
      ∃ t u, SkipLayout s (',' :: t) ∧ ListAt U P .expression t u ∧ HeredocPanics U u := by
  intro n
  induction n with
  | zero => intro s h; cases h
  | succ n ih =>
    intro s h
    rw [sepTailAux_succ] at h
    split at h
    · cases h
    · cases h
    · exact absurd ‹_› tupleSep_ne_panic
    · cases h
    · rename_i t x hx
      have hx := (tupleSep_iff.1 hx).2
      split at h
      · cases h
      · cases h
      · obtain ⟨u, h1, h2⟩ := listElem_panic hp ‹_›
        exact ⟨t, u, hx, h1, h2⟩
      · cases h
      · rename_i y w hy
        split at h
        · rw [map_eq_panic] at h
          obtain ⟨t', u, h1, h2, h3⟩ := ih _ h
          obtain ⟨z, hz, hy⟩ := listElem_iff.1 hy
          exact ⟨t, u, hx, .next _ _ _ _ _ _ hz (hs.1 _ _ _ hy) h1 h2, h3⟩
        · cases h

theorem list_panic (hs : SoundOld U P v m) (hp : PanicSoundOld U P v m) {s : Str}
    (h : list v s = .panic) : ∃ t u, s = '[' :: t ∧ ListAt U P .expression t u ∧ HeredocPanics U u := by
  unfold list at h
  replace h := bindP_eq_panic.1 h; rcases h with h | ⟨t, _, h1, h2⟩
  · exact absurd h tag_eq_panic
  obtain ⟨rfl, -⟩ := tag_eq_ok.1 h1
  refine ⟨t, ?_⟩
  rcases bindP_eq_panic.1 h2 with h | ⟨x, _, h3, h4⟩
  · unfold separatedList at h
    split at h
    · cases h
    · cases h
    · obtain ⟨u, h1, h2⟩ := listElem_panic hp ‹_›
      exact ⟨u, rfl, h1, h2⟩
    · cases h
    · rename_i x w hx
      split at h
      · rw [map_eq_panic] at h
        obtain ⟨t', u, h1, h2, h3⟩ := listTail_panic hs hp _ _ h
        obtain ⟨y, hy, hx⟩ := listElem_iff.1 hx
        exact ⟨u, rfl, .next _ _ _ _ _ _ hy (hs.1 _ _ _ hx) h1 h2, h3⟩
      · cases h
  · rcases bindP_eq_panic.1 h4 with h | ⟨_, _, _, h⟩
    · exact absurd h tupleEnd_ne_panic
    · cases h

theorem entriesAt_prepend {k : Kind} {l s u : Str} (hl : Seq LayoutItem l) (h : EntriesAt U P k s u) : EntriesAt U P k (l ++ s) u := by
  cases h with
  | entry => exact .entry _ _ _ (Skip.prepend hl ‹_›) ‹_›
  | next => exact .next _ _ _ _ _ _ _ (Skip.prepend hl ‹_›) ‹_› ‹_› ‹_›

theorem entriesAt_unprepend {k : Kind} {l s u : Str} (hl : Seq LayoutItem l) (h : EntriesAt U P k (l ++ s) u) : EntriesAt U P k s u := by
  generalize hs : l ++ s = s' at h
  cases h with
  | entry => subst hs; exact .entry _ _ _ (Skip.unprepend layoutItem_prefix hl ‹_›) ‹_›
  | next => subst hs; exact .next _ _ _ _ _ _ _ (Skip.unprepend layoutItem_prefix hl ‹_›) ‹_› ‹_› ‹_›

theorem mapExpression_panic (hp : PanicSoundOld U P v m) {s : Str} (h : mapExpression m s = .panic) :
    ∃ t u, SkipLayout s ('{' :: t) ∧ EntriesAt U P .expression t u ∧ HeredocPanics U u := by
  unfold mapExpression at h
  replace h := bindP_eq_panic.1 h; rcases h with h | ⟨t, _, h1, h⟩
  · obtain ⟨_, _, h⟩ := wsAround_panic h; exact absurd h tag_eq_panic
  obtain ⟨t1, t2, h2, h3, h4⟩ := wsAround_eq_ok.1 h1
  obtain ⟨rfl, -⟩ := tag_eq_ok.1 h3
  refine ⟨t2, ?_⟩
  replace h := bindP_eq_panic.1 h; rcases h with h | ⟨_, _, _, h⟩
  · obtain ⟨t', h5, h⟩ := wsAround_panic h
    obtain ⟨u, h6, h7⟩ := hp.2 _ h
    refine ⟨u, h2, ?_, h7⟩
    have := layout_again_eq h4 h5; subst this
    obtain ⟨l, hl, rfl, -⟩ := h4
    exact entriesAt_prepend hl h6
  · replace h := bindP_eq_panic.1 h; rcases h with h | ⟨_, _, _, h⟩
    · exact absurd h tag_eq_panic
    · cases h

theorem oldNumber_ne_panic {s : Str} : oldNumber P s ≠ .panic := by
  intro h
  rw [oldNumber_eq] at h
  unfold mapRes recognize at h
  rcases bind_eq_panic.1 h with h | ⟨_, _, _, h⟩
  · rcases bind_eq_panic.1 h with h | ⟨_, _, _, h⟩
    · exact number_ne_panic h
    · cases h
  · split at h <;> cases h

theorem valueStep_panic (hs : SoundOld U P v m) (hp : PanicSoundOld U P v m) {s : Str}
    (h : valueStep U P v m s = .panic) : ∃ u, ValueAt U P .expression s u ∧ HeredocPanics U u := by
  unfold valueStep at h
  simp only [orElse_eq_panic, mapP_apply, map_eq_panic, null_ne_panic, oldNumber_ne_panic, boolean_ne_panic, false_or,
    string_eq_panic] at h
  rcases h with ⟨-, -, -, h | ⟨-, h | ⟨-, h⟩⟩⟩
  · exact ⟨s, .here s, h⟩
  · obtain ⟨t, u, rfl, h1, h2⟩ := list_panic hs hp h
    exact ⟨u, .list _ _ h1, h2⟩
  · obtain ⟨t, u, h0, h1, h2⟩ := mapExpression_panic hp h
    exact ⟨u, .map _ _ _ h0 h1, h2⟩

theorem oldKey_ne_panic {s : Str} : oldKey U s ≠ .panic := by
  intro h
  obtain ⟨_, _, h⟩ := (Loc.oldKey (B := fun _ => False) (n := 0)).pan s h
  exact h

theorem stringLabels_ne_panic {s : Str} : many0 (do let _ ← inlineWs; stringLiteral : Parser Str) s ≠ .panic := by
  intro h
  obtain ⟨_, _, h⟩ := (many0_bad (fun _ => True) trivial (fun _ _ _ _ _ _ => trivial) _ rfl).1 h
  replace h := bindP_eq_panic.1 h; rcases h with h | ⟨_, _, _, h⟩
  · exact inlineWs_ne_panic h
  · obtain ⟨_, _, h⟩ := (Loc.stringLiteral (B := fun _ => False) (n := 0)).pan _ h
    exact h

theorem oldAttribute_panic (hp : PanicSoundOld U P v m) {s : Str}
    (h : oldAttribute U v m s = .panic) : ∃ t u, SkipInline s t ∧ EntryAt U P .expression t u ∧ HeredocPanics U u := by
  unfold oldAttribute at h
  replace h := bindP_eq_panic.1 h; rcases h with h | ⟨_, _, _, h⟩
  · simp only [orElse_eq_panic] at h
    rcases h with h | ⟨-, h | ⟨hm, h⟩⟩
    · unfold attributeEq at h
      replace h := bindP_eq_panic.1 h; rcases h with h | ⟨t, _, h1, h⟩
      · exact absurd h inlineWs_ne_panic
      replace h := bindP_eq_panic.1 h; rcases h with h | ⟨w, k, h2, h⟩
      · exact absurd h oldKey_ne_panic
      replace h := bindP_eq_panic.1 h; rcases h with h | ⟨x, _, h3, h⟩
      · exact absurd h inlineWs_ne_panic
      replace h := bindP_eq_panic.1 h; rcases h with h | ⟨y, _, h4, h⟩
      · exact absurd h tag_eq_panic
      obtain ⟨rfl, -⟩ := tag_eq_ok.1 h4
      replace h := bindP_eq_panic.1 h; rcases h with h | ⟨z, _, h5, h⟩
      · exact absurd h inlineWs_ne_panic
      replace h := bindP_eq_panic.1 h; rcases h with h | ⟨_, _, _, h⟩
      · obtain ⟨u, h7, h8⟩ := hp.1 _ h
        exact ⟨t, u, inlineWs_skip h1, .attribute _ _ _ _ _ _ (oldKey_iff.1 h2) (inlineWs_skip h3) (inlineWs_skip h5) h7, h8⟩
      · cases h
    · unfold attributeMap at h
      replace h := bindP_eq_panic.1 h; rcases h with h | ⟨t, _, h1, h⟩
      · exact absurd h inlineWs_ne_panic
      replace h := bindP_eq_panic.1 h; rcases h with h | ⟨w, k, h2, h⟩
      · exact absurd h identifier_ne_panic
      replace h := bindP_eq_panic.1 h; rcases h with h | ⟨x, _, h3, h⟩
      · exact absurd h inlineWs_ne_panic
      have h2 := identifier_iff.1 h2
      have h3 := inlineWs_skip h3
      replace h := bindP_eq_panic.1 h; rcases h with h | ⟨y, _, h4, h⟩
      · rw [opt_eq_panic] at h; exact absurd h tag_eq_panic
      replace h := bindP_eq_panic.1 h; rcases h with h | ⟨z, _, h5, h⟩
      · exact absurd h inlineWs_ne_panic
      have h5 := inlineWs_skip h5
      replace h := bindP_eq_panic.1 h; rcases h with h | ⟨_, _, _, h⟩
      · obtain ⟨a, u, h6, h7, h8⟩ := mapExpression_panic hp h
        refine ⟨t, u, inlineWs_skip h1, ?_, h8⟩
        rcases opt_eq_ok.1 h4 with ⟨_, h4, -⟩ | ⟨-, h4, -⟩
        · obtain ⟨rfl, -⟩ := tag_eq_ok.1 h4
          exact .attribute _ _ _ _ _ _ (.ident _ _ _ h2) h3 h5 (.map _ _ _ h6 h7)
        · subst h4
          exact .map _ _ _ _ _ h2 (layout_of_inline h3 (layout_of_inline h5 h6)) h7
      · cases h
    · unfold attributeBlock at h
      replace h := bindP_eq_panic.1 h; rcases h with h | ⟨t, _, h1, h⟩
      · exact absurd h inlineWs_ne_panic
      replace h := bindP_eq_panic.1 h; rcases h with h | ⟨w, k, h2, h⟩
      · exact absurd h identifier_ne_panic
      replace h := bindP_eq_panic.1 h; rcases h with h | ⟨x, ls, h3, h⟩
      · exact absurd h stringLabels_ne_panic
      have h2 := identifier_iff.1 h2
      replace h := bindP_eq_panic.1 h; rcases h with h | ⟨z, _, h5, h⟩
      · exact absurd h inlineWs_ne_panic
      have h5 := inlineWs_skip h5
      replace h := bindP_eq_panic.1 h; rcases h with h | ⟨_, _, _, h⟩
      · obtain ⟨a, u, h6, h7, h8⟩ := mapExpression_panic hp h
        refine ⟨t, u, inlineWs_skip h1, ?_, h8⟩
        have hl := labels_sound h3
        cases ls with
        | nil =>
          cases hl
          exact .map _ _ _ _ _ h2 (layout_of_inline h5 h6) h7
        | cons l ls => exact .block _ _ _ _ _ _ _ h2 hl (by simp) (layout_of_inline h5 h6) h7
      · cases h
  · replace h := bindP_eq_panic.1 h; rcases h with h | ⟨_, _, _, h⟩
    · exact absurd h inlineWs_ne_panic
    · cases h

theorem attributeEnd_ne_panic {s : Str} : attributeEnd s ≠ .panic := by
  intro h
  have : Loc (fun _ => False) 0 attributeEnd :=
    .orElse (.mapP (.wsAround (.tag _))) (.orElse (.mapP .newline) .eof)
  obtain ⟨_, _, h⟩ := this.pan s h
  exact h

theorem mapItem_panic (hp : PanicSoundOld U P v m) {s : Str} (h : mapItem U v m s = .panic) :
    ∃ u, EntriesAt U P .expression s u ∧ HeredocPanics U u := by
  unfold mapItem at h
  replace h := bindP_eq_panic.1 h; rcases h with h | ⟨t, _, h1, h⟩
  · exact absurd h ws_ne_panic
  have h1 := ws_skip h1
  replace h := bindP_eq_panic.1 h; rcases h with h | ⟨_, _, _, h⟩
  · obtain ⟨t', u, h2, h3, h4⟩ := oldAttribute_panic hp h
    have := inline_after_layout h1 h2; subst this
    exact ⟨u, .entry _ _ _ h1 h3, h4⟩
  replace h := bindP_eq_panic.1 h; rcases h with h | ⟨_, _, _, h⟩
  · exact absurd h attributeEnd_ne_panic
  · cases h

theorem mapStep_panic (hs : SoundOld U P v m) (hp : PanicSoundOld U P v m) {s : Str} (h : mapStep U v m s = .panic) :
    ∃ u, EntriesAt U P .expression s u ∧ HeredocPanics U u := by
  unfold mapStep at h
  replace h := bindP_eq_panic.1 h; rcases h with h | ⟨_, _, _, h⟩
  · obtain ⟨t, ht, h⟩ := (many0_bad (fun t => ∀ u, EntriesAt U P .expression t u → EntriesAt U P .expression s u) (fun _ h => h)
      (fun s' r x h1 h2 _ u hu => h1 u (by
        obtain ⟨t, y, w, l, h3, h4, h5, hl, rfl⟩ := mapItem_sound hs h2
        exact .next _ _ _ _ _ _ _ h3 h4 h5 (entriesAt_prepend hl hu))) _ rfl).1 h
    obtain ⟨u, h1, h2⟩ := mapItem_panic hp h
    exact ⟨u, ht u h1, h2⟩
  · replace h := bindP_eq_panic.1 h; rcases h with h | ⟨_, _, _, h⟩
    · exact absurd h ws_ne_panic
    · cases h

theorem oldN_panic : ∀ n : Nat, PanicSoundOld U P (oldN U P n).1 (oldN U P n).2 := by
  intro n
  induction n with
  | zero => exact ⟨fun s h => (by cases h), fun s h => (by cases h)⟩
  | succ n ih => exact ⟨fun s h => valueStep_panic (oldN_sound n) ih h, fun s h => mapStep_panic (oldN_sound n) ih h⟩

/-! ## The converse -/

/-- A heredoc that cannot be unindented, where a value is expected. -/
def PanicsAt (U : CharClass) (k : Kind) (u : Str) : Prop := k = .expression ∧ HeredocPanics U u


/-- `v` and `m` panic wherever a position demands it, on inputs shorter than `n`. -/
def PanicBelowOld (U : CharClass) (P : F64Parse) (v : Parser Value) (m : Parser MapValues) (n : Nat) : Prop :=
  (∀ s k u, s.length < n → ValueAt U P k s u → PanicsAt U k u → v s = .panic) ∧
  (∀ s k u, s.length < n → EntriesAt U P k s u → PanicsAt U k u → m s = .panic)

variable {n : Nat} {k : Kind}

theorem listElem_eq {s t : Str} (h : SkipLayout s t) : listElem v s = v t := by
  unfold listElem; rw [ws_bind (fun _ _ => rfl) h]

theorem listAt_panics (hc : CompleteOld U P v m n) (hp : PanicBelowOld U P v m n) {s u : Str} (h : ListAt U P k s u)
    (hs : s.length < n) (hu : PanicsAt U k u) :
    listElem v s = .panic ∨ ∃ w x, listElem v s = .ok w x ∧ w.length < s.length ∧
      ∀ j, w.length < j → sepTailAux tupleSep (listElem v) j w = .panic := by
  refine ListAt.rec (motive_1 := fun _ _ _ _ => True) (motive_2 := fun k s u _ => s.length < n → PanicsAt U k u →
      (listElem v s = .panic ∨ ∃ w x, listElem v s = .ok w x ∧ w.length < s.length ∧
      ∀ j, w.length < j → sepTailAux tupleSep (listElem v) j w = .panic))
    (motive_3 := fun _ _ _ _ => True) (motive_4 := fun _ _ _ _ => True) ?_ ?_ ?_ ?_ ?_ ?_ ?_ ?_ ?_ ?_ ?_ ?_ h hs hu
  all_goals try (intros; trivial)
  · intro k s t u h1 h2 _ hs hu
    left
    rw [listElem_eq h1]
    exact hp.1 _ _ _ (by have := h1.length; omega) h2 hu
  · intro k s t y w u x h1 h2 h3 h4 ih hs hu
    right
    have l1 := h1.length
    have l2 := (isValue_consumes h2).length
    have l3 := h3.length
    simp at l3
    refine ⟨y, x, by rw [listElem_eq h1]; exact hc.1 _ _ _ (by omega) h2, by omega, ?_⟩
    intro j hj
    cases j with
    | zero => omega
    | succ j =>
      rw [sepTailAux_succ, tupleSep_iff.2 ⟨rfl, h3⟩]
      rcases ih (by omega) hu with h | ⟨v', x', h5, h6, h7⟩
      · simp only [h]
      · simp only [h5]
        rw [if_pos (by omega), h7 j (by omega)]; rfl

theorem mapExpression_panics (hp : PanicBelowOld U P v m n) {s t u : Str} (hs : s.length ≤ n)
    (h1 : SkipLayout s ('{' :: t)) (h2 : EntriesAt U P k t u) (hu : PanicsAt U k u) : mapExpression m s = .panic := by
  obtain ⟨t', ht'⟩ := skipLayout_total t
  have l1 := h1.length
  have l2 := ht'.length
  simp at l1
  have hb : EntriesAt U P k t' u := by
    obtain ⟨l, hl, rfl, -⟩ := ht'
    exact entriesAt_unprepend hl h2
  unfold mapExpression
  rw [bind_apply, wsAround_eq_ok.2 ⟨_, t, h1, tag_cons_self _ _, ht'⟩, bind_ok, bind_apply]
  unfold wsAround
  rw [ws_bind (fun _ _ => rfl) ht'.again, bind_apply, hp.2 _ _ _ (by omega) hb hu]; rfl

theorem valueStep_here {u : Str} (h : HeredocPanics U u) : valueStep U P v m u = .panic := by
  have hh := heredocPanics_head h
  unfold valueStep
  rw [orElse_of_err (nullV_err (not_head hh _)), orElse_of_err, orElse_of_err (booleanV_err (not_head hh _))]
  · apply orElse_of_panic
    rw [mapP_apply, string_eq_panic.2 h]; rfl
  · rintro c rfl; decide
  · rw [oldNumber_err (not_head hh _)]
    rintro c rfl; rw [numHead_iff]; decide
  · rintro c rfl; decide

theorem valueStep_panics (hc : CompleteOld U P v m n) (hp : PanicBelowOld U P v m n) {s u : Str} (hs : s.length ≤ n)
    (h : ValueAt U P k s u) (hu : PanicsAt U k u) : valueStep U P v m s = .panic := by
  cases h with
  | here => exact valueStep_here hu.2
  | list =>
    rename_i t h
    have hh : Head (fun c => c = '[') ('[' :: t) := ⟨_, _, rfl, rfl⟩
    unfold valueStep
    rw [orElse_of_err (nullV_err (not_head hh _)), orElse_of_err, orElse_of_err (booleanV_err (not_head hh _)),
      orElse_of_err (stringV_err (not_head hh _))]
    · apply orElse_of_panic
      rw [mapP_apply, map_eq_panic]
      unfold list
      rw [bind_apply, tag_cons_self, bind_ok, bind_apply]
      have : separatedList tupleSep (listElem v) t = .panic := by
        unfold separatedList
        rcases listAt_panics hc hp h (by simp at hs; omega) hu with h | ⟨w, x, h1, h2, h3⟩
        · rw [h]
        · rw [h1]; simp only; rw [if_pos h2, h3 _ (by omega)]; rfl
      rw [this]; rfl
    · rintro c rfl; decide
    · rintro c rfl; decide
    · rw [oldNumber_err (not_head hh _)]
      rintro c rfl; rw [numHead_iff]; decide
    · rintro c rfl; decide
  | map =>
    rename_i t h1 h2
    rw [valueStep_notToken (skip_notToken h1 (by unfold NotToken; decide)), mapP_apply,
      mapExpression_panics hp hs h1 h2 hu]
    rfl

theorem oldAttribute_panics (hp : PanicBelowOld U P v m n) {s u : Str} (h0 : SkipInline s s) (hs : s.length ≤ n)
    (h : EntryAt U P k s u) (hu : PanicsAt U k u) : oldAttribute U v m s = .panic := by
  unfold oldAttribute
  cases h with
  | «attribute» =>
    rename_i t y w key a1 a2 a3 a4
    obtain ⟨h1, h2, h3, h4⟩ : IsKey U s key t ∧ SkipInline t ('=' :: y) ∧ SkipInline y w ∧ ValueAt U P k w u :=
      ⟨‹_›, ‹_›, ‹_›, ‹_›⟩
    have l1 := (isKey_consumes h1).length
    have l2 := h2.length
    have l3 := h3.length
    simp at l2
    have : attributeEq U v s = .panic := by
      unfold attributeEq
      rw [inlineWs_bind (fun _ _ => rfl) h0, bind_apply, oldKey_iff.2 h1, bind_ok,
        inlineWs_bind (fun _ _ => rfl) h2, bind_apply, show '=' :: y = ['='] ++ y from rfl, tag_append, bind_ok,
        inlineWs_bind (fun _ _ => rfl) h3, bind_apply, hp.1 _ _ _ (by omega) h4 hu]
      rfl
    rw [bind_apply, orElse_of_panic this]; rfl
  | map =>
    rename_i i t y a1 a2 a3
    obtain ⟨h1, h2, h3⟩ : Ident U s i t ∧ SkipLayout t ('{' :: y) ∧ EntriesAt U P k y u := ⟨‹_›, ‹_›, ‹_›⟩
    obtain ⟨t', ht'⟩ := skipInline_total t
    have hb := layout_of_inline' ht' h2
    have hne : ¬ Head (fun c => c = '=') t' := skip_not_head hb (by simp [LayoutStart]) (by decide)
    have l1 := (ident_consumes h1).length
    have l2 := ht'.length
    have : attributeMap U m s = .panic := by
      unfold attributeMap
      rw [inlineWs_bind (fun _ _ => rfl) h0, bind_apply, identifier_iff.2 h1, bind_ok,
        inlineWs_bind (fun _ _ => rfl) ht', bind_apply]
      have ho : opt (tag ['=']) t' = .ok t' none := by
        rw [opt_eq_ok]
        refine .inr ⟨?_, rfl, rfl⟩
        rw [tag_eq_err]; rintro ⟨x, rfl⟩; exact hne ⟨_, _, rfl, rfl⟩
      rw [ho, bind_ok, inlineWs_bind (fun _ _ => rfl) ht'.again, bind_apply,
        mapExpression_panics hp (by omega) hb h3 hu]
      rfl
    rw [bind_apply, orElse_of_err (attributeEq_err h0 h1 ht' hne), orElse_of_panic this]; rfl
  | block =>
    rename_i i t y w ls a1 a2 a3 a4 a5
    obtain ⟨h1, h2, h3, h4, h5⟩ : Ident U s i t ∧ IsStringLabels t ls y ∧ ls ≠ [] ∧ SkipLayout y ('{' :: w) ∧
      EntriesAt U P k w u := ⟨‹_›, ‹_›, ‹_›, ‹_›, ‹_›⟩
    obtain ⟨y', hy'⟩ := skipInline_total y
    have hb := layout_of_inline' hy' h4
    have l1 := (ident_consumes h1).length
    have l2 := (stringLabels_suffix h2).length_le
    have l3 := hy'.length
    have hq : ∃ z, SkipInline t ('"' :: z) := by
      cases h2 with
      | nil => exact absurd rfl h3
      | cons =>
        rename_i z l1 l2 l3 l4 l5 l6
        have hz : ∃ a b, Quoted PlainLine z a b := ⟨_, _, ‹_›⟩
        obtain ⟨a, b, src, rfl, -⟩ := hz
        exact ⟨_, ‹_›⟩
    obtain ⟨z, hz⟩ := hq
    have : attributeBlock U m s = .panic := by
      unfold attributeBlock
      rw [inlineWs_bind (fun _ _ => rfl) h0, bind_apply, identifier_iff.2 h1, bind_ok, bind_apply,
        labels_complete h2 h4, bind_ok, inlineWs_bind (fun _ _ => rfl) hy', bind_apply,
        mapExpression_panics hp (by omega) hb h5 hu]
      rfl
    rw [bind_apply, orElse_of_err (attributeEq_err h0 h1 hz (by rw [head_cons]; decide)),
      orElse_of_err (attributeMap_err h0 h1 hz), this]; rfl
  | key => cases hu.1
  | label => cases hu.1

theorem entryAt_head {k : Kind} {s u : Str} (h : EntryAt U P k s u) : Head (fun c => IdentStart U c ∨ c = '"') s := by
  cases h with
  | «attribute» => exact isKey_head ‹_›
  | map => exact isKey_head (.ident _ _ _ ‹_›)
  | block => exact isKey_head (.ident _ _ _ ‹_›)
  | key => exact ⟨_, _, rfl, .inr rfl⟩
  | label => exact isKey_head (.ident _ _ _ ‹_›)

theorem entriesAt_no_comma {k : Kind} {s t u : Str} (hs : SkipLayout s (',' :: t)) : ¬ EntriesAt U P k s u := by
  intro h
  have key : ∀ t', SkipLayout s t' → ¬ Head (fun c => IdentStart U c ∨ c = '"') t' := by
    intro t' ht' hh
    have e : t' = ',' :: t := Skip.functional layoutItem_prefix ht' hs
    subst e
    rw [head_cons] at hh
    rcases hh with h | h
    · exact absurd h (not_identStart (by decide) (by decide))
    · cases h
  cases h with
  | entry => exact key _ ‹_› (entryAt_head ‹_›)
  | next =>
    rename_i t' y w k x h1 h2 h3 h4
    obtain ⟨z, hz⟩ := isEntry_key ‹IsEntry U P _ _ _ _›
    exact key _ ‹SkipLayout s _› (isKey_head hz)

/-- The end of an entry, if no comma follows. -/
theorem attributeEnd_complete' {s w : Str} (h : IsEntryEnd s w) (hn : ∀ t, ¬ SkipLayout w (',' :: t)) :
    ∃ w' l, attributeEnd s = .ok w' () ∧ Seq LayoutItem l ∧ w = l ++ w' := by
  unfold attributeEnd
  cases h with
  | comma =>
    rename_i h
    obtain ⟨w', hw'⟩ := skipLayout_total w
    obtain ⟨l, hl, e, -⟩ := id hw'
    refine ⟨w', l, ?_, hl, e⟩
    rw [orElse_of_ok]
    rw [mapP_eq_ok]
    exact ⟨[','], wsAround_eq_ok.2 ⟨_, _, h, tag_append [','] w, hw'⟩, rfl⟩
  | newline =>
    rename_i h
    obtain ⟨w', _, l, h1, h2, rfl⟩ := newline_complete h
    refine ⟨w', l, ?_, h2, rfl⟩
    rw [orElse_of_err, orElse_of_ok (r := w') (v := ())]
    · simp [h1]
    · obtain ⟨t, ht⟩ := skipLayout_total s
      rw [mapP_apply, wsAround_tag_err ht]
      · rfl
      · rintro ⟨c, y, rfl, rfl⟩
        obtain ⟨l', hl', rfl⟩ := newlines_layout h
        exact hn _ (ht.unprepend layoutItem_prefix hl')
  | eof =>
    refine ⟨[], [], ?_, .nil, rfl⟩
    rw [orElse_of_err, orElse_of_err]
    · rfl
    · rw [mapP_apply, map_eq_err]
      refine Tame.newline.not_ok fun r v hk => ?_
      obtain ⟨c, t, h, -⟩ := newlines_head (newline_sound hk)
      cases h
    · rw [mapP_apply, wsAround_tag_err (.refl _)]
      · rfl
      · rintro ⟨c, t, h, -⟩; cases h
      · rintro ⟨i, t, hi, h⟩
        obtain ⟨c, u, e, -⟩ := layoutItem_head (t := t) hi
        rw [← h] at e; cases e

theorem entriesAt_panics (hc : CompleteOld U P v m n) (hp : PanicBelowOld U P v m n) {s u : Str} (h : EntriesAt U P k s u)
    (hs : s.length ≤ n) (hu : PanicsAt U k u) : many0 (mapItem U v m) s = .panic := by
  refine EntriesAt.rec (motive_1 := fun _ _ _ _ => True) (motive_2 := fun _ _ _ _ => True)
    (motive_3 := fun k s u _ => ∀ l s', Seq LayoutItem l → s = l ++ s' → s'.length ≤ n → PanicsAt U k u →
      many0 (mapItem U v m) s' = .panic) (motive_4 := fun _ _ _ _ => True) ?_ ?_ ?_ ?_ ?_ ?_ ?_ ?_ ?_ ?_ ?_ ?_ h [] s .nil rfl hs hu
  all_goals try (intros; trivial)
  · rintro k s t u h1 h2 - l s' hl rfl hs hu
    have h1 := Skip.unprepend layoutItem_prefix hl h1
    refine many0_panic ?_
    unfold mapItem
    rw [ws_bind (fun _ _ => rfl) h1, bind_apply,
      oldAttribute_panics hp (skipInline_again h1) (by have := h1.length; omega) h2 hu]
    rfl
  · rintro k s t y w u key x h1 h2 h3 h4 ih l s' hl rfl hs hu
    have h1 := Skip.unprepend layoutItem_prefix hl h1
    obtain ⟨w', l', h5, hl', rfl⟩ := attributeEnd_complete' h3 fun t ht => entriesAt_no_comma ht h4
    have l1 := h1.length
    have l2 := (isEntry_consumes h2).length
    have l3 := (entryEnd_suffix h3).length_le
    simp at l3
    have hi : mapItem U v m s' = .ok w' (key, x) :=
      mapItem_eq_ok.2 ⟨t, y, h1, oldAttribute_complete hc (skipInline_again h1) (by omega) h2, h5⟩
    rw [many0_cons hi (by omega), ih l' w' hl' rfl (by omega) hu]; rfl

theorem oldN_panics : ∀ n : Nat, PanicBelowOld U P (oldN U P n).1 (oldN U P n).2 n := by
  intro n
  induction n with
  | zero => exact ⟨fun s k u h => absurd h (by omega), fun s k u h => absurd h (by omega)⟩
  | succ n ih =>
    refine ⟨fun s k u hs h hu => valueStep_panics (oldN_complete n) ih (by omega) h hu, fun s k u hs h hu => ?_⟩
    show mapStep U _ _ s = .panic
    unfold mapStep
    rw [bind_apply, entriesAt_panics (oldN_complete n) ih h (by omega) hu]; rfl

theorem oldBody_eq_panic {s : Str} : oldBody U P s = .panic ↔ ∃ u, EntriesAt U P .expression s u ∧ HeredocPanics U u := by
  have : oldBody U P s = .panic ↔ mapValues U P s = .panic := by
    unfold oldBody exact
    constructor
    · intro h
      rcases bind_eq_panic.1 h with h | ⟨r, x, _, h⟩
      · exact h
      · cases r <;> cases h
    · intro h; rw [h]; rfl
  rw [this]
  exact ⟨(oldN_panic _).2 s, fun ⟨u, h, hu⟩ => (oldN_panics _).2 _ _ _ (by omega) h ⟨rfl, hu⟩⟩

end
end Verif
