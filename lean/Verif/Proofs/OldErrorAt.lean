import Verif.Proofs.ErrorAt
import Verif.Proofs.OldLaid
/-! # Complete entries in front of a text, and where the legacy parser stops -/
set_option autoImplicit false

namespace Verif
open Spec PRes

section
variable {U : CharClass} {P : F64Parse}

/-- The text does not begin with a comma (after layout). -/
def NoComma (t : Str) : Prop := ∀ z, ¬ SkipLayout t (',' :: z)

theorem old_complete (n : Nat) : CompleteOld U P (singleValue U P) (mapValues U P) n :=
  ⟨fun _ _ _ _ h => singleValue_iff.2 h, fun c t hc _ => by rw [(old_unfold _).1]; exact valueStep_err hc,
    fun _ _ _ _ hr h => mapValues_complete hr h⟩

theorem old_sound : SoundOld U P (singleValue U P) (mapValues U P) :=
  ⟨fun _ _ _ h => singleValue_iff.1 h, fun _ _ _ h => mapValues_sound h⟩

theorem mapItem_skip {v : Parser Value} {m : Parser MapValues} {s t : Str} (h : SkipLayout s t) : mapItem U v m s = mapItem U v m t := by
  unfold mapItem
  rw [ws_bind (fun _ _ => rfl) h, ws_bind (fun _ _ => rfl) h.again]

theorem mapItem_shorter {s r : Str} {a : Key × Value} (h : mapItem U (singleValue U P) (mapValues U P) s = .ok r a) : r.length < s.length := by
  obtain ⟨t, u, w, l, h3, h4, h5, -, rfl⟩ := mapItem_sound old_sound h
  have := (((isEntry_consumes h4).of_suffix h3.suffix).then (entryEnd_suffix h5)).length
  simp at this
  omega

theorem mapValues_skip {s t : Str} (h : SkipLayout s t) : mapValues U P s = mapValues U P t := by
  rw [(old_unfold s).2, (old_unfold t).2]
  unfold mapStep
  rw [bind_apply, bind_apply, many0_unfold, many0_unfold (s := t), mapItem_skip h]
  cases hi : mapItem U (singleValue U P) (mapValues U P) t with
  | ok r v =>
    have := mapItem_shorter hi
    have := h.length
    simp only
    rw [if_pos (by omega), if_pos (by omega)]
  | err =>
    simp only [bind_ok]
    rw [ws_bind (fun _ _ => rfl) h, ws_bind (fun _ _ => rfl) h.again]
  | _ => rfl

theorem mapValues_layout {l t : Str} (hl : AnyLayout l) : mapValues U P (l ++ t) = mapValues U P t := by
  obtain ⟨x, hx⟩ := skipLayout_total t
  rw [mapValues_skip hx, mapValues_skip (skipLayout_before hl hx)]

/-- entries in front -/
def frontEntries (es : List (Key × Value)) : MapValues → MapValues
  | .unmerged c => .unmerged (es ++ c)
  | .merged c => .merged c

theorem mapValues_item {s r : Str} {a : Key × Value} (h : mapItem U (singleValue U P) (mapValues U P) s = .ok r a) :
    mapValues U P s = (mapValues U P r).map (frontEntries [a]) := by
  rw [(old_unfold s).2, (old_unfold r).2]
  unfold mapStep
  rw [bind_apply, bind_apply, many0_cons h (mapItem_shorter h)]
  cases many0 (mapItem U (singleValue U P) (mapValues U P)) r with
  | ok t v =>
    simp only [PRes.map, bind_ok]
    obtain ⟨x, w, hx⟩ := ws_total t
    rw [bind_apply, bind_apply, hx]
    rfl
  | _ => rfl

theorem noComma_layout {l t : Str} (hl : AnyLayout l) (h : NoComma t) : NoComma (l ++ t) :=
  fun z hz => h z (hz.unprepend layoutItem_prefix hl)

theorem attributeEnd_noComma {s w : Str} (h : IsEntryEnd s w) (hw : NoComma w) : ∃ w' l, attributeEnd s = .ok w' () ∧ AnyLayout l ∧ w = l ++ w' := by
  unfold attributeEnd
  cases h with
  | comma =>
    rename_i h
    obtain ⟨w', hw'⟩ := skipLayout_total w
    obtain ⟨l, hl, e, -⟩ := id hw'
    refine ⟨w', l, ?_, hl, e⟩
    rw [orElse_of_ok]
    rw [mapP_eq_ok]
    exact ⟨[','], wsAround_eq_ok.2 ⟨_, _, h, tag_append [','] w, hw'⟩, rfl⟩
  | newline =>
    rename_i h
    obtain ⟨w', _, l, h1, h2, rfl⟩ := newline_complete h
    refine ⟨w', l, ?_, h2, rfl⟩
    rw [orElse_of_err, orElse_of_ok (r := w') (v := ())]
    · simp [h1]
    · obtain ⟨t, ht⟩ := skipLayout_total s
      rw [mapP_apply, wsAround_tag_err ht]
      · rfl
      · rintro ⟨c, y, rfl, rfl⟩
        obtain ⟨l', hl', rfl⟩ := newlines_layout h
        exact hw _ (ht.unprepend layoutItem_prefix hl')
  | eof =>
    refine ⟨[], [], ?_, .nil, rfl⟩
    rw [orElse_of_err, orElse_of_err]
    · rfl
    · rw [mapP_apply, map_eq_err]
      refine Tame.newline.not_ok fun r v hk => ?_
      obtain ⟨c, t, h, -⟩ := newlines_head (newline_sound hk)
      cases h
    · rw [mapP_apply, wsAround_tag_err (.refl not_starts_nil)]
      · rfl
      · rintro ⟨c, t, h, -⟩; cases h

/-- A comma behind the end of an entry. -/
theorem attributeEnd_comma {s w z : Str} (h : IsEntryEnd s w) (hw : SkipLayout w (',' :: z)) {x : Str}
    (hx : attributeEnd s = .ok x ()) : x <:+ ',' :: z := by
  unfold attributeEnd at hx
  simp only [orElse_eq_ok, mapP_eq_ok, wsAround_eq_ok, tag_eq_ok, eof_eq_ok] at hx
  rcases hx with ⟨_, ⟨t, u, h1, ⟨rfl, -⟩, h2⟩, -⟩ | ⟨h0, hx⟩
  · cases h with
    | comma =>
      rename_i h
      have e := h.functional layoutItem_prefix h1
      simp only [List.cons_append, List.nil_append] at e
      injection e with _ e
      subst e
      have := h2.functional layoutItem_prefix hw
      rw [this]; exact List.suffix_refl _
    | newline =>
      rename_i h
      obtain ⟨l, hl, rfl⟩ := newlines_layout h
      have e := (skipLayout_before hl hw).functional layoutItem_prefix h1
      simp only [List.cons_append, List.nil_append] at e
      injection e with _ e
      subst e
      exact h2.suffix.trans (List.suffix_cons _ _)
    | eof =>
      obtain ⟨l, -, e, -⟩ := hw
      cases l <;> cases e
  · exfalso
    have hc : SkipLayout s (',' :: z) ∨ ∃ y, SkipLayout s (',' :: y) := by
      cases h with
      | comma => exact .inr ⟨_, ‹_›⟩
      | newline =>
        rename_i h
        obtain ⟨l, hl, rfl⟩ := newlines_layout h
        exact .inl (skipLayout_before hl hw)
      | eof => exact .inl hw
    obtain ⟨y, hy⟩ : ∃ y, SkipLayout s (',' :: y) := by rcases hc with h | h; exact ⟨_, h⟩; exact h
    obtain ⟨q, hq⟩ := skipLayout_total y
    have : mapP (fun _ => ()) (wsAround (tag [','])) s = .ok q () := by
      rw [mapP_eq_ok]
      exact ⟨[','], wsAround_eq_ok.2 ⟨_, _, hy, tag_append [','] y, hq⟩, rfl⟩
    rw [this] at h0
    cases h0

theorem attributeEnd_total {u q z : Str} (k3 : IsEntryEnd u q) (hz : SkipLayout q (',' :: z)) : ∃ w, attributeEnd u = .ok w () := by
  cases k3 with
  | comma =>
    rename_i h
    obtain ⟨w', hw'⟩ := skipLayout_total q
    refine ⟨w', ?_⟩
    unfold attributeEnd
    rw [orElse_of_ok]
    rw [mapP_eq_ok]
    exact ⟨[','], wsAround_eq_ok.2 ⟨_, _, h, tag_append [','] _, hw'⟩, rfl⟩
  | newline =>
    rename_i h
    obtain ⟨l, hl, rfl⟩ := newlines_layout h
    obtain ⟨w', hw'⟩ := skipLayout_total z
    refine ⟨w', ?_⟩
    unfold attributeEnd
    rw [orElse_of_ok]
    rw [mapP_eq_ok]
    exact ⟨[','], wsAround_eq_ok.2 ⟨_, _, skipLayout_before hl hz, tag_append [','] _, hw'⟩, rfl⟩
  | eof =>
    obtain ⟨l, -, e, -⟩ := hz
    cases l <;> cases e

section
variable {l s n t : Str} {h : Option Str} {k : Key} {v : Value}

theorem entry_reads (hl : AnyLayout l) (he : LaidEntry U P h k v s) (hn : LaidEntryEnd n) (hx : Next h n) (t : Str) :
    ∃ y u, SkipLayout (l ++ (s ++ (n ++ t))) y ∧ ¬ Head (fun c => c = ',') y ∧ IsEntryEnd u t ∧
      oldAttribute U (singleValue U P) (mapValues U P) y = .ok u (k, v) := by
  obtain ⟨⟨u, h1, h2⟩, h3⟩ := laidEntryEnd_of hn t
  have hel := laidOld_is.2.2 he (n ++ t) u h1 (hx.append _) h3
  obtain ⟨c, w, hw, hc⟩ := isEntry_start hel
  have hsk : SkipLayout (l ++ (s ++ (n ++ t))) (s ++ (n ++ t)) := skip_append hl (by rw [hw]; exact not_starts_layout hc)
  refine ⟨_, u, hsk, ?_, h2, oldAttribute_complete (old_complete _) (skipInline_again hsk) (Nat.le_refl _) hel⟩
  obtain ⟨t', ht'⟩ := isEntry_key hel
  obtain ⟨c, w, e, hc⟩ := isKey_head ht'
  rw [e]
  rintro ⟨d, w', e', rfl⟩
  injection e' with e' _
  subst e'
  rcases hc with h | h
  · exact absurd h (not_identStart (by decide) (by decide))
  · cases h

end

theorem mapValues_after {es : List (Key × Value)} {p : Str} (hp : LaidEntries U P es p) (t : Str) (ht : NoComma t) :
    mapValues U P (p ++ t) = (mapValues U P t).map (frontEntries es) ∧ NoComma (p ++ t) := by
  refine LaidEntries.rec (motive_1 := fun _ _ _ _ => True) (motive_2 := fun _ _ _ => True) (motive_3 := fun _ _ _ => True)
    (motive_4 := fun es p _ => mapValues U P (p ++ t) = (mapValues U P t).map (frontEntries es) ∧ NoComma (p ++ t))
    (motive_5 := fun _ _ _ _ _ => True)
    ?_ ?_ ?_ ?_ ?_ ?_ ?_ ?_ ?_ ?_ ?_ ?_ ?_ ?_ ?_ ?_ ?_ hp
  case refine_13 =>
    intro l hl
    refine ⟨?_, noComma_layout hl ht⟩
    rw [mapValues_layout hl]
    cases mapValues U P t with
    | ok r m => cases m <;> rfl
    | _ => rfl
  case refine_14 =>
    intro l s n t' h k v es hl he hn hx _ _ ih
    obtain ⟨y, u, k1, k2, k3, k4⟩ := entry_reads hl he hn hx (t' ++ t)
    obtain ⟨w, m, h5, hm, e5⟩ := attributeEnd_noComma k3 ih.2
    have hi := mapItem_eq_ok.2 ⟨_, _, k1, k4, h5⟩
    have e : l ++ s ++ n ++ t' ++ t = l ++ (s ++ (n ++ (t' ++ t))) := by simp
    rw [e]
    refine ⟨?_, fun z hz => k2 ?_⟩
    · rw [mapValues_item hi, ← mapValues_layout hm, ← e5, ih.1]
      cases mapValues U P t with
      | ok r m => cases m <;> rfl
      | _ => rfl
    · rw [k1.functional layoutItem_prefix hz]; exact ⟨',', z, rfl, rfl⟩
  all_goals intros; trivial

theorem mapValues_suffix {s r : Str} {m : MapValues} (h : mapValues U P s = .ok r m) : r <:+ s := by
  obtain ⟨es, -, h⟩ := mapValues_sound h
  exact isEntries_suffix h

/-- Complete entries are always read. -/
theorem mapValues_reads {es : List (Key × Value)} {p : Str} (hp : LaidEntries U P es p) (t : Str) :
    (∀ r m, mapValues U P (p ++ t) = .ok r m → r <:+ t) ∧ ∀ z, SkipLayout (p ++ t) (',' :: z) → ',' :: z <:+ t := by
  refine LaidEntries.rec (motive_1 := fun _ _ _ _ => True) (motive_2 := fun _ _ _ => True) (motive_3 := fun _ _ _ => True)
    (motive_4 := fun es p _ => (∀ r m, mapValues U P (p ++ t) = .ok r m → r <:+ t) ∧ ∀ z, SkipLayout (p ++ t) (',' :: z) → ',' :: z <:+ t)
    (motive_5 := fun _ _ _ _ _ => True)
    ?_ ?_ ?_ ?_ ?_ ?_ ?_ ?_ ?_ ?_ ?_ ?_ ?_ ?_ ?_ ?_ ?_ hp
  case refine_13 =>
    intro l hl
    rw [mapValues_layout hl]
    exact ⟨fun r m h => mapValues_suffix h, fun z hz => (hz.unprepend layoutItem_prefix hl).suffix⟩
  case refine_14 =>
    intro l s n t' h k v es hl he hn hx _ _ ih
    obtain ⟨y, u, k1, k2, k3, k4⟩ := entry_reads hl he hn hx (t' ++ t)
    have e : l ++ s ++ n ++ t' ++ t = l ++ (s ++ (n ++ (t' ++ t))) := by simp
    rw [e]
    refine ⟨?_, fun z hz => absurd ?_ k2⟩
    · intro r m hr
      by_cases hc : NoComma (t' ++ t)
      · obtain ⟨w, m', h5, hm, e5⟩ := attributeEnd_noComma k3 hc
        rw [mapValues_item (mapItem_eq_ok.2 ⟨_, _, k1, k4, h5⟩), ← mapValues_layout hm, ← e5] at hr
        obtain ⟨_, hr, -⟩ := map_eq_ok.1 hr
        exact ih.1 _ _ hr
      · obtain ⟨z, hz⟩ : ∃ z, SkipLayout (t' ++ t) (',' :: z) := by
          refine Classical.byContradiction fun h => hc fun z hz => h ⟨z, hz⟩
        have hzt := ih.2 z hz
        obtain ⟨w, hw⟩ := attributeEnd_total k3 hz
        have hwz := attributeEnd_comma k3 hz hw
        rw [mapValues_item (mapItem_eq_ok.2 ⟨_, _, k1, k4, hw⟩)] at hr
        obtain ⟨_, hr, -⟩ := map_eq_ok.1 hr
        exact (mapValues_suffix hr).trans (hwz.trans hzt)
    · rw [k1.functional layoutItem_prefix hz]; exact ⟨',', z, rfl, rfl⟩
  all_goals intros; trivial

theorem many_stops {α : Type} {p : Parser α} (hp : ∀ s r v, p s = .ok r v → r.length < s.length) {s r : Str} {vs : List α}
    (h : Many p s vs r) : p r = .err := by
  induction h with
  | stop _ h => exact h
  | stuck s r v h hl => exact absurd (hp _ _ _ h) (by omega)
  | cons _ _ _ _ _ _ _ _ ih => exact ih

/-- Where `map_values` stops, no entry begins. -/
theorem mapValues_stops {s r : Str} {m : MapValues} (h : mapValues U P s = .ok r m) : mapValues U P r = .ok r (.unmerged []) := by
  rw [(old_unfold s).2] at h
  unfold mapStep at h
  obtain ⟨t, vs, h1, h2⟩ := bind_eq_ok.1 h
  obtain ⟨r', ws', h4, h3⟩ := bind_eq_ok.1 h2
  cases h3
  have hs := ws_skip h4
  have he := many_stops (fun _ _ _ => mapItem_shorter) (many0_eq_ok.1 h1)
  rw [mapItem_skip hs] at he
  rw [(old_unfold r).2]
  unfold mapStep
  rw [bind_apply, many0_stop he, bind_ok, ws_bind (fun _ _ => rfl) hs.again]
  rfl

theorem mapValues_not_err (s : Str) : mapValues U P s ≠ .err := by
  intro h
  rw [(old_unfold s).2] at h
  unfold mapStep at h
  rw [bind_apply] at h
  cases hm : many0 (mapItem U (singleValue U P) (mapValues U P)) s with
  | ok t v =>
    rw [hm, bind_ok] at h
    obtain ⟨x, w, hx⟩ := ws_total t
    rw [bind_apply, hx] at h
    cases h
  | err => exact many0_not_err _ _ hm
  | _ => rw [hm] at h; cases h

end
end Verif
