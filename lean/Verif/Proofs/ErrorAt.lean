import Verif.Model.ErrorAt
import Verif.Proofs.Depth
import Verif.Proofs.Embed
/-! # Complete lines in front of a text, and where the parser stops -/
set_option autoImplicit false

namespace Verif
open Spec PRes

section
variable {U : CharClass}

theorem skipLayout_before {l s t : Str} (hl : AnyLayout l) (h : SkipLayout s t) : SkipLayout (l ++ s) t := by
  obtain ⟨m, hm, rfl, hn⟩ := h
  exact ⟨l ++ m, hl.append hm, by simp, hn⟩

theorem bodyItem_skip {b : Parser Body} {s t : Str} (h : SkipLayout s t) : bodyItem U b s = bodyItem U b t := by
  unfold bodyItem
  rw [ws_bind (fun _ _ => rfl) h, ws_bind (fun _ _ => rfl) h.again]

theorem bodyItem_shorter {s r : Str} {el : BodyElement} (h : bodyItem U (body U) s = .ok r el) : r.length < s.length := by
  obtain ⟨t, u, h3, h4, h5⟩ := bodyItem_sound (fun _ _ _ h => body_sound h) h
  exact (((isElement_consumes h4).of_suffix h3.suffix).then (elementEnd_suffix h5)).length

theorem body_skip {s t : Str} (h : SkipLayout s t) : body U s = body U t := by
  rw [body_unfold, body_unfold]
  unfold bodyStep
  rw [bind_apply, bind_apply, many0_unfold, many0_unfold (s := t), bodyItem_skip h]
  cases hi : bodyItem U (body U) t with
  | ok r v =>
    have := bodyItem_shorter hi
    have := h.length
    simp only
    rw [if_pos (by omega), if_pos (by omega)]
  | err =>
    simp only [bind_ok]
    rw [ws_bind (fun _ _ => rfl) h, ws_bind (fun _ _ => rfl) h.again]
  | _ => rfl

theorem body_layout {l t : Str} (hl : AnyLayout l) : body U (l ++ t) = body U t := by
  obtain ⟨x, v, hx⟩ := ws_total t
  have hx := ws_skip hx
  rw [body_skip hx, body_skip (skipLayout_before hl hx)]

theorem body_item {s r : Str} {el : BodyElement} (h : bodyItem U (body U) s = .ok r el) :
    body U s = (body U r).map (el :: ·) := by
  rw [body_unfold, body_unfold (s := r)]
  unfold bodyStep
  rw [bind_apply, bind_apply, many0_cons h (bodyItem_shorter h)]
  cases many0 (bodyItem U (body U)) r with
  | ok t v =>
    simp only [PRes.map, bind_ok]
    obtain ⟨x, w, hx⟩ := ws_total t
    rw [bind_apply, bind_apply, hx]
    rfl
  | _ => rfl

/-- Whatever follows complete elements is parsed as if it stood alone. -/
theorem body_after {b : Body} {p : Str} (hp : LaidBody U b p) (t : Str) : body U (p ++ t) = (body U t).map (b ++ ·) := by
  refine LaidBody.rec (motive_1 := fun _ _ _ _ => True) (motive_2 := fun b p _ => body U (p ++ t) = (body U t).map (b ++ ·))
    ?_ ?_ ?_ ?_ ?_ ?_ hp
  · intros; trivial
  · intros; trivial
  · intros; trivial
  · intros; trivial
  · intro l hl
    rw [body_layout hl]
    cases body U t <;> rfl
  · intro l s n t' h el b hl he hn hx _ _ ih
    obtain ⟨y, k1, k2⟩ := inline_lineEnds (l := []) .nil hn (t' ++ t)
    have hel := laidElement_isElement he (n ++ (t' ++ t)) y k1 (hx.append _) (lineEnds_num hn _)
    obtain ⟨c, u, hu, hc⟩ := isElement_start hel
    have hsk : SkipLayout (l ++ (s ++ (n ++ (t' ++ t)))) (s ++ (n ++ (t' ++ t))) :=
      skip_append hl (by rw [hu]; exact not_starts_layout hc)
    obtain ⟨w, m, h5, hm, e5⟩ := elementEnd_complete (.newline _ _ k2)
    have hi : bodyItem U (body U) (l ++ (s ++ (n ++ (t' ++ t)))) = .ok w el :=
      bodyItem_eq_ok.2 ⟨_, _, hsk, bodyElement_complete (n := (s ++ (n ++ (t' ++ t))).length)
        (fun s v r _ hr h => body_complete hr h) (skipInline_again hsk) (by omega) hel, h5⟩
    have e : l ++ s ++ n ++ t' ++ t = l ++ (s ++ (n ++ (t' ++ t))) := by simp
    rw [e, body_item hi, ← body_layout hm, ← e5, ih]
    cases body U t <;> rfl

theorem many0Aux_not_err {α : Type} (p : Parser α) : ∀ (n : Nat) (s : Str), many0Aux p n s ≠ .err
  | 0, s => by intro h; cases h
  | n + 1, s => by
    intro h
    unfold many0Aux at h
    cases hp : p s with
    | ok r v =>
      rw [hp] at h
      simp only at h
      split at h
      · exact many0Aux_not_err p n r (map_eq_err.1 h)
      · cases h
    | _ => rw [hp] at h; cases h

theorem many0_not_err {α : Type} (p : Parser α) (s : Str) : many0 p s ≠ .err := many0Aux_not_err p _ s

theorem body_not_err (s : Str) : body U s ≠ .err := by
  intro h
  rw [body_unfold] at h
  unfold bodyStep at h
  rw [bind_apply] at h
  cases hm : many0 (bodyItem U (body U)) s with
  | ok t v =>
    rw [hm, bind_ok] at h
    obtain ⟨x, w, hx⟩ := ws_total t
    rw [bind_apply, hx] at h
    cases h
  | err => exact many0_not_err _ _ hm
  | _ => rw [hm] at h; cases h

theorem parseStr_body (s : Str) : parseStr U s = match body U s with
    | .ok [] b => .ok b
    | .ok (_ :: _) _ => .error .parse
    | .err => .error .parse
    | .fail z => .error (.invalidUnicodeCodePoint z)
    | .panic => .panic
    | .diverge => .diverge := by
  unfold parseStr configFile exact
  cases body U s with
  | ok r b => cases r <;> rfl
  | _ => rfl

/-- The error is where the parser of elements stops. -/
theorem configFileError_iff {s r : Str} : configFileError U s = some (.code r eofKind) ↔ r ≠ [] ∧ ∃ b, body U s = .ok r b := by
  unfold configFileError
  cases body U s with
  | ok t b =>
    cases t with
    | nil => simp
    | cons c t =>
      constructor
      · intro h; injection h with h; injection h with h _; subst h; exact ⟨by simp, b, rfl⟩
      · rintro ⟨-, b', h⟩; injection h with h _; subst h; rfl
  | _ => simp

/-- It is at the end of the complete elements, as many as there are. -/
theorem body_stops {s r : Str} {b : Body} (h : body U s = .ok r b) (hr : r ≠ []) :
    (∃ p, s = p ++ r ∧ LaidBody U b p ∧ ∀ q t c, r = q ++ t → LaidBody U c (p ++ q) → q = []) ∧ body U r = .ok r [] := by
  rcases isBody_laid (body_sound h) with ⟨p, rfl, hp⟩ | ⟨h0, -⟩
  · refine ⟨⟨p, rfl, hp, ?_⟩, ?_⟩
    · rintro q t c rfl hc
      have e := body_after hc t
      rw [List.append_assoc, h] at e
      obtain ⟨c', e, -⟩ := map_eq_ok.1 e.symm
      have l := (isBody_suffix (body_sound e)).length_le
      cases q with
      | nil => rfl
      | cons x q => simp at l; omega
    · have e := body_after hp r
      rw [h] at e
      obtain ⟨c, e, e'⟩ := map_eq_ok.1 e.symm
      have : c = [] := List.append_cancel_left (e'.trans (List.append_nil b).symm)
      rw [e, this]
  · exact absurd h0 hr

end
end Verif
