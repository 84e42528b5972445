import Verif.Proofs.Extend
/-! # Content without a terminator line ends at the given terminator -/
set_option autoImplicit false

namespace Verif
open PRes Spec

theorem cut_at_newline {x y u v : Str} (hx : '\n' ∉ x) (hy : '\n' ∉ y) (h : x ++ '\n' :: u = y ++ '\n' :: v) : x = y := by
  induction x generalizing y with
  | nil =>
    cases y with
    | nil => rfl
    | cons c y => injection h with h _; subst h; simp at hy
  | cons c x ih =>
    cases y with
    | nil => injection h with h _; subst h; simp at hx
    | cons d y =>
      injection h with h1 h2; subst h1
      rw [ih (by simp at hx; exact hx.2) (by simp at hy; exact hy.2) h2]

/-- A line `l` followed by a line end that reads as blanks, marker and line end. -/
theorem line_is_terminator {m l b e r z : Str} (hm : '\n' ∉ m) (hm' : '\r' ∉ m)
    (hb : ∀ c ∈ b, c = ' ' ∨ c = '\t') (hl : '\n' ∉ l) (he : Eol e) (hr : StartsEol r)
    (h : l ++ (e ++ z) = b ++ (m ++ r)) : l = b ++ m ∨ l = b ++ m ++ ['\r'] := by
  have hb' : '\n' ∉ b := fun h => by have := hb _ h; simp at this
  have hbr : '\r' ∉ b := fun h => by have := hb _ h; simp at this
  obtain ⟨e', t, he', rfl⟩ := hr
  have hbm : '\n' ∉ b ++ m := by simp [hb', hm]
  have hbmr : '\r' ∉ b ++ m := by simp [hbr, hm']
  have hbm' : '\n' ∉ b ++ m ++ ['\r'] := by simp [hb', hm]
  have hl' : '\n' ∉ l ++ ['\r'] := by simp [hl]
  cases he with
  | lf =>
    cases he' with
    | lf => exact .inl (cut_at_newline hl hbm (u := z) (v := t) (by simpa using h))
    | crlf => exact .inr (cut_at_newline hl hbm' (u := z) (v := t) (by simpa using h))
  | crlf =>
    cases he' with
    | lf =>
      have := cut_at_newline hl' hbm (u := z) (v := t) (by simpa using h)
      rw [← this] at hbmr; simp at hbmr
    | crlf =>
      have := cut_at_newline hl' hbm' (u := z) (v := t) (by simpa using h)
      exact .inl (List.append_cancel_right this)

/-- An end of line that starts inside `l ++ z`, where `l` has no line feed. -/
theorem eol_inside {l z c t e x : Str} (hl : '\n' ∉ l) (h : l ++ z = c ++ t) (hc : c.length < l.length) (he : Eol e)
    (ht : t = e ++ x) : l = c ++ ['\r'] ∧ z = '\n' :: x ∧ e = ['\r', '\n'] := by
  have hp : c <+: l := by
    rw [List.prefix_iff_eq_take]
    have := congrArg (List.take c.length) h
    rw [List.take_append_of_le_length (by omega), List.take_append_of_le_length (by omega)] at this
    simpa using this.symm
  obtain ⟨y, rfl⟩ := hp
  rw [List.append_assoc] at h
  have h := List.append_cancel_left h
  subst ht
  cases y with
  | nil => simp at hc
  | cons d y =>
    cases he with
    | lf => injection h with h _; subst h; simp at hl
    | crlf =>
      injection h with h h'; subst h
      cases y with
      | nil => exact ⟨rfl, h', rfl⟩
      | cons d' y => injection h' with h' _; subst h'; simp at hl

/-- Where a terminator can start in a line end, a line that is not a terminator line, and a line end. -/
theorem terminator_past_line {m l : Str} (hm : '\n' ∉ m) (hm' : '\r' ∉ m) (hl : '\n' ∉ l)
    (hls : ∀ b : Str, (∀ c ∈ b, c = ' ' ∨ c = '\t') → l ≠ b ++ m ∧ l ≠ b ++ m ++ ['\r'])
    {e e' z c' t' b' r' : Str} (he : Eol e) (he' : Eol e') (h : e ++ (l ++ (e' ++ z)) = c' ++ t')
    (ht : Terminator m t' b' r') :
    (e ++ l).length ≤ c'.length ∨ ∃ c, l = c ++ ['\r'] ∧ e' = ['\n'] ∧ z = b' ++ m ++ r' := by
  rcases Nat.lt_or_ge c'.length (e ++ l).length with hlt | hge
  · right
    obtain ⟨e2, he2, ht', hb, hr⟩ := ht
    have key : ∀ pre, e = c' ++ pre → Eol pre → False := by
      intro pre hp hpe
      rw [hp, List.append_assoc] at h
      have h := List.append_cancel_left h
      have hee : pre = e2 := by
        rw [ht'] at h
        cases hpe <;> cases he2 <;> simp at h ⊢
      subst hee
      have h3 : l ++ (e' ++ z) = b' ++ (m ++ r') := by
        rw [ht'] at h; simpa using h
      rcases line_is_terminator hm hm' hb hl he' hr h3 with h | h
      · exact (hls b' hb).1 h
      · exact (hls b' hb).2 h
    rcases Nat.lt_or_ge c'.length e.length with hlt' | hge'
    · exfalso
      cases he with
      | lf =>
        have : c' = [] := by cases c'; rfl; simp at hlt'
        subst this; exact key _ rfl .lf
      | crlf =>
        match c', hlt', h with
        | [], _, _ => exact key _ rfl .crlf
        | [d], _, h =>
          injection h with h _; subst h
          exact key ['\n'] rfl .lf
    · obtain ⟨c2, rfl⟩ : ∃ c2, c' = e ++ c2 := by
        obtain ⟨c2, hc⟩ := List.prefix_of_prefix_length_le (List.prefix_append e _) (h ▸ List.prefix_append c' t') hge'
        exact ⟨c2, hc.symm⟩
      rw [List.append_assoc] at h
      have h := List.append_cancel_left h
      obtain ⟨h1, h2, h3⟩ := eol_inside (x := b' ++ m ++ r') hl h (by simp at hlt; exact hlt) he2 (by rw [ht']; simp)
      cases he' with
      | lf => injection h2 with _ h2; exact ⟨c2, h1, rfl, h2⟩
      | crlf => cases h2
  · exact .inl hge

theorem no_earlier_terminator {m content : Str} {ls : List Str} (hm : '\n' ∉ m) (hm' : '\r' ∉ m)
    (hL : Lines content ls)
    (hls : ∀ l ∈ ls, ∀ b : Str, (∀ c ∈ b, c = ' ' ∨ c = '\t') → l ≠ b ++ m ∧ l ≠ b ++ m ++ ['\r'])
    {e' z : Str} (he' : Eol e') (hcr : e' = ['\n'] → ∀ x, content ≠ x ++ ['\r']) :
    ∀ (e c' t' b' r' : Str), Eol e → e ++ (content ++ (e' ++ z)) = c' ++ t' → Terminator m t' b' r' →
      (e ++ content).length ≤ c'.length := by
  induction hL with
  | last l hl =>
    intro e c' t' b' r' he h ht
    rcases terminator_past_line hm hm' hl (hls l (by simp)) he he' h ht with h | ⟨c, h1, h2, -⟩
    · exact h
    · exact absurd h1 (hcr h2 c)
  | cons l s ls hl hL ih =>
    intro e c' t' b' r' he h ht
    have ih' := ih (fun l hl => hls l (by simp [hl])) (fun h x hx => hcr h (l ++ '\n' :: x) (by rw [hx]; simp))
    have h0 : e ++ (l ++ (['\n'] ++ (s ++ (e' ++ z)))) = c' ++ t' := by rw [← h]; simp
    rcases terminator_past_line hm hm' hl (hls l (by simp)) he .lf h0 ht with hge | ⟨c, h1, h2, h3⟩
    · obtain ⟨c2, rfl⟩ : ∃ c2, c' = (e ++ l) ++ c2 := by
        obtain ⟨c2, hc⟩ := List.prefix_of_prefix_length_le (l₁ := e ++ l)
          (by rw [← List.append_assoc]; exact List.prefix_append _ _) (h0 ▸ List.prefix_append c' t') hge
        exact ⟨c2, hc.symm⟩
      have h4 : ['\n'] ++ (s ++ (e' ++ z)) = c2 ++ t' := by
        rw [← List.append_assoc, List.append_assoc (e ++ l)] at h0
        exact List.append_cancel_left h0
      have := ih' ['\n'] c2 t' b' r' .lf h4 ht
      simp at this ⊢; omega
    · exfalso
      obtain ⟨e2, he2, ht', hb, hr⟩ := ht
      have := ih' ['\n'] [] (['\n'] ++ (s ++ (e' ++ z))) b' r' .lf rfl ⟨['\n'], .lf, by rw [h3]; simp, hb, hr⟩
      simp at this

/-- Content none of whose lines is a terminator line extends to the terminator that follows it. -/
theorem firstTerminator_of {m content b rest e' : Str} (hm : '\n' ∉ m) (hm' : '\r' ∉ m)
    (h : NoTerminatorLine m content) (he' : Eol e') (hcr : e' = ['\n'] → ∀ x, content ≠ x ++ ['\r'])
    (hb : ∀ c ∈ b, c = ' ' ∨ c = '\t') (hr : StartsEol rest) :
    FirstTerminator m (content ++ (e' ++ b ++ m ++ rest)) content b rest ∧
    ∀ e, Eol e → ¬ ∃ b' r', Terminator m (e ++ (content ++ (e' ++ b ++ m ++ rest))) b' r' := by
  have key := no_earlier_terminator hm hm' (lines_splitLines content) (h _ (lines_splitLines content))
    (z := b ++ m ++ rest) he' hcr
  have e0 : e' ++ b ++ m ++ rest = e' ++ (b ++ m ++ rest) := by simp
  refine ⟨⟨⟨_, rfl, ⟨e', he', rfl, hb, hr⟩⟩, ?_⟩, ?_⟩
  · intro c' t' b' r' h ht
    have := key ['\n'] ('\n' :: c') t' b' r' .lf (by rw [← e0, h]; rfl) ht
    simp at this; omega
  · rintro e he ⟨b', r', ht⟩
    have := key e [] _ b' r' he (by rw [← e0]; rfl) ht
    cases he <;> simp at this

end Verif
