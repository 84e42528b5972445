import Verif.Spec.Refused
import Verif.Proofs.Replace
/-! # What can make a number literal longer -/
set_option autoImplicit false

namespace Verif
open Spec

/-- A sign. -/
def SignChar (c : Char) : Prop := c = '+' ∨ c = '-'

theorem digits_not_sign {ds : Str} (h : Digits ds) {d : Char} (hd : SignChar d) : d ∉ ds := by
  intro hm
  have := h.2 d hm
  rcases hd with rfl | rfl <;> revert this <;> decide

theorem digits_not_exp {ds : Str} (h : Digits ds) {d : Char} (hd : d = 'e' ∨ d = 'E') : d ∉ ds := by
  intro hm
  have := h.2 d hm
  rcases hd with rfl | rfl <;> revert this <;> decide

theorem mantissa_chars {m : Str} {w f : Option Str} (h : Mantissa m w f) :
    m ≠ [] ∧ ∀ c ∈ m, c = '.' ∨ ('0' ≤ c ∧ c ≤ '9') := by
  cases h with
  | int _ h => exact ⟨h.1, fun c hc => .inr (h.2 c hc)⟩
  | dot w h =>
    refine ⟨by simp, fun c hc => ?_⟩
    rcases List.mem_append.1 hc with hc | hc
    · exact .inr (h.2 c hc)
    · simp at hc; exact .inl hc
  | frac w f h h' =>
    refine ⟨by simp, fun c hc => ?_⟩
    rcases List.mem_append.1 hc with hc | hc
    · exact .inr (h.2 c hc)
    · rcases List.mem_cons.1 hc with rfl | hc
      · exact .inl rfl
      · exact .inr (h'.2 c hc)
  | dotFrac f h =>
    refine ⟨by simp, fun c hc => ?_⟩
    rcases List.mem_cons.1 hc with rfl | hc
    · exact .inl rfl
    · exact .inr (h.2 c hc)

theorem mantissa_not_sign {m : Str} {w f : Option Str} (h : Mantissa m w f) {d : Char} (hd : SignChar d) : d ∉ m := by
  intro hm
  have := (mantissa_chars h).2 d hm
  rcases hd with rfl | rfl <;> revert this <;> decide

theorem mantissa_not_exp {m : Str} {w f : Option Str} (h : Mantissa m w f) {d : Char} (hd : d = 'e' ∨ d = 'E') : d ∉ m := by
  intro hm
  have := (mantissa_chars h).2 d hm
  rcases hd with rfl | rfl <;> revert this <;> decide

/-- A number literal does not end with the letter of an exponent. -/
theorem isNumber_last {a : Str} {c : Char} {n : Number} (hc : c = 'e' ∨ c = 'E') : ¬ IsNumber (a ++ [c]) n := by
  intro h
  generalize hz : a ++ [c] = z at h
  cases h with
  | mk sg m x pos w f e h1 h2 h3 =>
    cases h3 with
    | none =>
      rw [List.append_nil] at hz
      have hm := (mantissa_chars h2).1
      rw [← List.dropLast_concat_getLast hm, ← List.append_assoc] at hz
      have := (List.append_inj' hz rfl).2
      injection this with this _
      exact mantissa_not_exp h2 hc (this ▸ List.getLast_mem hm)
    | some d sg' ds pos' he hs hd =>
      rw [← List.append_assoc, ← List.dropLast_concat_getLast hd.1, ← List.append_assoc] at hz
      have := (List.append_inj' hz rfl).2
      injection this with this _
      exact digits_not_exp hd hc (this ▸ List.getLast_mem hd.1)

/-- Inside a number literal, a sign follows the letter of the exponent. -/
theorem isNumber_sign {a b : Str} {d : Char} {n : Number} (hd : SignChar d) (ha : a ≠ []) (h : IsNumber (a ++ d :: b) n) :
    ∃ a' c, a = a' ++ [c] ∧ (c = 'e' ∨ c = 'E') := by
  generalize hz : a ++ d :: b = z at h
  cases h with
  | mk sg m x pos w f e h1 h2 h3 =>
    obtain ⟨a1, a2, rfl, e1⟩ : ∃ a1 a2, a = a1 ++ a2 ∧ a2 ++ d :: b = m ++ x := by
      rw [List.append_assoc] at hz
      cases h1 with
      | none => exact ⟨[], a, rfl, hz⟩
      | plus => cases a with
        | nil => exact absurd rfl ha
        | cons y a => injection hz with _ hz; exact ⟨[y], a, rfl, hz⟩
      | minus => cases a with
        | nil => exact absurd rfl ha
        | cons y a => injection hz with _ hz; exact ⟨[y], a, rfl, hz⟩
    rcases List.append_eq_append_iff.1 e1 with ⟨z', rfl, e2⟩ | ⟨z', rfl, e2⟩
    · cases z' with
      | nil =>
        cases h3 with
        | none => cases e2
        | some c sg' ds pos' he hs hds =>
          injection e2 with e2 _
          subst e2
          rcases hd with rfl | rfl <;> simp at he
      | cons y z' =>
        injection e2 with e2 _
        subst e2
        exact absurd (by simp) (mantissa_not_sign h2 hd)
    · cases h3 with
      | none => simp at e2
      | some c sg' ds pos' he hs hds =>
        cases z' with
        | nil =>
          injection e2 with e2 _
          subst e2
          rcases hd with rfl | rfl <;> simp at he
        | cons y z' =>
          injection e2 with e2 e3
          subst e2
          cases z' with
          | nil => exact ⟨a1 ++ m, c, by simp, he⟩
          | cons y z' =>
            cases hs with
            | none => exact absurd (by have e3 : ds = _ := e3; rw [e3]; simp) (digits_not_sign hds hd)
            | plus =>
              injection e3 with _ e3
              exact absurd (by have e3 : ds = _ := e3; rw [e3]; simp) (digits_not_sign hds hd)
            | minus =>
              injection e3 with _ e3
              exact absurd (by have e3 : ds = _ := e3; rw [e3]; simp) (digits_not_sign hds hd)

/-- What may follow a number directly. -/
theorem notLonger_of {t x : Str} (h : ¬ Head (fun c => ('0' ≤ c ∧ c ≤ '9') ∨ c = '.' ∨ c = 'e' ∨ c = 'E') x) : NotLonger t x := by
  intro n hn p hp hne m hm
  obtain ⟨q, rfl⟩ := hp
  cases p with
  | nil => exact hne rfl
  | cons d p =>
    have ht : t ≠ [] := by
      intro e
      have : t.length = 0 := by rw [e]; rfl
      cases hn with
      | mk sg m x pos w f e h1 h2 h3 =>
        have := List.length_pos_iff.2 (mantissa_chars h2).1
        simp only [List.length_append] at *
        omega
    have hs : SignChar d → False := fun hd => by
      obtain ⟨a', c, rfl, hc⟩ := isNumber_sign hd ht hm
      exact isNumber_last hc hn
    rcases isNumber_chars hm d (by simp) with hd | hd | hd | hd | hd | hd
    · exact h ⟨d, _, rfl, .inl hd⟩
    · exact h ⟨d, _, rfl, .inr (.inl hd)⟩
    · exact hs (.inl hd)
    · exact hs (.inr hd)
    · exact h ⟨d, _, rfl, .inr (.inr (.inl hd))⟩
    · exact h ⟨d, _, rfl, .inr (.inr (.inr hd))⟩

end Verif
