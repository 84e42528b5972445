import Verif.Model.Utils
import Verif.Proofs.Heredoc
/-! # The search combinator: C55 -/
set_option autoImplicit false

namespace Verif.Props
open Verif Spec PRes

/-! ## slicing at the indices -/

/-- Length in bytes. -/
def byteLen : Str → Nat
  | [] => 0
  | c :: s => c.utf8Size + byteLen s

theorem utf8Size_pos' (c : Char) : 0 < c.utf8Size := c.utf8Size_pos

theorem slice_at (a s : Str) : sliceFrom (a ++ s) (byteLen a) = some s ∧ sliceTo (a ++ s) (byteLen a) = some a := by
  induction a with
  | nil => cases s <;> simp [byteLen, sliceFrom, sliceTo]
  | cons c a ih =>
    have hc := utf8Size_pos' c
    obtain ⟨k, hk⟩ : ∃ k, c.utf8Size + byteLen a = k + 1 := ⟨c.utf8Size + byteLen a - 1, by omega⟩
    have e : byteLen (c :: a) = k + 1 := hk
    have e2 : k + 1 - c.utf8Size = byteLen a := by omega
    rw [e]
    simp only [List.cons_append, sliceFrom, sliceTo]
    rw [if_pos (by omega), if_pos (by omega), e2, ih.1, ih.2]
    exact ⟨rfl, rfl⟩

theorem takeTillMatchAt_eq {α : Type} (p : Parser α) (s : Str) : ∀ a : Str,
    takeTillMatchAt p (a ++ s) ((charIndicesFrom (byteLen a) s).map Prod.fst) =
      (takeTillMatch p s).bind fun r v => .ok r (a ++ v.1, v.2) := by
  induction s with
  | nil => intro a; rfl
  | cons c s ih =>
    intro a
    have h := slice_at a (c :: s)
    have hl : ∀ a : Str, byteLen (a ++ [c]) = byteLen a + c.utf8Size := by
      intro a
      induction a with
      | nil => simp [byteLen]
      | cons d a ih => simp [byteLen, ih]; omega
    have ih := ih (a ++ [c])
    rw [hl, List.append_assoc] at ih
    simp only [List.cons_append, List.nil_append] at ih
    simp only [charIndicesFrom, List.map_cons, takeTillMatchAt]
    rw [h.1]
    simp only []
    rw [takeTillMatch]
    cases hp : p (c :: s) with
    | ok r v => simp only []; rw [h.2]; simp [bind_ok]
    | panic => rfl
    | diverge => rfl
    | err =>
      simp only []
      rw [ih]
      cases takeTillMatch p s <;> simp [PRes.bind]
    | fail =>
      simp only []
      rw [ih]
      cases takeTillMatch p s <;> simp [PRes.bind]

/-- C55: working with byte indices (as the code does) is the same as trying the parser at every character position:
slicing at the indices never panics and never splits a character. -/
theorem c55_indices_are_character_positions {α : Type} (p : Parser α) (s : Str) :
    takeTillMatchIdx p s = takeTillMatch p s := by
  have := takeTillMatchAt_eq p s []
  simp only [List.nil_append, byteLen] at this
  unfold takeTillMatchIdx safeIndices
  rw [this]
  cases takeTillMatch p s <;> simp [PRes.bind]

/-- C55: the search on strings returns the text before the earliest position (before the end of the input) at which
the sub-parser succeeds, with the sub-parser's result there. -/
theorem c55_earliest_match {α : Type} (p : Parser α) (hp : ∀ s, p s ≠ .panic ∧ p s ≠ .diverge) (s r c : Str) (v : α) :
    takeTillMatchIdx p s = .ok r (c, v) ↔
      (∃ t, s = c ++ t ∧ t ≠ [] ∧ p t = .ok r v) ∧
      ∀ c' t' r' v', s = c' ++ t' → t' ≠ [] → p t' = .ok r' v' → c.length ≤ c'.length := by
  rw [c55_indices_are_character_positions]
  exact takeTillMatch_iff hp

/-- C55: it fails (recoverably) exactly when the sub-parser succeeds nowhere before the end of the input. -/
theorem c55_no_match {α : Type} (p : Parser α) (hp : ∀ s, p s ≠ .panic ∧ p s ≠ .diverge) (s : Str) :
    takeTillMatchIdx p s = .err ↔ ∀ c t r v, s = c ++ t → t ≠ [] → p t ≠ .ok r v := by
  rw [c55_indices_are_character_positions]
  constructor
  · intro h c t r v hs ht hk
    induction c generalizing s with
    | nil =>
      cases t with
      | nil => exact ht rfl
      | cons d t =>
        rw [List.nil_append] at hs; subst hs
        rw [takeTillMatch, hk] at h; cases h
    | cons d c ih =>
      subst hs
      rw [List.cons_append, takeTillMatch] at h
      split at h
      · cases h
      · cases h
      · cases h
      · cases hh : takeTillMatch p (c ++ t) with
        | err => exact ih _ hh rfl
        | _ => rw [hh] at h; cases h
      · cases hh : takeTillMatch p (c ++ t) with
        | err => exact ih _ hh rfl
        | _ => rw [hh] at h; cases h
  · intro h
    induction s with
    | nil => rfl
    | cons d s ih =>
      have ih := ih fun c t r v hs ht => h (d :: c) t r v (by rw [hs]; rfl) ht
      rw [takeTillMatch]
      cases hk : p (d :: s) with
      | ok r v => exact absurd hk (h [] (d :: s) r v rfl (by simp))
      | panic => exact absurd hk (hp _).1
      | diverge => exact absurd hk (hp _).2
      | err => simp only []; rw [ih]; rfl
      | fail => simp only []; rw [ih]; rfl

/-- C55 for slices (`&[T]`, `CompleteByteSlice`): the earliest match, with the end of the slice also a position. -/
theorem c55_slice_earliest_match {β α : Type} (p : List β → Option (List β × α)) (s r c : List β) (v : α) :
    takeTillMatchSlice p s = .ok r c v ↔
      (∃ t, s = c ++ t ∧ p t = some (r, v)) ∧
      ∀ c' t' x, s = c' ++ t' → p t' = some x → c.length ≤ c'.length := by
  induction s generalizing c with
  | nil =>
    rw [takeTillMatchSlice]
    constructor
    · intro h
      split at h
      · rename_i r' v' hp
        injection h with h1 h2 h3; subst h1 h2 h3
        exact ⟨⟨[], rfl, hp⟩, fun _ _ _ _ _ => Nat.zero_le _⟩
      · cases h
    · rintro ⟨⟨t, h, hp⟩, -⟩
      obtain ⟨rfl, rfl⟩ := List.nil_eq_append_iff.1 h
      rw [hp]
  | cons b s ih =>
    rw [takeTillMatchSlice]
    cases hp : p (b :: s) with
    | some x =>
      obtain ⟨r', v'⟩ := x
      simp only [SliceRes.ok.injEq]
      constructor
      · rintro ⟨rfl, rfl, rfl⟩
        exact ⟨⟨_, rfl, hp⟩, fun _ _ _ _ _ => Nat.zero_le _⟩
      · rintro ⟨⟨t, h, ht⟩, hmin⟩
        have := hmin [] _ _ rfl hp
        have hc : c = [] := List.length_eq_zero_iff.1 (Nat.le_zero.1 this)
        subst hc
        rw [List.nil_append] at h; subst h
        rw [hp] at ht; injection ht with ht; injection ht with h1 h2
        exact ⟨h1, rfl, h2⟩
    | none =>
      simp only []
      constructor
      · intro h
        split at h
        · rename_i r' c' v' hk
          injection h with h1 h2 h3; subst h1 h2 h3
          obtain ⟨⟨t, e, ht⟩, hmin⟩ := (ih c').1 hk
          refine ⟨⟨t, by rw [e]; rfl, ht⟩, ?_⟩
          intro c'' t' x e' hx
          cases c'' with
          | nil => rw [List.nil_append] at e'; subst e'; rw [hp] at hx; cases hx
          | cons d c'' =>
            injection e' with _ e'
            have := hmin c'' t' x e' hx
            simpa using this
        · cases h
      · rintro ⟨⟨t, e, ht⟩, hmin⟩
        cases c with
        | nil => rw [List.nil_append] at e; subst e; rw [hp] at ht; cases ht
        | cons d c =>
          injection e with h1 e; subst h1
          have := (ih c).2 ⟨⟨t, e, ht⟩, fun c' t' x e' hx => by
            have := hmin (b :: c') t' x (by rw [e']; rfl) hx
            simpa using this⟩
          rw [this]

/-- C55 for slices, where the full property fails: without a match the search does not return an error, it slices past
the end and panics. -/
theorem c55_slice_no_match_panics {β α : Type} (p : List β → Option (List β × α)) (s : List β) :
    takeTillMatchSlice p s = .panic ↔ ∀ c t, s = c ++ t → p t = none := by
  induction s with
  | nil =>
    rw [takeTillMatchSlice]
    constructor
    · intro h c t e
      obtain ⟨rfl, rfl⟩ := List.nil_eq_append_iff.1 e
      split at h
      · cases h
      · assumption
    · intro h; rw [h [] [] rfl]
  | cons b s ih =>
    rw [takeTillMatchSlice]
    constructor
    · intro h c t e
      split at h
      · cases h
      · rename_i hn
        split at h
        · cases h
        · rename_i hk
          cases c with
          | nil => rw [List.nil_append] at e; subst e; exact hn
          | cons d c => injection e with _ e; exact ih.1 hk c t e
    · intro h
      rw [h [] _ rfl]
      simp only []
      rw [ih.2 fun c t e => h (b :: c) t (by rw [e]; rfl)]

/-- Non-vacuity: the search for `老` in a text with multi-byte characters. -/
example : takeTillMatchIdx (tag ['老']) ['L', 'ö', '老', 'x'] = .ok ['x'] (['L', 'ö'], ['老']) := by decide +kernel

end Verif.Props
