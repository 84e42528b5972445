import Verif.Proofs.Brackets
/-! # Reading the brackets of a text is deterministic, and ends -/
set_option autoImplicit false

namespace Verif
open PRes Spec

variable {U : CharClass}

theorem bracket_open {o c : Char} (h : Bracket o c) : o = '(' ∨ o = '[' ∨ o = '{' := by cases h <;> simp
theorem bracket_close {o c : Char} (h : Bracket o c) : c = ')' ∨ c = ']' ∨ c = '}' := by cases h <;> simp

/-- the first character tells which step is next -/
inductive StepKind : Char → Nat → Prop
  | plain (c : Char) : ¬ Structural c → StepKind c 0
  | comment (c : Char) : c = '#' ∨ c = '/' → StepKind c 1
  | string : StepKind '"' 2
  | heredoc : StepKind '<' 3
  | «open» (c : Char) : c = '(' ∨ c = '[' ∨ c = '{' → StepKind c 4
  | close (c : Char) : c = ')' ∨ c = ']' ∨ c = '}' → StepKind c 5

theorem stepKind_unique {c : Char} {n m : Nat} (h : StepKind c n) (h' : StepKind c m) : n = m := by
  cases h with
  | plain _ hs =>
    cases h' with
    | plain => rfl
    | comment _ h => exact absurd (by unfold Structural; rcases h with rfl | rfl <;> decide) hs
    | string => exact absurd (by unfold Structural; decide) hs
    | heredoc => exact absurd (by unfold Structural; decide) hs
    | «open» _ h => exact absurd (by unfold Structural; rcases h with rfl | rfl | rfl <;> decide) hs
    | close _ h => exact absurd (by unfold Structural; rcases h with rfl | rfl | rfl <;> decide) hs
  | comment _ h =>
    cases h' with
    | plain _ hs => exact absurd (by unfold Structural; rcases h with rfl | rfl <;> decide) hs
    | comment _ h => rfl
    | string => revert h; decide
    | heredoc => revert h; decide
    | «open» _ h2 => rcases h with rfl | rfl <;> revert h2 <;> decide
    | close _ h2 => rcases h with rfl | rfl <;> revert h2 <;> decide
  | string =>
    cases h' with
    | plain _ hs => exact absurd (by unfold Structural; decide) hs
    | comment _ h => revert h; decide
    | string => rfl
    | «open» _ h2 => revert h2; decide
    | close _ h2 => revert h2; decide
  | heredoc =>
    cases h' with
    | plain _ hs => exact absurd (by unfold Structural; decide) hs
    | comment _ h => revert h; decide
    | heredoc => rfl
    | «open» _ h2 => revert h2; decide
    | close _ h2 => revert h2; decide
  | «open» _ h =>
    cases h' with
    | plain _ hs => exact absurd (by unfold Structural; rcases h with rfl | rfl | rfl <;> decide) hs
    | comment _ h2 => rcases h with rfl | rfl | rfl <;> revert h2 <;> decide
    | string => revert h; decide
    | heredoc => revert h; decide
    | «open» _ h2 => rfl
    | close _ h2 => rcases h with rfl | rfl | rfl <;> revert h2 <;> decide
  | close _ h =>
    cases h' with
    | plain _ hs => exact absurd (by unfold Structural; rcases h with rfl | rfl | rfl <;> decide) hs
    | comment _ h2 => rcases h with rfl | rfl | rfl <;> revert h2 <;> decide
    | string => revert h; decide
    | heredoc => revert h; decide
    | «open» _ h2 => rcases h with rfl | rfl | rfl <;> revert h2 <;> decide
    | close _ h2 => rfl

theorem comment_head {t : Str} (r : Str) (h : LineComment t ∨ InlineComment t) : ∃ c u, t ++ r = c :: u ∧ (c = '#' ∨ c = '/') := by
  rcases h with h | h
  · rcases h.head (t := r) with ⟨u, h⟩ | ⟨u, h⟩
    · exact ⟨_, _, h, .inl rfl⟩
    · exact ⟨_, _, h, .inr rfl⟩
  · obtain ⟨u, h⟩ := h.head (t := r)
    exact ⟨_, _, h, .inr rfl⟩

theorem comment_unique {t t' r r' : Str} (h : LineComment t ∨ InlineComment t) (h' : LineComment t' ∨ InlineComment t') (e : t ++ r = t' ++ r') :
    t = t' := by
  rcases h with h | h <;> rcases h' with h' | h'
  · exact lineComment_prefix _ _ _ _ h h' e
  · exfalso
    obtain ⟨u, h2⟩ := h'.head (t := r')
    rw [h2] at e
    rcases h.head (t := r) with ⟨u, h⟩ | ⟨u, h⟩ <;> rw [h] at e <;> simp at e
  · exfalso
    obtain ⟨u, h2⟩ := h.head (t := r)
    rw [h2] at e
    rcases h'.head (t := r') with ⟨u, h⟩ | ⟨u, h⟩ <;> rw [h] at e <;> simp at e
  · exact inlineComment_prefix _ _ _ _ h h' e

/-- what a step is, by its kind -/
inductive StepAs (U : CharClass) : Nat → List Char → Char → Str → List Char → List Char → Str → Prop
  | plain (st : List Char) (c : Char) (r : Str) : StepAs U 0 st c r [] st r
  | comment (st : List Char) (c : Char) (u t r : Str) : LineComment t ∨ InlineComment t → c :: u = t ++ r → StepAs U 1 st c u [] st r
  | string (st : List Char) (c : Char) (u v r : Str) : Quoted Plain (c :: u) v r → StepAs U 2 st c u [] st r
  | heredoc (st : List Char) (c : Char) (u : Str) (v : CowStr) (r : Str) : Heredoc U (c :: u) v r → StepAs U 3 st c u [] st r
  | «open» (st : List Char) (o c : Char) (r : Str) : Bracket o c → StepAs U 4 st o r [o] (c :: st) r
  | close (st : List Char) (c : Char) (r : Str) : StepAs U 5 (c :: st) c r [] st r

theorem scanStep_as {st st' os : List Char} {s s' : Str} (h : ScanStep U st s os st' s') :
    ∃ c u n, s = c :: u ∧ StepKind c n ∧ StepAs U n st c u os st' s' := by
  cases h with
  | plain _ c r h => exact ⟨c, _, 0, rfl, .plain c h, .plain _ _ _⟩
  | comment _ t r h =>
    obtain ⟨c, u, he, hc⟩ := comment_head _ h
    exact ⟨c, u, 1, he, .comment c hc, .comment _ _ _ t _ h he.symm⟩
  | string _ s v r h =>
    obtain ⟨src, he, -⟩ := id h
    subst he
    exact ⟨_, _, 2, rfl, .string, .string _ _ _ v _ h⟩
  | heredoc _ s v r h =>
    obtain ⟨t, he⟩ := h.head
    subst he
    exact ⟨_, _, 3, rfl, .heredoc, .heredoc _ _ _ v _ h⟩
  | «open» _ o c r h => exact ⟨o, _, 4, rfl, .open o (bracket_open h), .open _ _ c _ h⟩
  | close _ o c r h => exact ⟨c, _, 5, rfl, .close c (bracket_close h), .close _ _ _⟩

theorem bracket_unique {o c c' : Char} (h : Bracket o c) (h' : Bracket o c') : c = c' := by cases h <;> cases h' <;> rfl

theorem scanStep_unique {st st1 st2 os1 os2 : List Char} {s s1 s2 : Str} (h1 : ScanStep U st s os1 st1 s1)
    (h2 : ScanStep U st s os2 st2 s2) : os1 = os2 ∧ st1 = st2 ∧ s1 = s2 := by
  obtain ⟨c, u, n, rfl, hk, h1⟩ := scanStep_as h1
  obtain ⟨c', u', n', he, hk', h2⟩ := scanStep_as h2
  injection he with e1 e2
  subst e1 e2
  cases stepKind_unique hk hk'
  cases h1 with
  | plain => cases h2; exact ⟨rfl, rfl, rfl⟩
  | comment _ _ _ t _ ht he =>
    cases h2 with
    | comment _ _ _ t' _ ht' he' =>
      have := comment_unique ht ht' (he.symm.trans he')
      subst this
      exact ⟨rfl, rfl, List.append_cancel_left (he.symm.trans he')⟩
  | string _ _ _ v _ h =>
    cases h2 with
    | string _ _ _ v' _ h' =>
      have := (quotedString_iff.2 h).symm.trans (quotedString_iff.2 h')
      injection this with e1
      exact ⟨rfl, rfl, e1⟩
  | heredoc _ _ _ v _ h =>
    cases h2 with
    | heredoc _ _ _ v' _ h' =>
      have := (heredocString_iff.2 h).symm.trans (heredocString_iff.2 h')
      injection this with e1
      exact ⟨rfl, rfl, e1⟩
  | «open» _ _ c _ hb =>
    cases h2 with
    | «open» _ _ c' _ hb' =>
      cases bracket_unique hb hb'
      exact ⟨rfl, rfl, rfl⟩
  | close => cases h2; exact ⟨rfl, rfl, rfl⟩

theorem heredoc_shorter {s r : Str} {v : CowStr} (h : Heredoc U s v r) : r.length < s.length :=
  (isExpr_consumes (.string s v r (.heredoc _ _ _ h))).length

theorem scanStep_shorter {st st' os : List Char} {s s' : Str} (h : ScanStep U st s os st' s') : s'.length < s.length := by
  obtain ⟨c, u, n, rfl, hk, h⟩ := scanStep_as h
  cases h with
  | plain => simp
  | comment _ _ _ t _ ht he =>
    have : t ≠ [] := by rintro rfl; rcases ht with h | h <;> cases h
    have := List.length_pos_iff.2 this
    rw [he, List.length_append]; omega
  | string _ _ _ v _ h =>
    obtain ⟨src, he, -⟩ := h
    rw [he]; simp; omega
  | heredoc _ _ _ v _ h => exact heredoc_shorter h
  | «open» => simp
  | close => simp

/-- nothing is left to read, or it cannot be read on -/
def AtEnd (U : CharClass) (st : List Char) (s : Str) : Prop := ¬ ∃ o st' r', ScanStep U st s o st' r'

theorem atEnd_nil (st : List Char) : AtEnd U st [] := by
  rintro ⟨o, st', r', h⟩
  have := scanStep_shorter h
  simp at this

theorem scan_unique {a b c : List Char} {s t u : Str} {os os' : List Char} (h : Scan U a s os b t) (hb : AtEnd U b t)
    (h' : Scan U a s os' c u) (hc : AtEnd U c u) : os = os' ∧ b = c ∧ t = u := by
  induction h generalizing os' with
  | refl =>
    cases h' with
    | refl => exact ⟨rfl, rfl, rfl⟩
    | step _ _ _ _ _ _ _ _ h1 _ => exact absurd ⟨_, _, _, h1⟩ hb
  | step st st' st'' s s' s'' os1 os2 h1 _ ih =>
    cases h' with
    | refl => exact absurd ⟨_, _, _, h1⟩ hc
    | step _ _ _ _ _ _ _ _ h2 h3 =>
      obtain ⟨rfl, rfl, rfl⟩ := scanStep_unique h1 h2
      obtain ⟨rfl, h⟩ := ih hb h3
      exact ⟨rfl, h⟩

theorem scan_ends (n : Nat) : ∀ (a : List Char) (s : Str), s.length ≤ n → ∃ os b t, Scan U a s os b t ∧ AtEnd U b t := by
  induction n with
  | zero =>
    intro a s hs
    cases s with
    | nil => exact ⟨[], a, [], .refl _ _, atEnd_nil a⟩
    | cons => simp at hs
  | succ n ih =>
    intro a s hs
    by_cases h : ∃ o st' r', ScanStep U a s o st' r'
    · obtain ⟨o, st', r', h⟩ := h
      have := scanStep_shorter h
      obtain ⟨os, b, t, h1, h2⟩ := ih st' r' (by omega)
      exact ⟨_, b, t, scan_trans (scan_one h) h1, h2⟩
    · exact ⟨[], a, s, .refl _ _, h⟩

theorem closed_unique {s : Str} {os os' : List Char} (h : Closed U s os) (h' : Closed U s os') : os = os' :=
  (scan_unique h (atEnd_nil _) h' (atEnd_nil _)).1

theorem unclosed_iff {s : Str} : Unclosed U s ↔ ¬ ∃ os, Closed U s os := by
  constructor
  · rintro ⟨os, st, r, h, hs, hn⟩ ⟨os', h'⟩
    exact hn (scan_unique h hs h' (atEnd_nil _)).2
  · intro h
    obtain ⟨os, b, t, h1, h2⟩ := scan_ends s.length [] s (Nat.le_refl _)
    exact ⟨os, b, t, h1, h2, fun ⟨hb, ht⟩ => h ⟨os, by subst hb ht; exact h1⟩⟩

end Verif
