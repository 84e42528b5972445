import Verif.Proofs.Strings
import Verif.Spec.Grammar
/-! # Heredocs: the parsers agree with the specification -/
set_option autoImplicit false

namespace Verif
open PRes Spec

/-! ## the generic search -/

/-- Text before the first position at which `p` succeeds (the end of the input is not a position). -/
theorem takeTillMatch_iff {α : Type} {p : Parser α} (hp : Safe p) {s r c : Str} {v : α} :
    takeTillMatch p s = .ok r (c, v) ↔
      (∃ t, s = c ++ t ∧ t ≠ [] ∧ p t = .ok r v) ∧
      ∀ c' t' r' v', s = c' ++ t' → t' ≠ [] → p t' = .ok r' v' → c.length ≤ c'.length := by
  induction s generalizing c with
  | nil =>
    simp only [takeTillMatch]
    constructor
    · intro h; cases h
    · rintro ⟨⟨t, h, ht, -⟩, -⟩
      exact absurd (List.nil_eq_append_iff.1 h).2 ht
  | cons d s ih =>
    have hrec : (p (d :: s) = .err ∨ ∃ t, p (d :: s) = .fail t) →
        takeTillMatch p (d :: s) = (takeTillMatch p s).bind fun r v => .ok r (d :: v.1, v.2) := by
      rintro (h | ⟨t, h⟩) <;> rw [takeTillMatch, h]
    cases h : p (d :: s) with
    | ok r0 v0 =>
      rw [takeTillMatch, h]
      simp only [PRes.ok.injEq, Prod.mk.injEq]
      constructor
      · rintro ⟨rfl, rfl, rfl⟩
        exact ⟨⟨_, rfl, by simp, h⟩, fun _ _ _ _ _ _ _ => Nat.zero_le _⟩
      · rintro ⟨⟨t, h1, h2, h3⟩, h4⟩
        have hc : c = [] := by
          have := h4 [] _ _ _ rfl (by simp) h
          exact List.length_eq_zero_iff.1 (Nat.le_zero.1 this)
        subst hc
        simp only [List.nil_append] at h1
        rw [← h1, h] at h3
        injection h3 with h3 h5
        exact ⟨h3, rfl, h5⟩
    | panic => exact absurd h (hp _).1
    | diverge => exact absurd h (hp _).2
    | err =>
      rw [hrec (.inl h), bind_eq_ok]
      have hne : ∀ r v, p (d :: s) ≠ .ok r v := by intro r v h'; rw [h] at h'; cases h'
      constructor
      · rintro ⟨r', ⟨c', v'⟩, h1, h2⟩
        injection h2 with h2 h3; injection h3 with h3 h4; subst h2 h3 h4
        obtain ⟨⟨t, h1, h2, h3⟩, h4⟩ := ih.1 h1
        refine ⟨⟨t, by rw [h1]; rfl, h2, h3⟩, ?_⟩
        intro c'' t' r'' v'' he hn hk
        cases c'' with
        | nil => simp at he; subst he; exact absurd hk (hne _ _)
        | cons x c'' =>
          simp at he
          have := h4 c'' t' _ _ he.2 hn hk
          simpa using this
      · rintro ⟨⟨t, h1, h2, h3⟩, h4⟩
        cases c with
        | nil => simp at h1; subst h1; exact absurd h3 (hne _ _)
        | cons x c =>
          simp at h1
          obtain ⟨rfl, rfl⟩ := h1
          refine ⟨r, (c, v), ih.2 ⟨⟨t, rfl, h2, h3⟩, ?_⟩, rfl⟩
          intro c' t' r' v' he hn hk
          have := h4 (d :: c') t' r' v' (by rw [he]; rfl) hn hk
          simpa using this
    | fail =>
      rw [hrec (.inr ⟨_, h⟩), bind_eq_ok]
      have hne : ∀ r v, p (d :: s) ≠ .ok r v := by intro r v h'; rw [h] at h'; cases h'
      constructor
      · rintro ⟨r', ⟨c', v'⟩, h1, h2⟩
        injection h2 with h2 h3; injection h3 with h3 h4; subst h2 h3 h4
        obtain ⟨⟨t, h1, h2, h3⟩, h4⟩ := ih.1 h1
        refine ⟨⟨t, by rw [h1]; rfl, h2, h3⟩, ?_⟩
        intro c'' t' r'' v'' he hn hk
        cases c'' with
        | nil => simp at he; subst he; exact absurd hk (hne _ _)
        | cons x c'' =>
          simp at he
          have := h4 c'' t' _ _ he.2 hn hk
          simpa using this
      · rintro ⟨⟨t, h1, h2, h3⟩, h4⟩
        cases c with
        | nil => simp at h1; subst h1; exact absurd h3 (hne _ _)
        | cons x c =>
          simp at h1
          obtain ⟨rfl, rfl⟩ := h1
          refine ⟨r, (c, v), ih.2 ⟨⟨t, rfl, h2, h3⟩, ?_⟩, rfl⟩
          intro c' t' r' v' he hn hk
          have := h4 (d :: c') t' r' v' (by rw [he]; rfl) hn hk
          simpa using this

/-- The search reports an error exactly when there is no match. -/
theorem takeTillMatch_tame {α : Type} {p : Parser α} (hp : Safe p) : Tame (takeTillMatch p) := fun s => by
  induction s with
  | nil => right; rfl
  | cons d s ih =>
    rw [takeTillMatch]
    have := hp (d :: s)
    cases h : p (d :: s) with
    | ok r v => left; exact ⟨_, _, rfl⟩
    | panic => exact absurd h this.1
    | diverge => exact absurd h this.2
    | err => rcases ih with ⟨r, v, h⟩ | h <;> simp [h]
    | fail => rcases ih with ⟨r, v, h⟩ | h <;> simp [h]

/-! ## heredoc markers -/

theorem heredocChar_iff {U : CharClass} {c : Char} : heredocChar U c = true ↔ MarkerChar U c := by
  simp [heredocChar, MarkerChar]

theorem markerChar_not {U : CharClass} {c : Char} (h : c.toNat < 128)
    (h' : (c.isAlphanum || c == '_') = false) : ¬ MarkerChar U c := by
  rintro (h1 | rfl)
  · rw [U.alnum_ascii c h] at h1; simp at h' h1; simp_all
  · simp at h'

theorem markerChar_not_blank {U : CharClass} {c : Char} (h : MarkerChar U c) : isBlank c = false := by
  cases hb : isBlank c with
  | false => rfl
  | true =>
    rcases isBlank_iff.1 hb with rfl | rfl
    · exact absurd h (markerChar_not (by decide) (by decide))
    · exact absurd h (markerChar_not (by decide) (by decide))

theorem startsEol_head {s : Str} (h : StartsEol s) : ∃ t, s = '\n' :: t ∨ s = '\r' :: t := by
  obtain ⟨e, t, he, rfl⟩ := h
  cases he
  · exact ⟨t, .inl rfl⟩
  · exact ⟨'\n' :: t, .inr rfl⟩

theorem startsEol_not_marker {U : CharClass} {s : Str} (h : StartsEol s) :
    ∀ c t, s = c :: t → heredocChar U c = false := by
  rintro c t rfl
  cases hc : heredocChar U c with
  | false => rfl
  | true =>
    obtain ⟨u, h | h⟩ := startsEol_head h <;> injection h with h1 h2 <;> subst h1 <;>
      exact absurd (heredocChar_iff.1 hc) (markerChar_not (by decide) (by decide))

/-- Opening text of a heredoc. -/
def openText (h : HereDoc) : Str := '<' :: '<' :: (if h.indented then ['-'] else []) ++ h.identifier

theorem heredocBegin_iff {U : CharClass} {s r : Str} {h : HereDoc} :
    heredocBegin U s = .ok r h ↔
      s = openText h ++ r ∧ h.identifier ≠ [] ∧ (∀ c ∈ h.identifier, MarkerChar U c) ∧ StartsEol r := by
  unfold heredocBegin openText
  simp only [bind_apply, bind_eq_ok, tag_eq_ok, opt_eq_ok, takeWhile1_iff, pure_apply]
  constructor
  · rintro ⟨s1, _, ⟨rfl, -⟩, s2, o, ho, s3, m, ⟨rfl, h1, h2, -⟩, s4, e, h3, h4⟩
    injection h4 with h5 h6; subst h5 h6
    obtain ⟨rfl, h3⟩ := peekEol_eq_ok h3
    refine ⟨?_, h1, fun c hc => heredocChar_iff.1 (h2 c hc), h3⟩
    rcases ho with ⟨w, ⟨rfl, rfl⟩, rfl⟩ | ⟨-, rfl, rfl⟩ <;> simp
  · rintro ⟨rfl, h1, h2, h3⟩
    obtain ⟨e, he⟩ := peekEol_of h3
    obtain ⟨m, ind⟩ := h
    refine ⟨(if ind then ['-'] else []) ++ m ++ r, _, ⟨by simp, rfl⟩, m ++ r,
      if ind then some ['-'] else none, ?_, r, m,
      ⟨rfl, h1, fun c hc => heredocChar_iff.2 (h2 c hc), startsEol_not_marker h3⟩, r, e, he, ?_⟩
    · cases ind with
      | true => left; exact ⟨_, ⟨by simp, rfl⟩, rfl⟩
      | false =>
        right
        refine ⟨?_, by simp, rfl⟩
        cases m with
        | nil => exact absurd rfl h1
        | cons c m =>
          apply tag_cons_ne
          rintro rfl
          exact absurd (h2 _ (List.mem_cons_self ..)) (markerChar_not (by decide) (by decide))
    · cases ind <;> simp

theorem Tame.heredocBegin (U : CharClass) : Tame (heredocBegin U) :=
  .bind (.tag _) fun _ => .bind (.opt (.tag _)) fun _ => .bind (.takeWhile1 _) fun _ =>
    .bind (.peek .eol) fun _ => .pure _

/-- A terminator determines its blanks and what follows. -/
theorem Spec.Terminator.functional {m s b r b' r' : Str} (hm : m ≠ []) (hm' : ∀ c ∈ m, isBlank c = false)
    (h : Terminator m s b r) (h' : Terminator m s b' r') : b = b' ∧ r = r' := by
  obtain ⟨e, he, rfl, hb, -⟩ := h
  obtain ⟨e', he', heq, hb', -⟩ := h'
  have hee : e = e' := by
    cases he <;> cases he' <;> simp at heq <;> rfl
  subst hee
  simp only [List.append_assoc] at heq
  have heq := List.append_cancel_left heq
  have key : ∀ r, ∀ c t, m ++ r = c :: t → isBlank c = false := by
    intro r c t h
    cases m with
    | nil => exact absurd rfl hm
    | cons d m => simp at h; rw [← h.1]; exact hm' d (List.mem_cons_self ..)
  have h1 := takeWhile_append_of (f := isBlank) (fun c hc => isBlank_iff.2 (hb c hc)) (key r)
  have h2 := takeWhile_append_of (f := isBlank) (fun c hc => isBlank_iff.2 (hb' c hc)) (key r')
  have hbb : b = b' := by rw [← h1.1, ← h2.1, heq]
  subst hbb
  exact ⟨rfl, List.append_cancel_left (List.append_cancel_left heq)⟩

theorem heredocEnd_iff {h : HereDoc} (hm : h.identifier ≠ []) (hm' : ∀ c ∈ h.identifier, isBlank c = false)
    {s r : Str} {n : Nat} :
    heredocEnd h s = .ok r n ↔
      ∃ b, Terminator h.identifier s b r ∧ n = if h.indented then b.length else 0 := by
  unfold heredocEnd
  simp only [bind_apply, bind_eq_ok, tag_eq_ok, eol_eq_ok, pure_apply, takeWhile]
  constructor
  · rintro ⟨s1, e, ⟨he, rfl⟩, s2, b, hb, s3, _, ⟨rfl, -⟩, s4, e', h3, h4⟩
    injection h4 with h5 h6; subst h5 h6
    injection hb with h7 h8; subst h8
    obtain ⟨rfl, h3⟩ := peekEol_eq_ok h3
    refine ⟨_, ⟨e, he, ?_, ?_, h3⟩, rfl⟩
    · rw [List.append_assoc, List.append_assoc, ← h7, List.takeWhile_append_dropWhile]
    · intro c hc; exact isBlank_iff.1 (mem_takeWhile hc)
  · rintro ⟨b, ⟨e, he, rfl, hb, h3⟩, rfl⟩
    have key : ∀ c t, h.identifier ++ r = c :: t → isBlank c = false := by
      intro c t h'
      cases hi : h.identifier with
      | nil => exact absurd hi hm
      | cons d m => rw [hi] at h'; simp at h'; rw [← h'.1]; exact hm' d (by rw [hi]; exact List.mem_cons_self ..)
    have h1 := takeWhile_append_of (f := isBlank) (fun c hc => isBlank_iff.2 (hb c hc)) key
    obtain ⟨e', he'⟩ := peekEol_of h3
    refine ⟨b ++ (h.identifier ++ r), e, ⟨he, by simp⟩, h.identifier ++ r, b, ?_, r, _, ⟨rfl, rfl⟩, r, e', he', rfl⟩
    rw [h1.1, h1.2]

theorem Tame.heredocEnd (h : HereDoc) : Tame (heredocEnd h) :=
  .bind .eol fun _ => .bind (.takeWhile _) fun _ => .bind (.tag _) fun _ =>
    .bind (.peek .eol) fun _ => .pure _

theorem Spec.Terminator.ne_nil {m s b r : Str} (h : Terminator m s b r) : s ≠ [] := by
  obtain ⟨e, he, rfl, -⟩ := h; cases he <;> simp

/-! ## removing indentation -/

theorem allSpaces_replicate (k : Nat) : ∀ (n i : Nat) (u : Str),
    allSpaces ((charIndicesFrom i (List.replicate k ' ' ++ u)).take n) =
      if n ≤ k then (true, []) else allSpaces ((charIndicesFrom (i + k) u).take (n - k)) := by
  induction k with
  | zero =>
    intro n i u
    cases n with
    | zero => simp [allSpaces]
    | succ n => simp
  | succ k ih =>
    intro n i u
    cases n with
    | zero => simp [allSpaces]
    | succ n =>
      have : (' ' : Char).utf8Size = 1 := by decide
      simp [List.replicate_succ, charIndicesFrom, allSpaces, ih, this]
      have : i + 1 + k = i + (k + 1) := by omega
      rw [this]

theorem sliceFrom_cons {c : Char} {s : Str} {i : Nat} (h : i ≠ 0) :
    sliceFrom (c :: s) i = if c.utf8Size ≤ i then sliceFrom s (i - c.utf8Size) else none := by
  cases i with
  | zero => exact absurd rfl h
  | succ i => rfl

theorem sliceFrom_replicate (k m : Nat) (u : Str) :
    sliceFrom (List.replicate k ' ' ++ u) (k + m) = sliceFrom u m := by
  induction k with
  | zero => simp
  | succ k ih =>
    have : (' ' : Char).utf8Size = 1 := by decide
    have e : k + 1 + m = (k + m) + 1 := by omega
    rw [List.replicate_succ, List.cons_append, e, sliceFrom_cons (by omega), this, if_pos (by omega)]
    simpa using ih

theorem sliceFrom_zero (s : Str) : sliceFrom s 0 = some s := by cases s <;> rfl

theorem split_spaces (line : Str) : ∃ k u, line = List.replicate k ' ' ++ u ∧ ∀ t, u ≠ ' ' :: t := by
  induction line with
  | nil => exact ⟨0, [], rfl, by simp⟩
  | cons c s ih =>
    by_cases h : c = ' '
    · obtain ⟨k, u, rfl, hu⟩ := ih
      exact ⟨k + 1, u, by simp [List.replicate_succ, h], hu⟩
    · exact ⟨0, c :: s, rfl, by simp [h]⟩


theorem unindentLine_full (n : Nat) (l : Str) : unindentLine n (List.replicate n ' ' ++ l) = some l := by
  unfold unindentLine
  simp only [allSpaces_replicate, Nat.le_refl, if_true]
  have := sliceFrom_replicate n 0 l
  simpa [sliceFrom_zero] using this

theorem unindentLine_spaces {n k : Nat} (h : k < n) : unindentLine n (List.replicate k ' ') = none := by
  have h1 := allSpaces_replicate k n 0 []
  rw [List.append_nil, if_neg (by omega)] at h1
  simp only [charIndicesFrom, List.take_nil, allSpaces] at h1
  simp only [unindentLine, h1]
  have := sliceFrom_replicate k (n - k) []
  rw [List.append_nil] at this
  have e : k + (n - k) = n := by omega
  rw [e] at this
  simp only [this]
  obtain ⟨m, hm⟩ := Nat.exists_eq_succ_of_ne_zero (by omega : n - k ≠ 0)
  rw [hm]; rfl

theorem utf8Size_one {c : Char} : c.utf8Size = 1 ↔ c.toNat < 128 := by
  rw [Char.utf8Size_eq_one_iff, UInt32.le_iff_toNat_le]
  show c.toNat ≤ 127 ↔ _
  omega

theorem unindentLine_short {n k : Nat} {c : Char} {l : Str} (h : k < n) (hc : c ≠ ' ') :
    unindentLine n (List.replicate k ' ' ++ c :: l) =
      if k + 1 < n ∧ c.toNat < 128 ∧ l ≠ [] then some (c :: l) else none := by
  simp only [unindentLine]
  rw [allSpaces_replicate k n 0, if_neg (by omega)]
  obtain ⟨m, hm⟩ := Nat.exists_eq_succ_of_ne_zero (by omega : n - k ≠ 0)
  have hc' : (c == ' ') = false := by simpa using hc
  simp only [hm, charIndicesFrom, List.take_succ_cons, allSpaces, hc', Nat.zero_add, Nat.succ_eq_add_one]
  cases l with
  | nil => simp [charIndicesFrom]
  | cons d l =>
    cases m with
    | zero =>
      have : ¬ k + 1 < n := by omega
      simp [this]
    | succ m =>
      have h1 : k + 1 < n := by omega
      simp only [charIndicesFrom, List.take_succ_cons]
      by_cases h8 : c.toNat < 128
      · have h9 := utf8Size_one.2 h8
        simp only [h9, h1, h8]
        have := sliceFrom_replicate k 0 (c :: d :: l)
        simpa [sliceFrom_zero] using this
      · have h9 : c.utf8Size ≠ 1 := fun h => h8 (utf8Size_one.1 h)
        have h10 := c.utf8Size_pos
        simp only [h8, false_and, and_false, if_false, reduceCtorEq]
        have := sliceFrom_replicate k (c.utf8Size - 1) (c :: d :: l)
        rw [Nat.add_sub_assoc (by omega), this, sliceFrom_cons (by omega), if_neg (by omega)]

theorem unindentLine_iff {n : Nat} {l l' : Str} : unindentLine n l = some l' ↔ Unindented n l l' := by
  constructor
  · intro h
    obtain ⟨k, u, rfl, hu⟩ := split_spaces l
    by_cases hk : n ≤ k
    · have e : List.replicate k ' ' ++ u = List.replicate n ' ' ++ (List.replicate (k - n) ' ' ++ u) := by
        rw [← List.append_assoc, List.replicate_append_replicate]; congr 2; omega
      rw [e, unindentLine_full] at h
      injection h with h; subst h
      rw [e]; exact .full _
    · cases u with
      | nil => rw [List.append_nil, unindentLine_spaces (by omega)] at h; cases h
      | cons c u =>
        rw [unindentLine_short (by omega) (by rintro rfl; exact hu _ rfl)] at h
        split at h
        · rename_i hh
          injection h with h; subst h
          cases u with
          | nil => exact absurd rfl hh.2.2
          | cons d u => exact .short k c d u hh.1 (by rintro rfl; exact hu _ rfl) hh.2.1
        · cases h
  · intro h
    cases h with
    | full => exact unindentLine_full _ _
    | short k c d l h1 h2 h3 => rw [unindentLine_short (by omega) h2, if_pos ⟨h1, h3, by simp⟩]

/-! ## lines -/

theorem lines_splitLines (s : Str) : Lines s (splitLines s) := by
  induction s with
  | nil => exact .last [] (by simp)
  | cons c s ih =>
    unfold splitLines
    by_cases hc : c = '\n'
    · subst hc; exact .cons [] s _ (by simp) ih
    · rw [if_neg (by simpa using hc)]
      generalize splitLines s = ls at ih
      cases ih with
      | last l h => exact .last _ (by simp [h, Ne.symm hc])
      | cons l s ls h hs => exact .cons (c :: l) s ls (by simp [h, Ne.symm hc]) hs

theorem Spec.Lines.functional {s : Str} {ls : List Str} (h : Lines s ls) : splitLines s = ls := by
  have key : ∀ l : Str, '\n' ∉ l → splitLines l = [l] := by
    intro l hl
    induction l with
    | nil => rfl
    | cons c l ih =>
      simp at hl
      simp [splitLines, ih hl.2, Ne.symm hl.1]
  have key2 : ∀ l s : Str, '\n' ∉ l → splitLines (l ++ '\n' :: s) = l :: splitLines s := by
    intro l s hl
    induction l with
    | nil => simp [splitLines]
    | cons c l ih =>
      simp at hl
      simp [splitLines, ih hl.2, Ne.symm hl.1]
  induction h with
  | last l h => exact key l h
  | cons l s ls h _ ih => rw [key2 l s h, ih]

theorem Spec.Lines.join {s : Str} {ls : List Str} (h : Lines s ls) : joinLines ls = s := by
  induction h with
  | last l h => rfl
  | cons l s ls h hs ih =>
    cases hs <;> simp [joinLines] at ih ⊢ <;> simp_all

theorem lines_join {ls : List Str} (hne : ls ≠ []) (h : ∀ l ∈ ls, '\n' ∉ l) : Lines (joinLines ls) ls := by
  induction ls with
  | nil => exact absurd rfl hne
  | cons l ls ih =>
    cases ls with
    | nil => exact .last l (h l (by simp))
    | cons l' ls =>
      exact .cons l _ _ (h l (by simp)) (ih (by simp) fun x hx => h x (List.mem_cons_of_mem _ hx))

theorem Spec.Lines.mem {s : Str} {ls : List Str} (h : Lines s ls) : ls ≠ [] ∧ ∀ l ∈ ls, '\n' ∉ l := by
  induction h with
  | last l h => simpa
  | cons l s ls h _ ih =>
    refine ⟨by simp, ?_⟩
    intro x hx
    rcases List.mem_cons.1 hx with rfl | hx
    · exact h
    · exact ih.2 x hx

theorem mapM_allPairs {α β : Type} {f : α → Option β} {R : α → β → Prop} (hR : ∀ a b, f a = some b ↔ R a b)
    {as : List α} {bs : List β} : as.mapM f = some bs ↔ AllPairs R as bs := by
  induction as generalizing bs with
  | nil =>
    simp
    constructor
    · rintro rfl; exact .nil
    · intro h; cases h; rfl
  | cons a as ih =>
    rw [List.mapM_cons]
    simp only [Option.bind_eq_bind, Option.bind_eq_some_iff]
    constructor
    · rintro ⟨b, hb, bs', hbs, h⟩
      simp at h; subst h
      exact .cons a b as bs' ((hR a b).1 hb) (ih.1 hbs)
    · intro h
      cases h with
      | cons _ b _ bs h1 h2 => exact ⟨b, (hR a b).2 h1, bs, ih.2 h2, rfl⟩

theorem unindented_no_newline {n : Nat} {l l' : Str} (h : Unindented n l l') (hl : '\n' ∉ l) : '\n' ∉ l' := by
  cases h with
  | full => intro h; exact hl (List.mem_append_right _ h)
  | short k c d l => intro h; exact hl (List.mem_append_right _ h)

theorem unindentHeredoc_iff {s : Str} {n : Nat} {v : CowStr} :
    unindentHeredoc s n = some v ↔ HeredocValue s n v := by
  unfold unindentHeredoc
  split
  · rename_i h; subst h
    constructor
    · intro h; injection h with h; subst h; exact .verbatim s
    · intro h
      cases h with
      | verbatim => rfl
      | indented _ _ _ _ _ h => exact absurd h (by omega)
  · rename_i hn
    constructor
    · intro h
      simp only [Option.map_eq_some_iff] at h
      obtain ⟨ls', h1, rfl⟩ := h
      have h2 := (mapM_allPairs (fun a b => unindentLine_iff (n := n) (l := a) (l' := b))).1 h1
      have h3 := lines_splitLines s
      generalize splitLines s = ls at *
      refine .indented s _ n _ ls' (by omega) h3 h2 (lines_join ?_ ?_)
      · have := h3.mem.1
        intro h; subst h; cases h2; contradiction
      · have hm := h3.mem.2
        clear h1 h3
        induction h2 with
        | nil => simp
        | cons a b as bs hab _ ih =>
          intro l hl
          rcases List.mem_cons.1 hl with rfl | hl
          · exact unindented_no_newline hab (hm a (by simp))
          · exact ih (fun x hx => hm x (List.mem_cons_of_mem _ hx)) l hl
    · intro h
      cases h with
      | verbatim => exact absurd rfl hn
      | indented _ s' ls ls' h1 h2 h3 h4 =>
        rw [h2.functional, (mapM_allPairs (fun a b => unindentLine_iff (n := n) (l := a) (l' := b))).2 h3]
        simp [Spec.Lines.join h4]

/-! ## whole heredocs -/

theorem firstTerminator_iff {h : HereDoc} (hm : h.identifier ≠ []) (hm' : ∀ c ∈ h.identifier, isBlank c = false)
    {s r c : Str} {n : Nat} :
    takeTillMatch (heredocEnd h) s = .ok r (c, n) ↔
      ∃ b, FirstTerminator h.identifier s c b r ∧ n = if h.indented then b.length else 0 := by
  rw [takeTillMatch_iff (Tame.heredocEnd h).safe]
  simp only [heredocEnd_iff hm hm']
  constructor
  · rintro ⟨⟨t, rfl, -, b, hb, rfl⟩, hmin⟩
    refine ⟨b, ⟨⟨t, rfl, hb⟩, ?_⟩, rfl⟩
    intro c' t' b' r' he ht
    exact hmin c' t' r' _ he ht.ne_nil ⟨b', ht, rfl⟩
  · rintro ⟨b, ⟨⟨t, rfl, hb⟩, hmin⟩, rfl⟩
    refine ⟨⟨t, rfl, hb.ne_nil, b, hb, rfl⟩, ?_⟩
    rintro c' t' r' v' he - ⟨b', ht, -⟩
    exact hmin c' t' b' r' he ht

/-- A text at which the heredoc parser panics: an indented heredoc whose content has a line that cannot
be unindented. -/
def HeredocPanics (U : CharClass) (s : Str) : Prop :=
  ∃ m e t content blanks rest, m ≠ [] ∧ (∀ c ∈ m, MarkerChar U c) ∧ Eol e ∧
    s = '<' :: '<' :: '-' :: m ++ e ++ t ∧ (¬ ∃ b r, Terminator m (e ++ t) b r) ∧
    FirstTerminator m t content blanks rest ∧ ¬ ∃ v, HeredocValue content blanks.length v

theorem heredocContent_iff {h : HereDoc} (hm : h.identifier ≠ []) (hm' : ∀ c ∈ h.identifier, isBlank c = false)
    {s r : Str} {c : Str × Nat} :
    heredocContent h s = .ok r c ↔
      ((∃ b, Terminator h.identifier s b r) ∧ c = ([], 0)) ∨
      ((¬ ∃ b r, Terminator h.identifier s b r) ∧ ∃ e t b, Eol e ∧ s = e ++ t ∧
        FirstTerminator h.identifier t c.1 b r ∧ c.2 = if h.indented then b.length else 0) := by
  unfold heredocContent
  rw [orElse_eq_ok, mapP_eq_ok]
  simp only [heredocEnd_iff hm hm', bind_apply, bind_eq_ok, eol_eq_ok]
  have herr : mapP (fun _ => (([] : Str), 0)) (heredocEnd h) s = .err ↔
      ¬ ∃ b r, Terminator h.identifier s b r := by
    rw [mapP_apply, map_eq_err]
    constructor
    · rintro he ⟨b, r, ht⟩
      rw [(heredocEnd_iff hm hm').2 ⟨b, ht, rfl⟩] at he; cases he
    · intro hn
      exact (Tame.heredocEnd h).not_ok fun r v hk => by
        obtain ⟨b, hb, -⟩ := (heredocEnd_iff hm hm').1 hk
        exact hn ⟨b, r, hb⟩
  rw [herr]
  constructor
  · rintro (⟨n, ⟨b, hb, -⟩, rfl⟩ | ⟨hn, t, e, ⟨he, rfl⟩, hk⟩)
    · exact .inl ⟨⟨b, hb⟩, rfl⟩
    · obtain ⟨c1, c2⟩ := c
      obtain ⟨b, hb, hc⟩ := (firstTerminator_iff hm hm').1 hk
      exact .inr ⟨hn, e, t, b, he, rfl, hb, hc⟩
  · rintro (⟨⟨b, hb⟩, rfl⟩ | ⟨hn, e, t, b, he, rfl, hb, hc⟩)
    · exact .inl ⟨_, ⟨b, hb, rfl⟩, rfl⟩
    · obtain ⟨c1, c2⟩ := c
      exact .inr ⟨hn, t, e, ⟨he, rfl⟩, (firstTerminator_iff hm hm').2 ⟨b, hb, hc⟩⟩

theorem Tame.heredocContent (h : HereDoc) : Tame (heredocContent h) :=
  .orElse (.mapP (.heredocEnd h)) (.bind .eol fun _ => takeTillMatch_tame (Tame.heredocEnd h).safe)

theorem Spec.Terminator.startsEol {m s b r : Str} (h : Terminator m s b r) : StartsEol s := by
  obtain ⟨e, he, rfl, -⟩ := h; exact ⟨e, b ++ m ++ r, he, by simp⟩

theorem heredocString_iff {U : CharClass} {s r : Str} {v : CowStr} :
    heredocString U s = .ok r v ↔ Heredoc U s v r := by
  unfold heredocString
  simp only [bind_apply, bind_eq_ok]
  constructor
  · rintro ⟨s1, h, hb, s2, c, hc, hv⟩
    obtain ⟨rfl, h1, h2, h3⟩ := heredocBegin_iff.1 hb
    obtain ⟨m, ind⟩ := h
    have hm' : ∀ c ∈ m, isBlank c = false := fun c hc => markerChar_not_blank (h2 c hc)
    unfold heredocFinish at hv
    split at hv
    · rename_i w hw
      injection hv with hv1 hv2; subst hv1 hv2
      rcases (heredocContent_iff h1 hm').1 hc with ⟨⟨b, hb⟩, rfl⟩ | ⟨hn, e, t, b, he, rfl, hb, hc⟩
      · have hw' := unindentHeredoc_iff.1 hw
        have : w = .borrowed [] := by
          simp [unindentHeredoc] at hw; exact hw.symm
        subst this
        exact .empty ind m s1 b _ h1 h2 hb
      · rw [hc] at hw
        have := Heredoc.content ind m e t _ b _ w h1 h2 he hn hb (unindentHeredoc_iff.1 hw)
        simpa [openText] using this
    · cases hv
  · intro h
    cases h with
    | empty ind m s b _ h1 h2 h3 =>
      have hm' : ∀ c ∈ m, isBlank c = false := fun c hc => markerChar_not_blank (h2 c hc)
      refine ⟨s, ⟨m, ind⟩, heredocBegin_iff.2 ⟨rfl, h1, h2, h3.startsEol⟩, r, ([], 0),
        (heredocContent_iff (h := ⟨m, ind⟩) h1 hm').2 (.inl ⟨⟨b, h3⟩, rfl⟩), ?_⟩
      rfl
    | content ind m e s content b _ _ h1 h2 he hn hf hv =>
      have hm' : ∀ c ∈ m, isBlank c = false := fun c hc => markerChar_not_blank (h2 c hc)
      refine ⟨e ++ s, ⟨m, ind⟩, heredocBegin_iff.2 ⟨by simp [openText], h1, h2, ⟨e, s, he, rfl⟩⟩, r,
        (content, if ind then b.length else 0),
        (heredocContent_iff (h := ⟨m, ind⟩) h1 hm').2 (.inr ⟨hn, e, s, b, he, rfl, hf, rfl⟩), ?_⟩
      unfold heredocFinish
      rw [unindentHeredoc_iff.2 hv]

/-- The heredoc parser panics exactly on such texts, and never runs out of fuel or fails. -/
theorem heredocString_panic {U : CharClass} {s : Str} :
    heredocString U s = .panic ↔ HeredocPanics U s := by
  unfold heredocString
  rw [bind_apply, bind_eq_panic]
  constructor
  · rintro (h | ⟨s1, h, hb, hp⟩)
    · exact absurd h ((Tame.heredocBegin U).safe s).1
    · rw [bind_apply, bind_eq_panic] at hp
      rcases hp with hp | ⟨s2, c, hc, hv⟩
      · exact absurd hp ((Tame.heredocContent h).safe s1).1
      · obtain ⟨rfl, h1, h2, h3⟩ := heredocBegin_iff.1 hb
        obtain ⟨m, ind⟩ := h
        have hm' : ∀ c ∈ m, isBlank c = false := fun c hc => markerChar_not_blank (h2 c hc)
        unfold heredocFinish at hv
        split at hv
        · cases hv
        · rename_i hw
          rcases (heredocContent_iff h1 hm').1 hc with ⟨⟨b, hb⟩, rfl⟩ | ⟨hn, e, t, b, he, rfl, hb, hc⟩
          · simp [unindentHeredoc] at hw
          · cases ind with
            | false => rw [hc] at hw; simp [unindentHeredoc] at hw
            | true =>
              refine ⟨m, e, t, c.1, b, s2, h1, h2, he, by simp [openText], hn, hb, ?_⟩
              rintro ⟨v, hv⟩
              rw [hc] at hw
              have := unindentHeredoc_iff.2 hv
              simp only [if_true] at hw
              rw [hw] at this; cases this
  · rintro ⟨m, e, t, content, b, rest, h1, h2, he, rfl, hn, hf, hv⟩
    right
    have hm' : ∀ c ∈ m, isBlank c = false := fun c hc => markerChar_not_blank (h2 c hc)
    refine ⟨e ++ t, ⟨m, true⟩, heredocBegin_iff.2 ⟨by simp [openText], h1, h2, ⟨e, t, he, rfl⟩⟩, ?_⟩
    have hc := (heredocContent_iff (h := ⟨m, true⟩) (c := (content, b.length)) h1 hm').2
      (.inr ⟨hn, e, t, b, he, rfl, hf, rfl⟩)
    rw [bind_apply, hc, bind_ok]
    unfold heredocFinish
    have : unindentHeredoc content b.length = none := by
      cases hh : unindentHeredoc content b.length with
      | none => rfl
      | some v => exact absurd ⟨v, unindentHeredoc_iff.1 hh⟩ hv
    simp only [this]

theorem heredocString_not (U : CharClass) (s : Str) :
    (∀ t, heredocString U s ≠ .fail t) ∧ heredocString U s ≠ .diverge := by
  unfold heredocString
  rw [bind_apply]
  rcases Tame.heredocBegin U s with ⟨r, h, e⟩ | e
  · rw [e, bind_ok, bind_apply]
    rcases Tame.heredocContent h r with ⟨r', c, e'⟩ | e'
    · rw [e', bind_ok]
      unfold heredocFinish
      split <;> simp
    · rw [e']; simp
  · rw [e]; simp

/-! ## strings -/

theorem quotedString_err {s : Str} (h : ∀ t, s ≠ '"' :: t) : quotedString s = .err := by
  unfold quotedString
  rw [bind_apply]
  have : tag ['"'] s = .err := by
    rw [tag_eq_err]; rintro ⟨t, ht⟩; exact h t (by simpa using ht.symm)
  rw [this]; rfl

theorem Spec.Heredoc.head {U : CharClass} {s r : Str} {v : CowStr} (h : Heredoc U s v r) :
    ∃ t, s = '<' :: '<' :: t := by
  cases h
  · exact ⟨_, by simp; rfl⟩
  · exact ⟨_, by simp; rfl⟩

theorem string_iff {U : CharClass} {s r : Str} {v : CowStr} : string U s = .ok r v ↔ StringTok U s v r := by
  unfold string
  rw [orElse_eq_ok, mapP_eq_ok]
  simp only [quotedString_iff, heredocString_iff]
  constructor
  · rintro (⟨v', h, rfl⟩ | ⟨-, h⟩)
    · exact .quoted s v' r h
    · exact .heredoc s v r h
  · intro h
    cases h with
    | quoted v' _ h => exact .inl ⟨v', h, rfl⟩
    | heredoc _ _ h =>
      refine .inr ⟨?_, h⟩
      obtain ⟨t, rfl⟩ := h.head
      rw [mapP_apply, quotedString_err (by simp)]; rfl

end Verif
