import Verif.Proofs.Nom
import Verif.Model.Lex
import Verif.Spec.Lex
/-! # Whitespace and comments: the parsers agree with the specification -/
set_option autoImplicit false

namespace Verif
open PRes Spec

/-! ## ends of line -/

theorem eol_eq_ok {s r v : Str} : eol s = .ok r v ↔ Eol v ∧ s = v ++ r := by
  unfold eol
  rw [orElse_eq_ok, tag_eq_ok, tag_eq_ok, tag_eq_err]
  constructor
  · rintro (⟨rfl, rfl⟩ | ⟨-, rfl, rfl⟩)
    · exact ⟨.lf, rfl⟩
    · exact ⟨.crlf, rfl⟩
  · rintro ⟨h, rfl⟩
    cases h
    · simp
    · right; simp

theorem eol_append {e r : Str} (h : Eol e) : eol (e ++ r) = .ok r e := eol_eq_ok.2 ⟨h, rfl⟩

theorem eol_ok_or_err (s : Str) : (∃ r v, eol s = .ok r v) ∨ eol s = .err := by
  unfold eol
  rcases tag_ok_or_err ['\n'] s with ⟨r, h⟩ | h
  · exact .inl ⟨r, _, orElse_of_ok h⟩
  · rw [orElse_of_err h]
    rcases tag_ok_or_err ['\r', '\n'] s with ⟨r, h⟩ | h
    · exact .inl ⟨r, _, h⟩
    · exact .inr h

theorem eol_eq_err {s : Str} : eol s = .err ↔ ¬ StartsEol s := by
  constructor
  · rintro h ⟨e, t, he, rfl⟩
    rw [eol_append he] at h; cases h
  · intro h
    rcases eol_ok_or_err s with ⟨r, v, h'⟩ | h'
    · exact absurd ⟨v, r, eol_eq_ok.1 h'⟩ h
    · exact h'

theorem peekEol_eq_ok {s r v : Str} : peek eol s = .ok r v → r = s ∧ StartsEol s := by
  rw [peek_eq_ok]
  rintro ⟨rfl, r', h⟩
  exact ⟨rfl, v, r', eol_eq_ok.1 h⟩

theorem peekEol_of {s : Str} (h : StartsEol s) : ∃ v, peek eol s = .ok s v := by
  obtain ⟨e, t, he, rfl⟩ := h
  exact ⟨e, peek_eq_ok.2 ⟨rfl, t, eol_append he⟩⟩

/-! ## comments -/

theorem takeUntil_eq_ok {t s r v : Str} (ht : t ≠ []) :
    takeUntil t s = .ok r v ↔ s = v ++ r ∧ t <+: r ∧
      ∀ v' r', s = v' ++ r' → t <+: r' → v.length ≤ v'.length := by
  induction s generalizing r v with
  | nil =>
    simp only [takeUntil, List.isEmpty_iff, ht, if_false]
    constructor
    · intro h; cases h
    · rintro ⟨h, hp, -⟩
      have := (List.nil_eq_append_iff.1 h).2; subst this
      exact absurd (List.prefix_nil.1 hp) ht
  | cons c s ih =>
    rw [takeUntil]
    by_cases hp : t.isPrefixOf (c :: s)
    · rw [if_pos hp]
      rw [List.isPrefixOf_iff_prefix] at hp
      constructor
      · intro h; injection h with h1 h2; subst h1 h2
        exact ⟨rfl, hp, fun _ _ _ _ => Nat.zero_le _⟩
      · rintro ⟨h1, h2, h3⟩
        have := h3 [] (c :: s) rfl hp
        have : v = [] := List.length_eq_zero_iff.1 (Nat.le_zero.1 this)
        subst this; simp at h1; simp [h1]
    · rw [if_neg hp]
      rw [List.isPrefixOf_iff_prefix] at hp
      rw [bind_eq_ok]
      constructor
      · rintro ⟨r', v', h, h'⟩
        injection h' with h1 h2; subst h1 h2
        obtain ⟨rfl, h2, h3⟩ := ih.1 h
        refine ⟨rfl, h2, ?_⟩
        intro v'' r'' he hr
        cases v'' with
        | nil => simp at he; subst he; exact absurd hr hp
        | cons d v'' =>
          simp at he
          have := h3 v'' r'' he.2 hr
          simp; exact this
      · rintro ⟨h1, h2, h3⟩
        cases v with
        | nil => simp at h1; subst h1; exact absurd h2 hp
        | cons d v =>
          simp at h1
          obtain ⟨rfl, rfl⟩ := h1
          refine ⟨r, v, ih.2 ⟨rfl, h2, ?_⟩, rfl⟩
          intro v' r' he hr
          have := h3 (c :: v') r' (by simp [he]) hr
          simpa using this

/-- No occurrence of `*/` in `body ++ "*"` means the first occurrence in `body ++ "*/" ++ t` is at the end
of `body`. -/
theorem first_close {body t : Str} :
    (¬ ['*', '/'] <:+: body ++ ['*']) ↔
      ∀ v' r', body ++ '*' :: '/' :: t = v' ++ r' → ['*', '/'] <+: r' → body.length ≤ v'.length := by
  constructor
  · intro h v' r' he ⟨u, hu⟩
    apply Nat.le_of_not_lt
    intro hl
    apply h
    subst hu
    have he' := List.append_eq_append_iff.1 he
    rcases he' with ⟨a, h1, h2⟩ | ⟨a, h1, h2⟩
    · subst h1; simp at hl
      exact absurd hl (by omega)
    · subst h1
      cases a with
      | nil => simp at hl
      | cons x a =>
        simp at h2
        obtain ⟨rfl, h2⟩ := h2
        refine ⟨v', ?_⟩
        cases a with
        | nil => simp at h2
        | cons y a =>
          simp at h2
          obtain ⟨rfl, h2⟩ := h2
          exact ⟨a ++ ['*'], by simp⟩
  · rintro h ⟨x, y, hxy⟩
    -- body ++ "*" = x ++ "*/" ++ y
    rcases List.eq_nil_or_concat y with rfl | ⟨y', z, rfl⟩
    · have := congrArg List.getLast? hxy
      simp at this
    · have h1 : body = x ++ ['*', '/'] ++ y' ∧ z = '*' := by
        have hxy' : (x ++ ['*', '/'] ++ y') ++ [z] = body ++ ['*'] := by
          rw [← hxy]; simp
        have := List.append_inj' hxy' rfl
        exact ⟨this.1.symm, by simpa using this.2⟩
      have := h x (['*', '/'] ++ y' ++ '*' :: '/' :: t) (by rw [h1.1]; simp) ⟨_, by simp; rfl⟩
      rw [h1.1] at this
      simp at this
      omega

theorem inlineComment_eq_ok {s r v : Str} :
    inlineComment s = .ok r v ↔
      s = '/' :: '*' :: v ++ '*' :: '/' :: r ∧ ¬ ['*', '/'] <:+: v ++ ['*'] := by
  unfold inlineComment
  simp only [bind_apply, bind_eq_ok, pure_apply, tag_eq_ok]
  rw [first_close (t := r)]
  constructor
  · rintro ⟨s1, _, ⟨rfl, -⟩, s2, w, h, s3, _, ⟨rfl, -⟩, h'⟩
    injection h' with h1 h2; subst h1 h2
    rw [takeUntil_eq_ok (by simp)] at h
    obtain ⟨rfl, -, h3⟩ := h
    exact ⟨by simp, by simpa using h3⟩
  · rintro ⟨rfl, h⟩
    refine ⟨v ++ '*' :: '/' :: r, _, ⟨by simp, rfl⟩, '*' :: '/' :: r, v, ?_, r, _, ⟨rfl, rfl⟩, rfl⟩
    rw [takeUntil_eq_ok (by simp)]
    exact ⟨rfl, ⟨r, rfl⟩, h⟩

theorem inlineComment_append {i t : Str} (h : InlineComment i) : ∃ v, inlineComment (i ++ t) = .ok t v := by
  cases h with
  | mk body hb => exact ⟨body, inlineComment_eq_ok.2 ⟨by simp, hb⟩⟩

theorem inlineComment_spec {s r v : Str} (h : inlineComment s = .ok r v) :
    ∃ i, InlineComment i ∧ s = i ++ r := by
  obtain ⟨rfl, h'⟩ := inlineComment_eq_ok.1 h
  exact ⟨_, .mk v h', by simp⟩

theorem notEol_iff {c : Char} : notEol c = true ↔ c ≠ '\r' ∧ c ≠ '\n' := by simp [notEol]

theorem startsEol_notEol {s : Str} (h : StartsEol s) : ∀ c t, s = c :: t → notEol c = false := by
  rintro c t rfl
  obtain ⟨e, t, he, h⟩ := h
  cases he <;> (simp at h; rw [h.1]; decide)

theorem lineBody_eq_ok {s r v : Str} :
    ((takeWhile notEol >>= fun v => eol >>= fun _ => pure v : Parser Str) s) = .ok r v ↔
      ∃ e, Eol e ∧ s = v ++ e ++ r ∧ ∀ c ∈ v, c ≠ '\r' ∧ c ≠ '\n' := by
  simp only [bind_apply, bind_eq_ok, pure_apply, takeWhile, eol_eq_ok]
  constructor
  · rintro ⟨s1, v1, h, s2, e, ⟨he, h2⟩, h3⟩
    injection h with h4 h5; injection h3 with h6 h7; subst h6 h7
    refine ⟨e, he, ?_, ?_⟩
    · rw [List.append_assoc, ← h2, ← h4, ← h5]; exact (List.takeWhile_append_dropWhile ..).symm
    · intro c hc; rw [← h5] at hc; exact notEol_iff.1 (mem_takeWhile hc)
  · rintro ⟨e, he, rfl, hv⟩
    have := takeWhile_append_of (f := notEol) (v := v) (r := e ++ r)
      (fun c hc => notEol_iff.2 (hv c hc)) (startsEol_notEol ⟨e, r, he, rfl⟩)
    rw [List.append_assoc, this.1, this.2]
    exact ⟨_, _, rfl, r, e, ⟨he, rfl⟩, rfl⟩

theorem hashComment_eq_ok {s r v : Str} :
    hashComment s = .ok r v ↔
      ∃ e, Eol e ∧ s = '#' :: v ++ e ++ r ∧ ∀ c ∈ v, c ≠ '\r' ∧ c ≠ '\n' := by
  unfold hashComment
  rw [bind_apply, bind_eq_ok]
  simp only [tag_eq_ok, lineBody_eq_ok]
  constructor
  · rintro ⟨s', _, ⟨rfl, -⟩, e, he, rfl, hv⟩; exact ⟨e, he, by simp, hv⟩
  · rintro ⟨e, he, rfl, hv⟩; exact ⟨v ++ e ++ r, _, ⟨by simp, rfl⟩, e, he, rfl, hv⟩

theorem slashComment_eq_ok {s r v : Str} :
    slashComment s = .ok r v ↔
      ∃ e, Eol e ∧ s = '/' :: '/' :: v ++ e ++ r ∧ ∀ c ∈ v, c ≠ '\r' ∧ c ≠ '\n' := by
  unfold slashComment
  rw [bind_apply, bind_eq_ok]
  simp only [tag_eq_ok, lineBody_eq_ok]
  constructor
  · rintro ⟨s', _, ⟨rfl, -⟩, e, he, rfl, hv⟩; exact ⟨e, he, by simp, hv⟩
  · rintro ⟨e, he, rfl, hv⟩; exact ⟨v ++ e ++ r, _, ⟨by simp, rfl⟩, e, he, rfl, hv⟩

/-- Parsers that only succeed or fail recoverably. -/
def Tame {α : Type} (p : Parser α) : Prop := ∀ s, (∃ r v, p s = .ok r v) ∨ p s = .err

theorem Tame.tag (t : Str) : Tame (tag t) := fun s => by
  rcases tag_ok_or_err t s with ⟨r, h⟩ | h
  · exact .inl ⟨r, _, h⟩
  · exact .inr h

theorem Tame.bind {α β : Type} {p : Parser α} {f : α → Parser β} (hp : Tame p) (hf : ∀ v, Tame (f v)) :
    Tame (p >>= f) := fun s => by
  rcases hp s with ⟨r, v, h⟩ | h
  · simp only [bind_apply, h, bind_ok]; exact hf v r
  · simp [h]

theorem Tame.pure {α : Type} (v : α) : Tame (Pure.pure v : Parser α) := fun s => .inl ⟨s, v, rfl⟩

theorem Tame.orElse {α : Type} {p q : Parser α} (hp : Tame p) (hq : Tame q) : Tame (p <//> q) := fun s => by
  rcases hp s with ⟨r, v, h⟩ | h
  · exact .inl ⟨r, v, orElse_of_ok h⟩
  · rw [orElse_of_err h]; exact hq s

theorem Tame.eol : Tame eol := eol_ok_or_err
theorem Tame.takeWhile (f : Char → Bool) : Tame (takeWhile f) := fun _ => .inl ⟨_, _, rfl⟩
theorem Tame.takeWhile1 (f : Char → Bool) : Tame (takeWhile1 f) := takeWhile1_ok_or_err f

theorem Tame.takeUntil (t : Str) : Tame (takeUntil t) := fun s => by
  induction s with
  | nil => unfold Verif.takeUntil; split <;> simp
  | cons c s ih =>
    unfold Verif.takeUntil; split
    · simp
    · rcases ih with ⟨r, v, h⟩ | h <;> simp [h]

theorem Tame.mapP {α β : Type} {g : α → β} {p : Parser α} (hp : Tame p) : Tame (mapP g p) := fun s => by
  rcases hp s with ⟨r, v, h⟩ | h <;> simp [h]

theorem Tame.opt {α : Type} {p : Parser α} (hp : Tame p) : Tame (opt p) := fun s => by
  unfold Verif.opt
  rcases hp s with ⟨r, v, h⟩ | h <;> simp [h]

theorem Tame.peek {α : Type} {p : Parser α} (hp : Tame p) : Tame (peek p) := fun s => by
  unfold Verif.peek
  rcases hp s with ⟨r, v, h⟩ | h <;> simp [h]

theorem Tame.verify {α : Type} {p : Parser α} {f : α → Bool} (hp : Tame p) : Tame (verify p f) := fun s => by
  unfold Verif.verify
  rcases hp s with ⟨r, v, h⟩ | h
  · rw [h, bind_ok]; split <;> simp
  · simp [h]

theorem Tame.eof : Tame eof := fun s => by unfold Verif.eof; split <;> simp

theorem Tame.many0 {α : Type} {p : Parser α} (hp : Tame p) : Tame (many0 p) := fun s => by
  left
  generalize hn : s.length = n
  induction n using Nat.strongRecOn generalizing s with
  | ind n ih =>
  rw [many0_unfold]
  rcases hp s with ⟨r, v, h⟩ | h
  · rw [h]; simp only []
    split
    · obtain ⟨r', v', h'⟩ := ih r.length (by omega) r rfl
      rw [h']; simp
    · simp
  · simp [h]

theorem Tame.many1 {α : Type} {p : Parser α} (hp : Tame p) : Tame (many1 p) := fun s => by
  unfold Verif.many1
  rcases hp s with ⟨r, v, h⟩ | h
  · rcases Tame.many0 hp r with ⟨r', v', h'⟩ | h' <;> simp [h, h']
  · simp [h]

theorem Tame.inlineComment : Tame inlineComment :=
  .bind (.tag _) fun _ => .bind (.takeUntil _) fun _ => .bind (.tag _) fun _ => .pure _
theorem Tame.hashComment : Tame hashComment :=
  .bind (.tag _) fun _ => .bind (.takeWhile _) fun _ => .bind .eol fun _ => .pure _
theorem Tame.slashComment : Tame slashComment :=
  .bind (.tag _) fun _ => .bind (.takeWhile _) fun _ => .bind .eol fun _ => .pure _

theorem Tame.not_ok {α : Type} {p : Parser α} (hp : Tame p) {s : Str} (h : ∀ r v, p s ≠ .ok r v) :
    p s = .err := by
  rcases hp s with ⟨r, v, h'⟩ | h'
  · exact absurd h' (h r v)
  · exact h'

/-- line comments -/
theorem lineComment_iff {s r : Str} :
    ((∃ v, hashComment s = .ok r v) ∨ (∃ v, slashComment s = .ok r v)) ↔ ∃ i, LineComment i ∧ s = i ++ r := by
  simp only [hashComment_eq_ok, slashComment_eq_ok]
  constructor
  · rintro (⟨v, e, he, rfl, hv⟩ | ⟨v, e, he, rfl, hv⟩)
    · exact ⟨_, .hash v e hv he, by simp⟩
    · exact ⟨_, .slash v e hv he, by simp⟩
  · rintro ⟨i, h, rfl⟩
    cases h with
    | hash v e hv he => exact .inl ⟨v, e, he, by simp, hv⟩
    | slash v e hv he => exact .inr ⟨v, e, he, by simp, hv⟩

/-! ## sequences of pieces -/

theorem Spec.Seq.append {I : Str → Prop} {a b : Str} (ha : Seq I a) (hb : Seq I b) : Seq I (a ++ b) := by
  induction ha with
  | nil => simpa
  | cons i s hi _ ih => rw [List.append_assoc]; exact .cons i _ hi ih

theorem Spec.Seq.single {I : Str → Prop} {a : Str} (ha : I a) : Seq I a := by
  have := Seq.cons a [] ha .nil; simpa using this

theorem Spec.Seq.mono {I J : Str → Prop} (h : ∀ s, I s → Seq J s) {a : Str} (ha : Seq I a) : Seq J a := by
  induction ha with
  | nil => exact .nil
  | cons i s hi _ ih => exact (h i hi).append ih

/-- Pieces form a prefix code: at most one piece starts at a given position. -/
def PrefixCode (I : Str → Prop) : Prop := ∀ i j t u, I i → I j → i ++ t = j ++ u → i = j

theorem Spec.Skip.functional {I : Str → Prop} (hI : PrefixCode I) {s r r' : Str} (h : Skip I s r)
    (h' : Skip I s r') : r = r' := by
  obtain ⟨l, hl, rfl, hr⟩ := h
  obtain ⟨l', hl', he, hr'⟩ := h'
  induction hl generalizing l' with
  | nil =>
    cases hl' with
    | nil => simpa using he
    | cons i s hi _ => exact absurd ⟨i, s ++ r', hi, by simpa using he⟩ hr
  | cons i s hi _ ih =>
    cases hl' with
    | nil => exact absurd ⟨i, s ++ r, hi, by simpa using he.symm⟩ hr'
    | cons j s' hj hs' =>
      rw [List.append_assoc, List.append_assoc] at he
      have := hI i j _ _ hi hj he
      subst this
      exact ih s' hs' (List.append_cancel_left he)

/-- A sequence of pieces in front does not change what skipping leaves. -/
theorem Spec.Skip.prepend {I : Str → Prop} {l s r : Str} (hl : Seq I l) (h : Skip I s r) : Skip I (l ++ s) r := by
  obtain ⟨l', hl', rfl, hr⟩ := h
  exact ⟨l ++ l', hl.append hl', by simp, hr⟩

theorem Spec.Skip.unprepend {I : Str → Prop} (hI : PrefixCode I) {l s r : Str} (hl : Seq I l)
    (h : Skip I (l ++ s) r) : Skip I s r := by
  induction hl with
  | nil => simpa using h
  | cons i l hi _ ih =>
    apply ih
    obtain ⟨l', hl', he, hr⟩ := h
    cases hl' with
    | nil => exact absurd ⟨i, l ++ s, hi, by simpa using he.symm⟩ hr
    | cons j s' hj hs' =>
      rw [List.append_assoc, List.append_assoc] at he
      have := hI i j _ _ hi hj he
      subst this
      exact ⟨s', hs', List.append_cancel_left he, hr⟩

theorem Spec.Skip.refl {I : Str → Prop} {s : Str} (h : ¬ Starts I s) : Skip I s s := ⟨[], .nil, rfl, h⟩

theorem Spec.Skip.length {I : Str → Prop} {s r : Str} (h : Skip I s r) : r.length ≤ s.length := by
  obtain ⟨l, _, rfl, _⟩ := h; simp

theorem Spec.Skip.suffix {I : Str → Prop} {s r : Str} (h : Skip I s r) : r <:+ s := by
  obtain ⟨l, _, rfl, _⟩ := h; exact List.suffix_append _ _

theorem Spec.Skip.not_starts {I : Str → Prop} {s r : Str} (h : Skip I s r) : ¬ Starts I r := h.choose_spec.2.2

/-- A skipping loop over an alternative that recognises exactly the pieces. -/
theorem skip_of_many {I : Str → Prop} {p : Parser Str}
    (hok : ∀ s r v, p s = .ok r v → r.length < s.length → ∃ i, Seq I i ∧ s = i ++ r)
    (hstop : ∀ s, (p s = .err ∨ ∃ r v, p s = .ok r v ∧ s.length ≤ r.length) → ¬ Starts I s)
    {s r : Str} {vs : List Str} (h : many0 p s = .ok r vs) : Skip I s r := by
  rw [many0_eq_ok] at h
  induction h with
  | stop s h => exact .refl (hstop s (.inl h))
  | stuck s r v h hl => exact .refl (hstop s (.inr ⟨r, v, h, hl⟩))
  | cons s r v vs t h hl _ ih =>
    obtain ⟨i, hi, rfl⟩ := hok s r v h hl
    exact ih.prepend hi

/-! ## prefix codes -/

theorem inlineComment_prefix : PrefixCode InlineComment := by
  intro i j t u hi hj h
  obtain ⟨v, hv⟩ := inlineComment_append (t := t) hi
  obtain ⟨w, hw⟩ := inlineComment_append (t := u) hj
  rw [h, hw] at hv
  injection hv with h1 h2
  subst h1
  exact List.append_cancel_right h

theorem lineComment_prefix : PrefixCode LineComment := by
  intro i j t u hi hj h
  have h1 := (lineComment_iff (r := t)).2 ⟨i, hi, rfl⟩
  have h2 := (lineComment_iff (r := u)).2 ⟨j, hj, rfl⟩
  rw [h] at h1
  have : t = u := by
    rcases h1 with ⟨v, h1⟩ | ⟨v, h1⟩ <;> rcases h2 with ⟨w, h2⟩ | ⟨w, h2⟩
    · rw [h1] at h2; injection h2
    · obtain ⟨_, _, h1, _⟩ := hashComment_eq_ok.1 h1
      obtain ⟨_, _, h2, _⟩ := slashComment_eq_ok.1 h2
      rw [h1] at h2; simp at h2
    · obtain ⟨_, _, h1, _⟩ := slashComment_eq_ok.1 h1
      obtain ⟨_, _, h2, _⟩ := hashComment_eq_ok.1 h2
      rw [h1] at h2; simp at h2
    · rw [h1] at h2; injection h2
  subst this
  exact List.append_cancel_right h

theorem Spec.InlineComment.head {i t : Str} (h : InlineComment i) : ∃ u, i ++ t = '/' :: '*' :: u := by
  cases h; exact ⟨_, by simp; rfl⟩

theorem Spec.LineComment.head {i t : Str} (h : LineComment i) :
    (∃ u, i ++ t = '#' :: u) ∨ ∃ u, i ++ t = '/' :: '/' :: u := by
  cases h
  · exact .inl ⟨_, by simp; rfl⟩
  · exact .inr ⟨_, by simp; rfl⟩

theorem layoutItem_prefix : PrefixCode LayoutItem := by
  intro i j t u hi hj h
  cases hi with
  | space c hc =>
    cases hj with
    | space d hd => simp at h; simp [h.1]
    | line _ hl =>
      rcases hl.head (t := u) with ⟨x, hx⟩ | ⟨x, hx⟩ <;>
        (rw [hx] at h; simp at h; rcases hc with rfl | rfl | rfl | rfl <;> simp at h)
    | comment _ hl =>
      obtain ⟨x, hx⟩ := hl.head (t := u)
      rw [hx] at h; simp at h; rcases hc with rfl | rfl | rfl | rfl <;> simp at h
  | line _ hl =>
    cases hj with
    | space c hc =>
      rcases hl.head (t := t) with ⟨x, hx⟩ | ⟨x, hx⟩ <;>
        (rw [hx] at h; simp at h; rcases hc with rfl | rfl | rfl | rfl <;> simp at h)
    | line _ hl' => exact lineComment_prefix _ _ _ _ hl hl' h
    | comment _ hl' =>
      obtain ⟨y, hy⟩ := hl'.head (t := u)
      rcases hl.head (t := t) with ⟨x, hx⟩ | ⟨x, hx⟩ <;> (rw [hx, hy] at h; simp at h)
  | comment _ hl =>
    obtain ⟨y, hy⟩ := hl.head (t := t)
    cases hj with
    | space c hc => rw [hy] at h; simp at h; rcases hc with rfl | rfl | rfl | rfl <;> simp at h
    | line _ hl' =>
      rcases hl'.head (t := u) with ⟨x, hx⟩ | ⟨x, hx⟩ <;> (rw [hx, hy] at h; simp at h)
    | comment _ hl' => exact inlineComment_prefix _ _ _ _ hl hl' h

theorem inlineItem_layout {i : Str} (h : InlineItem i) : LayoutItem i := by
  cases h with
  | blank c hc => exact .space c (by rcases hc with h | h <;> simp [h])
  | comment s h => exact .comment _ h

theorem inlineItem_prefix : PrefixCode InlineItem :=
  fun i j t u hi hj h => layoutItem_prefix i j t u (inlineItem_layout hi) (inlineItem_layout hj) h

theorem newlineItem_seq {i : Str} (h : NewlineItem i) : Seq LayoutItem i := by
  have eolSeq : ∀ e, Eol e → Seq LayoutItem e := by
    intro e he
    cases he
    · exact .single (.space _ (by simp))
    · exact .cons ['\r'] ['\n'] (.space _ (by simp)) (.single (.space _ (by simp)))
  cases h with
  | eol s h => exact eolSeq _ h
  | line s h => exact .single (.line _ h)
  | comment s e hs he => exact .cons _ _ (.comment _ hs) (eolSeq _ he)

/-! ## the layout parsers -/

theorem isSpace_iff {c : Char} : isSpace c = true ↔ c = ' ' ∨ c = '\t' ∨ c = '\r' ∨ c = '\n' := by
  simp [isSpace, or_assoc]

theorem isBlank_iff {c : Char} : isBlank c = true ↔ c = ' ' ∨ c = '\t' := by simp [isBlank]

theorem seq_chars {I : Str → Prop} {s : Str} (h : ∀ c ∈ s, I [c]) : Seq I s := by
  induction s with
  | nil => exact .nil
  | cons c s ih =>
    exact .cons [c] s (h c (List.mem_cons_self ..)) (ih fun d hd => h d (List.mem_cons_of_mem _ hd))

theorem Tame.ws : Tame ws :=
  .many0 (.orElse .hashComment (.orElse .slashComment (.orElse .inlineComment (.takeWhile _))))
theorem Tame.inlineWs : Tame inlineWs := .many0 (.orElse .inlineComment (.takeWhile _))

theorem ws_skip {s r : Str} {v : List Str} (h : ws s = .ok r v) : SkipLayout s r := by
  refine skip_of_many ?_ ?_ h
  · intro s r v h hl
    simp only [orElse_eq_ok] at h
    rcases h with h | ⟨-, h | ⟨-, h | ⟨-, h⟩⟩⟩
    · obtain ⟨i, hi, rfl⟩ := lineComment_iff.1 (.inl ⟨v, h⟩); exact ⟨i, .single (.line _ hi), rfl⟩
    · obtain ⟨i, hi, rfl⟩ := lineComment_iff.1 (.inr ⟨v, h⟩); exact ⟨i, .single (.line _ hi), rfl⟩
    · obtain ⟨i, hi, rfl⟩ := inlineComment_spec h; exact ⟨i, .single (.comment _ hi), rfl⟩
    · simp only [Verif.takeWhile] at h
      injection h with h1 h2; subst h1 h2
      exact ⟨_, seq_chars fun c hc => .space c (isSpace_iff.1 (mem_takeWhile hc)),
        (List.takeWhile_append_dropWhile ..).symm⟩
  · rintro s h ⟨i, t, hi, rfl⟩
    have key : ∃ r v, (hashComment <//> slashComment <//> inlineComment <//> Verif.takeWhile isSpace) (i ++ t)
        = .ok r v ∧ r.length < (i ++ t).length := by
      cases hi with
      | space c hc =>
        have e1 : hashComment ([c] ++ t) = .err := Tame.hashComment.not_ok fun r v h => by
          obtain ⟨_, _, h, _⟩ := hashComment_eq_ok.1 h
          simp at h; rcases hc with rfl | rfl | rfl | rfl <;> simp at h
        have e2 : slashComment ([c] ++ t) = .err := Tame.slashComment.not_ok fun r v h => by
          obtain ⟨_, _, h, _⟩ := slashComment_eq_ok.1 h
          simp at h; rcases hc with rfl | rfl | rfl | rfl <;> simp at h
        have e3 : inlineComment ([c] ++ t) = .err := Tame.inlineComment.not_ok fun r v h => by
          obtain ⟨h, _⟩ := inlineComment_eq_ok.1 h
          simp at h; rcases hc with rfl | rfl | rfl | rfl <;> simp at h
        rw [orElse_of_err e1, orElse_of_err e2, orElse_of_err e3]
        refine ⟨_, _, rfl, ?_⟩
        simp [isSpace_iff.2 hc]
        exact Nat.lt_succ_of_le (List.dropWhile_sublist _).length_le
      | line _ hl =>
        rcases (lineComment_iff (r := t)).2 ⟨i, hl, rfl⟩ with ⟨v, h⟩ | ⟨v, h⟩
        · refine ⟨t, v, orElse_of_ok h, ?_⟩
          cases hl <;> (simp; omega)
        · have e1 : hashComment (i ++ t) = .err := Tame.hashComment.not_ok fun r w h' => by
            obtain ⟨_, _, h', _⟩ := hashComment_eq_ok.1 h'
            obtain ⟨_, _, h, _⟩ := slashComment_eq_ok.1 h
            rw [h'] at h; simp at h
          refine ⟨t, v, by rw [orElse_of_err e1]; exact orElse_of_ok h, ?_⟩
          cases hl <;> (simp; omega)
      | comment _ hl =>
        obtain ⟨v, h⟩ := inlineComment_append (t := t) hl
        obtain ⟨x, hx⟩ := hl.head (t := t)
        have e1 : hashComment (i ++ t) = .err := Tame.hashComment.not_ok fun r w h' => by
          obtain ⟨_, _, h', _⟩ := hashComment_eq_ok.1 h'
          rw [hx] at h'; simp at h'
        have e2 : slashComment (i ++ t) = .err := Tame.slashComment.not_ok fun r w h' => by
          obtain ⟨_, _, h', _⟩ := slashComment_eq_ok.1 h'
          rw [hx] at h'; simp at h'
        refine ⟨t, v, by rw [orElse_of_err e1, orElse_of_err e2]; exact orElse_of_ok h, ?_⟩
        cases hl; simp; omega
    obtain ⟨r, v, hk, hl⟩ := key
    rcases h with h | ⟨r', v', h, hl'⟩
    · rw [hk] at h; cases h
    · rw [hk] at h; injection h with h1 h2; subst h1; omega

theorem inlineWs_skip {s r : Str} {v : List Str} (h : inlineWs s = .ok r v) : SkipInline s r := by
  refine skip_of_many ?_ ?_ h
  · intro s r v h hl
    simp only [orElse_eq_ok] at h
    rcases h with h | ⟨-, h⟩
    · obtain ⟨i, hi, rfl⟩ := inlineComment_spec h; exact ⟨i, .single (.comment _ hi), rfl⟩
    · simp only [Verif.takeWhile] at h
      injection h with h1 h2; subst h1 h2
      exact ⟨_, seq_chars fun c hc => .blank c (isBlank_iff.1 (mem_takeWhile hc)),
        (List.takeWhile_append_dropWhile ..).symm⟩
  · rintro s h ⟨i, t, hi, rfl⟩
    have key : ∃ r v, (inlineComment <//> Verif.takeWhile isBlank) (i ++ t)
        = .ok r v ∧ r.length < (i ++ t).length := by
      cases hi with
      | blank c hc =>
        have e3 : inlineComment ([c] ++ t) = .err := Tame.inlineComment.not_ok fun r v h => by
          obtain ⟨h, _⟩ := inlineComment_eq_ok.1 h
          simp at h; rcases hc with rfl | rfl <;> simp at h
        rw [orElse_of_err e3]
        refine ⟨_, _, rfl, ?_⟩
        simp [isBlank_iff.2 hc]
        exact Nat.lt_succ_of_le (List.dropWhile_sublist _).length_le
      | comment _ hl =>
        obtain ⟨v, h⟩ := inlineComment_append (t := t) hl
        refine ⟨t, v, orElse_of_ok h, ?_⟩
        cases hl; simp; omega
    obtain ⟨r, v, hk, hl⟩ := key
    rcases h with h | ⟨r', v', h, hl'⟩
    · rw [hk] at h; cases h
    · rw [hk] at h; injection h with h1 h2; subst h1; omega

theorem ws_total (s : Str) : ∃ r v, ws s = .ok r v := by
  rcases Tame.ws s with h | h
  · exact h
  · exact absurd h (many0_ne_err _ _)

theorem inlineWs_total (s : Str) : ∃ r v, inlineWs s = .ok r v := by
  rcases Tame.inlineWs s with h | h
  · exact h
  · exact absurd h (many0_ne_err _ _)

theorem ws_iff {s r : Str} : (∃ v, ws s = .ok r v) ↔ SkipLayout s r := by
  constructor
  · rintro ⟨v, h⟩; exact ws_skip h
  · intro h
    obtain ⟨r', v, h'⟩ := ws_total s
    have := h.functional layoutItem_prefix (ws_skip h')
    subst this; exact ⟨v, h'⟩

theorem inlineWs_iff {s r : Str} : (∃ v, inlineWs s = .ok r v) ↔ SkipInline s r := by
  constructor
  · rintro ⟨v, h⟩; exact inlineWs_skip h
  · intro h
    obtain ⟨r', v, h'⟩ := inlineWs_total s
    have := h.functional inlineItem_prefix (inlineWs_skip h')
    subst this; exact ⟨v, h'⟩

/-- What skipping leaves. -/
theorem skipLayout_total (s : Str) : ∃ r, SkipLayout s r := by
  obtain ⟨r, v, h⟩ := ws_total s; exact ⟨r, ws_skip h⟩
theorem skipInline_total (s : Str) : ∃ r, SkipInline s r := by
  obtain ⟨r, v, h⟩ := inlineWs_total s; exact ⟨r, inlineWs_skip h⟩

/-- Sequencing after a layout skip. -/
theorem ws_bind_ok {α : Type} {f : List Str → Parser α} {s r : Str} {x : α} (hf : ∀ v w, f v = f w) :
    (ws >>= f) s = .ok r x ↔ ∃ t, SkipLayout s t ∧ f [] t = .ok r x := by
  rw [bind_apply, bind_eq_ok]
  constructor
  · rintro ⟨t, v, h, h'⟩; exact ⟨t, ws_skip h, by rw [hf [] v]; exact h'⟩
  · rintro ⟨t, h, h'⟩
    obtain ⟨v, hv⟩ := ws_iff.2 h
    exact ⟨t, v, hv, by rw [hf v []]; exact h'⟩

theorem ws_bind {α : Type} {f : List Str → Parser α} {s t : Str} (hf : ∀ v w, f v = f w)
    (h : SkipLayout s t) : (ws >>= f) s = f [] t := by
  obtain ⟨v, hv⟩ := ws_iff.2 h
  rw [bind_apply, hv, bind_ok, hf v []]

theorem inlineWs_bind {α : Type} {f : List Str → Parser α} {s t : Str} (hf : ∀ v w, f v = f w)
    (h : SkipInline s t) : (inlineWs >>= f) s = f [] t := by
  obtain ⟨v, hv⟩ := inlineWs_iff.2 h
  rw [bind_apply, hv, bind_ok, hf v []]

end Verif
