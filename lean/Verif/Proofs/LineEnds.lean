import Verif.Spec.LineEnds
import Verif.Spec.Leaves
import Verif.Proofs.Laid
/-! # CR LF instead of LF -/
set_option autoImplicit false

namespace Verif
open Spec

section
variable {U : CharClass}

@[simp] theorem crlf_nil : crlf [] = [] := rfl
@[simp] theorem crlf_lf (s : Str) : crlf ('\n' :: s) = '\r' :: '\n' :: crlf s := rfl
theorem crlf_cons {c : Char} (h : c ≠ '\n') (s : Str) : crlf (c :: s) = c :: crlf s := by
  simp [crlf, List.flatMap_cons, h]
@[simp] theorem crlf_append (s t : Str) : crlf (s ++ t) = crlf s ++ crlf t := List.flatMap_append

theorem crlf_id {s : Str} (h : '\n' ∉ s) : crlf s = s := by
  induction s with
  | nil => rfl
  | cons c s ih => rw [crlf_cons (by rintro rfl; simp at h), ih (by intro h'; exact h (by simp [h']))]

theorem moreCr_refl (s : Str) : MoreCr s s := by
  induction s with
  | nil => exact .nil
  | cons c s ih => exact .same c s s ih

theorem moreCr_crlf (s : Str) : MoreCr s (crlf s) := by
  induction s with
  | nil => exact .nil
  | cons c s ih =>
    by_cases h : c = '\n'
    · subst h; exact .cr _ _ ih
    · rw [crlf_cons h]; exact .same _ _ _ ih

theorem crlf_head {s t : Str} {d : Char} (h : crlf s = d :: t) : d ≠ '\n' ∧ ((d = '\r' ∧ ∃ s', s = '\n' :: s' ∧ t = '\n' :: crlf s') ∨
    ∃ s', s = d :: s' ∧ t = crlf s') := by
  cases s with
  | nil => cases h
  | cons c s =>
    by_cases hc : c = '\n'
    · subst hc
      cases h
      exact ⟨by decide, .inl ⟨rfl, s, rfl, rfl⟩⟩
    · rw [crlf_cons hc] at h
      cases h
      exact ⟨hc, .inr ⟨s, rfl, rfl⟩⟩

theorem crlf_infix {x : Str} (h : ['*', '/'] <:+: crlf x) : ['*', '/'] <:+: x := by
  induction x with
  | nil => exact h
  | cons c x ih =>
    by_cases hc : c = '\n'
    · subst hc
      rw [crlf_lf, List.infix_cons_iff, List.infix_cons_iff] at h
      rcases h with ⟨t, h⟩ | ⟨t, h⟩ | h
      · cases h
      · cases h
      · exact List.infix_cons_iff.2 (.inr (ih h))
    · rw [crlf_cons hc, List.infix_cons_iff] at h
      rcases h with ⟨t, h⟩ | h
      · injection h with h1 h2
        subst h1
        obtain ⟨-, ⟨h3, -⟩ | ⟨s', rfl, rfl⟩⟩ := crlf_head (s := x) (d := '/') (t := t) (by rw [← h2]; rfl)
        · cases h3
        · exact List.infix_cons_iff.2 (.inl ⟨s', rfl⟩)
      · exact List.infix_cons_iff.2 (.inr (ih h))

theorem eol_lf {e : Str} (h : Eol e) (hr : '\r' ∉ e) : e = ['\n'] := by
  cases h with
  | lf => rfl
  | crlf => simp at hr

theorem eol_up {e : Str} (h : Eol e) (hr : '\r' ∉ e) : Eol (crlf e) := by
  rw [eol_lf h hr]; exact .crlf

theorem lineComment_up {s : Str} (h : LineComment s) (hr : '\r' ∉ s) : LineComment (crlf s) := by
  cases h with
  | hash b e hb he =>
    have hb' : crlf b = b := crlf_id fun h => (hb _ h).2 rfl
    have := LineComment.hash b (crlf e) hb (eol_up he (by simp at hr; exact hr.2))
    rw [crlf_append, crlf_cons (by decide), hb']
    exact this
  | slash b e hb he =>
    have hb' : crlf b = b := crlf_id fun h => (hb _ h).2 rfl
    have := LineComment.slash b (crlf e) hb (eol_up he (by simp at hr; exact hr.2))
    rw [crlf_append, crlf_cons (by decide), crlf_cons (by decide), hb']
    exact this

theorem inlineComment_up {s : Str} (h : InlineComment s) : InlineComment (crlf s) := by
  cases h with
  | mk b hb =>
    have e : crlf ('/' :: '*' :: b ++ ['*', '/']) = '/' :: '*' :: crlf b ++ ['*', '/'] := by
      rw [crlf_append, crlf_cons (by decide), crlf_cons (by decide), crlf_id (s := ['*', '/']) (by decide)]
    rw [e]
    refine .mk _ ?_
    intro h
    refine hb (crlf_infix ?_)
    rw [crlf_append, crlf_id (s := ['*']) (by decide)]
    exact h

theorem layout_up {l : Str} (h : Seq LayoutItem l) (hr : '\r' ∉ l) : Seq LayoutItem (crlf l) := by
  induction h with
  | nil => exact .nil
  | cons i s hi _ ih =>
    simp only [List.mem_append, not_or] at hr
    rw [crlf_append]
    refine Seq.append ?_ (ih hr.2)
    cases hi with
    | space c hc =>
      by_cases h : c = '\n'
      · subst h
        exact .cons ['\r'] ['\n'] (.space _ (by simp)) (.single (.space _ (by simp)))
      · rw [crlf_cons h]; exact .single (.space _ hc)
    | line _ hc => exact .single (.line _ (lineComment_up hc hr.1))
    | comment _ hc => exact .single (.comment _ (inlineComment_up hc))

theorem inline_up {l : Str} (h : Seq InlineItem l) : Seq InlineItem (crlf l) := by
  induction h with
  | nil => exact .nil
  | cons i s hi _ ih =>
    rw [crlf_append]
    refine Seq.append ?_ ih
    cases hi with
    | blank c hc => rw [crlf_cons (by rcases hc with rfl | rfl <;> decide)]; exact .single (.blank _ hc)
    | comment _ hc => exact .single (.comment _ (inlineComment_up hc))

theorem newlineItem_up {i : Str} (h : NewlineItem i) (hr : '\r' ∉ i) : NewlineItem (crlf i) := by
  cases h with
  | eol _ h => exact .eol _ (eol_up h hr)
  | line _ h => exact .line _ (lineComment_up h hr)
  | comment s e h he =>
    simp only [List.mem_append, not_or] at hr
    rw [crlf_append]; exact .comment _ _ (inlineComment_up h) (eol_up he hr.2)

theorem seq_newline_up {l : Str} (h : Seq NewlineItem l) (hr : '\r' ∉ l) : Seq NewlineItem (crlf l) := by
  induction h with
  | nil => exact .nil
  | cons i s hi _ ih =>
    simp only [List.mem_append, not_or] at hr
    rw [crlf_append]
    exact .cons _ _ (newlineItem_up hi hr.1) (ih hr.2)

theorem lineEnds_up {n : Str} (h : LineEnds n) (hr : '\r' ∉ n) : LineEnds (crlf n) := by
  cases h with
  | mk i l hi hl =>
    simp only [List.mem_append, not_or] at hr
    rw [crlf_append]
    exact .mk _ _ (newlineItem_up hi hr.1) (seq_newline_up hl hr.2)

/-! ## quoted strings -/

theorem head_up {P : Char → Prop} (hP : ¬ P '\r') {s : Str} (h : ¬ Head P s) : ¬ Head P (crlf s) := by
  rintro ⟨c, t, e, hc⟩
  obtain ⟨-, ⟨rfl, -⟩ | ⟨s', rfl, -⟩⟩ := crlf_head e
  · exact hP hc
  · exact h ⟨c, s', rfl, hc⟩

theorem digit_ne {b : Nat} {c : Char} {v : Nat} (h : Digit b c v) : c ≠ '\n' ∧ c ≠ '\r' := by
  cases h with
  | dec h1 h2 h3 => constructor <;> (rintro rfl; exact absurd h1 (by decide))
  | lower h1 h2 h3 => constructor <;> (rintro rfl; exact absurd h1 (by decide))
  | upper h1 h2 h3 => constructor <;> (rintro rfl; exact absurd h1 (by decide))

theorem numeral_no_lf {b : Nat} {ds : Str} {n : Nat} (h : Numeral b ds n) : '\n' ∉ ds := by
  induction h with
  | nil => simp
  | snoc ds c n v _ hd ih =>
    intro h
    simp at h
    rcases h with h | h
    · exact ih h
    · exact (digit_ne hd).1 h.symm

theorem escape_up {e : Str} {c : Char} {r : Str} (h : Escape e c r) : '\n' ∉ e ∧ Escape e c (crlf r) := by
  cases h with
  | simple k _ _ hk =>
    refine ⟨?_, .simple _ _ _ hk⟩
    intro h
    simp at h
    subst h
    revert hk
    simp [simpleEscapes]
  | octal ds _ _ h1 h2 h3 h4 =>
    refine ⟨numeral_no_lf h4, .octal _ _ _ h1 h2 (h3.imp id ?_) h4⟩
    exact head_up (by rintro ⟨v, hv⟩; exact (digit_ne hv).2 rfl)
  | hex k max ds _ _ h0 h1 h2 h3 h4 =>
    refine ⟨?_, .hex _ _ _ _ _ h0 h1 h2 (h3.imp id ?_) h4⟩
    · intro h
      simp at h
      rcases h with h | h
      · subst h
        revert h0
        simp [hexEscapes]
      · exact numeral_no_lf h4 h
    · exact head_up (by rintro ⟨v, hv⟩; exact (digit_ne hv).2 rfl)

theorem content_up {src v r : Str} (h : Content Plain src v r) : ∃ v', MoreCr v v' ∧ Content Plain (crlf src) v' (crlf r) := by
  induction h with
  | nil r => exact ⟨[], .nil, .nil _⟩
  | plain c s v r hc _ ih =>
    obtain ⟨v', h1, h2⟩ := ih
    by_cases h : c = '\n'
    · subst h
      exact ⟨_, .cr _ _ h1, .plain _ _ _ _ (by simp [Plain]) (.plain _ _ _ _ hc h2)⟩
    · rw [crlf_cons h]; exact ⟨_, .same _ _ _ h1, .plain _ _ _ _ hc h2⟩
  | escape e c s v r he _ ih =>
    obtain ⟨v', h1, h2⟩ := ih
    obtain ⟨h3, h4⟩ := escape_up he
    rw [crlf_append] at h4
    refine ⟨_, .same _ _ _ h1, ?_⟩
    rw [crlf_append, crlf_cons (by decide), crlf_id h3]
    exact .escape _ _ _ _ _ h4 h2

theorem contentLine_no_lf {src v r : Str} (h : Content PlainLine src v r) : '\n' ∉ src ∧ Content PlainLine src v (crlf r) := by
  induction h with
  | nil r => exact ⟨by simp, .nil _⟩
  | plain c s v r hc _ ih =>
    refine ⟨?_, .plain _ _ _ _ hc ih.2⟩
    intro h
    rcases List.mem_cons.1 h with h | h
    · exact hc.2.2.2 h.symm
    · exact ih.1 h
  | escape e c s v r he _ ih =>
    obtain ⟨h3, h4⟩ := escape_up he
    rw [crlf_append, crlf_id ih.1] at h4
    refine ⟨?_, .escape _ _ _ _ _ h4 ih.2⟩
    simp [h3, ih.1]

/-! ## heredocs -/

theorem startsEol_up {s : Str} (h : StartsEol s) (hr : '\r' ∉ s) : StartsEol (crlf s) := by
  obtain ⟨e, t, he, rfl⟩ := h
  simp only [List.mem_append, not_or] at hr
  exact ⟨crlf e, crlf t, eol_up he hr.1, crlf_append _ _⟩

theorem crlf_cut {p x r : Str} (hp : ∀ c ∈ p, c ≠ '\n' ∧ c ≠ '\r') (h : crlf x = p ++ r) : ∃ r', x = p ++ r' ∧ r = crlf r' := by
  induction p generalizing x with
  | nil => exact ⟨x, rfl, h.symm⟩
  | cons c p ih =>
    obtain ⟨-, ⟨h1, -⟩ | ⟨s', rfl, h2⟩⟩ := crlf_head h
    · exact absurd h1 (hp c (by simp)).2
    · obtain ⟨r', rfl, rfl⟩ := ih (fun d hd => hp d (by simp [hd])) h2.symm
      exact ⟨r', rfl, rfl⟩

theorem crlf_eol {x e r : Str} (he : Eol e) (h : crlf x = e ++ r) : ∃ r', x = '\n' :: r' ∧ r = crlf r' ∧ e = ['\r', '\n'] := by
  cases he with
  | lf => exact absurd rfl (crlf_head h).1
  | crlf =>
    obtain ⟨-, ⟨-, s', rfl, h2⟩ | ⟨s', rfl, h2⟩⟩ := crlf_head h
    · injection h2 with _ h2
      exact ⟨s', rfl, h2, rfl⟩
    · exact absurd rfl (crlf_head h2.symm).1

theorem startsEol_down {s : Str} (h : StartsEol (crlf s)) : StartsEol s := by
  obtain ⟨e, t, he, h⟩ := h
  obtain ⟨r', rfl, -⟩ := crlf_eol he h
  exact ⟨['\n'], r', .lf, rfl⟩

theorem blank_ne {b : Str} (h : ∀ c ∈ b, c = ' ' ∨ c = '\t') : ∀ c ∈ b, c ≠ '\n' ∧ c ≠ '\r' := by
  intro c hc
  rcases h c hc with rfl | rfl <;> decide

theorem marker_ne {m : Str} (h : ∀ c ∈ m, MarkerChar U c) : ∀ c ∈ m, c ≠ '\n' ∧ c ≠ '\r' := by
  intro c hc
  have h' := h c hc
  constructor <;> (rintro rfl; rcases h' with h' | h'; rw [U.alnum_ascii _ (by decide)] at h'; revert h'; decide; cases h')

theorem terminator_down {m x b r : Str} (hm : ∀ c ∈ m, c ≠ '\n' ∧ c ≠ '\r') (h : Terminator m (crlf x) b r) :
    ∃ r', r = crlf r' ∧ Terminator m x b r' := by
  obtain ⟨e, he, h1, hb, hs⟩ := h
  rw [List.append_assoc, List.append_assoc] at h1
  obtain ⟨x', rfl, h2, -⟩ := crlf_eol he h1
  rw [← List.append_assoc] at h2
  obtain ⟨r', rfl, rfl⟩ := crlf_cut (p := b ++ m) (by
    intro c hc
    rcases List.mem_append.1 hc with hc | hc
    · exact blank_ne hb c hc
    · exact hm c hc) h2.symm
  exact ⟨r', rfl, ['\n'], .lf, by simp, hb, startsEol_down hs⟩

theorem no_lf_of {p : Str} (hp : ∀ c ∈ p, c ≠ '\n' ∧ c ≠ '\r') : '\n' ∉ p := fun h => (hp _ h).1 rfl

theorem terminator_up {m x b r : Str} (hm : ∀ c ∈ m, c ≠ '\n' ∧ c ≠ '\r') (h : Terminator m x b r) (hr : '\r' ∉ x) :
    Terminator m (crlf x) b (crlf r) := by
  obtain ⟨e, he, rfl, hb, hs⟩ := h
  simp only [List.mem_append, not_or] at hr
  refine ⟨crlf e, eol_up he hr.1.1.1, ?_, hb, startsEol_up hs hr.2⟩
  simp only [crlf_append, crlf_id (no_lf_of (blank_ne hb)), crlf_id (no_lf_of hm)]

theorem crlf_at_cr {s c w : Str} (h : crlf s = c ++ '\r' :: w) : ∃ a t, s = a ++ t ∧ c = crlf a ∧ crlf t = '\r' :: w := by
  induction s generalizing c with
  | nil => cases c <;> cases h
  | cons d s ih =>
    cases c with
    | nil => exact ⟨[], _, rfl, rfl, h⟩
    | cons x c =>
      by_cases hd : d = '\n'
      · subst hd
        rw [crlf_lf] at h
        injection h with h1 h2
        subst h1
        cases c with
        | nil => cases h2
        | cons y c =>
          injection h2 with h3 h4
          subst h3
          obtain ⟨a, t, rfl, rfl, h5⟩ := ih h4
          exact ⟨'\n' :: a, t, rfl, rfl, h5⟩
      · rw [crlf_cons hd] at h
        injection h with h1 h2
        subst h1
        obtain ⟨a, t, rfl, rfl, h5⟩ := ih h2
        exact ⟨d :: a, t, rfl, (crlf_cons hd _).symm, h5⟩

theorem crlf_at_lf {s c w : Str} (h : crlf s = c ++ '\n' :: w) : ∃ a t, s = a ++ '\n' :: t ∧ c = crlf a ++ ['\r'] ∧ w = crlf t := by
  induction s generalizing c with
  | nil => cases c <;> cases h
  | cons d s ih =>
    cases c with
    | nil => exact absurd rfl (crlf_head h).1
    | cons x c =>
      by_cases hd : d = '\n'
      · subst hd
        rw [crlf_lf] at h
        injection h with h1 h2
        subst h1
        cases c with
        | nil => injection h2 with _ h2; exact ⟨[], s, rfl, rfl, h2.symm⟩
        | cons y c =>
          injection h2 with h3 h4
          subst h3
          obtain ⟨a, t, rfl, rfl, h5⟩ := ih h4
          exact ⟨'\n' :: a, t, rfl, rfl, h5⟩
      · rw [crlf_cons hd] at h
        injection h with h1 h2
        subst h1
        obtain ⟨a, t, rfl, rfl, h5⟩ := ih h2
        exact ⟨d :: a, t, rfl, by rw [crlf_cons hd]; rfl, h5⟩

theorem crlf_length_mono {a b x y : Str} (h : a ++ x = b ++ y) (hl : a.length ≤ b.length) : (crlf a).length ≤ (crlf b).length := by
  obtain ⟨z, rfl⟩ := List.prefix_of_prefix_length_le ⟨x, h⟩ ⟨y, rfl⟩ hl
  simp

theorem firstTerminator_up {m s c b r : Str} (hm : ∀ c ∈ m, c ≠ '\n' ∧ c ≠ '\r') (h : FirstTerminator m s c b r) (hr : '\r' ∉ s) :
    FirstTerminator m (crlf s) (crlf c) b (crlf r) := by
  obtain ⟨⟨t, rfl, ht⟩, hf⟩ := h
  have hr' := hr
  simp only [List.mem_append, not_or] at hr'
  refine ⟨⟨crlf t, crlf_append _ _, terminator_up hm ht hr'.2⟩, ?_⟩
  intro c' t' b' r' h hT
  obtain ⟨e, he, rfl, hb, hs⟩ := hT
  cases he with
  | lf =>
    obtain ⟨a, w, h1, rfl, h2⟩ := crlf_at_lf (s := c ++ t) (c := c') (w := b' ++ m ++ r') (by simpa using h)
    rw [List.append_assoc] at h2
    have h3 : Terminator m (crlf ('\n' :: w)) b' r' := ⟨['\r', '\n'], .crlf, by simp [← h2], hb, hs⟩
    obtain ⟨r2, rfl, h4⟩ := terminator_down hm h3
    have := crlf_length_mono h1 (hf _ _ _ _ h1 h4)
    simp; omega
  | crlf =>
    obtain ⟨a, w, h1, rfl, h2⟩ := crlf_at_cr (s := c ++ t) (c := c') (w := '\n' :: (b' ++ m ++ r')) (by simpa using h)
    have h3 : Terminator m (crlf w) b' r' := ⟨['\r', '\n'], .crlf, by simp [h2], hb, hs⟩
    obtain ⟨r2, rfl, h4⟩ := terminator_down hm h3
    exact crlf_length_mono h1 (hf _ _ _ _ h1 h4)

/-- CRs at the ends of all lines but the last. -/
def addCr : List Str → List Str
  | [] => []
  | [l] => [l]
  | l :: ls => (l ++ ['\r']) :: addCr ls

theorem lines_ne_nil {s : Str} {ls : List Str} (h : Lines s ls) : ls ≠ [] := by cases h <;> simp

theorem addCr_cons {l : Str} {ls : List Str} (h : ls ≠ []) : addCr (l :: ls) = (l ++ ['\r']) :: addCr ls := by
  cases ls with
  | nil => exact absurd rfl h
  | cons => rfl

theorem lines_up {s : Str} {ls : List Str} (h : Lines s ls) : Lines (crlf s) (addCr ls) := by
  induction h with
  | last l hl => rw [crlf_id hl]; exact .last l hl
  | cons l s ls hl hs ih =>
    rw [addCr_cons (lines_ne_nil hs), crlf_append, crlf_lf, crlf_id hl]
    have := Lines.cons (l ++ ['\r']) _ _ (by simpa using hl) ih
    simpa using this

theorem unindented_up {n : Nat} {l l' : Str} (h : Unindented n l l') (x : Str) : Unindented n (l ++ x) (l' ++ x) := by
  cases h with
  | full => rw [List.append_assoc]; exact .full _
  | short k c d l h1 h2 h3 =>
    have := Unindented.short (n := n) k c d (l ++ x) h1 h2 h3
    simpa using this

theorem allPairs_up {n : Nat} {ls ls' : List Str} (h : AllPairs (Unindented n) ls ls') :
    AllPairs (Unindented n) (addCr ls) (addCr ls') := by
  induction h with
  | nil => exact .nil
  | cons a b as bs hab h ih =>
    cases h with
    | nil => exact .cons _ _ _ _ hab .nil
    | cons => exact .cons _ _ _ _ (unindented_up hab _) ih

theorem heredocValue_up {s : Str} {n : Nat} {v : CowStr} (h : HeredocValue s n v) : ∃ v', MoreCrStr v v' ∧ HeredocValue (crlf s) n v' := by
  cases h with
  | verbatim => exact ⟨_, .borrowed _ _ (moreCr_crlf _), .verbatim _⟩
  | indented =>
    rename_i s' ls ls' h2 h4 h1 h3
    exact ⟨_, .owned _ _ (moreCr_crlf _), .indented _ _ _ _ _ h1 (lines_up h2) (allPairs_up h3) (lines_up h4)⟩

theorem heredoc_up {s r : Str} {v : CowStr} (h : Heredoc U s v r) (hr : '\r' ∉ s) :
    ∃ v', MoreCrStr v v' ∧ Heredoc U (crlf s) v' (crlf r) := by
  cases h with
  | empty ind m s b _ h1 h2 h3 =>
    refine ⟨_, .borrowed _ _ .nil, ?_⟩
    have hs : '\r' ∉ s := fun h => hr (by simp [h])
    have := Heredoc.empty (U := U) ind m _ b _ h1 h2 (terminator_up (marker_ne h2) h3 hs)
    have e : crlf ('<' :: '<' :: (if ind then ['-'] else []) ++ m ++ s) = '<' :: '<' :: (if ind then ['-'] else []) ++ m ++ crlf s := by
      simp only [crlf_append]
      rw [crlf_id (no_lf_of (marker_ne h2)), crlf_id (s := '<' :: '<' :: _) (by cases ind <;> decide)]
    rw [e]; exact this
  | content ind m e s c b _ v h1 h2 h3 h4 h5 h6 =>
    obtain ⟨v', h7, h8⟩ := heredocValue_up h6
    have hs : '\r' ∉ s := fun h => hr (by simp [h])
    have he : '\r' ∉ e := fun h => hr (by simp [h])
    refine ⟨v', h7, ?_⟩
    have := Heredoc.content (U := U) ind m _ _ _ b _ v' h1 h2 (eol_up h3 he) (by
      rintro ⟨b', r', h⟩
      rw [← crlf_append] at h
      obtain ⟨r2, -, h⟩ := terminator_down (marker_ne h2) h
      exact h4 ⟨_, _, h⟩) (firstTerminator_up (marker_ne h2) h5 hs) h8
    have e : crlf ('<' :: '<' :: (if ind then ['-'] else []) ++ m ++ e ++ s) =
        '<' :: '<' :: (if ind then ['-'] else []) ++ m ++ crlf e ++ crlf s := by
      simp only [crlf_append]
      rw [crlf_id (no_lf_of (marker_ne h2)), crlf_id (s := '<' :: '<' :: _) (by cases ind <;> decide)]
    rw [e]; exact this

/-! ## expressions -/

theorem next_up {h : Option Str} {s : Str} (hn : Next h s) : Next (h.map crlf) (crlf s) := by
  intro e he
  cases h with
  | none => cases he
  | some x =>
    cases he
    obtain ⟨t, rfl⟩ := hn x rfl
    exact ⟨crlf t, (crlf_append _ _).symm⟩

theorem next_no_cr {h : Option Str} {s : Str} (hn : Next h s) (hr : '\r' ∉ s) : ∀ x, h = some x → '\r' ∉ x := by
  rintro x hx hc
  obtain ⟨t, rfl⟩ := hn x hx
  exact hr (by simp [hc])

theorem tupleEnd_up {s : Str} (h : LaidTupleEnd s) (hr : '\r' ∉ s) : LaidTupleEnd (crlf s) := by
  cases h with
  | close l hl =>
    simp at hr
    rw [crlf_append]
    exact .close _ (layout_up hl hr)
  | comma l m hl hm =>
    simp at hr
    rw [crlf_append, crlf_append, crlf_cons (by decide)]
    exact .comma _ _ (layout_up hl hr.1) (layout_up hm hr.2)

theorem ident_no_lf {i : Str} (h : IsIdent U i) : '\n' ∉ i := by
  cases h with
  | mk c cs hc hcs =>
    intro h
    rcases List.mem_cons.1 h with h | h
    · subst h; exact not_identStart (by decide) (by decide) hc
    · exact not_identChar (by decide) (by decide) (hcs _ h)

theorem laidExpr_head {h : Option Str} {e : Expr} {t : Str} (hx : LaidExpr U h e t) (hl : ¬ Starts LayoutItem t) :
    Head (fun c => ¬ LayoutStart c) t := by
  cases hx with
  | null => exact ⟨_, _, rfl, by decide⟩
  | true => exact ⟨_, _, rfl, by decide⟩
  | false => exact ⟨_, _, rfl, by decide⟩
  | number _ n hn =>
    rcases List.eq_nil_or_concat t with rfl | _
    · exact absurd rfl (isNumber_ne_nil hn)
    · cases t with
      | nil => exact absurd rfl (isNumber_ne_nil hn)
      | cons c t => exact ⟨c, t, rfl, fun h => layoutStart_not_num h (isNumber_chars hn c (by simp))⟩
  | quoted => exact ⟨_, _, rfl, by decide⟩
  | heredoc _ e' v he hh =>
    have : ∃ u, t ++ e' = '<' :: '<' :: u := by
      generalize hz : t ++ e' = z at hh
      cases hh <;> exact ⟨_, rfl⟩
    obtain ⟨u, hu⟩ := this
    cases t with
    | nil => cases he <;> cases hu
    | cons c t => injection hu with hu _; subst hu; exact ⟨_, _, rfl, by decide⟩
  | tuple => exact ⟨_, _, rfl, by decide⟩
  | object l es s h1 h2 =>
    cases h1 with
    | nil => exact ⟨_, _, rfl, by decide⟩
    | cons i l hi _ => exact absurd ⟨i, _, hi, by rw [List.append_assoc]⟩ hl
  | bracket l m n t _ _ h1 h2 h3 h4 h5 =>
    cases h1 with
    | nil => exact ⟨_, _, rfl, by decide⟩
    | cons i l hi _ => exact absurd ⟨i, l ++ '(' :: m ++ t ++ n ++ [')'], hi, by simp⟩ hl

theorem laidExpr_up {h : Option Str} {e : Expr} {t : Str} (hx : LaidExpr U h e t) : '\r' ∉ t → (∀ x, h = some x → '\r' ∉ x) →
    ∃ e', MoreCrExpr e e' ∧ LaidExpr U (h.map crlf) e' (crlf t) := by
  refine LaidExpr.rec
    (motive_1 := fun h e t _ => '\r' ∉ t → (∀ x, h = some x → '\r' ∉ x) → ∃ e', MoreCrExpr e e' ∧ LaidExpr U (h.map crlf) e' (crlf t))
    (motive_2 := fun es s _ => '\r' ∉ s → ∃ es', MoreCrTuple es es' ∧ LaidTuple U es' (crlf s))
    (motive_3 := fun es s _ => '\r' ∉ s → ∃ es', MoreCrTuple es es' ∧ LaidTail U es' (crlf s))
    (motive_4 := fun k s _ => '\r' ∉ s → ∃ k', MoreCrKey k k' ∧ LaidKey U k' (crlf s))
    (motive_5 := fun h k e s _ => '\r' ∉ s → (∀ x, h = some x → '\r' ∉ x) →
      ∃ k' e', MoreCrKey k k' ∧ MoreCrExpr e e' ∧ LaidPair U (h.map crlf) k' e' (crlf s))
    (motive_6 := fun es s _ => '\r' ∉ s → ∃ es', MoreCrObject es es' ∧ LaidObject U es' (crlf s))
    ?_ ?_ ?_ ?_ ?_ ?_ ?_ ?_ ?_ ?_ ?_ ?_ ?_ ?_ ?_ ?_ ?_ ?_ ?_ ?_ hx
  · exact fun _ _ => ⟨_, .null, .null⟩
  · exact fun _ _ => ⟨_, .boolean _, .true⟩
  · exact fun _ _ => ⟨_, .boolean _, .false⟩
  · intro t n hn _ _
    rw [crlf_id (isNumber_no_nl (by decide) hn)]
    exact ⟨_, .number n, .number _ _ hn⟩
  · intro src v hc _ _
    obtain ⟨v', h1, h2⟩ := content_up hc
    refine ⟨_, .string _ _ (.owned _ _ h1), ?_⟩
    rw [crlf_append, crlf_cons (by decide)]
    exact .quoted _ _ h2
  · intro t e v he hh hr h0
    have hee := h0 e rfl
    obtain ⟨v', h1, h2⟩ := heredoc_up hh (by simp [hr, hee])
    rw [crlf_append] at h2
    exact ⟨_, .string _ _ h1, .heredoc _ _ _ (eol_up he hee) h2⟩
  · intro es s _ ih hr _
    obtain ⟨es', h1, h2⟩ := ih (fun h => hr (by simp [h]))
    rw [crlf_cons (by decide)]
    exact ⟨_, .tuple _ _ h1, .tuple _ _ h2⟩
  · intro l es s hl _ ih hr _
    obtain ⟨es', h1, h2⟩ := ih (fun h => hr (by simp [h]))
    rw [crlf_append, crlf_cons (by decide)]
    exact ⟨_, .object _ _ h1, .object _ _ _ (layout_up hl (fun h => hr (by simp [h]))) h2⟩
  · intro l m n t h e hl hm _ hn hx ih hr _
    have hn' : '\r' ∉ n := fun h => hr (by simp [h])
    obtain ⟨e', h1, h2⟩ := ih (fun h => hr (by simp [h])) (next_no_cr hx (by simpa using hn'))
    refine ⟨e', h1, ?_⟩
    simp only [crlf_append]
    rw [crlf_cons (c := '(') (by decide)]
    refine .bracket _ _ _ _ _ _ (layout_up hl (fun h => hr (by simp [h]))) (layout_up hm (fun h => hr (by simp [h]))) h2 (layout_up hn hn') ?_
    have := next_up hx
    rwa [crlf_append] at this
  · exact fun s hs hr => ⟨[], .nil, .empty _ (tupleEnd_up hs hr)⟩
  · intro l t s h e es hl _ _ hx ih1 ih2 hr
    have hs : '\r' ∉ s := fun h => hr (by simp [h])
    obtain ⟨e', h1, h2⟩ := ih1 (fun h => hr (by simp [h])) (next_no_cr hx hs)
    obtain ⟨es', h3, h4⟩ := ih2 hs
    simp only [crlf_append]
    exact ⟨_, .cons _ _ _ _ h1 h3, .elems _ _ _ _ _ _ (layout_up hl (fun h => hr (by simp [h]))) h2 h4 (next_up hx)⟩
  · exact fun s hs hr => ⟨[], .nil, .last _ (tupleEnd_up hs hr)⟩
  · intro l m t s h e es hl hm _ _ hx ih1 ih2 hr
    have hs : '\r' ∉ s := fun h => hr (by simp [h])
    obtain ⟨e', h1, h2⟩ := ih1 (fun h => hr (by simp [h])) (next_no_cr hx hs)
    obtain ⟨es', h3, h4⟩ := ih2 hs
    simp only [crlf_append]
    rw [crlf_cons (c := ',') (by decide)]
    exact ⟨_, .cons _ _ _ _ h1 h3, .more _ _ _ _ _ _ _ (layout_up hl (fun h => hr (by simp [h])))
      (layout_up hm (fun h => hr (by simp [h]))) h2 h4 (next_up hx)⟩
  · intro i hi _
    rw [crlf_id (ident_no_lf hi)]
    exact ⟨_, .ident _, .ident _ hi⟩
  · intro t e h1 h2 hx ih hr
    obtain ⟨e', h3, h4⟩ := ih hr (fun _ h => by cases h)
    refine ⟨_, .expr _ _ (.borrowed _ _ (moreCr_crlf t)), .expr _ e' (head_up (not_identStart (by decide) (by decide)) h1) ?_ h4⟩
    obtain ⟨c, u, rfl, hc⟩ := laidExpr_head hx h2
    rw [crlf_cons (by rintro rfl; exact hc (by decide))]
    exact not_starts_layout hc
  · intro l ks m n t h k e hl _ hm hn _ ih1 ih2 hr h0
    obtain ⟨k', h1, h2⟩ := ih1 (fun h => hr (by simp [h]))
    obtain ⟨e', h3, h4⟩ := ih2 (fun h => hr (by simp [h])) h0
    refine ⟨k', e', h1, h3, ?_⟩
    simp only [crlf_append]
    rw [crlf_cons (c := '=') (by decide)]
    exact .mk _ _ _ _ _ _ _ _ (layout_up hl (fun h => hr (by simp [h]))) h2 (inline_up hm) (inline_up hn) h4
  · intro l hl hr
    rw [crlf_append]
    exact ⟨[], .nil, .close _ (layout_up hl (fun h => hr (by simp [h])))⟩
  · intro p l s k e es _ hl _ ih1 ih2 hr
    obtain ⟨k', e', h1, h2, h3⟩ := ih1 (fun h => hr (by simp [h])) (fun _ h => by cases h)
    obtain ⟨es', h4, h5⟩ := ih2 (fun h => hr (by simp [h]))
    simp only [crlf_append]
    rw [crlf_cons (c := ',') (by decide)]
    exact ⟨_, .cons _ _ _ _ _ _ h1 h2 h4, .comma _ _ _ _ _ _ h3 (inline_up hl) h5⟩
  · intro p l n s h k e es _ hl hn hx _ ih1 ih2 hr
    have hn' : '\r' ∉ l ++ n := fun h => hr (by simp at h; rcases h with h | h <;> simp [h])
    obtain ⟨k', e', h1, h2, h3⟩ := ih1 (fun h => hr (by simp [h])) (next_no_cr hx hn')
    obtain ⟨es', h4, h5⟩ := ih2 (fun h => hr (by simp [h]))
    simp only [crlf_append]
    refine ⟨_, .cons _ _ _ _ _ _ h1 h2 h4, .newline _ _ _ _ _ _ _ _ h3 (inline_up hl) (lineEnds_up hn (fun h => hr (by simp [h]))) ?_ h5⟩
    have := next_up hx
    rwa [crlf_append] at this
  · intro p l k e _ hl ih hr
    obtain ⟨k', e', h1, h2, h3⟩ := ih (fun h => hr (by simp [h])) (fun _ h => by cases h)
    simp only [crlf_append]
    exact ⟨_, .cons _ _ _ _ _ _ h1 h2 .nil, .last _ _ _ _ h3 (inline_up hl)⟩

theorem laidAttribute_up {h : Option Str} {k : CowStr} {e : Expr} {s : Str} (hx : LaidAttribute U h k e s) (hr : '\r' ∉ s)
    (h0 : ∀ x, h = some x → '\r' ∉ x) : ∃ e', MoreCrExpr e e' ∧ LaidAttribute U (h.map crlf) k e' (crlf s) := by
  cases hx with
  | mk i l m t n _ _ h1 h2 h3 h4 h5 h6 =>
    obtain ⟨e', h7, h8⟩ := laidExpr_up h4 (fun h => hr (by simp [h])) h0
    refine ⟨e', h7, ?_⟩
    simp only [crlf_append]
    rw [crlf_cons (c := '=') (by decide), crlf_id (ident_no_lf h1)]
    refine .mk _ _ _ _ _ _ _ h1 (inline_up h2) (inline_up h3) h8 (inline_up h5) ?_
    intro hh
    rw [h6 (by rintro rfl; exact hh rfl)]; rfl

theorem laidLabels_up {ls : List BlockLabel} {s : Str} (h : LaidLabels U ls s) (hr : '\r' ∉ s) : LaidLabels U ls (crlf s) := by
  induction h with
  | «open» l hl => rw [crlf_append]; exact .open _ (inline_up hl)
  | ident l i s ls hl hi hs _ ih =>
    simp only [crlf_append]
    rw [crlf_id (ident_no_lf hi)]
    exact .ident _ _ _ _ (inline_up hl) hi (head_up (not_identChar (by decide) (by decide)) hs) (ih fun h => hr (by simp [h]))
  | string l src v s ls hl hc _ ih =>
    have := contentLine_no_lf hc
    simp only [crlf_append]
    rw [crlf_cons (c := '"') (by decide), crlf_cons (c := '"') (by decide), crlf_id this.1]
    exact .string _ _ _ _ _ (inline_up hl) hc (ih fun h => hr (by simp [h]))

theorem laidHeader_up {i : CowStr} {ls : List BlockLabel} {s : Str} (h : LaidHeader U i ls s) (hr : '\r' ∉ s) :
    LaidHeader U i ls (crlf s) := by
  cases h with
  | mk i s _ hi hs hl =>
    rw [crlf_append, crlf_id (ident_no_lf hi)]
    exact .mk _ _ _ hi (head_up (not_identChar (by decide) (by decide)) hs) (laidLabels_up hl fun h => hr (by simp [h]))

def ElementUp (U : CharClass) (h : Option Str) (el : BodyElement) (s : Str) : Prop :=
  '\r' ∉ s → (∀ x, h = some x → '\r' ∉ x) → ∃ el', MoreCrElement el el' ∧ LaidElement U (h.map crlf) el' (crlf s)

def BodyUp (U : CharClass) (b : Body) (s : Str) : Prop :=
  '\r' ∉ s → ∃ b', MoreCrBody b b' ∧ LaidBody U b' (crlf s)

theorem attribute_case (h : Option Str) (k : CowStr) (e : Expr) (s : Str) (ha : LaidAttribute U h k e s) :
    ElementUp U h (.attribute k e) s := by
  intro hr h0
  obtain ⟨e', h1, h2⟩ := laidAttribute_up ha hr h0
  exact ⟨_, .attribute _ _ _ h1, .attribute _ _ _ _ h2⟩

theorem emptyBlock_case (i : CowStr) (ls : List BlockLabel) (s l m : Str) (h1 : LaidHeader U i ls s) (h2 : AnyInline l) (h3 : AnyInline m) :
    ElementUp U none (.block i ls []) (s ++ l ++ '}' :: m) := by
  intro hr _
  simp only [crlf_append]
  rw [crlf_cons (c := '}') (by decide)]
  exact ⟨_, .block _ _ _ _ .nil, .emptyBlock _ _ _ _ _ (laidHeader_up h1 fun h => hr (by simp [h])) (inline_up h2) (inline_up h3)⟩

theorem oneLineBlock_case (i : CowStr) (ls : List BlockLabel) (s l a m : Str) (k : CowStr) (e : Expr) (h1 : LaidHeader U i ls s)
    (h2 : AnyInline l) (h3 : LaidAttribute U none k e a) (h4 : AnyInline m) :
    ElementUp U none (.block i ls [.attribute k e]) (s ++ l ++ a ++ '}' :: m) := by
  intro hr _
  obtain ⟨e', h5, h6⟩ := laidAttribute_up h3 (fun h => hr (by simp [h])) (fun _ h => by cases h)
  simp only [crlf_append]
  rw [crlf_cons (c := '}') (by decide)]
  exact ⟨_, .block _ _ _ _ (.cons _ _ _ _ (.attribute _ _ _ h5) .nil),
    .oneLineBlock _ _ _ _ _ _ _ _ (laidHeader_up h1 fun h => hr (by simp [h])) (inline_up h2) h6 (inline_up h4)⟩

theorem block_case (i : CowStr) (ls : List BlockLabel) (s l n t m : Str) (b : Body) (h1 : LaidHeader U i ls s) (h2 : AnyInline l)
    (h3 : LineEnds n) (_ : LaidBody U b t) (h4 : AnyInline m) (ih : BodyUp U b t) :
    ElementUp U none (.block i ls b) (s ++ l ++ n ++ t ++ '}' :: m) := by
  intro hr _
  obtain ⟨b', h5, h6⟩ := ih (fun h => hr (by simp [h]))
  simp only [crlf_append]
  rw [crlf_cons (c := '}') (by decide)]
  exact ⟨_, .block _ _ _ _ h5, .block _ _ _ _ _ _ _ _ (laidHeader_up h1 fun h => hr (by simp [h])) (inline_up h2)
    (lineEnds_up h3 fun h => hr (by simp [h])) h6 (inline_up h4)⟩

theorem done_case (l : Str) (hl : AnyLayout l) : BodyUp U [] l := fun hr => ⟨[], .nil, .done _ (layout_up hl hr)⟩

theorem elem_case (l s n t : Str) (h : Option Str) (el : BodyElement) (b : Body) (hl : AnyLayout l) (_ : LaidElement U h el s)
    (hn : LineEnds n) (hx : Next h n) (_ : LaidBody U b t) (ih1 : ElementUp U h el s) (ih2 : BodyUp U b t) :
    BodyUp U (el :: b) (l ++ s ++ n ++ t) := by
  intro hr
  have hn' : '\r' ∉ n := fun h => hr (by simp [h])
  obtain ⟨el', h1, h2⟩ := ih1 (fun h => hr (by simp [h])) (next_no_cr hx hn')
  obtain ⟨b', h3, h4⟩ := ih2 (fun h => hr (by simp [h]))
  simp only [crlf_append]
  exact ⟨_, .cons _ _ _ _ h1 h3, .elem _ _ _ _ _ _ _ (layout_up hl fun h => hr (by simp [h])) h2 (lineEnds_up hn hn') (next_up hx) h4⟩

theorem laidElement_up {h : Option Str} {el : BodyElement} {s : Str} (hx : LaidElement U h el s) : ElementUp U h el s :=
  LaidElement.rec (motive_1 := fun h el s _ => ElementUp U h el s) (motive_2 := fun b s _ => BodyUp U b s)
    attribute_case emptyBlock_case oneLineBlock_case block_case done_case elem_case hx

theorem laidBody_up {b : Body} {s : Str} (hx : LaidBody U b s) : BodyUp U b s :=
  LaidBody.rec (motive_1 := fun h el s _ => ElementUp U h el s) (motive_2 := fun b s _ => BodyUp U b s)
    attribute_case emptyBlock_case oneLineBlock_case block_case done_case elem_case hx

theorem moreCrBody_append {a a' b b' : Body} (h : MoreCrBody a a') (h' : MoreCrBody b b') : MoreCrBody (a ++ b) (a' ++ b') := by
  induction a generalizing a' with
  | nil => cases h; exact h'
  | cons x a ih =>
    cases h with
    | cons _ el' _ b' h1 h2 => exact .cons _ _ _ _ h1 (ih h2)

theorem laidDocument_up {b : Body} {s : Str} (h : LaidDocument U b s) (hr : '\r' ∉ s) :
    ∃ b', MoreCrBody b b' ∧ LaidDocument U b' (crlf s) := by
  cases h with
  | lines _ _ h =>
    obtain ⟨b', h1, h2⟩ := laidBody_up h hr
    exact ⟨b', h1, .lines _ _ h2⟩
  | last b s el t h he =>
    obtain ⟨b', h1, h2⟩ := laidBody_up h (fun h => hr (by simp [h]))
    obtain ⟨el', h3, h4⟩ := laidElement_up he (fun h => hr (by simp [h])) (fun _ h => by cases h)
    refine ⟨b' ++ [el'], moreCrBody_append h1 (.cons _ _ _ _ h3 .nil), ?_⟩
    rw [crlf_append]
    exact .last _ _ _ _ h2 h4

end
end Verif
