import Verif.Proofs.LineEnds
/-! # LF instead of CR LF -/
set_option autoImplicit false

namespace Verif
open Spec

section
variable {U : CharClass}

/-- the text without CRs -/
def delCr (s : Str) : Str := s.filter (· ≠ '\r')

@[simp] theorem delCr_nil : delCr [] = [] := rfl
@[simp] theorem delCr_cr (s : Str) : delCr ('\r' :: s) = delCr s := rfl
theorem delCr_cons {c : Char} (h : c ≠ '\r') (s : Str) : delCr (c :: s) = c :: delCr s := by
  simp [delCr, List.filter_cons, h]
@[simp] theorem delCr_append (s t : Str) : delCr (s ++ t) = delCr s ++ delCr t := List.filter_append _ _

theorem delCr_id {s : Str} (h : '\r' ∉ s) : delCr s = s := by
  refine List.filter_eq_self.2 ?_
  intro c hc
  simp
  rintro rfl
  exact h hc

theorem cr_delCr (s : Str) : '\r' ∉ delCr s := by simp [delCr]

theorem delCr_crlf {s : Str} (h : '\r' ∉ s) : delCr (crlf s) = s := by
  induction s with
  | nil => rfl
  | cons c s ih =>
    have ih := ih fun h' => h (by simp [h'])
    by_cases hc : c = '\n'
    · subst hc; rw [crlf_lf, delCr_cr, delCr_cons (by decide), ih]
    · rw [crlf_cons hc, delCr_cons (by rintro rfl; simp at h), ih]

/-- CR only before LF; no indented heredocs. -/
structure Fit (z : Str) : Prop where
  cr : ∀ x c y, z = x ++ '\r' :: c :: y → c = '\n'
  flush : ¬ ['<', '<', '-'] <:+: z

theorem Fit.part {a b c : Str} (h : Fit (a ++ b ++ c)) : Fit b := by
  refine ⟨?_, fun hf => h.flush ?_⟩
  · rintro x d y rfl
    exact h.cr (a ++ x) d (y ++ c) (by simp)
  · exact hf.trans ⟨a, c, rfl⟩

theorem Fit.left {a b : Str} (h : Fit (a ++ b)) : Fit a := Fit.part (a := []) (b := a) (c := b) h
theorem Fit.right {a b : Str} (h : Fit (a ++ b)) : Fit b := Fit.part (a := a) (b := b) (c := []) (by simpa using h)
theorem Fit.tail {c : Char} {a : Str} (h : Fit (c :: a)) : Fit a := Fit.right (a := [c]) h
theorem Fit.infix {a b : Str} (h : Fit b) (hi : a <:+: b) : Fit a := by
  obtain ⟨x, y, rfl⟩ := hi; exact h.part

theorem fit_crlf {s : Str} (hr : '\r' ∉ s) (h : ¬ ['<', '<', '-'] <:+: s) : Fit (crlf s) := by
  constructor
  · intro x c y e
    obtain ⟨a, t, rfl, rfl, h2⟩ := crlf_at_cr e
    obtain ⟨-, ⟨-, s', rfl, h3⟩ | ⟨s', rfl, -⟩⟩ := crlf_head h2
    · injection h3
    · simp at hr
  · rintro ⟨x, y, e⟩
    refine h ?_
    have e2 := congrArg delCr e
    rw [delCr_crlf hr] at e2
    exact ⟨delCr x, delCr y, by rw [← e2]; simp [delCr_cons]⟩

theorem fit_head {x t : Str} {d : Char} (hx : Fit x) (hd : d ≠ '\n') (h : delCr x = d :: t) : ∃ x', x = d :: x' ∧ t = delCr x' := by
  cases x with
  | nil => cases h
  | cons c x =>
    by_cases hc : c = '\r'
    · subst hc
      cases x with
      | nil => cases h
      | cons c x =>
        have := hx.cr [] c x rfl
        subst this
        rw [delCr_cr, delCr_cons (by decide)] at h
        injection h with h _
        exact absurd h.symm hd
    · rw [delCr_cons hc] at h
      injection h with h1 h2
      subst h1
      exact ⟨x, rfl, h2.symm⟩

theorem fit_lf {x t : Str} (hx : Fit x) (h : delCr x = '\n' :: t) : ∃ e x', Eol e ∧ x = e ++ x' ∧ t = delCr x' := by
  cases x with
  | nil => cases h
  | cons c x =>
    by_cases hc : c = '\r'
    · subst hc
      cases x with
      | nil => cases h
      | cons c x =>
        have := hx.cr [] c x rfl
        subst this
        rw [delCr_cr, delCr_cons (by decide)] at h
        injection h with _ h
        exact ⟨_, x, .crlf, rfl, h.symm⟩
    · rw [delCr_cons hc] at h
      injection h with h1 h2
      subst h1
      exact ⟨_, x, .lf, rfl, h2.symm⟩

theorem delCr_infix {x : Str} (hx : Fit x) (h : ['*', '/'] <:+: delCr x) : ['*', '/'] <:+: x := by
  induction x with
  | nil => exact h
  | cons c x ih =>
    by_cases hc : c = '\r'
    · subst hc
      exact List.infix_cons_iff.2 (.inr (ih hx.tail h))
    · rw [delCr_cons hc, List.infix_cons_iff] at h
      rcases h with ⟨t, h⟩ | h
      · injection h with h1 h2
        subst h1
        obtain ⟨s', rfl, rfl⟩ := fit_head hx.tail (d := '/') (t := t) (by decide) (by rw [← h2]; rfl)
        exact List.infix_cons_iff.2 (.inl ⟨s', rfl⟩)
      · exact List.infix_cons_iff.2 (.inr (ih hx.tail h))

theorem eol_down {e : Str} (h : Eol e) : Eol (delCr e) := by
  cases h <;> exact .lf

theorem lineComment_down {s : Str} (h : LineComment s) : LineComment (delCr s) := by
  cases h with
  | hash b e hb he =>
    have hb' : delCr b = b := delCr_id fun h => (hb _ h).1 rfl
    rw [delCr_append, delCr_cons (by decide), hb']
    exact .hash _ _ hb (eol_down he)
  | slash b e hb he =>
    have hb' : delCr b = b := delCr_id fun h => (hb _ h).1 rfl
    rw [delCr_append, delCr_cons (by decide), delCr_cons (by decide), hb']
    exact .slash _ _ hb (eol_down he)

theorem inlineComment_down {s : Str} (h : InlineComment s) (hf : Fit s) : InlineComment (delCr s) := by
  cases h with
  | mk b hb =>
    have e : delCr ('/' :: '*' :: b ++ ['*', '/']) = '/' :: '*' :: delCr b ++ ['*', '/'] := by
      rw [delCr_append, delCr_cons (by decide), delCr_cons (by decide), delCr_id (s := ['*', '/']) (by decide)]
    rw [e]
    refine .mk _ ?_
    intro h
    refine hb (delCr_infix (hf.infix ⟨['/', '*'], ['/'], by simp⟩) ?_)
    rw [delCr_append, delCr_id (s := ['*']) (by decide)]
    exact h

theorem layout_down {l : Str} (h : Seq LayoutItem l) (hf : Fit l) : Seq LayoutItem (delCr l) := by
  induction h with
  | nil => exact .nil
  | cons i s hi _ ih =>
    rw [delCr_append]
    refine Seq.append ?_ (ih hf.right)
    cases hi with
    | space c hc =>
      by_cases h : c = '\r'
      · subst h; exact .nil
      · rw [delCr_cons h]; exact .single (.space _ hc)
    | line _ hc => exact .single (.line _ (lineComment_down hc))
    | comment _ hc => exact .single (.comment _ (inlineComment_down hc hf.left))

theorem inline_down {l : Str} (h : Seq InlineItem l) (hf : Fit l) : Seq InlineItem (delCr l) := by
  induction h with
  | nil => exact .nil
  | cons i s hi _ ih =>
    rw [delCr_append]
    refine Seq.append ?_ (ih hf.right)
    cases hi with
    | blank c hc => rw [delCr_cons (by rcases hc with rfl | rfl <;> decide)]; exact .single (.blank _ hc)
    | comment _ hc => exact .single (.comment _ (inlineComment_down hc hf.left))

theorem newlineItem_down {i : Str} (h : NewlineItem i) (hf : Fit i) : NewlineItem (delCr i) := by
  cases h with
  | eol _ h => exact .eol _ (eol_down h)
  | line _ h => exact .line _ (lineComment_down h)
  | comment s e h he => rw [delCr_append]; exact .comment _ _ (inlineComment_down h hf.left) (eol_down he)

theorem seq_newline_down {l : Str} (h : Seq NewlineItem l) (hf : Fit l) : Seq NewlineItem (delCr l) := by
  induction h with
  | nil => exact .nil
  | cons i s hi _ ih =>
    rw [delCr_append]
    exact .cons _ _ (newlineItem_down hi hf.left) (ih hf.right)

theorem lineEnds_down {n : Str} (h : LineEnds n) (hf : Fit n) : LineEnds (delCr n) := by
  cases h with
  | mk i l hi hl =>
    rw [delCr_append]
    exact .mk _ _ (newlineItem_down hi hf.left) (seq_newline_down hl hf.right)

/-! ## quoted strings -/

theorem head_down {P : Char → Prop} (hP : ¬ P '\n') {s : Str} (hf : Fit s) (h : ¬ Head P s) : ¬ Head P (delCr s) := by
  rintro ⟨c, t, e, hc⟩
  obtain ⟨s', rfl, -⟩ := fit_head hf (by rintro rfl; exact hP hc) e
  exact h ⟨c, s', rfl, hc⟩

theorem numeral_no_cr {b : Nat} {ds : Str} {n : Nat} (h : Numeral b ds n) : '\r' ∉ ds := by
  induction h with
  | nil => simp
  | snoc ds c n v _ hd ih =>
    intro h
    simp at h
    rcases h with h | h
    · exact ih h
    · exact (digit_ne hd).2 h.symm

theorem escape_down {e : Str} {c : Char} {r : Str} (h : Escape e c r) (hf : Fit r) : '\r' ∉ e ∧ Escape e c (delCr r) := by
  cases h with
  | simple k _ _ hk =>
    refine ⟨?_, .simple _ _ _ hk⟩
    intro h
    simp at h
    subst h
    revert hk
    simp [simpleEscapes]
  | octal ds _ _ h1 h2 h3 h4 =>
    refine ⟨numeral_no_cr h4, .octal _ _ _ h1 h2 (h3.imp id ?_) h4⟩
    exact head_down (by rintro ⟨v, hv⟩; exact (digit_ne hv).1 rfl) hf
  | hex k max ds _ _ h0 h1 h2 h3 h4 =>
    refine ⟨?_, .hex _ _ _ _ _ h0 h1 h2 (h3.imp id ?_) h4⟩
    · intro h
      simp at h
      rcases h with h | h
      · subst h
        revert h0
        simp [hexEscapes]
      · exact numeral_no_cr h4 h
    · exact head_down (by rintro ⟨v, hv⟩; exact (digit_ne hv).1 rfl) hf

theorem moreCr_lf {v0 v : Str} (h : MoreCr v0 ('\n' :: v)) : ∃ v1, v0 = '\n' :: v1 ∧ MoreCr v1 v := by
  cases h with
  | same _ v1 _ h => exact ⟨v1, rfl, h⟩

theorem content_lf {s v r : Str} (h : Content Plain ('\n' :: s) v r) : ∃ v', v = '\n' :: v' := by
  cases h with
  | plain _ _ v' => exact ⟨v', rfl⟩

theorem content_down {src v r : Str} (h : Content Plain src v r) (hr : ¬ Head (fun c => c = '\n') r) (hn : r ≠ []) (hf : Fit (src ++ r)) :
    ∃ v', MoreCr v' v ∧ Content Plain (delCr src) v' (delCr r) := by
  induction h with
  | nil r => exact ⟨[], .nil, .nil _⟩
  | plain c s v r hc hs ih =>
    obtain ⟨v', h1, h2⟩ := ih hr hn hf.tail
    by_cases h : c = '\r'
    · subst h
      cases s with
      | nil =>
        cases r with
        | nil => exact absurd rfl hn
        | cons d r => exact absurd ⟨d, r, rfl, hf.cr [] d r rfl⟩ hr
      | cons d s =>
        have := hf.cr [] d (s ++ r) rfl
        subst this
        obtain ⟨w, rfl⟩ := content_lf hs
        obtain ⟨v1, rfl, h3⟩ := moreCr_lf h1
        exact ⟨_, .cr _ _ h3, h2⟩
    · rw [delCr_cons h]; exact ⟨_, .same _ _ _ h1, .plain _ _ _ _ hc h2⟩
  | escape e c s v r he _ ih =>
    have hf' : Fit (s ++ r) := Fit.right (a := '\\' :: e) (by simpa using hf)
    obtain ⟨v', h1, h2⟩ := ih hr hn hf'
    obtain ⟨h3, h4⟩ := escape_down he hf'
    rw [delCr_append] at h4
    refine ⟨_, .same _ _ _ h1, ?_⟩
    rw [delCr_append, delCr_cons (by decide), delCr_id h3]
    exact .escape _ _ _ _ _ h4 h2

theorem escape_no_cr {e : Str} {c : Char} {r : Str} (h : Escape e c r) : '\r' ∉ e := by
  cases h with
  | simple k _ _ hk =>
    intro h
    simp at h
    subst h
    revert hk
    simp [simpleEscapes]
  | octal ds _ _ h1 h2 h3 h4 => exact numeral_no_cr h4
  | hex k max ds _ _ h0 h1 h2 h3 h4 =>
    intro h
    simp at h
    rcases h with h | h
    · subst h
      revert h0
      simp [hexEscapes]
    · exact numeral_no_cr h4 h

theorem contentLine_no_cr {src v r : Str} (h : Content PlainLine src v r) : '\r' ∉ src := by
  induction h with
  | nil r => simp
  | plain c s v r hc _ ih =>
    intro h
    rcases List.mem_cons.1 h with h | h
    · exact hc.2.2.1 h.symm
    · exact ih h
  | escape e c s v r he _ ih =>
    have := escape_no_cr he
    simp [this, ih]

/-! ## heredocs -/

theorem startsEol_delCr {s : Str} (h : StartsEol s) : StartsEol (delCr s) := by
  obtain ⟨e, t, he, rfl⟩ := h
  exact ⟨delCr e, delCr t, eol_down he, delCr_append _ _⟩

theorem startsEol_of_delCr {s : Str} (hf : Fit s) (h : StartsEol (delCr s)) : StartsEol s := by
  obtain ⟨e, t, he, h⟩ := h
  have : e = ['\n'] := eol_lf he fun hc => cr_delCr s (by rw [h]; simp [hc])
  subst this
  obtain ⟨e, x', he, rfl, -⟩ := fit_lf hf h
  exact ⟨e, x', he, rfl⟩

theorem fit_cut {p x r : Str} (hx : Fit x) (hp : ∀ c ∈ p, c ≠ '\n' ∧ c ≠ '\r') (h : delCr x = p ++ r) :
    ∃ r', x = p ++ r' ∧ r = delCr r' := by
  induction p generalizing x with
  | nil => exact ⟨x, rfl, h.symm⟩
  | cons c p ih =>
    obtain ⟨s', rfl, h2⟩ := fit_head hx (hp c (by simp)).1 h
    obtain ⟨r', rfl, rfl⟩ := ih hx.tail (fun d hd => hp d (by simp [hd])) h2.symm
    exact ⟨r', rfl, rfl⟩

theorem terminator_of_delCr {m x b r : Str} (hx : Fit x) (hm : ∀ c ∈ m, c ≠ '\n' ∧ c ≠ '\r') (h : Terminator m (delCr x) b r) :
    ∃ r', r = delCr r' ∧ Terminator m x b r' := by
  obtain ⟨e, he, h1, hb, hs⟩ := h
  have : e = ['\n'] := eol_lf he fun hc => cr_delCr x (by rw [h1]; simp [hc])
  subst this
  rw [List.append_assoc, List.append_assoc] at h1
  obtain ⟨e', x', he', rfl, h2⟩ := fit_lf hx h1
  change b ++ (m ++ r) = delCr x' at h2
  rw [← List.append_assoc] at h2
  obtain ⟨r', rfl, rfl⟩ := fit_cut hx.right (p := b ++ m) (by
    intro c hc
    rcases List.mem_append.1 hc with hc | hc
    · exact blank_ne hb c hc
    · exact hm c hc) h2.symm
  exact ⟨r', rfl, e', he', by simp, hb, startsEol_of_delCr hx.right.right hs⟩

theorem no_cr_of {p : Str} (hp : ∀ c ∈ p, c ≠ '\n' ∧ c ≠ '\r') : '\r' ∉ p := fun h => (hp _ h).2 rfl

theorem terminator_delCr {m x b r : Str} (hm : ∀ c ∈ m, c ≠ '\n' ∧ c ≠ '\r') (h : Terminator m x b r) :
    Terminator m (delCr x) b (delCr r) := by
  obtain ⟨e, he, rfl, hb, hs⟩ := h
  refine ⟨delCr e, eol_down he, ?_, hb, startsEol_delCr hs⟩
  simp only [delCr_append, delCr_id (no_cr_of (blank_ne hb)), delCr_id (no_cr_of hm)]

theorem delCr_length_mono {a b x y : Str} (h : a ++ x = b ++ y) (hl : a.length ≤ b.length) : (delCr a).length ≤ (delCr b).length := by
  obtain ⟨z, rfl⟩ := List.prefix_of_prefix_length_le ⟨x, h⟩ ⟨y, rfl⟩ hl
  simp

theorem firstTerminator_down {m s c b r : Str} (hx : Fit s) (hm : ∀ c ∈ m, c ≠ '\n' ∧ c ≠ '\r') (h : FirstTerminator m s c b r) :
    FirstTerminator m (delCr s) (delCr c) b (delCr r) := by
  obtain ⟨⟨t, rfl, ht⟩, hf⟩ := h
  refine ⟨⟨delCr t, delCr_append _ _, terminator_delCr hm ht⟩, ?_⟩
  intro c' t' b' r' h hT
  obtain ⟨a, w, h1, rfl, rfl⟩ := List.filter_eq_append_iff.1 h
  have hw : Fit w := by rw [h1] at hx; exact hx.right
  obtain ⟨r2, -, h4⟩ := terminator_of_delCr hw hm hT
  exact delCr_length_mono h1 (hf _ _ _ _ h1 h4)

theorem moreCr_delCr {c : Str} (hf : Fit c) (he : ∀ x, c ≠ x ++ ['\r']) : MoreCr (delCr c) c := by
  induction c with
  | nil => exact .nil
  | cons d c ih =>
    have ih := ih hf.tail fun x hx => he (d :: x) (by rw [hx]; rfl)
    by_cases hd : d = '\r'
    · subst hd
      cases c with
      | nil => exact absurd rfl (he [])
      | cons y c =>
        have := hf.cr [] y c rfl
        subst this
        rw [delCr_cons (by decide)] at ih
        obtain ⟨v1, h1, h2⟩ := moreCr_lf ih
        cases h1
        rw [delCr_cr, delCr_cons (by decide)]
        exact .cr _ _ h2
    · rw [delCr_cons hd]; exact .same _ _ _ ih

theorem heredoc_down {s r : Str} {v : CowStr} (h : Heredoc U s v r) (hf : Fit s) :
    ∃ v', MoreCrStr v' v ∧ Heredoc U (delCr s) v' (delCr r) := by
  have hind : ∀ (ind : Bool) (z : Str), s = '<' :: '<' :: (if ind then ['-'] else []) ++ z → ind = false := by
    intro ind z hz
    cases ind with
    | false => rfl
    | true => exact absurd ⟨[], z, hz.symm⟩ hf.flush
  cases h with
  | empty ind m s b _ h1 h2 h3 =>
    refine ⟨_, .borrowed _ _ .nil, ?_⟩
    have := hind ind (m ++ s) (by simp)
    subst this
    have := Heredoc.empty (U := U) false m _ b _ h1 h2 (terminator_delCr (marker_ne h2) h3)
    have e : delCr ('<' :: '<' :: (if false = true then ['-'] else []) ++ m ++ s) = '<' :: '<' :: (if false = true then ['-'] else []) ++ m ++ delCr s := by
      simp only [delCr_append]
      rw [delCr_id (no_cr_of (marker_ne h2)), delCr_id (s := '<' :: '<' :: _) (by decide)]
    rw [e]; exact this
  | content ind m e s c b _ v h1 h2 h3 h4 h5 h6 =>
    have := hind ind (m ++ e ++ s) (by simp)
    subst this
    have hs : Fit s := hf.right
    have hes : Fit (e ++ s) := by rw [List.append_assoc] at hf; exact hf.right
    have hv : v = .borrowed c := by
      generalize hz : (if false = true then b.length else 0) = z at h6
      cases h6 with
      | verbatim => rfl
      | indented =>
        rename_i hn _
        rw [← hz] at hn
        exact absurd hn (by simp)
    subst hv
    have hc : MoreCr (delCr c) c := by
      obtain ⟨⟨t, rfl, ht⟩, hmin⟩ := h5
      refine moreCr_delCr hs.left ?_
      rintro x rfl
      obtain ⟨e', he', rfl, hb, hs'⟩ := ht
      cases he' with
      | lf =>
        have := hmin x (['\r', '\n'] ++ b ++ m ++ r) b r (by simp) ⟨_, .crlf, rfl, hb, hs'⟩
        simp at this
        omega
      | crlf =>
        have := hs.cr x '\r' ('\n' :: (b ++ m ++ r)) (by simp)
        cases this
    refine ⟨_, .borrowed _ _ hc, ?_⟩
    have := Heredoc.content (U := U) false m _ _ _ b _ (.borrowed (delCr c)) h1 h2 (eol_down h3) (by
      rintro ⟨b', r', h⟩
      rw [← delCr_append] at h
      obtain ⟨r2, -, h⟩ := terminator_of_delCr hes (marker_ne h2) h
      exact h4 ⟨_, _, h⟩) (firstTerminator_down hs (marker_ne h2) h5) (.verbatim _)
    have e : delCr ('<' :: '<' :: (if false = true then ['-'] else []) ++ m ++ e ++ s) =
        '<' :: '<' :: (if false = true then ['-'] else []) ++ m ++ delCr e ++ delCr s := by
      simp only [delCr_append]
      rw [delCr_id (no_cr_of (marker_ne h2)), delCr_id (s := '<' :: '<' :: _) (by decide)]
    rw [e]; exact this

/-! ## expressions -/

theorem next_down {h : Option Str} {s : Str} (hn : Next h s) : Next (h.map delCr) (delCr s) := by
  intro e he
  cases h with
  | none => cases he
  | some x =>
    cases he
    obtain ⟨t, rfl⟩ := hn x rfl
    exact ⟨delCr t, (delCr_append _ _).symm⟩

/-- a text and what must come next -/
theorem next_fit {h : Option Str} {t s : Str} (hn : Next h s) (hf : Fit (t ++ s)) : Fit (t ++ h.getD []) := by
  cases h with
  | none => simpa using hf.left
  | some x =>
    obtain ⟨u, rfl⟩ := hn x rfl
    rw [← List.append_assoc] at hf
    exact hf.left

theorem tupleEnd_down {s : Str} (h : LaidTupleEnd s) (hf : Fit s) : LaidTupleEnd (delCr s) := by
  cases h with
  | close l hl =>
    rw [delCr_append]
    exact .close _ (layout_down hl hf.left)
  | comma l m hl hm =>
    rw [delCr_append, delCr_append, delCr_cons (by decide)]
    exact .comma _ _ (layout_down hl hf.left.left) (layout_down hm hf.left.right.tail)

theorem ident_no_cr {i : Str} (h : IsIdent U i) : '\r' ∉ i := by
  cases h with
  | mk c cs hc hcs =>
    intro h
    rcases List.mem_cons.1 h with h | h
    · subst h; exact not_identStart (by decide) (by decide) hc
    · exact not_identChar (by decide) (by decide) (hcs _ h)

theorem laidExpr_down {h : Option Str} {e : Expr} {t : Str} (hx : LaidExpr U h e t) : Fit (t ++ h.getD []) →
    ∃ e', MoreCrExpr e' e ∧ LaidExpr U (h.map delCr) e' (delCr t) := by
  refine LaidExpr.rec
    (motive_1 := fun h e t _ => Fit (t ++ h.getD []) → ∃ e', MoreCrExpr e' e ∧ LaidExpr U (h.map delCr) e' (delCr t))
    (motive_2 := fun es s _ => Fit s → ∃ es', MoreCrTuple es' es ∧ LaidTuple U es' (delCr s))
    (motive_3 := fun es s _ => Fit s → ∃ es', MoreCrTuple es' es ∧ LaidTail U es' (delCr s))
    (motive_4 := fun k s _ => Fit s → (∀ x, s ≠ x ++ ['\r']) → ∃ k', MoreCrKey k' k ∧ LaidKey U k' (delCr s))
    (motive_5 := fun h k e s _ => Fit (s ++ h.getD []) →
      ∃ k' e', MoreCrKey k' k ∧ MoreCrExpr e' e ∧ LaidPair U (h.map delCr) k' e' (delCr s))
    (motive_6 := fun es s _ => Fit s → ∃ es', MoreCrObject es' es ∧ LaidObject U es' (delCr s))
    ?_ ?_ ?_ ?_ ?_ ?_ ?_ ?_ ?_ ?_ ?_ ?_ ?_ ?_ ?_ ?_ ?_ ?_ ?_ ?_ hx
  · exact fun _ => ⟨_, .null, .null⟩
  · exact fun _ => ⟨_, .boolean _, .true⟩
  · exact fun _ => ⟨_, .boolean _, .false⟩
  · intro t n hn _
    rw [delCr_id (isNumber_no_nl (by decide) hn)]
    exact ⟨_, .number n, .number _ _ hn⟩
  · intro src v hc hf
    obtain ⟨v', h1, h2⟩ := content_down hc (by rintro ⟨c, y, e, rfl⟩; cases e) (by simp)
      (hf.infix ⟨['"'], [], by simp⟩)
    refine ⟨_, .string _ _ (.owned _ _ h1), ?_⟩
    rw [delCr_append, delCr_cons (by decide)]
    exact .quoted _ _ h2
  · intro t e v he hh hf
    obtain ⟨v', h1, h2⟩ := heredoc_down hh hf
    rw [delCr_append] at h2
    exact ⟨_, .string _ _ h1, .heredoc _ _ _ (eol_down he) h2⟩
  · intro es s _ ih hf
    obtain ⟨es', h1, h2⟩ := ih hf.left.tail
    rw [delCr_cons (by decide)]
    exact ⟨_, .tuple _ _ h1, .tuple _ _ h2⟩
  · intro l es s hl _ ih hf
    obtain ⟨es', h1, h2⟩ := ih hf.left.right.tail
    rw [delCr_append, delCr_cons (by decide)]
    exact ⟨_, .object _ _ h1, .object _ _ _ (layout_down hl hf.left.left) h2⟩
  · intro l m n t h e hl hm _ hn hx ih hf
    have hf := hf.left
    have hf1 : Fit (t ++ (n ++ [')'])) := hf.infix ⟨l ++ '(' :: m, [], by simp⟩
    obtain ⟨e', h1, h2⟩ := ih (next_fit hx hf1)
    refine ⟨e', h1, ?_⟩
    simp only [delCr_append]
    rw [delCr_cons (c := '(') (by decide)]
    refine .bracket _ _ _ _ _ _ (layout_down hl hf.left.left.left.left) (layout_down hm hf.left.left.left.right.tail) h2
      (layout_down hn hf.left.right) ?_
    have := next_down hx
    rwa [delCr_append] at this
  · exact fun s hs hf => ⟨[], .nil, .empty _ (tupleEnd_down hs hf)⟩
  · intro l t s h e es hl _ _ hx ih1 ih2 hf
    obtain ⟨e', h1, h2⟩ := ih1 (next_fit hx (by rw [List.append_assoc] at hf; exact hf.right))
    obtain ⟨es', h3, h4⟩ := ih2 hf.right
    simp only [delCr_append]
    exact ⟨_, .cons _ _ _ _ h1 h3, .elems _ _ _ _ _ _ (layout_down hl hf.left.left) h2 h4 (next_down hx)⟩
  · exact fun s hs hf => ⟨[], .nil, .last _ (tupleEnd_down hs hf)⟩
  · intro l m t s h e es hl hm _ _ hx ih1 ih2 hf
    obtain ⟨e', h1, h2⟩ := ih1 (next_fit hx (by rw [List.append_assoc] at hf; exact hf.right))
    obtain ⟨es', h3, h4⟩ := ih2 hf.right
    simp only [delCr_append]
    rw [delCr_cons (c := ',') (by decide)]
    exact ⟨_, .cons _ _ _ _ h1 h3, .more _ _ _ _ _ _ _ (layout_down hl hf.left.left.left)
      (layout_down hm hf.left.left.right.tail) h2 h4 (next_down hx)⟩
  · intro i hi _ _
    rw [delCr_id (ident_no_cr hi)]
    exact ⟨_, .ident _, .ident _ hi⟩
  · intro t e h1 h2 hx ih hf hn
    obtain ⟨e', h3, h4⟩ := ih (by simpa using hf)
    refine ⟨_, .expr _ _ (.borrowed _ _ (moreCr_delCr hf hn)), .expr _ e' (head_down (not_identStart (by decide) (by decide)) hf h1) ?_ h4⟩
    obtain ⟨c, u, rfl, hc⟩ := laidExpr_head hx h2
    rw [delCr_cons (by rintro rfl; exact hc (by decide))]
    exact not_starts_layout hc
  · intro l ks m n t h k e hl _ hm hn _ ih1 ih2 hf
    obtain ⟨k', h1, h2⟩ := ih1 hf.left.left.left.left.right (by
      rintro x rfl
      have hz : Fit (x ++ ['\r'] ++ m ++ ['=']) := hf.infix ⟨l, n ++ t ++ h.getD [], by simp⟩
      have hb : ∃ c y, m ++ ['='] = c :: y ∧ c ≠ '\n' := by
        cases hm with
        | nil => exact ⟨_, _, rfl, by decide⟩
        | cons i m hi _ =>
          cases hi with
          | blank c hc => exact ⟨_, _, rfl, by rcases hc with rfl | rfl <;> decide⟩
          | comment _ hc => cases hc; exact ⟨_, _, rfl, by decide⟩
      obtain ⟨c, y, e, hc⟩ := hb
      refine hc (hz.cr x c y ?_)
      rw [List.append_assoc, e]
      simp)
    have hf2 : Fit (t ++ h.getD []) := by
      rw [List.append_assoc] at hf
      exact hf.right
    obtain ⟨e', h3, h4⟩ := ih2 hf2
    refine ⟨k', e', h1, h3, ?_⟩
    simp only [delCr_append]
    rw [delCr_cons (c := '=') (by decide)]
    have hf := hf.left.left
    exact .mk _ _ _ _ _ _ _ _ (layout_down hl hf.left.left.left) h2 (inline_down hm hf.left.right) (inline_down hn hf.right.tail) h4
  · intro l hl hf
    rw [delCr_append]
    exact ⟨[], .nil, .close _ (layout_down hl hf.left)⟩
  · intro p l s k e es _ hl _ ih1 ih2 hf
    obtain ⟨k', e', h1, h2, h3⟩ := ih1 (by simpa using hf.left.left)
    obtain ⟨es', h4, h5⟩ := ih2 hf.right.tail
    simp only [delCr_append]
    rw [delCr_cons (c := ',') (by decide)]
    exact ⟨_, .cons _ _ _ _ _ _ h1 h2 h4, .comma _ _ _ _ _ _ h3 (inline_down hl hf.left.right) h5⟩
  · intro p l n s h k e es _ hl hn hx _ ih1 ih2 hf
    obtain ⟨k', e', h1, h2, h3⟩ := ih1 (next_fit hx (by have := hf.left; rwa [List.append_assoc] at this))
    obtain ⟨es', h4, h5⟩ := ih2 hf.right
    simp only [delCr_append]
    refine ⟨_, .cons _ _ _ _ _ _ h1 h2 h4, .newline _ _ _ _ _ _ _ _ h3 (inline_down hl hf.left.left.right) (lineEnds_down hn hf.left.right) ?_ h5⟩
    have := next_down hx
    rwa [delCr_append] at this
  · intro p l k e _ hl ih hf
    obtain ⟨k', e', h1, h2, h3⟩ := ih (by simpa using hf.left.left)
    simp only [delCr_append]
    exact ⟨_, .cons _ _ _ _ _ _ h1 h2 .nil, .last _ _ _ _ h3 (inline_down hl hf.left.right)⟩

theorem laidAttribute_down {h : Option Str} {k : CowStr} {e : Expr} {s : Str} (hx : LaidAttribute U h k e s) (hf : Fit (s ++ h.getD [])) :
    ∃ e', MoreCrExpr e' e ∧ LaidAttribute U (h.map delCr) k e' (delCr s) := by
  cases hx with
  | mk i l m t n _ _ h1 h2 h3 h4 h5 h6 =>
    have hft : Fit (t ++ h.getD []) := by
      cases h with
      | none => simpa using hf.left.left.right
      | some x =>
        have := h6 (by simp)
        subst this
        have : Fit (i ++ l ++ '=' :: m ++ (t ++ x)) := by simpa using hf
        exact this.right
    obtain ⟨e', h7, h8⟩ := laidExpr_down h4 hft
    refine ⟨e', h7, ?_⟩
    simp only [delCr_append]
    rw [delCr_cons (c := '=') (by decide), delCr_id (ident_no_cr h1)]
    have hf := hf.left
    refine .mk _ _ _ _ _ _ _ h1 (inline_down h2 hf.left.left.left.right) (inline_down h3 hf.left.left.right.tail) h8
      (inline_down h5 hf.right) ?_
    intro hh
    rw [h6 (by rintro rfl; exact hh rfl)]; rfl

theorem laidLabels_down {ls : List BlockLabel} {s : Str} (h : LaidLabels U ls s) (hf : Fit s) : LaidLabels U ls (delCr s) := by
  induction h with
  | «open» l hl => rw [delCr_append]; exact .open _ (inline_down hl hf.left)
  | ident l i s ls hl hi hs _ ih =>
    simp only [delCr_append]
    rw [delCr_id (ident_no_cr hi)]
    exact .ident _ _ _ _ (inline_down hl hf.left.left) hi (head_down (not_identChar (by decide) (by decide)) hf.right hs) (ih hf.right)
  | string l src v s ls hl hc _ ih =>
    have := contentLine_no_cr hc
    simp only [delCr_append]
    rw [delCr_cons (c := '"') (by decide), delCr_cons (c := '"') (by decide), delCr_id this]
    exact .string _ _ _ _ _ (inline_down hl hf.left.left) hc (ih hf.right.tail)

theorem laidHeader_down {i : CowStr} {ls : List BlockLabel} {s : Str} (h : LaidHeader U i ls s) (hf : Fit s) :
    LaidHeader U i ls (delCr s) := by
  cases h with
  | mk i s _ hi hs hl =>
    rw [delCr_append, delCr_id (ident_no_cr hi)]
    exact .mk _ _ _ hi (head_down (not_identChar (by decide) (by decide)) hf.right hs) (laidLabels_down hl hf.right)

def ElementDown (U : CharClass) (h : Option Str) (el : BodyElement) (s : Str) : Prop :=
  Fit (s ++ h.getD []) → ∃ el', MoreCrElement el' el ∧ LaidElement U (h.map delCr) el' (delCr s)

def BodyDown (U : CharClass) (b : Body) (s : Str) : Prop :=
  Fit s → ∃ b', MoreCrBody b' b ∧ LaidBody U b' (delCr s)

theorem attribute_down (h : Option Str) (k : CowStr) (e : Expr) (s : Str) (ha : LaidAttribute U h k e s) :
    ElementDown U h (.attribute k e) s := by
  intro hf
  obtain ⟨e', h1, h2⟩ := laidAttribute_down ha hf
  exact ⟨_, .attribute _ _ _ h1, .attribute _ _ _ _ h2⟩

theorem emptyBlock_down (i : CowStr) (ls : List BlockLabel) (s l m : Str) (h1 : LaidHeader U i ls s) (h2 : AnyInline l) (h3 : AnyInline m) :
    ElementDown U none (.block i ls []) (s ++ l ++ '}' :: m) := by
  intro hf
  have hf := hf.left
  simp only [delCr_append]
  rw [delCr_cons (c := '}') (by decide)]
  exact ⟨_, .block _ _ _ _ .nil, .emptyBlock _ _ _ _ _ (laidHeader_down h1 hf.left.left) (inline_down h2 hf.left.right)
    (inline_down h3 hf.right.tail)⟩

theorem oneLineBlock_down (i : CowStr) (ls : List BlockLabel) (s l a m : Str) (k : CowStr) (e : Expr) (h1 : LaidHeader U i ls s)
    (h2 : AnyInline l) (h3 : LaidAttribute U none k e a) (h4 : AnyInline m) :
    ElementDown U none (.block i ls [.attribute k e]) (s ++ l ++ a ++ '}' :: m) := by
  intro hf
  have hf := hf.left
  obtain ⟨e', h5, h6⟩ := laidAttribute_down h3 (by simpa using hf.left.right)
  simp only [delCr_append]
  rw [delCr_cons (c := '}') (by decide)]
  exact ⟨_, .block _ _ _ _ (.cons _ _ _ _ (.attribute _ _ _ h5) .nil),
    .oneLineBlock _ _ _ _ _ _ _ _ (laidHeader_down h1 hf.left.left.left) (inline_down h2 hf.left.left.right) h6 (inline_down h4 hf.right.tail)⟩

theorem block_down (i : CowStr) (ls : List BlockLabel) (s l n t m : Str) (b : Body) (h1 : LaidHeader U i ls s) (h2 : AnyInline l)
    (h3 : LineEnds n) (_ : LaidBody U b t) (h4 : AnyInline m) (ih : BodyDown U b t) :
    ElementDown U none (.block i ls b) (s ++ l ++ n ++ t ++ '}' :: m) := by
  intro hf
  have hf := hf.left
  obtain ⟨b', h5, h6⟩ := ih hf.left.right
  simp only [delCr_append]
  rw [delCr_cons (c := '}') (by decide)]
  exact ⟨_, .block _ _ _ _ h5, .block _ _ _ _ _ _ _ _ (laidHeader_down h1 hf.left.left.left.left) (inline_down h2 hf.left.left.left.right)
    (lineEnds_down h3 hf.left.left.right) h6 (inline_down h4 hf.right.tail)⟩

theorem done_down (l : Str) (hl : AnyLayout l) : BodyDown U [] l := fun hf => ⟨[], .nil, .done _ (layout_down hl hf)⟩

theorem elem_down (l s n t : Str) (h : Option Str) (el : BodyElement) (b : Body) (hl : AnyLayout l) (_ : LaidElement U h el s)
    (hn : LineEnds n) (hx : Next h n) (_ : LaidBody U b t) (ih1 : ElementDown U h el s) (ih2 : BodyDown U b t) :
    BodyDown U (el :: b) (l ++ s ++ n ++ t) := by
  intro hf
  obtain ⟨el', h1, h2⟩ := ih1 (next_fit hx (by have := hf.left; rw [List.append_assoc] at this; exact this.right))
  obtain ⟨b', h3, h4⟩ := ih2 hf.right
  simp only [delCr_append]
  exact ⟨_, .cons _ _ _ _ h1 h3, .elem _ _ _ _ _ _ _ (layout_down hl hf.left.left.left) h2 (lineEnds_down hn hf.left.right) (next_down hx) h4⟩

theorem laidElement_down {h : Option Str} {el : BodyElement} {s : Str} (hx : LaidElement U h el s) : ElementDown U h el s :=
  LaidElement.rec (motive_1 := fun h el s _ => ElementDown U h el s) (motive_2 := fun b s _ => BodyDown U b s)
    attribute_down emptyBlock_down oneLineBlock_down block_down done_down elem_down hx

theorem laidBody_down {b : Body} {s : Str} (hx : LaidBody U b s) : BodyDown U b s :=
  LaidBody.rec (motive_1 := fun h el s _ => ElementDown U h el s) (motive_2 := fun b s _ => BodyDown U b s)
    attribute_down emptyBlock_down oneLineBlock_down block_down done_down elem_down hx

theorem laidDocument_down {b : Body} {s : Str} (h : LaidDocument U b s) (hf : Fit s) :
    ∃ b', MoreCrBody b' b ∧ LaidDocument U b' (delCr s) := by
  cases h with
  | lines _ _ h =>
    obtain ⟨b', h1, h2⟩ := laidBody_down h hf
    exact ⟨b', h1, .lines _ _ h2⟩
  | last b s el t h he =>
    obtain ⟨b', h1, h2⟩ := laidBody_down h hf.left
    obtain ⟨el', h3, h4⟩ := laidElement_down he (by simpa using hf.right)
    refine ⟨b' ++ [el'], moreCrBody_append h1 (.cons _ _ _ _ h3 .nil), ?_⟩
    rw [delCr_append]
    exact .last _ _ _ _ h2 h4

theorem delCr_moreCr {s z : Str} (h : MoreCr s z) (hr : '\r' ∉ s) : delCr z = s := by
  induction h with
  | nil => rfl
  | same c v v' _ ih =>
    rw [delCr_cons (by rintro rfl; simp at hr), ih fun h => hr (by simp [h])]
  | cr v v' _ ih => rw [delCr_cr, delCr_cons (by decide), ih fun h => hr (by simp [h])]

theorem fit_moreCr {s z : Str} (h : MoreCr s z) (hr : '\r' ∉ s) (hf : ¬ ['<', '<', '-'] <:+: s) : Fit z := by
  constructor
  · clear hf
    induction h with
    | nil => intro x c y e; cases x <;> cases e
    | same c v v' _ ih =>
      intro x d y e
      cases x with
      | nil => injection e with e _; subst e; simp at hr
      | cons a x => injection e with _ e; exact ih (fun h => hr (by simp [h])) x d y e
    | cr v v' _ ih =>
      intro x d y e
      cases x with
      | nil => injection e with _ e; injection e with e _; exact e.symm
      | cons a x =>
        injection e with _ e
        cases x with
        | nil => injection e with e _; cases e
        | cons a x => injection e with _ e; exact ih (fun h => hr (by simp [h])) x d y e
  · rintro ⟨x, y, e⟩
    refine hf ?_
    have e2 := congrArg delCr e
    rw [delCr_moreCr h hr] at e2
    exact ⟨delCr x, delCr y, by rw [← e2]; simp [delCr_cons]⟩

/-! ## trees without LF -/

theorem moreCr_eq {v v' : Str} (h : MoreCr v v') (hn : '\n' ∉ v) : v' = v := by
  induction h with
  | nil => rfl
  | same c v v' _ ih => rw [ih fun h => hn (by simp [h])]
  | cr => simp at hn

theorem moreCrStr_eq {v v' : CowStr} (h : MoreCrStr v v') (hn : '\n' ∉ v.str) : v' = v := by
  cases h with
  | borrowed v v' h => rw [moreCr_eq h hn]
  | owned v v' h => rw [moreCr_eq h hn]

mutual
theorem moreCrExpr_eq {e e' : Expr} (h : MoreCrExpr e e') (hn : ∀ l ∈ exprLeaves e, NoLf l) : e' = e := by
  cases h with
  | null => rfl
  | boolean => rfl
  | number => rfl
  | string v v' h => rw [moreCrStr_eq h (hn (.string v) (by simp [exprLeaves]))]
  | tuple es es' h => rw [moreCrTuple_eq h hn]
  | object es es' h => rw [moreCrObject_eq h hn]
termination_by structural e
theorem moreCrTuple_eq {es es' : List Expr} (h : MoreCrTuple es es') (hn : ∀ l ∈ tupleLeaves es, NoLf l) : es' = es := by
  match es, h with
  | _, .nil => rfl
  | e :: es, .cons _ e' _ es' h1 h2 =>
    rw [moreCrExpr_eq h1 fun l hl => hn l (by simp [tupleLeaves, hl]), moreCrTuple_eq h2 fun l hl => hn l (by simp [tupleLeaves, hl])]
termination_by structural es
theorem moreCrObject_eq {es es' : List (ObjKey × Expr)} (h : MoreCrObject es es') (hn : ∀ l ∈ objectLeaves es, NoLf l) : es' = es := by
  match es, h with
  | _, .nil => rfl
  | (k, e) :: es, .cons _ k' _ e' _ es' h0 h1 h2 =>
    have hk : k' = k := by
      cases h0 with
      | ident => rfl
      | expr v v' h => rw [moreCrStr_eq h (hn (.key (.expr v)) (by simp [objectLeaves]))]
    rw [hk, moreCrExpr_eq h1 fun l hl => hn l (by simp [objectLeaves, hl]), moreCrObject_eq h2 fun l hl => hn l (by simp [objectLeaves, hl])]
termination_by structural es
end

mutual
theorem moreCrElement_eq {e e' : BodyElement} (h : MoreCrElement e e') (hn : ∀ l ∈ elementLeaves e, NoLf l) : e' = e := by
  cases h with
  | «attribute» k e e' h => rw [moreCrExpr_eq h fun l hl => hn l (by simp [elementLeaves, hl])]
  | block t ls b b' h => rw [moreCrBody_eq h fun l hl => hn l (by simp [elementLeaves, hl])]
termination_by structural e
theorem moreCrBody_eq {es es' : List BodyElement} (h : MoreCrBody es es') (hn : ∀ l ∈ bodyLeaves es, NoLf l) : es' = es := by
  match es, h with
  | _, .nil => rfl
  | e :: es, .cons _ e' _ es' h1 h2 =>
    rw [moreCrElement_eq h1 fun l hl => hn l (by simp [bodyLeaves, hl]), moreCrBody_eq h2 fun l hl => hn l (by simp [bodyLeaves, hl])]
termination_by structural es
end

end
end Verif
