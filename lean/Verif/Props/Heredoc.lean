import Verif.Proofs.Terminator
import Verif.Props.Strings
/-! # Heredocs and the search combinator: C08, C09, C55 -/
set_option autoImplicit false

namespace Verif.Props
open Verif Spec PRes

variable (U : CharClass)

theorem marker_no_cr {m : Str} (h : ∀ c ∈ m, MarkerChar U c) : '\r' ∉ m := fun hm =>
  markerChar_not (U := U) (by decide) (by decide) (h _ hm)

/-- A document with an attribute whose value is read in place. -/
theorem document_attribute_in_place {pre i l₁ l₂ v N t : Str} {a c : Body} {e : Expr}
    (hpre : parseStr U pre = .ok a) (hi : IsIdent U i) (h₁ : Seq InlineItem l₁) (h₂ : Seq InlineItem l₂)
    (hN : Eol N) (hv : IsExpr U (v ++ (N ++ t)) e (N ++ t)) :
    parseStr U (pre ++ '\n' :: (i ++ l₁ ++ '=' :: l₂ ++ v ++ N ++ t)) = .ok c ↔
      ∃ b, c = a ++ .attribute (.borrowed i) e :: b ∧ parseStr U t = .ok b := by
  simp only [parseStr_iff] at *
  rw [document_concat hpre]
  have h := fun c => document_attribute' (c := c) (q := []) hi h₁ h₂ hv .nil (.eol _ hN)
  simp only [List.append_nil] at h
  constructor
  · rintro ⟨b, rfl, hb⟩
    obtain ⟨b', rfl, hb'⟩ := (h b).1 hb
    exact ⟨b', rfl, hb'⟩
  · rintro ⟨b, rfl, hb⟩
    exact ⟨_, rfl, (h _).2 ⟨b, rfl, hb⟩⟩

/-! ## C08 -/

/-- C08: the value of `<<MARKER` … `MARKER` is the text between the line end after the first marker and the line end
before the terminator line, verbatim: no escapes, and lines that merely resemble the terminator are content. -/
theorem c08_heredoc_verbatim (pre i l₁ l₂ m e content e' b N t : Str) (a c : Body)
    (hpre : parseStr U pre = .ok a) (hi : IsIdent U i) (h₁ : Seq InlineItem l₁) (h₂ : Seq InlineItem l₂)
    (hm : m ≠ []) (hm' : ∀ c ∈ m, MarkerChar U c) (he : Eol e) (he' : Eol e') (hN : Eol N)
    (hb : ∀ c ∈ b, c = ' ' ∨ c = '\t')
    (hcontent : NoTerminatorLine m content) (hcr : e' = ['\n'] → ∀ x, content ≠ x ++ ['\r']) :
    parseStr U (pre ++ '\n' :: (i ++ l₁ ++ '=' :: l₂ ++ ('<' :: '<' :: m ++ e ++ content ++ e' ++ b ++ m) ++ N ++ t)) = .ok c ↔
      ∃ b', c = a ++ .attribute (.borrowed i) (.string (.borrowed content)) :: b' ∧ parseStr U t = .ok b' := by
  refine document_attribute_in_place U hpre hi h₁ h₂ hN ?_
  obtain ⟨f1, f2⟩ := firstTerminator_of (rest := N ++ t) (markers_no_nl hm') (marker_no_cr U hm') hcontent he' hcr hb
    ⟨N, t, hN, rfl⟩
  have := Heredoc.content (U := U) false m e _ content b (N ++ t) (.borrowed content) hm hm' he (f2 e he) f1
    (.verbatim content)
  exact .string _ _ _ (.heredoc _ _ _ (by simpa using this))

/-- C08: a heredoc whose terminator follows at once is the empty string. -/
theorem c08_heredoc_empty (pre i l₁ l₂ m e b N t : Str) (a c : Body)
    (hpre : parseStr U pre = .ok a) (hi : IsIdent U i) (h₁ : Seq InlineItem l₁) (h₂ : Seq InlineItem l₂)
    (hm : m ≠ []) (hm' : ∀ c ∈ m, MarkerChar U c) (he : Eol e) (hN : Eol N) (hb : ∀ c ∈ b, c = ' ' ∨ c = '\t') :
    parseStr U (pre ++ '\n' :: (i ++ l₁ ++ '=' :: l₂ ++ ('<' :: '<' :: m ++ e ++ b ++ m) ++ N ++ t)) = .ok c ↔
      ∃ b', c = a ++ .attribute (.borrowed i) (.string (.borrowed [])) :: b' ∧ parseStr U t = .ok b' := by
  refine document_attribute_in_place U hpre hi h₁ h₂ hN ?_
  have := Heredoc.empty (U := U) false m (e ++ b ++ m ++ (N ++ t)) b (N ++ t) hm hm' ⟨e, he, rfl, hb, ⟨N, t, hN, rfl⟩⟩
  exact .string _ _ _ (.heredoc _ _ _ (by simpa using this))

/-- C08: the content of an accepted heredoc always ends at the first terminator: no terminator starts earlier. -/
theorem c08_heredoc_first_terminator (s r : Str) (v : CowStr) (h : heredocString U s = .ok r v)
    (hplain : ∀ t, s ≠ '<' :: '<' :: '-' :: t) :
    ∃ m b, m ≠ [] ∧ (∀ c ∈ m, MarkerChar U c) ∧ (∀ c ∈ b, c = ' ' ∨ c = '\t') ∧ StartsEol r ∧
      ((v.str = [] ∧ ∃ e, Eol e ∧ s = '<' :: '<' :: m ++ e ++ b ++ m ++ r) ∨
       (∃ e e', Eol e ∧ Eol e' ∧ s = '<' :: '<' :: m ++ e ++ v.str ++ e' ++ b ++ m ++ r ∧
         ∀ c' t' b' r', v.str ++ e' ++ b ++ m ++ r = c' ++ t' → Terminator m t' b' r' → v.str.length ≤ c'.length)) := by
  rw [heredocString_iff] at h
  cases h with
  | empty ind m s b _ h1 h2 h3 =>
    cases ind with
    | true => exact absurd rfl (hplain _)
    | false =>
      obtain ⟨e, he, rfl, hb, hr⟩ := h3
      exact ⟨m, b, h1, h2, hb, hr, .inl ⟨rfl, e, he, by simp⟩⟩
  | content ind m e s content b _ _ h1 h2 he hn hf hv =>
    cases ind with
    | true => exact absurd rfl (hplain _)
    | false =>
      cases hv with
      | indented => simp at *
      | verbatim =>
        obtain ⟨⟨t, rfl, e', he', rfl, hb, hr⟩, hmin⟩ := hf
        refine ⟨m, b, h1, h2, hb, hr, .inr ⟨e, e', he, he', by simp [CowStr.borrowed], ?_⟩⟩
        intro c' t' b' r' h ht
        exact hmin c' t' b' r' (by simpa [CowStr.borrowed] using h) ht

theorem dropWhile_blanks {b m : Str} (hb : ∀ c ∈ b, c = ' ' ∨ c = '\t') (hm : ∀ c ∈ m, isBlank c = false) :
    List.dropWhile isBlank (b ++ m) = m := by
  induction b with
  | nil =>
    cases m with
    | nil => rfl
    | cons c m => rw [List.nil_append, List.dropWhile_cons, hm c (by simp)]; rfl
  | cons c b ih =>
    have : isBlank c = true := by
      rcases hb c (by simp) with rfl | rfl <;> decide
    rw [List.cons_append, List.dropWhile_cons, this]
    exact ih (fun c h => hb c (by simp [h]))

/-- A computable check for `NoTerminatorLine` (used for the concrete cases only). -/
theorem noTerminatorLine_of_check {m content : Str} (hm : ∀ c ∈ m, isBlank c = false)
    (h : (splitLines content).all (fun l => (l.dropWhile isBlank != m) && (l.dropWhile isBlank != m ++ ['\r'])) = true) :
    NoTerminatorLine m content := by
  intro ls hls l hl b hb
  have := hls.functional
  subst this
  have h := List.all_eq_true.1 h l hl
  simp only [Bool.and_eq_true, bne_iff_ne] at h
  constructor
  · rintro rfl; exact h.1 (dropWhile_blanks hb hm)
  · rintro rfl
    refine h.2 ?_
    rw [List.append_assoc]
    refine dropWhile_blanks hb (fun c hc => ?_)
    rw [List.mem_append] at hc
    rcases hc with hc | hc
    · exact hm c hc
    · simp at hc; subst hc; decide

/-- Non-vacuity of C08: content with a lookalike (`EOFX`) and a backslash. -/
example : NoTerminatorLine ['E', 'O', 'F'] ['E', 'O', 'F', 'X', '\n', '\\', 'n'] :=
  noTerminatorLine_of_check (by decide) (by decide)

example : parseStr asciiClass "a = <<EOF\nEOFX\n\\n\n EOF\n".toList =
    .ok [.attribute (.borrowed ['a']) (.string (.borrowed ['E', 'O', 'F', 'X', '\n', '\\', 'n']))] := by decide +kernel

/-! ## C09 -/

theorem unindented_stripped {n : Nat} {l l' : Str} (h : Unindented n l l') : Stripped n l l' := by
  cases h with
  | full => exact .full _
  | short k c d l h hc _ => exact .short k _ (by omega) (by rintro t h; injection h with h _; exact hc h)

/-- For lines that are not bad. -/
theorem strips_of_unindented (pre i l₁ l₂ m e content e' b N t : Str) (a : Body)
    (hpre : parseStr U pre = .ok a) (hi : IsIdent U i) (h₁ : Seq InlineItem l₁) (h₂ : Seq InlineItem l₂)
    (hm : m ≠ []) (hm' : ∀ c ∈ m, MarkerChar U c) (he : Eol e) (he' : Eol e') (hN : Eol N)
    (hb : ∀ c ∈ b, c = ' ' ∨ c = '\t')
    (hcontent : NoTerminatorLine m content) (hcr : e' = ['\n'] → ∀ x, content ≠ x ++ ['\r'])
    (ls ls' : List Str) (s' : Str) (hls : Lines content ls) (hls' : AllPairs (Unindented b.length) ls ls')
    (hs' : Lines s' ls') :
    (∃ v, v.str = s' ∧ ∀ c, parseStr U (pre ++ '\n' :: (i ++ l₁ ++ '=' :: l₂ ++
        ('<' :: '<' :: '-' :: m ++ e ++ content ++ e' ++ b ++ m) ++ N ++ t)) = .ok c ↔
      ∃ b', c = a ++ .attribute (.borrowed i) (.string v) :: b' ∧ parseStr U t = .ok b') ∧
    AllPairs (Stripped b.length) ls ls' := by
  have hlen : AllPairs (Stripped b.length) ls ls' := by
    clear hs' hls
    induction hls' with
    | nil => exact .nil
    | cons a b' as bs h _ ih => exact .cons _ _ _ _ (unindented_stripped h) ih
  refine ⟨?_, hlen⟩
  obtain ⟨v, hv, hvs⟩ : ∃ v : CowStr, v.str = s' ∧ HeredocValue content b.length v := by
    by_cases h0 : b.length = 0
    · rw [h0] at hls' ⊢
      have : ls = ls' := by
        clear hs' hls hlen
        induction hls' with
        | nil => rfl
        | cons a b' as bs h _ ih =>
          cases h with
          | full => rw [ih]; rfl
          | short => omega
      subst this
      exact ⟨.borrowed content, (hls.join.symm.trans hs'.join :), .verbatim _⟩
    · exact ⟨.ownedS s', rfl, .indented _ _ _ _ _ (by omega) hls hls' hs'⟩
  refine ⟨v, hv, fun c => document_attribute_in_place U hpre hi h₁ h₂ hN ?_⟩
  obtain ⟨f1, f2⟩ := firstTerminator_of (rest := N ++ t) (markers_no_nl hm') (marker_no_cr U hm') hcontent he' hcr hb
    ⟨N, t, hN, rfl⟩
  have := Heredoc.content (U := U) true m e _ content b (N ++ t) v hm hm' he (f2 e he) f1 hvs
  exact .string _ _ _ (.heredoc _ _ _ (by simpa using this))

theorem allPairs_of_good {n : Nat} : ∀ {ls : List Str}, (∀ l ∈ ls, ¬ BadLine n l) → ∃ ls', AllPairs (Unindented n) ls ls'
  | [], _ => ⟨[], .nil⟩
  | l :: ls, h => by
    obtain ⟨ls', h'⟩ := allPairs_of_good (fun x hx => h x (List.mem_cons_of_mem _ hx))
    have := h l (by simp)
    rw [badLine_iff] at this
    cases hl : unindentLine n l with
    | none => exact absurd hl this
    | some l' => exact ⟨l' :: ls', .cons _ _ _ _ (unindentLine_iff.1 hl) h'⟩

/-- C09: an attribute whose value is the indented heredoc with the given content and terminator line, no content line
being bad, is accepted, and its value is the content with every line stripped of the terminator's indentation (or of
all its leading spaces, when it has fewer); the rest of the document is read as usual. -/
theorem c09_indented_heredoc_strips (pre i l₁ l₂ m e content e' b N t : Str) (a : Body)
    (hpre : parseStr U pre = .ok a) (hi : IsIdent U i) (h₁ : Seq InlineItem l₁) (h₂ : Seq InlineItem l₂)
    (hm : m ≠ []) (hm' : ∀ c ∈ m, MarkerChar U c) (he : Eol e) (he' : Eol e') (hN : Eol N)
    (hb : ∀ c ∈ b, c = ' ' ∨ c = '\t')
    (hcontent : NoTerminatorLine m content) (hcr : e' = ['\n'] → ∀ x, content ≠ x ++ ['\r'])
    (ls : List Str) (hls : Lines content ls) (hgood : ∀ l ∈ ls, ¬ BadLine b.length l) :
    ∃ ls' v, AllPairs (Stripped b.length) ls ls' ∧ Lines v.str ls' ∧
      ∀ c, parseStr U (pre ++ '\n' :: (i ++ l₁ ++ '=' :: l₂ ++
        ('<' :: '<' :: '-' :: m ++ e ++ content ++ e' ++ b ++ m) ++ N ++ t)) = .ok c ↔
      ∃ b', c = a ++ .attribute (.borrowed i) (.string v) :: b' ∧ parseStr U t = .ok b' := by
  obtain ⟨ls', h'⟩ := allPairs_of_good hgood
  have hl' : Lines (joinLines ls') ls' := by
    refine lines_join ?_ ?_
    · have := hls.mem.1
      rintro rfl; cases h'; contradiction
    · have hmm := hls.mem.2
      clear hls hgood
      induction h' with
      | nil => simp
      | cons a b as bs hab _ ih =>
        intro l hl
        rcases List.mem_cons.1 hl with rfl | hl
        · exact unindented_no_newline hab (hmm a (by simp))
        · exact ih (fun x hx => hmm x (List.mem_cons_of_mem _ hx)) l hl
  obtain ⟨⟨v, hv, hv'⟩, hs⟩ := strips_of_unindented U pre i l₁ l₂ m e content e' b N t a hpre hi h₁ h₂ hm hm' he he' hN hb
    hcontent hcr ls ls' _ hls h' hl'
  exact ⟨ls', v, hs, hv ▸ hl', hv'⟩

/-- C09: and when some content line is bad, `parse_str` panics, whatever follows the heredoc. -/
theorem c09_indented_heredoc_aborts (pre i l₁ l₂ m e content e' b N t : Str) (a : Body)
    (hpre : parseStr U pre = .ok a) (hi : IsIdent U i) (h₁ : Seq InlineItem l₁) (h₂ : Seq InlineItem l₂)
    (hm : m ≠ []) (hm' : ∀ c ∈ m, MarkerChar U c) (he : Eol e) (he' : Eol e') (hN : Eol N)
    (hb : ∀ c ∈ b, c = ' ' ∨ c = '\t')
    (hcontent : NoTerminatorLine m content) (hcr : e' = ['\n'] → ∀ x, content ≠ x ++ ['\r'])
    (ls : List Str) (l : Str) (hls : Lines content ls) (hl : l ∈ ls) (hbad : BadLine b.length l) :
    parseStr U (pre ++ '\n' :: (i ++ l₁ ++ '=' :: l₂ ++
        ('<' :: '<' :: '-' :: m ++ e ++ content ++ e' ++ b ++ m) ++ N ++ t)) = .panic := by
  obtain ⟨f1, f2⟩ := firstTerminator_of (rest := N ++ t) (markers_no_nl hm') (marker_no_cr U hm') hcontent he' hcr hb
    ⟨N, t, hN, rfl⟩
  rw [c04_panics_exactly_on_bad_heredocs]
  refine ⟨'<' :: '<' :: '-' :: m ++ e ++ (content ++ e' ++ b ++ m ++ (N ++ t)), bodyAt_concat (parseStr_iff.1 hpre) rfl ?_,
    m, e, _, content, b, N ++ t, ls, l, hm, hm', he, rfl, by simpa using f2 e he, by simpa using f1, hls, hl, hbad⟩
  have hid : Ident U (i ++ (l₁ ++ ('=' :: l₂ ++ ('<' :: '<' :: '-' :: m ++ e ++ (content ++ e' ++ b ++ m ++ (N ++ t)))))) i
      (l₁ ++ ('=' :: l₂ ++ ('<' :: '<' :: '-' :: m ++ e ++ (content ++ e' ++ b ++ m ++ (N ++ t))))) :=
    ident_inline hi h₁ (by rw [List.cons_append, head_cons]; exact not_identChar (by decide) (by decide))
  have := BodyAt.attribute _ _ _ (skipLayout_ident hid) (.mk _ _ _ _ _ _ hid (skip_append h₁ (not_starts_inline
    (not_starts_layout (by decide)))) (skip_append h₂ (not_starts_inline (not_starts_layout (by decide)))) (.here _))
  simpa using this

/-- Non-vacuity of C09: a good line with fewer spaces than the terminator, and a bad (empty) one. -/
example : ¬ BadLine 3 [' ', 'a', 'b'] ∧ BadLine 3 [] ∧ Stripped 3 [' ', 'a', 'b'] ['a', 'b'] :=
  ⟨by rw [badLine_iff]; decide, .blank 0 (by decide), .short 1 ['a', 'b'] (by decide) (by simp)⟩

example : parseStr asciiClass "a = <<-EOF\n    x\n ab\n   EOF\n".toList =
    .ok [.attribute (.borrowed ['a']) (.string (.ownedS [' ', 'x', '\n', 'a', 'b']))] := by decide +kernel

example : parseStr asciiClass "a = <<-EOF\n    x\n\n   EOF\nb = (".toList = .panic := by decide +kernel

end Verif.Props
