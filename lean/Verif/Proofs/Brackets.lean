import Verif.Spec.Brackets
import Verif.Proofs.OldParser
import Verif.Proofs.Replace
import Verif.Proofs.Agree
/-! # Brackets are closed in what is accepted -/
set_option autoImplicit false

namespace Verif
open PRes Spec

variable {U : CharClass}

/-! ## reading on -/

theorem scan_trans {a b c : List Char} {s t u : Str} {os os' : List Char} (h : Scan U a s os b t) (h' : Scan U b t os' c u) :
    Scan U a s (os ++ os') c u := by
  induction h with
  | refl => exact h'
  | step st st' st'' s s' s'' os os1 h1 _ ih => rw [List.append_assoc]; exact .step _ _ _ _ _ _ _ _ h1 (ih h')

theorem scan_one {a b : List Char} {s t : Str} {os : List Char} (h : ScanStep U a s os b t) : Scan U a s os b t := by
  have := Scan.step _ _ _ _ _ _ _ _ h (.refl b t)
  rwa [List.append_nil] at this

/-- characters without meaning are passed over -/
theorem scan_plain (st : List Char) {t : Str} (r : Str) (h : ∀ c ∈ t, ¬ Structural c) : Scan U st (t ++ r) [] st r := by
  induction t with
  | nil => exact .refl _ _
  | cons c t ih =>
    exact scan_trans (scan_one (.plain st c (t ++ r) (h c (by simp)))) (ih fun d hd => h d (by simp [hd]))

theorem scan_seq {I : Str → Prop} (hI : ∀ i, I i → ∀ st r, Scan U st (i ++ r) [] st r) {l : Str} (h : Seq I l) (st : List Char) (r : Str) :
    Scan U st (l ++ r) [] st r := by
  induction h with
  | nil => exact .refl _ _
  | cons i s hi _ ih => rw [List.append_assoc]; exact scan_trans (hI i hi st _) ih

theorem scan_eol {e : Str} (h : Eol e) (st : List Char) (r : Str) : Scan U st (e ++ r) [] st r :=
  scan_plain st r (by cases h <;> (unfold Structural; decide))

theorem scan_layoutItem (i : Str) (h : LayoutItem i) (st : List Char) (r : Str) : Scan U st (i ++ r) [] st r := by
  cases h with
  | space c hc => exact scan_plain st r (by rcases hc with rfl | rfl | rfl | rfl <;> (unfold Structural; decide))
  | line _ h => exact scan_one (.comment st i r (.inl h))
  | comment _ h => exact scan_one (.comment st i r (.inr h))

theorem scan_newlineItem (i : Str) (h : NewlineItem i) (st : List Char) (r : Str) : Scan U st (i ++ r) [] st r := by
  cases h with
  | eol _ h => exact scan_eol h st r
  | line _ h => exact scan_one (.comment st i r (.inl h))
  | comment s e h he =>
    rw [List.append_assoc]
    exact scan_trans (scan_one (.comment st s (e ++ r) (.inr h))) (scan_eol he st r)

theorem scan_skipLayout {s r : Str} (h : SkipLayout s r) (st : List Char) : Scan U st s [] st r := by
  obtain ⟨l, hl, rfl, -⟩ := h
  exact scan_seq scan_layoutItem hl st r

theorem scan_skipInline {s r : Str} (h : SkipInline s r) (st : List Char) : Scan U st s [] st r := by
  obtain ⟨l, hl, rfl, -⟩ := h
  exact scan_seq (fun i hi => scan_layoutItem i (inlineItem_layout hi)) hl st r

theorem scan_newlines {s r : Str} (h : Newlines s r) (st : List Char) : Scan U st s [] st r := by
  obtain ⟨i, l, hi, hl, rfl⟩ := h
  rw [List.append_assoc]
  exact scan_trans (scan_newlineItem i hi st _) (scan_seq scan_newlineItem hl st r)

theorem structural_ascii {c : Char} (h : Structural c) : c.toNat < 128 := by
  unfold Structural at h
  simp only [List.mem_cons, List.not_mem_nil, or_false] at h
  rcases h with rfl | rfl | rfl | rfl | rfl | rfl | rfl | rfl | rfl | rfl <;> decide

theorem identChar_not_structural {c : Char} (h : IdentChar U c) : ¬ Structural c := by
  intro hs
  have ha := structural_ascii hs
  unfold IdentChar at h
  rw [U.idContinue_ascii c ha] at h
  unfold Structural at hs
  simp only [List.mem_cons, List.not_mem_nil, or_false] at hs
  rcases hs with rfl | rfl | rfl | rfl | rfl | rfl | rfl | rfl | rfl | rfl <;> revert h <;> decide

theorem numChar_not_structural {c : Char} (h : NumChar c) : ¬ Structural c := by
  intro hs
  unfold Structural at hs
  simp only [List.mem_cons, List.not_mem_nil, or_false] at hs
  unfold NumChar IsDig at h
  rcases hs with rfl | rfl | rfl | rfl | rfl | rfl | rfl | rfl | rfl | rfl <;> revert h <;> decide

theorem isIdent_chars {i : Str} (h : IsIdent U i) : ∀ c ∈ i, IdentChar U c := by
  cases h with
  | mk c cs hc hcs =>
    intro d hd
    rcases List.mem_cons.1 hd with rfl | hd
    · exact hc.elim (fun h => .inl (U.idStart_idContinue _ h)) fun h => .inl (by subst h; rw [U.idContinue_ascii _ (by decide)]; decide)
    · exact hcs d hd

theorem scan_ident {s i r : Str} (h : Ident U s i r) (st : List Char) : Scan U st s [] st r := by
  obtain ⟨rfl, hi, -⟩ := h
  exact scan_plain st r fun c hc => identChar_not_structural (isIdent_chars hi c hc)

theorem scan_number {s r : Str} {n : Number} (h : NumberTok s n r) (st : List Char) : Scan U st s [] st r := by
  obtain ⟨t, rfl, ht, -⟩ := h
  exact scan_plain st r fun c hc => numChar_not_structural (isNumber_chars ht c hc)

theorem scan_string {s r : Str} {v : CowStr} (h : StringTok U s v r) (st : List Char) : Scan U st s [] st r := by
  cases h with
  | quoted v _ h => exact scan_one (.string st s v r h)
  | heredoc _ _ h => exact scan_one (.heredoc st s v r h)

theorem scan_char (st : List Char) (c : Char) (r : Str) (h : ¬ Structural c) : Scan U st (c :: r) [] st r := scan_one (.plain st c r h)

theorem scan_open (st : List Char) (o c : Char) (r : Str) (h : Bracket o c) : Scan U st (o :: r) [o] (c :: st) r := scan_one (.open st o c r h)

theorem scan_close (st : List Char) (o c : Char) (r : Str) (h : Bracket o c) : Scan U (c :: st) (c :: r) [] st r :=
  scan_one (.close st o c r h)

/-! ## expressions -/

/-- reading from `s` to `r` opens `os`, and closes them and then `cl` -/
abbrev Scans (U : CharClass) (cl : List Char) (s : Str) (os : List Char) (r : Str) : Prop := ∀ st, Scan U (cl ++ st) s os st r

theorem scans_tupleEnd {s r : Str} (h : IsTupleEnd s r) : Scans U [']'] s [] r := by
  intro st
  cases h with
  | close _ h => exact scan_trans (scan_skipLayout h _) (scan_close st _ _ _ .square)
  | comma t _ h1 h2 =>
    exact scan_trans (scan_skipLayout h1 _) (scan_trans (scan_char _ ',' _ (by unfold Structural; decide))
      (scan_trans (scan_skipLayout h2 _) (scan_close st _ _ _ .square)))

theorem scan_objectSep {s r : Str} (h : IsObjectSep s r) (st : List Char) : Scan U st s [] st r := by
  cases h with
  | comma => exact scan_char _ ',' _ (by unfold Structural; decide)
  | newline _ _ h => exact scan_newlines h st
  | close => exact .refl _ _

/-- The opening brackets `os` are those of the tree, and round ones and those in keys. -/
abbrev OpensLike (os bs : List Char) (plain : Prop) : Prop := bs.Sublist os ∧ (plain → os.filter (· ≠ '(') = bs)

theorem identKeys_tuple {es : List Expr} : IdentKeys (.tuple es) ↔ ∀ e ∈ es, IdentKeys e := by
  constructor
  · intro h e he o ho
    exact h o (.tuple _ e es he ho)
  · intro h o ho
    cases ho with
    | tuple e _ he ho => exact h e he o ho

theorem identKeys_object {es : List (ObjKey × Expr)} : IdentKeys (.object es) ↔ ∀ p ∈ es, (∃ i, p.1 = .ident i) ∧ IdentKeys p.2 := by
  constructor
  · intro h p hp
    exact ⟨h es (.refl _) p hp, fun o ho => h o (.object _ p es hp ho)⟩
  · intro h o ho
    cases ho with
    | refl => exact fun p hp => (h p hp).1
    | object p _ hp ho => exact (h p hp).2 o ho

theorem opens_append {os os' bs bs' : List Char} {A B C : Prop} (h : OpensLike os bs A) (h' : OpensLike os' bs' B) (ha : C → A) (hb : C → B) :
    OpensLike (os ++ os') (bs ++ bs') C :=
  ⟨h.1.append h'.1, fun hc => by rw [List.filter_append, h.2 (ha hc), h'.2 (hb hc)]⟩

theorem opens_prefix {os os' bs : List Char} {A C : Prop} (h : OpensLike os' bs A) (ha : C → A) (ho : C → os = []) :
    OpensLike (os ++ os') bs C :=
  ⟨h.1.trans (List.sublist_append_right _ _), fun hc => by rw [ho hc, List.nil_append, h.2 (ha hc)]⟩

/-- what an expression opens -/
theorem scan_expr {s r : Str} {e : Expr} (h : IsExpr U s e r) :
    ∃ os, Scans U [] s os r ∧ OpensLike os (exprBrackets e) (IdentKeys e) := by
  refine IsExpr.rec (U := U)
    (motive_1 := fun s e r _ => ∃ os, Scans U [] s os r ∧ OpensLike os (exprBrackets e) (IdentKeys e))
    (motive_2 := fun s es r _ => ∃ os, Scans U [']'] s os r ∧ OpensLike os (tupleBrackets es) (IdentKeys (.tuple es)))
    (motive_3 := fun s es r _ => ∃ os, Scans U [']'] s os r ∧ OpensLike os (tupleBrackets es) (IdentKeys (.tuple es)))
    (motive_4 := fun s k r _ => ∃ os, Scans U [] s os r ∧ ((∃ i, k = .ident i) → os = []))
    (motive_5 := fun s es r _ => ∃ os, Scans U ['}'] s os r ∧ OpensLike os (objectBrackets es) (IdentKeys (.object es)))
    ?_ ?_ ?_ ?_ ?_ ?_ ?_ ?_ ?_ ?_ ?_ ?_ ?_ ?_ ?_ ?_ h
  · exact fun r => ⟨[], fun st => scan_plain st (t := ['n', 'u', 'l', 'l']) r (by unfold Structural; decide), .refl _, fun _ => rfl⟩
  · exact fun r => ⟨[], fun st => scan_plain st (t := ['t', 'r', 'u', 'e']) r (by unfold Structural; decide), .refl _, fun _ => rfl⟩
  · exact fun r => ⟨[], fun st => scan_plain st (t := ['f', 'a', 'l', 's', 'e']) r (by unfold Structural; decide), .refl _, fun _ => rfl⟩
  · exact fun s n r h => ⟨[], fun st => scan_number h st, .refl _, fun _ => rfl⟩
  · exact fun s v r h => ⟨[], fun st => scan_string h st, .refl _, fun _ => rfl⟩
  · rintro s es r _ ⟨os, h1, h2⟩
    exact ⟨'[' :: os, fun st => scan_trans (scan_open st _ _ _ .square) (h1 st), h2.1.cons_cons _, fun hk => by
      rw [exprBrackets, ← h2.2 hk]; rfl⟩
  · rintro s t es r hs _ ⟨os, h1, h2⟩
    exact ⟨'{' :: os, fun st => scan_trans (scan_skipLayout hs st) (scan_trans (scan_open st _ _ _ .curly) (h1 st)),
      h2.1.cons_cons _, fun hk => by rw [exprBrackets, ← h2.2 hk]; rfl⟩
  · rintro s t u v e r h1 h2 _ h3 ⟨os, h4, h5⟩
    refine ⟨'(' :: os, fun st => ?_, h5.1.trans (List.sublist_cons_self _ _), fun hk => by rw [← h5.2 hk]; rfl⟩
    have := scan_trans (scan_skipLayout h1 st) (scan_trans (scan_open st _ _ _ .round) (scan_trans (scan_skipLayout h2 _)
      (scan_trans (h4 (')' :: st)) (scan_trans (scan_skipLayout h3 _) (scan_close st _ _ _ .round)))))
    simpa using this
  · exact fun s r h => ⟨[], scans_tupleEnd h, .refl _, fun _ => rfl⟩
  · rintro s t u e es r h1 _ _ ⟨os, h2, h3⟩ ⟨os', h4, h5⟩
    exact ⟨os ++ os', fun st => by
        have := scan_trans (scan_skipLayout h1 _) (scan_trans (h2 (']' :: st)) (h4 st))
        simpa using this,
      opens_append h3 h5 (fun hk => identKeys_tuple.1 hk e (by simp))
        fun hk => identKeys_tuple.2 fun x hx => identKeys_tuple.1 hk x (by simp [hx])⟩
  · exact fun s r h => ⟨[], scans_tupleEnd h, .refl _, fun _ => rfl⟩
  · rintro s t u v e es r h1 h1' _ _ ⟨os, h2, h3⟩ ⟨os', h4, h5⟩
    exact ⟨os ++ os', fun st => by
        have := scan_trans (scan_skipLayout h1 _) (scan_trans (scan_char _ ',' _ (by unfold Structural; decide))
          (scan_trans (scan_skipLayout h1' _) (scan_trans (h2 (']' :: st)) (h4 st))))
        simpa using this,
      opens_append h3 h5 (fun hk => identKeys_tuple.1 hk e (by simp))
        fun hk => identKeys_tuple.2 fun x hx => identKeys_tuple.1 hk x (by simp [hx])⟩
  · exact fun s i r h => ⟨[], fun st => scan_ident h st, fun _ => rfl⟩
  · rintro t e r _ _ ⟨os, h1, -⟩
    exact ⟨os, h1, fun ⟨i, hi⟩ => by cases hi⟩
  · exact fun s r h => ⟨[], fun st => scan_trans (scan_skipLayout h _) (scan_close st _ _ _ .curly), .refl _, fun _ => rfl⟩
  · rintro s t u v w x y z k e es r h1 _ h2 h3 _ h4 h5 _ ⟨os, h6, h7⟩ ⟨os', h8, h9⟩ ⟨os'', h10, h11⟩
    refine ⟨os ++ (os' ++ os''), fun st => ?_, ?_⟩
    · have := scan_trans (scan_skipLayout h1 _) (scan_trans (h6 ('}' :: st)) (scan_trans (scan_skipInline h2 _)
        (scan_trans (scan_char _ '=' _ (by unfold Structural; decide)) (scan_trans (scan_skipInline h3 _) (scan_trans (h8 ('}' :: st))
        (scan_trans (scan_skipInline h4 _) (scan_trans (scan_objectSep h5 _) (h10 st))))))))
      simpa using this
    · refine opens_prefix (A := IdentKeys (.object ((k, e) :: es))) ?_ id fun hk => h7 (identKeys_object.1 hk (k, e) (by simp)).1
      exact opens_append h9 h11 (fun hk => (identKeys_object.1 hk (k, e) (by simp)).2)
        fun hk => identKeys_object.2 fun p hp => identKeys_object.1 hk p (by simp [hp])

/-! ## bodies -/

theorem scan_label {s r : Str} {l : BlockLabel} (h : IsLabel U s l r) (st : List Char) : Scan U st s [] st r := by
  cases h with
  | ident i _ h => exact scan_ident h st
  | string v _ h => exact scan_one (.string st s v r (quoted_line_plain h))

theorem scan_labels {s r : Str} {ls : List BlockLabel} (h : IsLabels U s ls r) (st : List Char) : Scan U st s ['{'] ('}' :: st) r := by
  induction h with
  | «open» s r h => exact scan_trans (scan_skipInline h st) (scan_open st _ _ _ .curly)
  | label s t u l ls r h1 h2 _ ih => exact scan_trans (scan_skipInline h1 st) (scan_trans (scan_label h2 st) ih)

theorem scan_elementEnd {s r : Str} (h : IsElementEnd s r) (st : List Char) : Scan U st s [] st r := by
  cases h with
  | newline _ _ h => exact scan_newlines h st
  | eof => exact .refl _ _

theorem scan_attribute {s r : Str} {k : CowStr} {e : Expr} (h : IsAttribute U s k e r) :
    ∃ os, Scans U [] s os r ∧ OpensLike os (exprBrackets e) (IdentKeys e) := by
  cases h with
  | mk i t u v w _ _ h1 h2 h3 h4 h5 =>
    obtain ⟨os, h6, h7⟩ := scan_expr h4
    refine ⟨os, fun st => ?_, h7⟩
    have := scan_trans (scan_ident h1 st) (scan_trans (scan_skipInline h2 st) (scan_trans (scan_char _ '=' _ (by unfold Structural; decide))
      (scan_trans (scan_skipInline h3 st) (scan_trans (h6 st) (scan_skipInline h5 st)))))
    simpa using this

/-- all keys of objects in a body are identifiers -/
abbrev IdentKeysIn (b : Body) : Prop := ∀ e, ValueIn e b → IdentKeys e

theorem identKeysIn_cons {x : BodyElement} {b : Body} (h : IdentKeysIn (x :: b)) : IdentKeysIn [x] ∧ IdentKeysIn b := by
  constructor <;> intro e he <;> refine h e ?_
  · cases he with
    | «attribute» k _ _ hm => exact .attribute k e _ (by simp at hm; simp [hm])
    | block t ls _ _ c hm hc => exact .block t ls e _ c (by simp at hm; simp [hm]) hc
  · cases he with
    | «attribute» k _ _ hm => exact .attribute k e _ (by simp [hm])
    | block t ls _ _ c hm hc => exact .block t ls e _ c (by simp [hm]) hc

theorem scan_body {s r : Str} {b : Body} (h : IsBody U s b r) :
    ∃ os, Scans U [] s os r ∧ OpensLike os (bodyBrackets b) (IdentKeysIn b) := by
  refine IsBody.rec (U := U)
    (motive_1 := fun s b r _ => ∃ os, Scans U [] s os r ∧ OpensLike os (bodyBrackets b) (IdentKeysIn b))
    (motive_2 := fun s el r _ => ∃ os, Scans U [] s os r ∧ OpensLike os (elementBrackets el) (IdentKeysIn [el]))
    ?_ ?_ ?_ ?_ ?_ ?_ h
  · exact fun s r h => ⟨[], fun st => scan_skipLayout h st, .refl _, fun _ => rfl⟩
  · rintro s t u v el els r h1 _ h2 _ ⟨os, h3, h4⟩ ⟨os', h5, h6⟩
    exact ⟨os ++ os', fun st => by
        have := scan_trans (scan_skipLayout h1 st) (scan_trans (h3 st) (scan_trans (scan_elementEnd h2 st) (h5 st)))
        simpa using this,
      opens_append h4 h6 (fun hk => (identKeysIn_cons hk).1) fun hk => (identKeysIn_cons hk).2⟩
  · rintro s k e r h
    obtain ⟨os, h1, h2⟩ := scan_attribute h
    exact ⟨os, h1, h2.1, fun hk => h2.2 (hk e (.attribute k e _ (by simp)))⟩
  · rintro s i t u v r ls h1 h2 h3 h4
    exact ⟨['{'], fun st => scan_trans (scan_ident h1 st) (scan_trans (scan_labels h2 st) (scan_trans (scan_skipInline h3 _)
      (scan_trans (scan_close st _ _ _ .curly) (scan_skipInline h4 st)))), .refl _, fun _ => rfl⟩
  · rintro s i t u u' v r ls k e h1 h2 h3 h4 h5
    obtain ⟨os, h6, h7⟩ := scan_attribute h4
    refine ⟨'{' :: os, fun st => ?_, ?_, fun hk => ?_⟩
    · have := scan_trans (scan_ident h1 st) (scan_trans (scan_labels h2 st) (scan_trans (scan_skipInline h3 _)
        (scan_trans (h6 ('}' :: st)) (scan_trans (scan_close st _ _ _ .curly) (scan_skipInline h5 st)))))
      simpa using this
    · simpa [elementBrackets, bodyBrackets] using h7.1
    · have := h7.2 (hk e (.block _ ls e _ _ (List.mem_singleton.2 rfl) (.attribute k e _ (by simp))))
      simpa [elementBrackets, bodyBrackets] using this
  · rintro s i t u u' v w r ls b h1 h2 h3 h4 _ h5 ⟨os, h6, h7⟩
    refine ⟨'{' :: os, fun st => ?_, ?_, fun hk => ?_⟩
    · have := scan_trans (scan_ident h1 st) (scan_trans (scan_labels h2 st) (scan_trans (scan_skipInline h3 _)
        (scan_trans (scan_newlines h4 _) (scan_trans (h6 ('}' :: st)) (scan_trans (scan_close st _ _ _ .curly) (scan_skipInline h5 st))))))
      simpa using this
    · simpa [elementBrackets] using h7.1
    · have := h7.2 fun e he => hk e (.block _ ls e _ _ (List.mem_singleton.2 rfl) he)
      simpa [elementBrackets] using this

end Verif
