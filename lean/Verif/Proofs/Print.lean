import Verif.Proofs.Replace
import Verif.Proofs.Leaves
import Verif.Spec.Print
/-! # Printed trees are read back -/
set_option autoImplicit false

namespace Verif
open PRes Spec

variable {U : CharClass}

/-- Characters that may follow a printed expression. -/
def AfterExpr (c : Char) : Prop := c = '\n' ∨ c = ',' ∨ c = ']' ∨ c = '}'

theorem afterExpr_not_num {c : Char} (h : AfterExpr c) : ¬ NumChar c := by
  rcases h with rfl | rfl | rfl | rfl <;> simp [NumChar, IsDig]

theorem numberTok_of {t : Str} {n : Number} {c : Char} (hc : ¬ NumChar c) (h : IsNumber t n) (r : Str) :
    NumberTok (t ++ c :: r) n (c :: r) := by
  refine ⟨t, rfl, h, ?_⟩
  rintro p ⟨q, hq⟩ hne m hm
  cases p with
  | nil => exact hne rfl
  | cons d p =>
    injection hq with hd _; subst hd
    exact hc (isNumber_chars hm d (by simp))

theorem quoted_quote' (t r : Str) : Quoted Plain (quote t ++ r) t r := by
  refine ⟨_, List.append_assoc _ _ _, ?_⟩
  induction t with
  | nil => exact .nil _
  | cons c t ih =>
    rw [List.flatMap_cons]
    by_cases hc : c = '\\' ∨ c = '"'
    · rw [if_pos hc]
      refine .escape [c] c _ _ _ (.simple c c _ ?_) ih
      rcases hc with rfl | rfl <;> simp [simpleEscapes]
    · rw [if_neg hc]
      exact .plain c _ _ _ ⟨fun h => hc (.inl h), fun h => hc (.inr h)⟩ ih

theorem quoted_quoteLine (t r : Str) : Quoted PlainLine (quoteLine t ++ r) t r := by
  refine ⟨_, List.append_assoc _ _ _, ?_⟩
  induction t with
  | nil => exact .nil _
  | cons c t ih =>
    rw [List.flatMap_cons]
    by_cases hc : c = '\\' ∨ c = '"'
    · rw [if_pos hc]
      refine .escape [c] c _ _ _ (.simple c c _ ?_) ih
      rcases hc with rfl | rfl <;> simp [simpleEscapes]
    · rw [if_neg hc]
      by_cases hn : c = '\n'
      · subst hn
        rw [if_pos rfl]
        exact .escape ['n'] _ _ _ _ (.simple 'n' _ _ (by simp [simpleEscapes])) ih
      · rw [if_neg hn]
        by_cases hr : c = '\r'
        · subst hr
          rw [if_pos rfl]
          exact .escape ['r'] _ _ _ _ (.simple 'r' _ _ (by simp [simpleEscapes])) ih
        · rw [if_neg hr]
          exact .plain c _ _ _ ⟨fun h => hc (.inl h), fun h => hc (.inr h), hr, hn⟩ ih

theorem not_starts_head {s : Str} (h : Head (fun c => ¬ LayoutStart c) s) : ¬ Starts LayoutItem s := by
  obtain ⟨c, t, rfl, hc⟩ := h; exact not_starts_layout hc

/-- A printed expression does not begin with layout. -/
theorem printExpr_head {e : Expr} (h : ∀ l ∈ exprLeaves e, LeafPrintable U l) (r : Str) :
    Head (fun c => ¬ LayoutStart c) (printExpr e ++ r) := by
  cases e with
  | null => exact ⟨_, _, rfl, by decide⟩
  | number n =>
    have hn : IsNumber n.input.str (forgetNumber n) := h (.number n) (by simp [exprLeaves])
    obtain ⟨c, t, e, hc⟩ := isNumber_head hn r
    refine ⟨c, t, by simpa [printExpr] using e, ?_⟩
    rw [numHead_iff] at hc
    rintro (rfl | rfl | rfl | rfl | rfl | rfl) <;> revert hc <;> decide
  | boolean b => cases b <;> exact ⟨_, _, rfl, by decide⟩
  | string s => exact ⟨'"', _, rfl, by decide⟩
  | tuple es => exact ⟨'[', printTuple es ++ [']'] ++ r, by simp only [printExpr, List.cons_append], by decide⟩
  | object es => exact ⟨'{', printObject es ++ ['}'] ++ r, by simp only [printExpr, List.cons_append], by decide⟩

theorem blank_inline : Seq InlineItem [' '] := .single (.blank _ (.inl rfl))
theorem blank_layout : Seq LayoutItem [' '] := .single (.space _ (.inl rfl))

theorem skip_blank_inline {s : Str} (h : Head (fun c => ¬ LayoutStart c) s) : SkipInline (' ' :: s) s :=
  ⟨[' '], blank_inline, rfl, not_starts_inline (not_starts_head h)⟩
theorem skip_blank_layout {s : Str} (h : Head (fun c => ¬ LayoutStart c) s) : SkipLayout (' ' :: s) s :=
  ⟨[' '], blank_layout, rfl, not_starts_head h⟩

/-- Keys are read back. -/
theorem printKey_read {k : ObjKey} (h : LeafPrintable U (.key k)) (r : Str) :
    IsObjectKey U (printKey k ++ ' ' :: r) (forgetKey k) (' ' :: r) ∧
      Head (fun c => ¬ LayoutStart c) (printKey k ++ ' ' :: r) := by
  cases k with
  | ident s =>
    have hi : Ident U (s.str ++ ' ' :: r) s.str (' ' :: r) :=
      ⟨rfl, h, by rw [head_cons]; exact not_identChar (by decide) (by decide)⟩
    exact ⟨.ident _ _ _ hi, ident_start hi⟩
  | expr s =>
    obtain ⟨⟨e, he⟩, h1, h2⟩ := h
    obtain ⟨t, ht, hr⟩ := isExpr_replace he
    simp only [List.append_nil] at ht
    subst ht
    have hc : Compat U [] (' ' :: r) := by
      refine Compat.of_start (by simp [NumChar, IsDig]) (not_identChar (by decide) (by decide)) ?_ r
      rintro ⟨e, t, he, h⟩
      cases he <;> cases h
    have he' := hr _ hc
    obtain ⟨c, t, ht, hh⟩ : Head (fun c => ¬ LayoutStart c) s.str := by
      rcases isExpr_start he with h | h
      · exact absurd h h2
      · exact h
    refine ⟨.expr _ _ _ ?_ he', ?_⟩
    · change ¬ Head (IdentStart U) (s.str ++ ' ' :: r)
      rw [ht] at h1 ⊢
      rw [List.cons_append, head_cons]; rwa [head_cons] at h1
    · change Head _ (s.str ++ ' ' :: r)
      rw [ht]
      exact ⟨c, _, rfl, hh⟩

mutual
/-- Expressions are read back. -/
theorem printExpr_read : ∀ (e : Expr), (∀ l ∈ exprLeaves e, LeafPrintable U l) → ∀ (c : Char) (r : Str), AfterExpr c →
    ∃ e', IsExpr U (printExpr e ++ c :: r) e' (c :: r) ∧ forgetExpr e' = forgetExpr e
  | .null, _, c, r, _ => ⟨.null, .null _, rfl⟩
  | .number n, h, c, r, hc => ⟨.number (forgetNumber n), by
      rw [printExpr]
      exact .number _ _ _ (numberTok_of (afterExpr_not_num hc) (h (.number n) (by simp [exprLeaves])) r), by
      have : forgetNumber (forgetNumber n) = forgetNumber n := by
        simp only [forgetNumber, Option.map_map]
        rfl
      simp only [forgetExpr, this]⟩
  | .boolean true, _, c, r, _ => ⟨.boolean true, .true _, rfl⟩
  | .boolean false, _, c, r, _ => ⟨.boolean false, .false _, rfl⟩
  | .string s, _, c, r, _ => ⟨.string (.ownedS s.str), by
      rw [printExpr]; exact .string _ _ _ (.quoted _ _ _ (quoted_quote' _ _)), rfl⟩
  | .tuple es, h, c, r, _ => by
      obtain ⟨es', h1, h2⟩ := printTuple_read es (by simpa only [exprLeaves] using h) (c :: r)
      refine ⟨.tuple es', ?_, by simp only [forgetExpr, h2]⟩
      have := IsExpr.tuple _ _ _ h1
      simpa [printExpr] using this
  | .object es, h, c, r, _ => by
      obtain ⟨es', h1, h2⟩ := printObject_read es (by simpa only [exprLeaves] using h) (c :: r)
      refine ⟨.object es', ?_, by simp only [forgetExpr, h2]⟩
      have := IsExpr.object _ _ _ _ (.refl (not_starts_layout (by decide))) h1
      simpa [printExpr] using this
/-- Tuples are read back. -/
theorem printTuple_read : ∀ (es : List Expr), (∀ l ∈ tupleLeaves es, LeafPrintable U l) → ∀ (r : Str),
    ∃ es', IsTupleBody U (printTuple es ++ ']' :: r) es' r ∧ forgetTuple es' = forgetTuple es
  | [], _, r => ⟨[], .empty _ _ (.close _ _ (.refl (not_starts_layout (by decide)))), rfl⟩
  | e :: es, h, r => by
      simp only [tupleLeaves] at h
      have he : ∀ l ∈ exprLeaves e, LeafPrintable U l := fun l hl => h l (by simp [hl])
      have hes : ∀ l ∈ tupleLeaves es, LeafPrintable U l := fun l hl => h l (by simp [hl])
      obtain ⟨es', k1, k2⟩ := printTuple_read es hes r
      cases es with
      | nil =>
        obtain ⟨e', h1, h2⟩ := printExpr_read e he ']' r (by simp [AfterExpr])
        refine ⟨[e'], ?_, by simp only [forgetTuple, h2]⟩
        rw [printTuple]
        exact .elems _ _ _ _ _ _ (.refl (not_starts_head (printExpr_head he _))) h1
          (.last _ _ (.close _ _ (.refl (not_starts_layout (by decide)))))
      | cons f es =>
        obtain ⟨e', h1, h2⟩ := printExpr_read e he ',' (' ' :: (printTuple (f :: es) ++ ']' :: r)) (by simp [AfterExpr])
        cases k1 with
        | empty => cases k2
        | elems =>
          rename_i t u f' es' k4 k3 k5
          refine ⟨e' :: f' :: es', ?_, by rw [forgetTuple, h2, k2, ← forgetTuple]⟩
          have k6 : SkipLayout (' ' :: (printTuple (f :: es) ++ ']' :: r)) t := Skip.prepend blank_layout k3
          rw [printTuple, List.append_assoc]
          exact .elems _ _ _ _ _ _ (.refl (not_starts_head (printExpr_head he _))) h1
            (.more _ _ _ _ _ _ _ (.refl (not_starts_layout (by decide))) k6 k4 k5)
/-- Objects are read back. -/
theorem printObject_read : ∀ (es : List (ObjKey × Expr)), (∀ l ∈ objectLeaves es, LeafPrintable U l) → ∀ (r : Str),
    ∃ es', IsObjectBody U (printObject es ++ '}' :: r) es' r ∧ forgetObject es' = forgetObject es
  | [], _, r => ⟨[], .close _ _ (.refl (not_starts_layout (by decide))), rfl⟩
  | (k, e) :: es, h, r => by
      simp only [objectLeaves] at h
      have hk : LeafPrintable U (.key k) := h _ (by simp)
      have he : ∀ l ∈ exprLeaves e, LeafPrintable U l := fun l hl => h l (by simp [hl])
      have hes : ∀ l ∈ objectLeaves es, LeafPrintable U l := fun l hl => h l (by simp [hl])
      have hfk : forgetKey (forgetKey k) = forgetKey k := by cases k <;> rfl
      obtain ⟨es', k1, k2⟩ := printObject_read es hes r
      cases es with
      | nil =>
        obtain ⟨e', h1, h2⟩ := printExpr_read e he '}' r (by simp [AfterExpr])
        refine ⟨[(forgetKey k, e')], ?_, by simp only [forgetObject, h2, hfk]⟩
        obtain ⟨h3, h4⟩ := printKey_read hk ('=' :: ' ' :: (printExpr e ++ '}' :: r))
        have := IsObjectBody.elem _ _ _ _ _ _ _ _ _ _ _ _ (.refl (not_starts_head h4)) h3
          (skip_blank_inline ⟨_, _, rfl, by decide⟩) (skip_blank_inline (printExpr_head he _)) h1
          (.refl (not_starts_inline (not_starts_layout (by decide)))) (.close _)
          (.close _ _ (.refl (not_starts_layout (by decide))))
        simpa [printObject] using this
      | cons f es =>
        obtain ⟨e', h1, h2⟩ := printExpr_read e he ',' (' ' :: (printObject (f :: es) ++ '}' :: r)) (by simp [AfterExpr])
        refine ⟨(forgetKey k, e') :: es', ?_, by rw [forgetObject, h2, hfk, k2, ← forgetObject]⟩
        obtain ⟨h3, h4⟩ := printKey_read hk ('=' :: ' ' :: (printExpr e ++ ',' :: ' ' :: (printObject (f :: es) ++ '}' :: r)))
        have k6 : IsObjectBody U (' ' :: (printObject (f :: es) ++ '}' :: r)) es' r := by
          cases k1 with
          | close => exact .close _ _ (Skip.prepend blank_layout ‹_›)
          | elem => exact .elem _ _ _ _ _ _ _ _ _ _ _ _ (Skip.prepend blank_layout ‹SkipLayout _ _›) ‹_› ‹_› ‹_› ‹_› ‹_› ‹_› ‹_›
        have := IsObjectBody.elem _ _ _ _ _ _ _ _ _ _ _ _ (.refl (not_starts_head h4)) h3
          (skip_blank_inline ⟨_, _, rfl, by decide⟩) (skip_blank_inline (printExpr_head he _)) h1
          (.refl (not_starts_inline (not_starts_layout (by decide)))) (.comma _) k6
        simpa [printObject] using this
end

/-- Labels are read back. -/
theorem printLabel_read {l : BlockLabel} (h : LeafPrintable U (.label l)) (r : Str) :
    IsLabel U (printLabel l ++ ' ' :: r) (forgetLabel l) (' ' :: r) ∧
      Head (fun c => ¬ LayoutStart c) (printLabel l ++ ' ' :: r) := by
  cases l with
  | stringLiteral s => exact ⟨.string _ _ _ (quoted_quoteLine _ _), '"', _, rfl, by decide⟩
  | identifier s =>
    have hi : Ident U (s.str ++ ' ' :: r) s.str (' ' :: r) :=
      ⟨rfl, h, by rw [head_cons]; exact not_identChar (by decide) (by decide)⟩
    exact ⟨.ident _ _ _ hi, ident_start hi⟩

theorem printLabels_read : ∀ (ls : List BlockLabel), (∀ l ∈ ls, LeafPrintable U (.label l)) → ∀ r : Str,
    IsLabels U (ls.flatMap (fun l => ' ' :: printLabel l) ++ ' ' :: '{' :: r) (ls.map forgetLabel) r
  | [], _, r => .open _ _ (skip_blank_inline ⟨_, _, rfl, by decide⟩)
  | l :: ls, h, r => by
    have ih := printLabels_read ls (fun l hl => h l (by simp [hl])) r
    obtain ⟨t, ht⟩ : ∃ t, ls.flatMap (fun l => ' ' :: printLabel l) ++ ' ' :: '{' :: r = ' ' :: t := by
      cases ls with
      | nil => exact ⟨_, rfl⟩
      | cons l ls => exact ⟨_, rfl⟩
    rw [ht] at ih
    obtain ⟨h1, h2⟩ := printLabel_read (h l (by simp)) t
    have := IsLabels.label _ _ _ _ _ _ (skip_blank_inline h2) h1 ih
    rw [List.map_cons, List.flatMap_cons, List.append_assoc, ht]
    simpa using this

theorem forgetLabel_idem (l : BlockLabel) : forgetLabel (forgetLabel l) = forgetLabel l := by cases l <;> rfl

theorem newlines_nl (r : Str) : Newlines ('\n' :: r) r := ⟨['\n'], [], .eol _ .lf, .nil, rfl⟩

mutual
/-- Elements are read back. -/
theorem printElement_read : ∀ (el : BodyElement), (∀ l ∈ elementLeaves el, LeafPrintable U l) → ∀ r : Str,
    ∃ el', IsElement U (printElement el ++ r) el' ('\n' :: r) ∧ forgetElement el' = forgetElement el
  | .attribute k e, h, r => by
      simp only [elementLeaves] at h
      have hk : IsIdent U k.str := h (.name k) (by simp)
      have he : ∀ l ∈ exprLeaves e, LeafPrintable U l := fun l hl => h l (by simp [hl])
      obtain ⟨e', h1, h2⟩ := printExpr_read e he '\n' r (by simp [AfterExpr])
      refine ⟨.attribute (.borrowed k.str) e', ?_, by simp only [forgetElement, h2]; rfl⟩
      have hi : Ident U (k.str ++ ' ' :: '=' :: ' ' :: (printExpr e ++ '\n' :: r)) k.str
          (' ' :: '=' :: ' ' :: (printExpr e ++ '\n' :: r)) :=
        ⟨rfl, hk, by rw [head_cons]; exact not_identChar (by decide) (by decide)⟩
      have := IsElement.attribute _ _ _ _ (IsAttribute.mk _ _ _ _ _ _ _ _ hi (skip_blank_inline ⟨_, _, rfl, by decide⟩)
        (skip_blank_inline (printExpr_head he _)) h1 (.refl not_inline_nl))
      simpa [printElement] using this
  | .block t ls b, h, r => by
      simp only [elementLeaves] at h
      have ht : IsIdent U t.str := h (.name t) (by simp)
      have hls : ∀ l ∈ ls, LeafPrintable U (.label l) := fun l hl => h _ (by simp [hl])
      have hb : ∀ l ∈ bodyLeaves b, LeafPrintable U l := fun l hl => h l (by simp [hl])
      obtain ⟨b', h1, h2⟩ := printBody_read b hb ('}' :: '\n' :: r) (not_starts_layout (by decide))
      refine ⟨.block (.borrowed t.str) (ls.map forgetLabel) b', ?_, ?_⟩
      · have hl := printLabels_read ls hls ('\n' :: (printBody b ++ '}' :: '\n' :: r))
        obtain ⟨x, hx⟩ : ∃ x, ls.flatMap (fun l => ' ' :: printLabel l) ++ ' ' :: '{' ::
            ('\n' :: (printBody b ++ '}' :: '\n' :: r)) = ' ' :: x := by
          cases ls with
          | nil => exact ⟨_, rfl⟩
          | cons l ls => exact ⟨_, rfl⟩
        rw [hx] at hl
        have hi : Ident U (t.str ++ ' ' :: x) t.str (' ' :: x) :=
          ⟨rfl, ht, by rw [head_cons]; exact not_identChar (by decide) (by decide)⟩
        have := IsElement.block _ _ _ _ _ _ _ _ _ _ hi hl (.refl not_inline_nl) (newlines_nl _) h1
          (.refl not_inline_nl)
        rw [← hx] at this
        simpa [printElement] using this
      · simp only [forgetElement, List.map_map, h2]
        congr 1
        exact List.map_congr_left fun l _ => forgetLabel_idem l
/-- Bodies are read back. -/
theorem printBody_read : ∀ (b : List BodyElement), (∀ l ∈ bodyLeaves b, LeafPrintable U l) → ∀ r : Str,
    ¬ Starts LayoutItem r → ∃ b', IsBody U (printBody b ++ r) b' r ∧ forgetBody b' = forgetBody b
  | [], _, r, hr => ⟨[], .done _ _ (.refl hr), rfl⟩
  | el :: els, h, r, hr => by
      simp only [bodyLeaves] at h
      have he : ∀ l ∈ elementLeaves el, LeafPrintable U l := fun l hl => h l (by simp [hl])
      have hes : ∀ l ∈ bodyLeaves els, LeafPrintable U l := fun l hl => h l (by simp [hl])
      obtain ⟨els', k1, k2⟩ := printBody_read els hes r hr
      obtain ⟨el', h1, h2⟩ := printElement_read el he (printBody els ++ r)
      refine ⟨el' :: els', ?_, by rw [forgetBody, h2, k2, ← forgetBody]⟩
      rw [printBody, List.append_assoc]
      exact .elem _ _ _ _ _ _ _ (.refl (not_starts_head (isElement_start h1))) h1 (.newline _ _ (newlines_nl _)) k1
end

theorem not_starts_nil : ¬ Starts LayoutItem [] := by
  rintro ⟨i, t, hi, he⟩
  obtain ⟨c, u, h, _⟩ := layoutItem_head (t := t) hi
  rw [← he] at h; cases h

theorem printBody_document {b : Body} (h : Printable U b) :
    ∃ b', Document U (printBody b) b' ∧ forgetBody b' = forgetBody b := by
  obtain ⟨b', h1, h2⟩ := printBody_read b h [] not_starts_nil
  exact ⟨b', by rw [List.append_nil] at h1; exact h1, h2⟩

/-! ## what is read can be printed -/

/-- All leaves can be written down. -/
abbrev AllPrintable (U : CharClass) (ls : List Leaf) : Prop := ∀ l ∈ ls, LeafPrintable U l

theorem allPrintable_cons {a : Leaf} {ls : List Leaf} (h : LeafPrintable U a) (h' : AllPrintable U ls) :
    AllPrintable U (a :: ls) := fun l hl => by
  rcases List.mem_cons.1 hl with rfl | hl
  · exact h
  · exact h' l hl

theorem allPrintable_append {as bs : List Leaf} (h : AllPrintable U as) (h' : AllPrintable U bs) :
    AllPrintable U (as ++ bs) := fun l hl => by
  rcases List.mem_append.1 hl with hl | hl
  · exact h l hl
  · exact h' l hl

theorem allPrintable_nil : AllPrintable U [] := fun _ h => by cases h

theorem isNumber_forget {t : Str} {n : Number} (h : IsNumber t n) : IsNumber n.input.str (forgetNumber n) := by
  cases h with
  | mk sg m x pos w f e h1 h2 h3 =>
    have := IsNumber.mk sg m x pos w f e h1 h2 h3
    have he : forgetNumber {
        input := .borrowed (sg ++ m ++ x)
        positive := pos
        whole := w.map .borrowed
        fraction := f.map .borrowed
        exponent := e.map fun p => ⟨p.1, .borrowed p.2⟩ } = {
        input := .borrowed (sg ++ m ++ x)
        positive := pos
        whole := w.map .borrowed
        fraction := f.map .borrowed
        exponent := e.map fun p => ⟨p.1, .borrowed p.2⟩ } := by
      cases w <;> cases f <;> cases e <;> rfl
    rw [he]
    exact this

theorem inline_to_eq_not_eol {u v : Str} (h : SkipInline u ('=' :: v)) : ¬ StartsEol u := by
  rintro ⟨e, t, he, rfl⟩
  have h1 : ¬ Starts InlineItem (e ++ t) := by
    cases he
    · exact not_inline_nl
    · exact not_inline_of (by decide) (by decide) (by decide)
  have := skip_eq_of_not_starts h h1
  cases he <;> cases this

theorem objectKey_printable {s t u v : Str} {k : ObjKey} (h1 : SkipLayout s t) (h2 : IsObjectKey U t k u)
    (h3 : SkipInline u ('=' :: v)) : LeafPrintable U (.key k) := by
  have hn := h1.not_starts
  have hs := objectKey_start h2 hn
  cases h2 with
  | ident =>
    have hi : Ident U _ _ _ := ‹_›
    exact hi.2.1
  | expr =>
    rename_i t e hh he
    obtain ⟨p, hp, hr⟩ := isExpr_replace he
    have hp := List.append_cancel_right hp
    subst hp
    have he' := hr [] (Compat.nil (inline_to_eq_not_eol h3))
    rw [List.append_nil] at he'
    have ht : t ≠ [] := by
      obtain ⟨w, hw, h⟩ := isExpr_consumes he
      rwa [List.append_cancel_right h]
    refine ⟨⟨e, he'⟩, ?_, ?_⟩
    · rintro ⟨c, w, hw, hc⟩
      change t = c :: w at hw
      exact hh ⟨c, w ++ u, by rw [hw]; rfl, hc⟩
    · rintro ⟨i, w, hi, hw⟩
      change t = i ++ w at hw
      exact hn ⟨i, w ++ u, hi, by rw [hw]; simp⟩

theorem isExpr_printable {s r : Str} {e : Expr} (h : IsExpr U s e r) : AllPrintable U (exprLeaves e) := by
  refine IsExpr.rec (motive_1 := fun _ e _ _ => AllPrintable U (exprLeaves e))
    (motive_2 := fun _ es _ _ => AllPrintable U (tupleLeaves es))
    (motive_3 := fun _ es _ _ => AllPrintable U (tupleLeaves es))
    (motive_4 := fun _ _ _ _ => True)
    (motive_5 := fun _ es _ _ => AllPrintable U (objectLeaves es))
    ?_ ?_ ?_ ?_ ?_ ?_ ?_ ?_ ?_ ?_ ?_ ?_ ?_ ?_ ?_ ?_ h
  · intro _; exact allPrintable_nil
  · intro _; exact allPrintable_nil
  · intro _; exact allPrintable_nil
  · intro s n r h
    obtain ⟨t, rfl, h, -⟩ := h
    exact allPrintable_cons (isNumber_forget h) allPrintable_nil
  · intro s v r _; exact allPrintable_cons trivial allPrintable_nil
  · intro s es r _ ih; exact ih
  · intro s t es r _ _ ih; exact ih
  · intro s t u v e r _ _ _ _ ih; exact ih
  · intro _ _ _; exact allPrintable_nil
  · intro s t u e es r _ _ _ ih1 ih2; exact allPrintable_append ih1 ih2
  · intro _ _ _; exact allPrintable_nil
  · intro s t u v e es r _ _ _ _ ih1 ih2; exact allPrintable_append ih1 ih2
  · intros; trivial
  · intros; trivial
  · intro _ _ _; exact allPrintable_nil
  · intro s t u v w x y z k e es r h1 h2 h3 h4 h5 h6 h7 _ _ ih2 ih3
    exact allPrintable_cons (objectKey_printable h1 h2 h3) (allPrintable_append ih2 ih3)

theorem isAttribute_printable {s r : Str} {k : CowStr} {e : Expr} (h : IsAttribute U s k e r) :
    AllPrintable U (.name k :: exprLeaves e) := by
  obtain ⟨i, t, u, v, w, rfl, h1, h2, h3, h4⟩ : ∃ i t u v w, k = .borrowed i ∧ Ident U s i t ∧ SkipInline t ('=' :: u) ∧
      SkipInline u v ∧ IsExpr U v e w := by
    cases h; exact ⟨_, _, _, _, _, rfl, ‹_›, ‹_›, ‹_›, ‹_›⟩
  exact allPrintable_cons h1.2.1 (isExpr_printable h4)

theorem isLabels_printable {s r : Str} {ls : List BlockLabel} (h : IsLabels U s ls r) :
    AllPrintable U (ls.map .label) := by
  induction h with
  | «open» s r h => exact allPrintable_nil
  | label s t u l ls r h1 h2 _ ih =>
    refine allPrintable_cons ?_ ih
    cases h2 with
    | ident i h => exact ‹Ident U _ _ _›.2.1
    | string v h => trivial

theorem isBody_printable {s r : Str} {b : Body} (h : IsBody U s b r) : AllPrintable U (bodyLeaves b) := by
  refine IsBody.rec (motive_1 := fun _ b _ _ => AllPrintable U (bodyLeaves b))
    (motive_2 := fun _ el _ _ => AllPrintable U (elementLeaves el))
    ?_ ?_ ?_ ?_ ?_ ?_ h
  · intro _ _ _; exact allPrintable_nil
  · intro s t u v el els r _ _ _ _ ih1 ih2; exact allPrintable_append ih1 ih2
  · intro s k e r h; exact isAttribute_printable h
  · intro s i t u v r ls h1 h2 _ _
    exact allPrintable_cons h1.2.1 (allPrintable_append (isLabels_printable h2) allPrintable_nil)
  · intro s i t u u' v r ls k e h1 h2 _ h4 _
    refine allPrintable_cons h1.2.1 (allPrintable_append (isLabels_printable h2) ?_)
    have := isAttribute_printable h4
    simpa [bodyLeaves, elementLeaves] using this
  · intro s i t u u' v w r ls b h1 h2 _ _ _ _ ih
    exact allPrintable_cons h1.2.1 (allPrintable_append (isLabels_printable h2) ih)

/-! ## printing ignores ownership -/

theorem printKey_forget (k : ObjKey) : printKey (forgetKey k) = printKey k := by cases k <;> rfl

mutual
theorem printExpr_forget : ∀ e : Expr, printExpr (forgetExpr e) = printExpr e
  | .null => rfl
  | .number n => by simp only [forgetExpr, printExpr]; rfl
  | .boolean true => rfl
  | .boolean false => rfl
  | .string s => by simp only [forgetExpr, printExpr]; rfl
  | .tuple es => by simp only [forgetExpr, printExpr, printTuple_forget es]
  | .object es => by simp only [forgetExpr, printExpr, printObject_forget es]
theorem printTuple_forget : ∀ es : List Expr, printTuple (forgetTuple es) = printTuple es
  | [] => rfl
  | [e] => by simp only [forgetTuple, printTuple, printExpr_forget e]
  | e :: f :: es => by
      have := printTuple_forget (f :: es)
      simp only [forgetTuple] at this
      simp only [forgetTuple, printTuple, printExpr_forget e, this]
theorem printObject_forget : ∀ es : List (ObjKey × Expr), printObject (forgetObject es) = printObject es
  | [] => rfl
  | [(k, e)] => by simp only [forgetObject, printObject, printExpr_forget e, printKey_forget]
  | (k, e) :: (k', f) :: es => by
      have := printObject_forget ((k', f) :: es)
      simp only [forgetObject] at this
      simp only [forgetObject, printObject, printExpr_forget e, printKey_forget, this]
end

theorem printLabel_forget (l : BlockLabel) : printLabel (forgetLabel l) = printLabel l := by cases l <;> rfl

mutual
theorem printElement_forget : ∀ el : BodyElement, printElement (forgetElement el) = printElement el
  | .attribute k e => by simp only [forgetElement, printElement, printExpr_forget e]; rfl
  | .block t ls b => by
      simp only [forgetElement, printElement, printBody_forget b, List.flatMap_map, printLabel_forget]; rfl
theorem printBody_forget : ∀ b : List BodyElement, printBody (forgetBody b) = printBody b
  | [] => rfl
  | el :: els => by simp only [forgetBody, printBody, printElement_forget el, printBody_forget els]
end

end Verif
