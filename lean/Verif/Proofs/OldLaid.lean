import Verif.Spec.OldLaid
import Verif.Proofs.Laid
import Verif.Proofs.OldPrint
/-! # Layout may be chosen freely: the legacy parser -/
set_option autoImplicit false

namespace Verif
open PRes Spec

section
variable {U : CharClass} {P : F64Parse}

/-! ## Putting texts together -/

theorem isValue_layout {s t r : Str} {v : Value} (h : SkipLayout s t) (hv : IsValue U P s v r) : IsValue U P t v r := by
  rcases isValue_start hv with hs | ⟨c, u, rfl, hc⟩
  · have hl : ¬ Head (fun c => ¬ LayoutStart c) s := by
      obtain ⟨i, t, hi, rfl⟩ := hs
      exact not_head (layoutItem_head hi) fun c hc hn => hn hc
    cases hv with
    | null => exact absurd ⟨_, _, rfl, by decide⟩ hl
    | true => exact absurd ⟨_, _, rfl, by decide⟩ hl
    | false => exact absurd ⟨_, _, rfl, by decide⟩ hl
    | number t n v r hk =>
      obtain ⟨x, e, hn, -⟩ := hk
      refine absurd ?_ hl
      rw [e]
      exact number_head_nl hn r
    | string =>
      rename_i w hk
      refine absurd ?_ hl
      cases hk with
      | quoted => rename_i h; obtain ⟨src, rfl, -⟩ := h; exact ⟨_, _, rfl, by decide⟩
      | heredoc => rename_i h; obtain ⟨t, rfl⟩ := h.head; exact ⟨_, _, rfl, by decide⟩
    | list => exact absurd ⟨_, _, rfl, by decide⟩ hl
    | map =>
      rename_i x es h1 h2
      have := h.functional layoutItem_prefix h1
      subst this
      exact .map _ _ _ _ h.again h2
  · have : c :: u = t := skip_eq_of_not_starts h (not_starts_layout hc)
    rw [← this]; exact hv

theorem isValue_inline {s t r : Str} {v : Value} (h : SkipInline s t) (hv : IsValue U P s v r) : IsValue U P t v r := by
  rcases isValue_start hv with hs | ⟨c, u, rfl, hc⟩
  · have hl : ¬ Head (fun c => ¬ LayoutStart c) s := by
      obtain ⟨i, t, hi, rfl⟩ := hs
      exact not_head (layoutItem_head hi) fun c hc hn => hn hc
    cases hv with
    | null => exact absurd ⟨_, _, rfl, by decide⟩ hl
    | true => exact absurd ⟨_, _, rfl, by decide⟩ hl
    | false => exact absurd ⟨_, _, rfl, by decide⟩ hl
    | number t n v r hk =>
      obtain ⟨x, e, hn, -⟩ := hk
      refine absurd ?_ hl
      rw [e]
      exact number_head_nl hn r
    | string =>
      rename_i w hk
      refine absurd ?_ hl
      cases hk with
      | quoted => rename_i h; obtain ⟨src, rfl, -⟩ := h; exact ⟨_, _, rfl, by decide⟩
      | heredoc => rename_i h; obtain ⟨t, rfl⟩ := h.head; exact ⟨_, _, rfl, by decide⟩
    | list => exact absurd ⟨_, _, rfl, by decide⟩ hl
    | map =>
      rename_i x es h1 h2
      exact .map _ _ _ _ (layout_of_inline' h h1) h2
  · have : c :: u = t := skip_eq_of_not_starts h (not_starts_inline (not_starts_layout hc))
    rw [← this]; exact hv

theorem layout_then_value {l s r : Str} {v : Value} (hl : Seq LayoutItem l) (h : IsValue U P s v r) :
    ∃ t, SkipLayout (l ++ s) t ∧ IsValue U P t v r := by
  obtain ⟨t, ht⟩ := skipLayout_total s
  exact ⟨t, ht.prepend hl, isValue_layout ht h⟩

theorem inline_then_value {l s r : Str} {v : Value} (hl : Seq InlineItem l) (h : IsValue U P s v r) :
    ∃ t, SkipInline (l ++ s) t ∧ IsValue U P t v r := by
  obtain ⟨t, ht⟩ := skipInline_total s
  exact ⟨t, ht.prepend hl, isValue_inline ht h⟩

theorem laidOldKey_isKey {k : Key} {s : Str} (h : LaidOldKey U k s) {r : Str} (hr : ¬ Head (IdentChar U) r) :
    IsKey U (s ++ r) k r := by
  cases h with
  | ident i hi => exact .ident _ _ _ ⟨rfl, hi, hr⟩
  | string src v hc => exact .string _ _ _ ⟨src, by simp, content_ext (r := ['"']) (by simp) hc⟩

theorem laidOldLabels_of {ls : List Str} {s : Str} (h : LaidOldLabels ls s) (r : Str) :
    IsStringLabels (s ++ r) ls r ∧ (¬ Head (IdentChar U) r → ¬ Head (IdentChar U) (s ++ r)) := by
  induction h with
  | nil => exact ⟨.nil _, fun h => h⟩
  | cons l src v s ls hl hc _ ih =>
    have e : l ++ '"' :: src ++ '"' :: s ++ r = l ++ ('"' :: (src ++ '"' :: (s ++ r))) := by simp
    rw [e]
    refine ⟨.cons _ _ _ _ _ _ (skip_append hl (not_inline_of (by decide) (by decide) (by decide))) ?_ ih.1, fun _ => ?_⟩
    · exact ⟨src, by simp, content_ext (r := ['"']) (by simp) hc⟩
    · exact inline_head hl (fun _ h => layoutStart_not_identChar h) (by rw [head_cons]; exact not_identChar (by decide) (by decide))

/-- The end of an entry, after inline layout. -/
theorem laidEntryEnd_of {n : Str} (h : LaidEntryEnd n) (r : Str) :
    (∃ u, SkipInline (n ++ r) u ∧ IsEntryEnd u r) ∧ ¬ Head NumChar (n ++ r) := by
  cases h with
  | comma l hl =>
    have e : l ++ [','] ++ r = l ++ ',' :: r := by simp
    rw [e]
    obtain ⟨u, hu⟩ := skipInline_total (l ++ ',' :: r)
    exact ⟨⟨u, hu, .comma _ _ (layout_of_inline' hu (skip_append hl (not_starts_layout (by decide))))⟩,
      layout_num hl (by simp [NumChar, IsDig]) _⟩
  | newline _ hn =>
    obtain ⟨u, h1, h2⟩ := inline_lineEnds (l := []) .nil hn r
    exact ⟨⟨u, h1, .newline _ _ h2⟩, lineEnds_num hn r⟩

/-- What follows matters only to a number, which it must not make longer. -/
theorem laidOld_is_ends :
    (∀ {h : Option Str} {v : Value} {t : Str}, LaidValue U P h v t → ∀ r, Next h r → NumberEnds t r → IsValue U P (t ++ r) v r) ∧
    (∀ {es : List (Key × Value)} {s : Str}, LaidEntries U P es s → ∀ r c q, IsEntries U P r c q → IsEntries U P (s ++ r) (es ++ c) q) ∧
    (∀ {h : Option Str} {k : Key} {v : Value} {s : Str}, LaidEntry U P h k v s → ∀ r x, SkipInline r x → Next h r →
      ¬ Head NumChar r → IsEntry U P (s ++ r) k v x) := by
  have null : ∀ r, Next none r → NumberEnds ['n', 'u', 'l', 'l'] r → IsValue U P (['n', 'u', 'l', 'l'] ++ r) .null r := fun r _ _ => .null _
  have true : ∀ r, Next none r → NumberEnds ['t', 'r', 'u', 'e'] r → IsValue U P (['t', 'r', 'u', 'e'] ++ r) (.boolean true) r := fun r _ _ => .true _
  have false : ∀ r, Next none r → NumberEnds ['f', 'a', 'l', 's', 'e'] r → IsValue U P (['f', 'a', 'l', 's', 'e'] ++ r) (.boolean false) r := fun r _ _ => .false _
  have number : ∀ (t : Str) (n : Number) (v : Value), IsNumber t n → NumberValue P t v →
      ∀ r, Next none r → NumberEnds t r → IsValue U P (t ++ r) v r :=
    fun t n v hn hv r _ hr => .number _ _ _ _ (hr _ hn) hv
  have quoted : ∀ (src v : Str), Content Plain src v ['"'] →
      ∀ r, Next none r → NumberEnds ('"' :: src ++ ['"']) r → IsValue U P ('"' :: src ++ ['"'] ++ r) (.string v) r :=
    fun src v hc r _ _ => .string _ (.ownedS v) _ (.quoted _ _ _ ⟨src, by simp, content_ext (r := ['"']) (by simp) hc⟩)
  have heredoc : ∀ (t e : Str) (v : CowStr), Eol e → Heredoc U (t ++ e) v e →
      ∀ r, Next (some e) r → NumberEnds t r → IsValue U P (t ++ r) (.string v.str) r := by
    intro t e v _ hh r hr _
    obtain ⟨y, rfl⟩ := hr e rfl
    have := heredoc_ext (y := y) hh
    rw [List.append_assoc] at this
    exact .string _ _ _ (.heredoc _ _ _ this)
  have list : ∀ (vs : List Value) (s : Str), LaidListBody U P vs s → (∀ r, IsListBody U P (s ++ r) vs r) →
      ∀ r, Next none r → NumberEnds ('[' :: s) r → IsValue U P ('[' :: s ++ r) (.list vs) r := fun vs s _ ih r _ _ => .list _ _ _ (ih r)
  have map : ∀ (l : Str) (es : List (Key × Value)) (s : Str), AnyLayout l → LaidEntries U P es s →
      (∀ r c q, IsEntries U P r c q → IsEntries U P (s ++ r) (es ++ c) q) →
      ∀ r, Next none r → NumberEnds (l ++ '{' :: s ++ ['}']) r → IsValue U P (l ++ '{' :: s ++ ['}'] ++ r) (.object [.unmerged es]) r := by
    intro l es s hl _ ih r _ _
    have e : l ++ '{' :: s ++ ['}'] ++ r = l ++ '{' :: (s ++ '}' :: r) := by simp
    rw [e]
    refine .map _ _ _ _ (skip_append hl (not_starts_layout (by decide))) ?_
    have := ih ('}' :: r) [] ('}' :: r) (.done _ _ (.refl (not_starts_layout (by decide))))
    simpa using this
  have empty : ∀ (s : Str), LaidTupleEnd s → ∀ r, IsListBody U P (s ++ r) [] r := fun s hs r => .empty _ _ (tupleEnd_of hs r).1
  have elems : ∀ (l t s : Str) (h : Option Str) (v : Value) (vs : List Value), AnyLayout l → LaidValue U P h v t →
      LaidListTail U P vs s → Next h s → (∀ r, Next h r → NumberEnds t r → IsValue U P (t ++ r) v r) →
      (∀ r, IsListTail U P (s ++ r) vs r ∧ ¬ Head NumChar (s ++ r)) → ∀ r, IsListBody U P (l ++ t ++ s ++ r) (v :: vs) r := by
    intro l t s h v vs hl _ _ hx ih ih' r
    obtain ⟨u, h1, h2⟩ := layout_then_value hl (ih (s ++ r) (hx.append r) (numberEnds_of (ih' r).2))
    refine .elems _ u _ _ _ _ ?_ h2 (ih' r).1
    simpa using h1
  have last : ∀ (s : Str), LaidTupleEnd s → ∀ r, IsListTail U P (s ++ r) [] r ∧ ¬ Head NumChar (s ++ r) :=
    fun s hs r => ⟨.last _ _ (tupleEnd_of hs r).1, (tupleEnd_of hs r).2⟩
  have more : ∀ (l m t s : Str) (h : Option Str) (v : Value) (vs : List Value), AnyLayout l → AnyLayout m → LaidValue U P h v t →
      LaidListTail U P vs s → Next h s → (∀ r, Next h r → NumberEnds t r → IsValue U P (t ++ r) v r) →
      (∀ r, IsListTail U P (s ++ r) vs r ∧ ¬ Head NumChar (s ++ r)) →
      ∀ r, IsListTail U P (l ++ ',' :: m ++ t ++ s ++ r) (v :: vs) r ∧ ¬ Head NumChar (l ++ ',' :: m ++ t ++ s ++ r) := by
    intro l m t s h v vs hl hm _ _ hx ih ih' r
    obtain ⟨u, h1, h2⟩ := layout_then_value hm (ih (s ++ r) (hx.append r) (numberEnds_of (ih' r).2))
    have e : l ++ ',' :: m ++ t ++ s ++ r = l ++ ',' :: (m ++ (t ++ (s ++ r))) := by simp
    rw [e]
    exact ⟨.more _ _ _ _ _ _ _ (skip_append hl (not_starts_layout (by decide))) h1 h2 (ih' r).1,
      layout_num hl (by simp [NumChar, IsDig]) _⟩
  have done : ∀ (l : Str), AnyLayout l → ∀ r c q, IsEntries U P r c q → IsEntries U P (l ++ r) ([] ++ c) q :=
    fun l hl r c q hb => isEntries_prepend hl hb
  have entry : ∀ (l s n t : Str) (h : Option Str) (k : Key) (v : Value) (es : List (Key × Value)), AnyLayout l →
      LaidEntry U P h k v s → LaidEntryEnd n → Next h n → LaidEntries U P es t →
      (∀ r x, SkipInline r x → Next h r → ¬ Head NumChar r → IsEntry U P (s ++ r) k v x) →
      (∀ r c q, IsEntries U P r c q → IsEntries U P (t ++ r) (es ++ c) q) →
      ∀ r c q, IsEntries U P r c q → IsEntries U P (l ++ s ++ n ++ t ++ r) ((k, v) :: es ++ c) q := by
    intro l s n t h k v es hl _ hn hx _ ih ih' r c q hb
    obtain ⟨⟨u, h1, h2⟩, h3⟩ := laidEntryEnd_of hn (t ++ r)
    have hel := ih (n ++ (t ++ r)) u h1 (hx.append _) h3
    have e : l ++ s ++ n ++ t ++ r = l ++ (s ++ (n ++ (t ++ r))) := by simp
    rw [e]
    obtain ⟨c, w, hw, hc⟩ := isEntry_start hel
    exact .entry _ _ _ _ _ _ _ _ (skip_append hl (by rw [hw]; exact not_starts_layout hc)) hel h2 (ih' r _ q hb)
  have attr : ∀ (ks l m t n : Str) (h : Option Str) (k : Key) (v : Value), LaidOldKey U k ks → AnyInline l → AnyInline m →
      LaidValue U P h v t → AnyInline n → (h ≠ none → n = []) → (∀ r, Next h r → NumberEnds t r → IsValue U P (t ++ r) v r) →
      ∀ r x, SkipInline r x → Next h r → ¬ Head NumChar r → IsEntry U P (ks ++ l ++ '=' :: m ++ t ++ n ++ r) k v x := by
    intro ks l m t n h k v hk hl hm _ hn h0 ih r x hx hnx hr
    have hnext : Next h (n ++ r) := by
      cases h with
      | none => exact .none _
      | some e => rw [h0 (by simp)]; exact hnx
    obtain ⟨w, h1, h2⟩ := inline_then_value hm (ih (n ++ r) hnext (numberEnds_of (inline_num hn hr)))
    have e : ks ++ l ++ '=' :: m ++ t ++ n ++ r = ks ++ (l ++ '=' :: (m ++ (t ++ (n ++ r)))) := by simp
    rw [e]
    exact .attribute _ _ _ w _ _ _ _ (laidOldKey_isKey hk (inline_head hl (fun _ h => layoutStart_not_identChar h)
      (by rw [head_cons]; exact not_identChar (by decide) (by decide))))
      (skip_append hl (not_inline_of (by decide) (by decide) (by decide))) h1 h2 (hx.prepend hn)
  have hinner : ∀ {es : List (Key × Value)} {s : Str} (w : Str), (∀ r c q, IsEntries U P r c q → IsEntries U P (s ++ r) (es ++ c) q) →
      IsEntries U P (s ++ '}' :: w) es ('}' :: w) := by
    intro es s w ih
    have := ih ('}' :: w) [] ('}' :: w) (.done _ _ (.refl (not_starts_layout (by decide))))
    simpa using this
  have hbrace : ∀ {l : Str} (s : Str), AnyLayout l → ¬ Head (IdentChar U) (l ++ '{' :: s) := fun s hl =>
    layout_head hl (fun _ h => layoutStart_not_identChar h) (by rw [head_cons]; exact not_identChar (by decide) (by decide))
  have emap : ∀ (i l s n : Str) (es : List (Key × Value)), IsIdent U i → AnyLayout l → LaidEntries U P es s → AnyInline n →
      (∀ r c q, IsEntries U P r c q → IsEntries U P (s ++ r) (es ++ c) q) → ∀ r x, SkipInline r x → Next none r →
      ¬ Head NumChar r → IsEntry U P (i ++ l ++ '{' :: s ++ '}' :: n ++ r) (.identifier (.borrowed i)) (.object [.unmerged es]) x := by
    intro i l s n es hi hl _ hn ih r x hx _ _
    have e : i ++ l ++ '{' :: s ++ '}' :: n ++ r = i ++ (l ++ '{' :: (s ++ '}' :: (n ++ r))) := by simp
    rw [e]
    exact .map _ _ _ _ _ _ _ ⟨rfl, hi, hbrace _ hl⟩ (skip_append hl (not_starts_layout (by decide))) (hinner _ ih) (hx.prepend hn)
  have eblock : ∀ (i ps l s n : Str) (ls : List Str) (es : List (Key × Value)), IsIdent U i → LaidOldLabels ls ps → ls ≠ [] →
      AnyLayout l → LaidEntries U P es s → AnyInline n →
      (∀ r c q, IsEntries U P r c q → IsEntries U P (s ++ r) (es ++ c) q) → ∀ r x, SkipInline r x → Next none r →
      ¬ Head NumChar r → IsEntry U P (i ++ ps ++ l ++ '{' :: s ++ '}' :: n ++ r) (.identifier (.borrowed i))
        (.block (.unmerged [(ls, .unmerged es)])) x := by
    intro i ps l s n ls es hi hps hne hl _ hn ih r x hx _ _
    have e : i ++ ps ++ l ++ '{' :: s ++ '}' :: n ++ r = i ++ (ps ++ (l ++ '{' :: (s ++ '}' :: (n ++ r)))) := by simp
    rw [e]
    obtain ⟨h1, h2⟩ := laidOldLabels_of (U := U) hps (l ++ '{' :: (s ++ '}' :: (n ++ r)))
    exact .block _ _ _ _ _ _ _ _ _ ⟨rfl, hi, h2 (hbrace _ hl)⟩ h1 hne (skip_append hl (not_starts_layout (by decide)))
      (hinner _ ih) (hx.prepend hn)
  refine ⟨fun hl => ?_, fun hl => ?_, fun hl => ?_⟩
  · exact LaidValue.rec
      (motive_1 := fun h v t _ => ∀ r, Next h r → NumberEnds t r → IsValue U P (t ++ r) v r)
      (motive_2 := fun vs s _ => ∀ r, IsListBody U P (s ++ r) vs r)
      (motive_3 := fun vs s _ => ∀ r, IsListTail U P (s ++ r) vs r ∧ ¬ Head NumChar (s ++ r))
      (motive_4 := fun es s _ => ∀ r c q, IsEntries U P r c q → IsEntries U P (s ++ r) (es ++ c) q)
      (motive_5 := fun h k v s _ => ∀ r x, SkipInline r x → Next h r → ¬ Head NumChar r → IsEntry U P (s ++ r) k v x)
      null true false number quoted heredoc list map empty elems last more done entry attr emap eblock hl
  · exact LaidEntries.rec
      (motive_1 := fun h v t _ => ∀ r, Next h r → NumberEnds t r → IsValue U P (t ++ r) v r)
      (motive_2 := fun vs s _ => ∀ r, IsListBody U P (s ++ r) vs r)
      (motive_3 := fun vs s _ => ∀ r, IsListTail U P (s ++ r) vs r ∧ ¬ Head NumChar (s ++ r))
      (motive_4 := fun es s _ => ∀ r c q, IsEntries U P r c q → IsEntries U P (s ++ r) (es ++ c) q)
      (motive_5 := fun h k v s _ => ∀ r x, SkipInline r x → Next h r → ¬ Head NumChar r → IsEntry U P (s ++ r) k v x)
      null true false number quoted heredoc list map empty elems last more done entry attr emap eblock hl
  · exact LaidEntry.rec
      (motive_1 := fun h v t _ => ∀ r, Next h r → NumberEnds t r → IsValue U P (t ++ r) v r)
      (motive_2 := fun vs s _ => ∀ r, IsListBody U P (s ++ r) vs r)
      (motive_3 := fun vs s _ => ∀ r, IsListTail U P (s ++ r) vs r ∧ ¬ Head NumChar (s ++ r))
      (motive_4 := fun es s _ => ∀ r c q, IsEntries U P r c q → IsEntries U P (s ++ r) (es ++ c) q)
      (motive_5 := fun h k v s _ => ∀ r x, SkipInline r x → Next h r → ¬ Head NumChar r → IsEntry U P (s ++ r) k v x)
      null true false number quoted heredoc list map empty elems last more done entry attr emap eblock hl

theorem laidOld_is :
    (∀ {h : Option Str} {v : Value} {t : Str}, LaidValue U P h v t → ∀ r, Next h r → ¬ Head NumChar r → IsValue U P (t ++ r) v r) ∧
    (∀ {es : List (Key × Value)} {s : Str}, LaidEntries U P es s → ∀ r c q, IsEntries U P r c q → IsEntries U P (s ++ r) (es ++ c) q) ∧
    (∀ {h : Option Str} {k : Key} {v : Value} {s : Str}, LaidEntry U P h k v s → ∀ r x, SkipInline r x → Next h r →
      ¬ Head NumChar r → IsEntry U P (s ++ r) k v x) :=
  ⟨fun h r hn hr => laidOld_is_ends.1 h r hn (numberEnds_of hr), laidOld_is_ends.2.1, laidOld_is_ends.2.2⟩

theorem laidOldDocument_document {es : List (Key × Value)} {s : Str} (h : LaidOldDocument U P es s) : OldDocument U P s es := by
  have h0 : IsEntries U P [] [] [] := .done _ _ (.refl not_starts_nil)
  cases h with
  | lines es s h => simpa [OldDocument] using laidOld_is.2.1 h [] [] [] h0
  | last es s k v t h he =>
    refine laidOld_is.2.1 h t [(k, v)] [] ?_
    have := laidOld_is.2.2 he [] [] (.refl (not_starts_inline not_starts_nil)) (.none _) Head.not_nil
    rw [List.append_nil] at this
    obtain ⟨c, u, rfl, hc⟩ := isEntry_start this
    exact .entry _ _ _ _ _ _ _ _ (.refl (not_starts_layout hc)) this .eof h0

/-! ## Taking texts apart -/

theorem isKey_laid {s r : Str} {k : Key} (h : IsKey U s k r) : ∃ p, s = p ++ r ∧ LaidOldKey U k p := by
  cases h with
  | ident => rename_i i h; obtain ⟨rfl, hi, -⟩ := h; exact ⟨i, rfl, .ident _ hi⟩
  | string =>
    rename_i v h; obtain ⟨src, rfl, hc⟩ := h
    exact ⟨'"' :: src ++ ['"'], by simp, .string _ _ (content_shrink (r := ['"']) (y := r) (by simp) hc)⟩

theorem stringLabels_laid {s r : Str} {ls : List Str} (h : IsStringLabels s ls r) : ∃ p, s = p ++ r ∧ LaidOldLabels ls p := by
  induction h with
  | nil s => exact ⟨[], rfl, .nil⟩
  | cons s t u l ls r h1 h2 _ ih =>
    obtain ⟨p, rfl, hp⟩ := ih
    obtain ⟨src, rfl, hc⟩ := h2
    obtain ⟨i, hi, rfl, -⟩ := h1
    exact ⟨i ++ '"' :: src ++ '"' :: p, by simp, .cons _ _ _ _ _ hi (content_shrink (r := ['"']) (y := p ++ r) (by simp) hc) hp⟩

theorem isEntries_nil {es : List (Key × Value)} {r : Str} (h : IsEntries U P [] es r) : es = [] ∧ r = [] := by
  cases h with
  | done =>
    rename_i h; obtain ⟨l, -, h, -⟩ := h
    simp at h; exact ⟨rfl, h.2⟩
  | entry =>
    exfalso
    rename_i t u w k v es h1 h2 h3 h4
    have k1 : SkipLayout [] t := ‹_›
    have k2 : IsEntry U P t k v u := ‹_›
    obtain ⟨l, -, h, -⟩ := k1
    obtain ⟨c, w, rfl, -⟩ := isEntry_start k2
    simp at h

theorem laidOldDocument_cons {l s n t : Str} {h : Option Str} {k : Key} {v : Value} {es : List (Key × Value)} (hl : AnyLayout l)
    (he : LaidEntry U P h k v s) (hn : LaidEntryEnd n) (hx : Next h n) (hb : LaidOldDocument U P es t) :
    LaidOldDocument U P ((k, v) :: es) (l ++ s ++ n ++ t) := by
  cases hb with
  | lines _ _ hb => exact .lines _ _ (.entry _ _ _ _ _ _ _ _ hl he hn hx hb)
  | last es s' k' v' t' hb he' =>
    have := LaidOldDocument.last _ _ _ _ _ (LaidEntries.entry l s n s' h k v es hl he hn hx hb) he'
    simpa using this

theorem isOld_laid :
    (∀ {s : Str} {v : Value} {r : Str}, IsValue U P s v r → ∃ t h, s = t ++ r ∧ LaidValue U P h v t ∧ Ending h r) ∧
    (∀ {s : Str} {es : List (Key × Value)} {r : Str}, IsEntries U P s es r →
      (∃ p, s = p ++ r ∧ LaidEntries U P es p) ∨ r = [] ∧ LaidOldDocument U P es s) ∧
    (∀ {s : Str} {k : Key} {v : Value} {r : Str}, IsEntry U P s k v r →
      ∃ p h, s = p ++ r ∧ LaidEntry U P h k v p ∧ Ending h r) := by
  refine old_induct
    (m1 := fun s v r => ∃ t h, s = t ++ r ∧ LaidValue U P h v t ∧ Ending h r)
    (m2 := fun s vs r => ∃ p, s = p ++ r ∧ LaidListBody U P vs p)
    (m3 := fun s vs r => ∃ p c, s = p ++ r ∧ LaidListTail U P vs p ∧ c ∈ p ∧ c ≠ '\r')
    (m4 := fun s es r => (∃ p, s = p ++ r ∧ LaidEntries U P es p) ∨ r = [] ∧ LaidOldDocument U P es s)
    (m5 := fun s k v r => ∃ p h, s = p ++ r ∧ LaidEntry U P h k v p ∧ Ending h r)
    ?_ ?_ ?_ ?_ ?_ ?_ ?_ ?_ ?_ ?_ ?_ ?_ ?_ ?_ ?_ ?_
  · intro r; exact ⟨_, _, rfl, .null, .none _⟩
  · intro r; exact ⟨_, _, rfl, .true, .none _⟩
  · intro r; exact ⟨_, _, rfl, .false, .none _⟩
  · rintro t n v r ⟨t', e, hn, -⟩ hv
    have := List.append_cancel_right e
    subst this
    exact ⟨t, _, rfl, .number _ _ _ hn hv, .none _⟩
  · intro s v r hv
    cases hv with
    | quoted =>
      rename_i v h
      obtain ⟨src, rfl, hc⟩ := h
      exact ⟨'"' :: src ++ ['"'], none, by simp, .quoted _ _ (content_shrink (r := ['"']) (y := r) (by simp) hc), .none _⟩
    | heredoc =>
      rename_i h
      obtain ⟨t, e, rfl, he, hp, hh⟩ := laidHeredoc_of h
      refine ⟨t, some e, rfl, .heredoc _ _ _ he hh, fun e' h => ?_, fun e' h => ?_⟩ <;> cases h
      · exact hp
      · exact he
  · rintro s vs r _ ⟨p, rfl, hp⟩; exact ⟨'[' :: p, none, rfl, .list _ _ hp, .none _⟩
  · rintro s t es r ⟨l, hl, rfl, -⟩ _ ih
    rcases ih with ⟨p, rfl, hp⟩ | ⟨h, -⟩
    · exact ⟨l ++ '{' :: p ++ ['}'], none, by simp, .map _ _ _ hl hp, .none _⟩
    · cases h
  · intro s r h
    obtain ⟨p, rfl, hp, -⟩ := laidTupleEnd_of h
    exact ⟨p, rfl, .empty _ hp⟩
  · rintro s t u v vs r ⟨l, hl, rfl, -⟩ _ _ ⟨p, h, rfl, hp, hx⟩ ⟨p', c, rfl, hp', hc, hr⟩
    exact ⟨l ++ p ++ p', by simp, .elems _ _ _ _ _ _ hl hp hp' (hx.shrink hc hr)⟩
  · intro s r h
    obtain ⟨p, rfl, hp, hc⟩ := laidTupleEnd_of h
    exact ⟨p, ']', rfl, .last _ hp, hc, by decide⟩
  · rintro s t u w v vs r ⟨l, hl, rfl, -⟩ ⟨m, hm, rfl, -⟩ _ _ ⟨p, h, rfl, hp, hx⟩ ⟨p', c, rfl, hp', hc, hr⟩
    exact ⟨l ++ ',' :: m ++ p ++ p', ',', by simp, .more _ _ _ _ _ _ _ hl hm hp hp' (hx.shrink hc hr), by simp, by decide⟩
  · rintro s r ⟨l, hl, rfl, -⟩; exact .inl ⟨l, rfl, .done _ hl⟩
  · rintro s t u w k v es r ⟨l, hl, rfl, -⟩ _ hend hb ⟨p, h, rfl, hp, hx⟩ ihb
    have key : ∀ n, u = n ++ w → LaidEntryEnd n → Next h n →
        (∃ p', l ++ (p ++ u) = p' ++ r ∧ LaidEntries U P ((k, v) :: es) p') ∨
          r = [] ∧ LaidOldDocument U P ((k, v) :: es) (l ++ (p ++ u)) := by
      rintro n rfl hn hnx
      rcases ihb with ⟨q, rfl, hq⟩ | ⟨rfl, hq⟩
      · exact .inl ⟨l ++ p ++ n ++ q, by simp, .entry _ _ _ _ _ _ _ _ hl hp hn hnx hq⟩
      · have := laidOldDocument_cons hl hp hn hnx hq
        exact .inr ⟨rfl, by simpa using this⟩
    cases hend with
    | comma =>
      rename_i hc
      obtain ⟨m, hm, rfl, -⟩ := hc
      exact key (m ++ [',']) (by simp) (.comma _ hm)
        (Ending.shrink (r := w) (c := ',') (by simpa using hx) (by simp) (by decide))
    | newline =>
      rename_i hnl
      obtain ⟨i, j, hi, hj, rfl⟩ := hnl
      refine key (i ++ j) rfl (.newline _ (.mk _ _ hi hj)) ?_
      obtain ⟨y, hy, -, -⟩ := newlines_replace (s := i ++ j) (r := []) ⟨i, j, hi, hj, by simp⟩
      exact Ending.shrink (r := w) (c := '\n') (by simpa using hx) (by rw [hy]; simp) (by decide)
    | eof =>
      obtain ⟨rfl, rfl⟩ := isEntries_nil hb
      have h0 : h = none := by
        cases h with
        | none => rfl
        | some e =>
          obtain ⟨q, hq⟩ := hx.next e rfl
          have he := hx.eol e rfl
          cases he <;> cases hq
      subst h0
      refine .inr ⟨rfl, ?_⟩
      have := LaidOldDocument.last _ _ _ _ _ (LaidEntries.done l hl) hp
      simpa using this
  · rintro s t u w x r k v hk ⟨l, hl, rfl, -⟩ ⟨m, hm, rfl, -⟩ _ ⟨n, hn, rfl, -⟩ ⟨p, h, rfl, hp, hx⟩
    obtain ⟨ks, rfl, hks⟩ := isKey_laid hk
    have h0 := fun hh => hx.no_inline hn hh
    refine ⟨ks ++ l ++ '=' :: m ++ p ++ n, h, by simp, .attribute _ _ _ _ _ _ _ _ hks hl hm hp hn h0, ?_⟩
    by_cases hh : h = none
    · subst hh; exact .none _
    · have := h0 hh; subst this; exact hx
  · rintro s i t u w r es ⟨rfl, hi, -⟩ ⟨l, hl, rfl, -⟩ _ ⟨n, hn, rfl, -⟩ ih
    rcases ih with ⟨p, rfl, hp⟩ | ⟨h, -⟩
    · exact ⟨i ++ l ++ '{' :: p ++ '}' :: n, none, by simp, .map _ _ _ _ _ hi hl hp hn, .none _⟩
    · cases h
  · rintro s i t u w x r ls es ⟨rfl, hi, -⟩ hls hne ⟨l, hl, rfl, -⟩ _ ⟨n, hn, rfl, -⟩ ih
    obtain ⟨ps, rfl, hps⟩ := stringLabels_laid hls
    rcases ih with ⟨p, rfl, hp⟩ | ⟨h, -⟩
    · exact ⟨i ++ ps ++ l ++ '{' :: p ++ '}' :: n, none, by simp, .block _ _ _ _ _ _ _ hi hps hne hl hp hn, .none _⟩
    · cases h

theorem oldDocument_laid {s : Str} {es : List (Key × Value)} (h : OldDocument U P s es) : LaidOldDocument U P es s := by
  rcases isOld_laid.2.1 h with ⟨p, rfl, hp⟩ | ⟨-, h⟩
  · rw [List.append_nil]; exact .lines _ _ hp
  · exact h

end
end Verif
