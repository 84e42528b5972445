import Verif.Spec.OldLineEnds
import Verif.Proofs.LineEndsDown
/-! # CR LF and LF in legacy documents -/
set_option autoImplicit false

namespace Verif
open Spec

section
variable {U : CharClass} {P : F64Parse}

theorem moreCrEntries_append {a a' b b' : List (Key × Value)} (h : MoreCrEntries a a') (h' : MoreCrEntries b b') :
    MoreCrEntries (a ++ b) (a' ++ b') := by
  induction a generalizing a' with
  | nil => cases h; exact h'
  | cons x a ih =>
    cases h with
    | cons k v v' _ es' h1 h2 => exact .cons _ _ _ _ _ h1 (ih h2)

/-! ## LF to CR LF -/

theorem oldKey_up {k : Key} {s : Str} (h : LaidOldKey U k s) : LaidOldKey U k (crlf s) := by
  cases h with
  | ident i hi => rw [crlf_id (ident_no_lf hi)]; exact .ident _ hi
  | string src v hc =>
    have : crlf src = src := crlf_id ((contentLine_no_lf hc).1)
    rw [crlf_append, crlf_cons (by decide), this]
    exact .string _ _ hc

theorem oldLabels_up {ls : List Str} {s : Str} (h : LaidOldLabels ls s) : LaidOldLabels ls (crlf s) := by
  induction h with
  | nil => exact .nil
  | cons l src v s ls hl hc _ ih =>
    have : crlf src = src := crlf_id ((contentLine_no_lf hc).1)
    simp only [crlf_append]
    rw [crlf_cons (c := '"') (by decide), crlf_cons (c := '"') (by decide), this]
    exact .cons _ _ _ _ _ (inline_up hl) hc ih

theorem entryEnd_up {n : Str} (h : LaidEntryEnd n) (hr : '\r' ∉ n) : LaidEntryEnd (crlf n) := by
  cases h with
  | comma l hl => rw [crlf_append]; exact .comma _ (layout_up hl (fun h => hr (by simp [h])))
  | newline _ hn => exact .newline _ (lineEnds_up hn hr)

def ValueCup (U : CharClass) (P : F64Parse) (h : Option Str) (v : Value) (t : Str) : Prop :=
  '\r' ∉ t → (∀ x, h = some x → '\r' ∉ x) → ∃ v', MoreCrValue v v' ∧ LaidValue U P (h.map crlf) v' (crlf t)
def ListCup (U : CharClass) (P : F64Parse) (vs : List Value) (s : Str) : Prop :=
  '\r' ∉ s → ∃ vs', MoreCrValues vs vs' ∧ LaidListBody U P vs' (crlf s)
def TailCup (U : CharClass) (P : F64Parse) (vs : List Value) (s : Str) : Prop :=
  '\r' ∉ s → ∃ vs', MoreCrValues vs vs' ∧ LaidListTail U P vs' (crlf s)
def EntriesCup (U : CharClass) (P : F64Parse) (es : List (Key × Value)) (s : Str) : Prop :=
  '\r' ∉ s → ∃ es', MoreCrEntries es es' ∧ LaidEntries U P es' (crlf s)
def EntryCup (U : CharClass) (P : F64Parse) (h : Option Str) (k : Key) (v : Value) (s : Str) : Prop :=
  '\r' ∉ s → (∀ x, h = some x → '\r' ∉ x) → ∃ v', MoreCrValue v v' ∧ LaidEntry U P (h.map crlf) k v' (crlf s)

theorem old_up : (∀ {h v t}, LaidValue U P h v t → ValueCup U P h v t) ∧ (∀ {es s}, LaidEntries U P es s → EntriesCup U P es s) ∧
    (∀ {h k v s}, LaidEntry U P h k v s → EntryCup U P h k v s) := by
  have c1 : ValueCup U P none .null ['n', 'u', 'l', 'l'] := by
    intro _ _; exact ⟨_, .null, .null⟩
  have c2 : ValueCup U P none (.boolean true) ['t', 'r', 'u', 'e'] := by
    intro _ _; exact ⟨_, .boolean _, .true⟩
  have c3 : ValueCup U P none (.boolean false) ['f', 'a', 'l', 's', 'e'] := by
    intro _ _; exact ⟨_, .boolean _, .false⟩
  have c4 : ∀ (t : Str) (n : Number) (v : Value), IsNumber t n → NumberValue P t v → ValueCup U P none v t := by
    intro t n v hn hv _ _
    rw [crlf_id (isNumber_no_nl (by decide) hn)]
    refine ⟨v, ?_, .number _ _ _ hn hv⟩
    cases hv
    · exact .integer _
    · exact .float _
  have c5 : ∀ (src v : Str), Content Plain src v ['"'] → ValueCup U P none (.string v) ('"' :: src ++ ['"']) := by
    intro src v hc _ _
    obtain ⟨v', h1, h2⟩ := content_up hc
    refine ⟨_, .string _ _ h1, ?_⟩
    rw [crlf_append, crlf_cons (by decide)]
    exact .quoted _ _ h2
  have c6 : ∀ (t e : Str) (v : CowStr), Eol e → Heredoc U (t ++ e) v e → ValueCup U P (some e) (.string v.str) t := by
    intro t e v he hh hr h0
    have hee := h0 e rfl
    obtain ⟨v', h1, h2⟩ := heredoc_up hh (by simp [hr, hee])
    rw [crlf_append] at h2
    refine ⟨_, .string _ _ ?_, .heredoc _ _ _ (eol_up he hee) h2⟩
    cases h1 <;> assumption
  have c7 : ∀ (vs : List Value) (s : Str), LaidListBody U P vs s → ListCup U P vs s → ValueCup U P none (.list vs) ('[' :: s) := by
    intro vs s _ ih hr _
    obtain ⟨es', h1, h2⟩ := ih (fun h => hr (by simp [h]))
    rw [crlf_cons (by decide)]
    exact ⟨_, .list _ _ h1, .list _ _ h2⟩
  have c8 : ∀ (l : Str) (es : List (Key × Value)) (s : Str), AnyLayout l → LaidEntries U P es s → EntriesCup U P es s →
      ValueCup U P none (.object [.unmerged es]) (l ++ '{' :: s ++ ['}']) := by
    intro l es s hl _ ih hr _
    obtain ⟨es', h1, h2⟩ := ih (fun h => hr (by simp [h]))
    simp only [crlf_append]
    rw [crlf_cons (c := '{') (by decide)]
    exact ⟨_, .map _ _ h1, .map _ _ _ (layout_up hl (fun h => hr (by simp [h]))) h2⟩
  have c9 : ∀ (s : Str), LaidTupleEnd s → ListCup U P [] s :=
    fun s hs hr => ⟨[], .nil, .empty _ (tupleEnd_up hs hr)⟩
  have c10 : ∀ (l t s : Str) (h : Option Str) (v : Value) (vs : List Value), AnyLayout l → LaidValue U P h v t →
      LaidListTail U P vs s → Next h s → ValueCup U P h v t → TailCup U P vs s → ListCup U P (v :: vs) (l ++ t ++ s) := by
    intro l t s h v vs hl _ _ hx ih1 ih2 hr
    have hs : '\r' ∉ s := fun h => hr (by simp [h])
    obtain ⟨e', h1, h2⟩ := ih1 (fun h => hr (by simp [h])) (next_no_cr hx hs)
    obtain ⟨es', h3, h4⟩ := ih2 (fun h => hr (by simp [h]))
    simp only [crlf_append]
    exact ⟨_, .cons _ _ _ _ h1 h3, .elems _ _ _ _ _ _ (layout_up hl (fun h => hr (by simp [h]))) h2 h4 (next_up hx)⟩
  have c11 : ∀ (s : Str), LaidTupleEnd s → TailCup U P [] s :=
    fun s hs hr => ⟨[], .nil, .last _ (tupleEnd_up hs hr)⟩
  have c12 : ∀ (l m t s : Str) (h : Option Str) (v : Value) (vs : List Value), AnyLayout l → AnyLayout m → LaidValue U P h v t →
      LaidListTail U P vs s → Next h s → ValueCup U P h v t → TailCup U P vs s → TailCup U P (v :: vs) (l ++ ',' :: m ++ t ++ s) := by
    intro l m t s h v vs hl hm _ _ hx ih1 ih2 hr
    have hs : '\r' ∉ s := fun h => hr (by simp [h])
    obtain ⟨e', h1, h2⟩ := ih1 (fun h => hr (by simp [h])) (next_no_cr hx hs)
    obtain ⟨es', h3, h4⟩ := ih2 (fun h => hr (by simp [h]))
    simp only [crlf_append]
    rw [crlf_cons (c := ',') (by decide)]
    exact ⟨_, .cons _ _ _ _ h1 h3, .more _ _ _ _ _ _ _ (layout_up hl (fun h => hr (by simp [h]))) (layout_up hm (fun h => hr (by simp [h]))) h2 h4 (next_up hx)⟩
  have c13 : ∀ (l : Str), AnyLayout l → EntriesCup U P [] l := fun l hl hr => ⟨[], .nil, .done _ (layout_up hl hr)⟩
  have c14 : ∀ (l s n t : Str) (h : Option Str) (k : Key) (v : Value) (es : List (Key × Value)), AnyLayout l →
      LaidEntry U P h k v s → LaidEntryEnd n → Next h n → LaidEntries U P es t → EntryCup U P h k v s → EntriesCup U P es t →
      EntriesCup U P ((k, v) :: es) (l ++ s ++ n ++ t) := by
    intro l s n t h k v es hl _ hn hx _ ih1 ih2 hr
    have hs : '\r' ∉ n := fun h => hr (by simp [h])
    obtain ⟨v', h1, h2⟩ := ih1 (fun h => hr (by simp [h])) (next_no_cr hx hs)
    obtain ⟨es', h3, h4⟩ := ih2 (fun h => hr (by simp [h]))
    simp only [crlf_append]
    exact ⟨_, .cons _ _ _ _ _ h1 h3, .entry _ _ _ _ _ _ _ _ (layout_up hl (fun h => hr (by simp [h]))) h2 (entryEnd_up hn hs) (next_up hx) h4⟩
  have c15 : ∀ (ks l m t n : Str) (h : Option Str) (k : Key) (v : Value), LaidOldKey U k ks → AnyInline l → AnyInline m →
      LaidValue U P h v t → AnyInline n → (h ≠ none → n = []) → ValueCup U P h v t →
      EntryCup U P h k v (ks ++ l ++ '=' :: m ++ t ++ n) := by
    intro ks l m t n h k v h1 h2 h3 _ h5 h6 ih hr h0
    obtain ⟨e', h7, h8⟩ := ih (fun h => hr (by simp [h])) h0
    refine ⟨e', h7, ?_⟩
    simp only [crlf_append]
    rw [crlf_cons (c := '=') (by decide)]
    refine .attribute _ _ _ _ _ _ _ _ (oldKey_up h1) (inline_up h2) (inline_up h3) h8 (inline_up h5) ?_
    intro hh
    rw [h6 (by rintro rfl; exact hh rfl)]; rfl
  have c16 : ∀ (i l s n : Str) (es : List (Key × Value)), IsIdent U i → AnyLayout l → LaidEntries U P es s → AnyInline n →
      EntriesCup U P es s → EntryCup U P none (.identifier (.borrowed i)) (.object [.unmerged es]) (i ++ l ++ '{' :: s ++ '}' :: n) := by
    intro i l s n es hi hl _ hn ih hr _
    obtain ⟨es', h1, h2⟩ := ih (fun h => hr (by simp [h]))
    simp only [crlf_append]
    rw [crlf_cons (c := '{') (by decide), crlf_cons (c := '}') (by decide), crlf_id (ident_no_lf hi)]
    exact ⟨_, .map _ _ h1, .map _ _ _ _ _ hi (layout_up hl (fun h => hr (by simp [h]))) h2 (inline_up hn)⟩
  have c17 : ∀ (i ps l s n : Str) (ls : List Str) (es : List (Key × Value)), IsIdent U i → LaidOldLabels ls ps → ls ≠ [] →
      AnyLayout l → LaidEntries U P es s → AnyInline n → EntriesCup U P es s →
      EntryCup U P none (.identifier (.borrowed i)) (.block (.unmerged [(ls, .unmerged es)])) (i ++ ps ++ l ++ '{' :: s ++ '}' :: n) := by
    intro i ps l s n ls es hi hp h0 hl _ hn ih hr _
    obtain ⟨es', h1, h2⟩ := ih (fun h => hr (by simp [h]))
    simp only [crlf_append]
    rw [crlf_cons (c := '{') (by decide), crlf_cons (c := '}') (by decide), crlf_id (ident_no_lf hi)]
    exact ⟨_, .block _ _ _ h1, .block _ _ _ _ _ _ _ hi (oldLabels_up hp) h0 (layout_up hl (fun h => hr (by simp [h]))) h2 (inline_up hn)⟩
  refine ⟨fun h => ?_, fun h => ?_, fun h => ?_⟩
  · exact LaidValue.rec (motive_1 := fun h v t _ => ValueCup U P h v t) (motive_2 := fun vs s _ => ListCup U P vs s)
      (motive_3 := fun vs s _ => TailCup U P vs s) (motive_4 := fun es s _ => EntriesCup U P es s)
      (motive_5 := fun h k v s _ => EntryCup U P h k v s) c1 c2 c3 c4 c5 c6 c7 c8 c9 c10 c11 c12 c13 c14 c15 c16 c17 h
  · exact LaidEntries.rec (motive_1 := fun h v t _ => ValueCup U P h v t) (motive_2 := fun vs s _ => ListCup U P vs s)
      (motive_3 := fun vs s _ => TailCup U P vs s) (motive_4 := fun es s _ => EntriesCup U P es s)
      (motive_5 := fun h k v s _ => EntryCup U P h k v s) c1 c2 c3 c4 c5 c6 c7 c8 c9 c10 c11 c12 c13 c14 c15 c16 c17 h
  · exact LaidEntry.rec (motive_1 := fun h v t _ => ValueCup U P h v t) (motive_2 := fun vs s _ => ListCup U P vs s)
      (motive_3 := fun vs s _ => TailCup U P vs s) (motive_4 := fun es s _ => EntriesCup U P es s)
      (motive_5 := fun h k v s _ => EntryCup U P h k v s) c1 c2 c3 c4 c5 c6 c7 c8 c9 c10 c11 c12 c13 c14 c15 c16 c17 h

theorem oldDocument_up {es : List (Key × Value)} {s : Str} (h : LaidOldDocument U P es s) (hr : '\r' ∉ s) :
    ∃ es', MoreCrEntries es es' ∧ LaidOldDocument U P es' (crlf s) := by
  cases h with
  | lines _ _ h =>
    obtain ⟨b', h1, h2⟩ := old_up.2.1 h hr
    exact ⟨b', h1, .lines _ _ h2⟩
  | last es s k v t h he =>
    obtain ⟨b', h1, h2⟩ := old_up.2.1 h (fun h => hr (by simp [h]))
    obtain ⟨v', h3, h4⟩ := old_up.2.2 he (fun h => hr (by simp [h])) (fun _ h => by cases h)
    refine ⟨b' ++ [(k, v')], moreCrEntries_append h1 (.cons _ _ _ _ _ h3 .nil), ?_⟩
    rw [crlf_append]
    exact .last _ _ _ _ _ h2 h4

/-! ## CR LF to LF -/

theorem oldKey_down {k : Key} {s : Str} (h : LaidOldKey U k s) : LaidOldKey U k (delCr s) := by
  cases h with
  | ident i hi => rw [delCr_id (ident_no_cr hi)]; exact .ident _ hi
  | string src v hc =>
    have : delCr src = src := delCr_id (contentLine_no_cr hc)
    rw [delCr_append, delCr_cons (by decide), this]
    exact .string _ _ hc

theorem oldLabels_down {ls : List Str} {s : Str} (h : LaidOldLabels ls s) (hf : Fit s) : LaidOldLabels ls (delCr s) := by
  induction h with
  | nil => exact .nil
  | cons l src v s ls hl hc _ ih =>
    have : delCr src = src := delCr_id (contentLine_no_cr hc)
    simp only [delCr_append]
    rw [delCr_cons (c := '"') (by decide), delCr_cons (c := '"') (by decide), this]
    exact .cons _ _ _ _ _ (inline_down hl hf.left.left) hc (ih hf.right.tail)

theorem entryEnd_down {n : Str} (h : LaidEntryEnd n) (hf : Fit n) : LaidEntryEnd (delCr n) := by
  cases h with
  | comma l hl => rw [delCr_append]; exact .comma _ (layout_down hl hf.left)
  | newline _ hn => exact .newline _ (lineEnds_down hn hf)

def ValueCdown (U : CharClass) (P : F64Parse) (h : Option Str) (v : Value) (t : Str) : Prop :=
  Fit (t ++ h.getD []) → ∃ v', MoreCrValue v' v ∧ LaidValue U P (h.map delCr) v' (delCr t)
def ListCdown (U : CharClass) (P : F64Parse) (vs : List Value) (s : Str) : Prop :=
  Fit s → ∃ vs', MoreCrValues vs' vs ∧ LaidListBody U P vs' (delCr s)
def TailCdown (U : CharClass) (P : F64Parse) (vs : List Value) (s : Str) : Prop :=
  Fit s → ∃ vs', MoreCrValues vs' vs ∧ LaidListTail U P vs' (delCr s)
def EntriesCdown (U : CharClass) (P : F64Parse) (es : List (Key × Value)) (s : Str) : Prop :=
  Fit s → ∃ es', MoreCrEntries es' es ∧ LaidEntries U P es' (delCr s)
def EntryCdown (U : CharClass) (P : F64Parse) (h : Option Str) (k : Key) (v : Value) (s : Str) : Prop :=
  Fit (s ++ h.getD []) → ∃ v', MoreCrValue v' v ∧ LaidEntry U P (h.map delCr) k v' (delCr s)

theorem old_down : (∀ {h v t}, LaidValue U P h v t → ValueCdown U P h v t) ∧ (∀ {es s}, LaidEntries U P es s → EntriesCdown U P es s) ∧
    (∀ {h k v s}, LaidEntry U P h k v s → EntryCdown U P h k v s) := by
  have c1 : ValueCdown U P none .null ['n', 'u', 'l', 'l'] := by
    intro _; exact ⟨_, .null, .null⟩
  have c2 : ValueCdown U P none (.boolean true) ['t', 'r', 'u', 'e'] := by
    intro _; exact ⟨_, .boolean _, .true⟩
  have c3 : ValueCdown U P none (.boolean false) ['f', 'a', 'l', 's', 'e'] := by
    intro _; exact ⟨_, .boolean _, .false⟩
  have c4 : ∀ (t : Str) (n : Number) (v : Value), IsNumber t n → NumberValue P t v → ValueCdown U P none v t := by
    intro t n v hn hv _
    rw [delCr_id (isNumber_no_nl (by decide) hn)]
    refine ⟨v, ?_, .number _ _ _ hn hv⟩
    cases hv
    · exact .integer _
    · exact .float _
  have c5 : ∀ (src v : Str), Content Plain src v ['"'] → ValueCdown U P none (.string v) ('"' :: src ++ ['"']) := by
    intro src v hc hf
    obtain ⟨v', h1, h2⟩ := content_down hc (by rintro ⟨c, y, e, rfl⟩; cases e) (by simp) (hf.infix ⟨['"'], [], by simp⟩)
    refine ⟨_, .string _ _ h1, ?_⟩
    rw [delCr_append, delCr_cons (by decide)]
    exact .quoted _ _ h2
  have c6 : ∀ (t e : Str) (v : CowStr), Eol e → Heredoc U (t ++ e) v e → ValueCdown U P (some e) (.string v.str) t := by
    intro t e v he hh hf
    obtain ⟨v', h1, h2⟩ := heredoc_down hh hf
    rw [delCr_append] at h2
    refine ⟨_, .string _ _ ?_, .heredoc _ _ _ (eol_down he) h2⟩
    cases h1 <;> assumption
  have c7 : ∀ (vs : List Value) (s : Str), LaidListBody U P vs s → ListCdown U P vs s → ValueCdown U P none (.list vs) ('[' :: s) := by
    intro vs s _ ih hf
    obtain ⟨es', h1, h2⟩ := ih hf.left.tail
    rw [delCr_cons (by decide)]
    exact ⟨_, .list _ _ h1, .list _ _ h2⟩
  have c8 : ∀ (l : Str) (es : List (Key × Value)) (s : Str), AnyLayout l → LaidEntries U P es s → EntriesCdown U P es s →
      ValueCdown U P none (.object [.unmerged es]) (l ++ '{' :: s ++ ['}']) := by
    intro l es s hl _ ih hf
    obtain ⟨es', h1, h2⟩ := ih hf.left.left.right.tail
    simp only [delCr_append]
    rw [delCr_cons (c := '{') (by decide)]
    exact ⟨_, .map _ _ h1, .map _ _ _ (layout_down hl hf.left.left.left) h2⟩
  have c9 : ∀ (s : Str), LaidTupleEnd s → ListCdown U P [] s :=
    fun s hs hf => ⟨[], .nil, .empty _ (tupleEnd_down hs hf)⟩
  have c10 : ∀ (l t s : Str) (h : Option Str) (v : Value) (vs : List Value), AnyLayout l → LaidValue U P h v t →
      LaidListTail U P vs s → Next h s → ValueCdown U P h v t → TailCdown U P vs s → ListCdown U P (v :: vs) (l ++ t ++ s) := by
    intro l t s h v vs hl _ _ hx ih1 ih2 hf
    obtain ⟨e', h1, h2⟩ := ih1 (next_fit hx (by rw [List.append_assoc] at hf; exact hf.right))
    obtain ⟨es', h3, h4⟩ := ih2 hf.right
    simp only [delCr_append]
    exact ⟨_, .cons _ _ _ _ h1 h3, .elems _ _ _ _ _ _ (layout_down hl hf.left.left) h2 h4 (next_down hx)⟩
  have c11 : ∀ (s : Str), LaidTupleEnd s → TailCdown U P [] s :=
    fun s hs hf => ⟨[], .nil, .last _ (tupleEnd_down hs hf)⟩
  have c12 : ∀ (l m t s : Str) (h : Option Str) (v : Value) (vs : List Value), AnyLayout l → AnyLayout m → LaidValue U P h v t →
      LaidListTail U P vs s → Next h s → ValueCdown U P h v t → TailCdown U P vs s → TailCdown U P (v :: vs) (l ++ ',' :: m ++ t ++ s) := by
    intro l m t s h v vs hl hm _ _ hx ih1 ih2 hf
    obtain ⟨e', h1, h2⟩ := ih1 (next_fit hx (by rw [List.append_assoc] at hf; exact hf.right))
    obtain ⟨es', h3, h4⟩ := ih2 hf.right
    simp only [delCr_append]
    rw [delCr_cons (c := ',') (by decide)]
    exact ⟨_, .cons _ _ _ _ h1 h3, .more _ _ _ _ _ _ _ (layout_down hl hf.left.left.left) (layout_down hm hf.left.left.right.tail) h2 h4 (next_down hx)⟩
  have c13 : ∀ (l : Str), AnyLayout l → EntriesCdown U P [] l := fun l hl hf => ⟨[], .nil, .done _ (layout_down hl hf)⟩
  have c14 : ∀ (l s n t : Str) (h : Option Str) (k : Key) (v : Value) (es : List (Key × Value)), AnyLayout l →
      LaidEntry U P h k v s → LaidEntryEnd n → Next h n → LaidEntries U P es t → EntryCdown U P h k v s → EntriesCdown U P es t →
      EntriesCdown U P ((k, v) :: es) (l ++ s ++ n ++ t) := by
    intro l s n t h k v es hl _ hn hx _ ih1 ih2 hf
    obtain ⟨v', h1, h2⟩ := ih1 (next_fit hx (by have := hf.left; rw [List.append_assoc] at this; exact this.right))
    obtain ⟨es', h3, h4⟩ := ih2 hf.right
    simp only [delCr_append]
    exact ⟨_, .cons _ _ _ _ _ h1 h3, .entry _ _ _ _ _ _ _ _ (layout_down hl hf.left.left.left) h2 (entryEnd_down hn hf.left.right) (next_down hx) h4⟩
  have c15 : ∀ (ks l m t n : Str) (h : Option Str) (k : Key) (v : Value), LaidOldKey U k ks → AnyInline l → AnyInline m →
      LaidValue U P h v t → AnyInline n → (h ≠ none → n = []) → ValueCdown U P h v t →
      EntryCdown U P h k v (ks ++ l ++ '=' :: m ++ t ++ n) := by
    intro ks l m t n h k v h1 h2 h3 _ h5 h6 ih hf
    have hft : Fit (t ++ h.getD []) := by
      cases h with
      | none => simpa using hf.left.left.right
      | some x =>
        have := h6 (by simp)
        subst this
        have : Fit (ks ++ l ++ '=' :: m ++ (t ++ x)) := by simpa using hf
        exact this.right
    have hf := hf.left
    obtain ⟨e', h7, h8⟩ := ih hft
    refine ⟨e', h7, ?_⟩
    simp only [delCr_append]
    rw [delCr_cons (c := '=') (by decide)]
    refine .attribute _ _ _ _ _ _ _ _ (oldKey_down h1) (inline_down h2 hf.left.left.left.right) (inline_down h3 hf.left.left.right.tail) h8 (inline_down h5 hf.right) ?_
    intro hh
    rw [h6 (by rintro rfl; exact hh rfl)]; rfl
  have c16 : ∀ (i l s n : Str) (es : List (Key × Value)), IsIdent U i → AnyLayout l → LaidEntries U P es s → AnyInline n →
      EntriesCdown U P es s → EntryCdown U P none (.identifier (.borrowed i)) (.object [.unmerged es]) (i ++ l ++ '{' :: s ++ '}' :: n) := by
    intro i l s n es hi hl _ hn ih hf
    have hf := hf.left
    obtain ⟨es', h1, h2⟩ := ih hf.left.right.tail
    simp only [delCr_append]
    rw [delCr_cons (c := '{') (by decide), delCr_cons (c := '}') (by decide), delCr_id (ident_no_cr hi)]
    exact ⟨_, .map _ _ h1, .map _ _ _ _ _ hi (layout_down hl hf.left.left.right) h2 (inline_down hn hf.right.tail)⟩
  have c17 : ∀ (i ps l s n : Str) (ls : List Str) (es : List (Key × Value)), IsIdent U i → LaidOldLabels ls ps → ls ≠ [] →
      AnyLayout l → LaidEntries U P es s → AnyInline n → EntriesCdown U P es s →
      EntryCdown U P none (.identifier (.borrowed i)) (.block (.unmerged [(ls, .unmerged es)])) (i ++ ps ++ l ++ '{' :: s ++ '}' :: n) := by
    intro i ps l s n ls es hi hp h0 hl _ hn ih hf
    have hf := hf.left
    obtain ⟨es', h1, h2⟩ := ih hf.left.right.tail
    simp only [delCr_append]
    rw [delCr_cons (c := '{') (by decide), delCr_cons (c := '}') (by decide), delCr_id (ident_no_cr hi)]
    exact ⟨_, .block _ _ _ h1, .block _ _ _ _ _ _ _ hi (oldLabels_down hp hf.left.left.left.right) h0 (layout_down hl hf.left.left.right) h2 (inline_down hn hf.right.tail)⟩
  refine ⟨fun h => ?_, fun h => ?_, fun h => ?_⟩
  · exact LaidValue.rec (motive_1 := fun h v t _ => ValueCdown U P h v t) (motive_2 := fun vs s _ => ListCdown U P vs s)
      (motive_3 := fun vs s _ => TailCdown U P vs s) (motive_4 := fun es s _ => EntriesCdown U P es s)
      (motive_5 := fun h k v s _ => EntryCdown U P h k v s) c1 c2 c3 c4 c5 c6 c7 c8 c9 c10 c11 c12 c13 c14 c15 c16 c17 h
  · exact LaidEntries.rec (motive_1 := fun h v t _ => ValueCdown U P h v t) (motive_2 := fun vs s _ => ListCdown U P vs s)
      (motive_3 := fun vs s _ => TailCdown U P vs s) (motive_4 := fun es s _ => EntriesCdown U P es s)
      (motive_5 := fun h k v s _ => EntryCdown U P h k v s) c1 c2 c3 c4 c5 c6 c7 c8 c9 c10 c11 c12 c13 c14 c15 c16 c17 h
  · exact LaidEntry.rec (motive_1 := fun h v t _ => ValueCdown U P h v t) (motive_2 := fun vs s _ => ListCdown U P vs s)
      (motive_3 := fun vs s _ => TailCdown U P vs s) (motive_4 := fun es s _ => EntriesCdown U P es s)
      (motive_5 := fun h k v s _ => EntryCdown U P h k v s) c1 c2 c3 c4 c5 c6 c7 c8 c9 c10 c11 c12 c13 c14 c15 c16 c17 h

theorem oldDocument_down {es : List (Key × Value)} {s : Str} (h : LaidOldDocument U P es s) (hf : Fit s) :
    ∃ es', MoreCrEntries es' es ∧ LaidOldDocument U P es' (delCr s) := by
  cases h with
  | lines _ _ h =>
    obtain ⟨b', h1, h2⟩ := old_down.2.1 h hf
    exact ⟨b', h1, .lines _ _ h2⟩
  | last es s k v t h he =>
    obtain ⟨b', h1, h2⟩ := old_down.2.1 h hf.left
    obtain ⟨v', h3, h4⟩ := old_down.2.2 he (by simpa using hf.right)
    refine ⟨b' ++ [(k, v')], moreCrEntries_append h1 (.cons _ _ _ _ _ h3 .nil), ?_⟩
    rw [delCr_append]
    exact .last _ _ _ _ _ h2 h4

/-! ## Without LFs in strings -/

mutual
theorem moreCrValue_eq {v v' : Value} (h : MoreCrValue v v') (hn : OneLineValue v) : v' = v := by
  match h, hn with
  | .null, _ => rfl
  | .integer _, _ => rfl
  | .float _, _ => rfl
  | .boolean _, _ => rfl
  | .string v v' h, .string _ hn => rw [moreCr_eq h hn]
  | .list _ _ h, .list _ hn => rw [moreCrValues_eq h hn]
  | .map _ _ h, .map _ hn => rw [moreCrEntries_eq h hn]
  | .block _ _ _ h, .block _ _ hn => rw [moreCrEntries_eq h hn]
termination_by structural h
theorem moreCrValues_eq {v v' : List Value} (h : MoreCrValues v v') (hn : OneLineValues v) : v' = v := by
  match h, hn with
  | .nil, _ => rfl
  | .cons _ _ _ _ h1 h2, .cons _ _ n1 n2 => rw [moreCrValue_eq h1 n1, moreCrValues_eq h2 n2]
termination_by structural h
theorem moreCrEntries_eq {v v' : List (Key × Value)} (h : MoreCrEntries v v') (hn : OneLineEntries v) : v' = v := by
  match h, hn with
  | .nil, _ => rfl
  | .cons _ _ _ _ _ h1 h2, .cons _ _ _ n1 n2 => rw [moreCrValue_eq h1 n1, moreCrEntries_eq h2 n2]
termination_by structural h
end

end
end Verif
