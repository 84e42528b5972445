import Verif.Proofs.OldConcat
import Verif.Proofs.OldPanic
import Verif.Proofs.Unique
import Verif.Proofs.DecideValue
import Verif.Props.Sources
import Verif.Props.Merge
/-! # The `Value` API: value::from_str, from_slice, from_reader (C21, C22, C32, C33; C02–C04, C18, C19 for values) -/
set_option autoImplicit false

namespace Verif.Props
open Verif Spec PRes

variable (U : CharClass) (P : F64Parse)

/-! ## C21 -/

/-- C21: without merging, `from_str` succeeds exactly on the documents of the grammar, with the entries the grammar
assigns. -/
theorem c21_from_str_accepts_exactly_the_grammar (s : Str) (m : MapValues) :
    fromStr U P s none = .ok m ↔ ∃ es, m = .unmerged es ∧ OldDocument U P s es := by
  unfold fromStr
  constructor
  · intro h
    cases hb : oldBody U P s with
    | ok r x =>
      rw [hb] at h
      obtain ⟨rfl, es, rfl, hd⟩ := oldBody_iff.1 hb
      simp only [finishFromStr, List.isEmpty_nil, if_true, Res.ok.injEq] at h
      exact ⟨es, h.symm, hd⟩
    | err => rw [hb] at h; cases h
    | fail => rw [hb] at h; cases h
    | panic => rw [hb] at h; cases h
    | diverge => rw [hb] at h; cases h
  · rintro ⟨es, rfl, hd⟩
    rw [oldBody_iff.2 ⟨rfl, es, rfl, hd⟩]
    rfl

/-- C21: the grammar assigns at most one list of entries to a text. -/
theorem c21_entries_unique (s : Str) (es es' : List (Key × Value)) (h : OldDocument U P s es)
    (h' : OldDocument U P s es') : es = es' :=
  (isEntries_functional (.inl rfl) (.inl rfl) h h').1

/-- C21: a text outside the grammar is rejected with one of two errors (see C75 for which) or a panic (see C04), whatever
the merge behaviour. -/
theorem c21_rejects_everything_else (s : Str) (merge : Option MergeBehaviour) (h : ¬ ∃ es, OldDocument U P s es) :
    fromStr U P s merge = .error .parse ∨ (∃ t, fromStr U P s merge = .error (.invalidUnicodeCodePoint t)) ∨
      fromStr U P s merge = .panic := by
  unfold fromStr
  cases hb : oldBody U P s with
  | ok r x =>
    obtain ⟨-, es, -, hd⟩ := oldBody_iff.1 hb
    exact absurd ⟨es, hd⟩ h
  | err => exact .inl rfl
  | fail t => exact .inr (.inl ⟨t, rfl⟩)
  | panic => exact .inr (.inr rfl)
  | diverge => exact absurd hb (oldBody_not_diverge s)

/-- C21: on documents, `from_str` with `MergeBehaviour::Error` is the merge of C23–C31 applied to the entries. -/
theorem c21_from_str_merging (s : Str) (es : List (Key × Value)) (h : OldDocument U P s es) (r : Res FromErr MapValues) :
    fromStr U P s (some .error) = r ↔
      (∃ m, MapValues.merge (.unmerged es) = .ok m ∧ r = .ok m) ∨
      (∃ e, MapValues.merge (.unmerged es) = .error e ∧ r = .error (.value e)) := by
  unfold fromStr
  rw [oldBody_iff.2 ⟨rfl, es, rfl, h⟩]
  simp only [finishFromStr, List.isEmpty_nil, if_true]
  have : MapValues.merge (.unmerged es) = Value.mergeMap (.unmerged es) := rfl
  rw [this]
  cases Value.mergeMap (.unmerged es) with
  | ok m => simp [eq_comm]
  | error e => simp [eq_comm]

/-- A float parser for the examples: every text is the float with bit pattern 0. -/
def zeroFloats : F64Parse := fun _ => some ⟨0⟩

/-- An example document: attributes, a list, a map, blocks, comments, commas. -/
def oldDoc : Str :=
  "a = [1, \"x\"] # c\n\"k k\" = -7, b = 1.5\nt {\n  u = true\n}\nr \"l\" \"m\" {\n  n = null\n}\na = 2".toList

/-- Its entries. -/
def oldDocEntries : List (Key × Value) :=
  [(idKey "a", .list [.integer 1, .string "x".toList]), (strKey "k k", .integer (-7)), (idKey "b", .float ⟨0⟩),
   (idKey "t", .object [.unmerged [(idKey "u", .boolean true)]]),
   (idKey "r", .block (.unmerged [(["l".toList, "m".toList], .unmerged [(idKey "n", .null)])])),
   (idKey "a", .integer 2)]

theorem parse_oldDoc : fromStr asciiClass zeroFloats oldDoc none = .ok (.unmerged oldDocEntries) := by
  decide +kernel

/-- Non-vacuity of C21. -/
theorem oldDoc_in_grammar : OldDocument asciiClass zeroFloats oldDoc oldDocEntries := by
  obtain ⟨es, e, h⟩ := (c21_from_str_accepts_exactly_the_grammar _ _ _ _).1 parse_oldDoc
  injection e with e; rw [e]; exact h

/-- The last entry of a map needs a line end or comma: `x { a = 1 }` on one line is not a document. -/
example : fromStr asciiClass zeroFloats "x { a = 1 }".toList none = .error .parse := by decide +kernel

/-! ## C02, C03, C04 for values -/

/-- C02: the `Bug` error for leftover input is never returned by the value parser. -/
theorem c02_from_str_no_bug (s : Str) (merge : Option MergeBehaviour) : fromStr U P s merge ≠ .error .bug := by
  unfold fromStr
  cases hb : oldBody U P s with
  | ok r x =>
    obtain ⟨rfl, -⟩ := oldBody_iff.1 hb
    simp only [finishFromStr, List.isEmpty_nil, if_true]
    cases merge with
    | none => simp
    | some b => cases b <;> simp; cases Value.mergeMap x <;> simp
  | _ => simp

/-- C02: text after a document and a line end is never ignored (unless it begins with a comma, which would belong to
the last entry): the whole is accepted iff the further text is a document, and its entries are then all present. -/
theorem c02_from_str_appended_text_is_never_ignored (s t : Str) (a c : List (Key × Value))
    (h : fromStr U P s none = .ok (.unmerged a)) (ht : ∀ u, ¬ SkipLayout t (',' :: u)) :
    fromStr U P (s ++ '\n' :: t) none = .ok (.unmerged c) ↔
      ∃ b, c = a ++ b ∧ fromStr U P t none = .ok (.unmerged b) := by
  have key : ∀ s es, fromStr U P s none = .ok (.unmerged es) ↔ OldDocument U P s es := by
    intro s es
    rw [c21_from_str_accepts_exactly_the_grammar]
    constructor
    · rintro ⟨es', e, h⟩; injection e with e; rw [e]; exact h
    · intro h; exact ⟨es, rfl, h⟩
  simp only [key] at *
  exact oldDocument_concat h ht

/-- C03: the value parser returns on every input. -/
theorem c03_from_str_terminates (s : Str) (merge : Option MergeBehaviour) : fromStr U P s merge ≠ .diverge := by
  unfold fromStr
  cases hb : oldBody U P s with
  | ok r x =>
    obtain ⟨rfl, -⟩ := oldBody_iff.1 hb
    simp only [finishFromStr, List.isEmpty_nil, if_true]
    cases merge with
    | none => simp
    | some b => cases b <;> simp; cases Value.mergeMap x <;> simp
  | diverge => exact absurd hb (oldBody_not_diverge s)
  | _ => simp

/-- C04: with merge `None` or `Error`, the value parser panics only on texts with an
indented heredoc one of whose lines cannot be unindented. -/
theorem c04_from_str_panics_only_on_bad_indented_heredoc (s : Str) (merge : Option MergeBehaviour)
    (hm : merge = none ∨ merge = some .error) (h : fromStr U P s merge = .panic) : ∃ u, u <:+ s ∧ HeredocPanics U u := by
  unfold fromStr at h
  cases hb : oldBody U P s with
  | ok r x =>
    rw [hb] at h
    simp only [finishFromStr] at h
    split at h
    · rcases hm with rfl | rfl
      · cases h
      · simp only at h; split at h <;> cases h
    · cases h
  | panic => exact oldBody_panic hb
  | err => rw [hb] at h; cases h
  | fail => rw [hb] at h; cases h
  | diverge => rw [hb] at h; cases h

/-- C04: with merge `None` or `Error`, the value parser panics exactly on the texts in which a position where a value is
expected, reached through well-formed text, holds a bad indented heredoc. -/
theorem c04_from_str_panics_exactly_on_bad_heredocs (s : Str) (merge : Option MergeBehaviour)
    (hm : merge = none ∨ merge = some .error) :
    fromStr U P s merge = .panic ↔ ∃ u, EntriesAt U P .expression s u ∧ BadHeredoc U u := by
  simp only [badHeredoc_iff]
  rw [← oldBody_eq_panic]
  unfold fromStr
  cases hb : oldBody U P s with
  | ok r x =>
    obtain ⟨rfl, -⟩ := oldBody_iff.1 hb
    simp only [finishFromStr, List.isEmpty_nil, if_true]
    rcases hm with rfl | rfl
    · simp
    · simp only; split <;> simp
  | _ => simp

/-- C04: with another merge behaviour, which is not implemented, it panics on those texts and on all well-formed
documents. -/
theorem c04_from_str_unimplemented_merge_panics_exactly (s : Str) (b : MergeBehaviour) (hb : b ≠ .error) :
    fromStr U P s (some b) = .panic ↔ (∃ u, EntriesAt U P .expression s u ∧ BadHeredoc U u) ∨ ∃ es, OldDocument U P s es := by
  simp only [badHeredoc_iff]
  rw [← oldBody_eq_panic]
  have key : (∃ es, OldDocument U P s es) ↔ ∃ m, fromStr U P s none = .ok m := by
    simp only [c21_from_str_accepts_exactly_the_grammar]
    exact ⟨fun ⟨es, h⟩ => ⟨_, es, rfl, h⟩, fun ⟨_, es, _, h⟩ => ⟨es, h⟩⟩
  rw [key]
  unfold fromStr
  cases hb' : oldBody U P s with
  | ok r x =>
    obtain ⟨rfl, -⟩ := oldBody_iff.1 hb'
    cases b <;> simp_all [finishFromStr]
  | _ => simp

example : fromStr asciiClass zeroFloats "a = <<-EOF\n\n  EOF\n".toList none = .panic := by decide +kernel

example : ∃ u, EntriesAt asciiClass zeroFloats .expression "a = <<-EOF\n\n  EOF\n".toList u ∧ BadHeredoc asciiClass u :=
  (c04_from_str_panics_exactly_on_bad_heredocs _ _ _ none (.inl rfl)).1 (by decide +kernel)

/-! ## C22 -/

/-- C22: nothing is merged: no map or block set inside the result of `from_str` with merge `None` is merged. -/
theorem c22_nothing_merged (s : Str) (m : MapValues) (h : fromStr U P s none = .ok m) : ¬ HasMerged (.map m) := by
  obtain ⟨es, rfl, hd⟩ := (c21_from_str_accepts_exactly_the_grammar _ _ _ _).1 h
  have := (old_induct (U := U) (P := P) (m1 := fun _ v _ => ¬ HasMerged (.val v))
    (m2 := fun _ vs _ => ∀ v ∈ vs, ¬ HasMerged (.val v)) (m3 := fun _ vs _ => ∀ v ∈ vs, ¬ HasMerged (.val v))
    (m4 := fun _ es _ => ∀ p ∈ es, ¬ HasMerged (.val p.2)) (m5 := fun _ _ v _ => ¬ HasMerged (.val v))
    ?_ ?_ ?_ ?_ ?_ ?_ ?_ ?_ ?_ ?_ ?_ ?_ ?_ ?_ ?_ ?_).2.1 hd
  · rw [hasMerged_map_unmerged]; rintro ⟨p, hp, hm⟩; exact this p hp hm
  · intro r; exact hasMerged_scalar (by simp [Value.variant]) (by simp [Value.variant]) (by simp [Value.variant])
  · intro r; exact hasMerged_scalar (by simp [Value.variant]) (by simp [Value.variant]) (by simp [Value.variant])
  · intro r; exact hasMerged_scalar (by simp [Value.variant]) (by simp [Value.variant]) (by simp [Value.variant])
  · intro t n v r _ h
    cases h <;>
      exact hasMerged_scalar (by simp [Value.variant]) (by simp [Value.variant]) (by simp [Value.variant])
  · intro s v r h; exact hasMerged_scalar (by simp [Value.variant]) (by simp [Value.variant]) (by simp [Value.variant])
  · intro s vs r _ ih; rw [hasMerged_list]; rintro ⟨v, hv, h⟩; exact ih v hv h
  · intro s t es r _ _ ih
    rw [hasMerged_object]
    simp only [List.mem_singleton, exists_eq_left, hasMerged_map_unmerged]
    rintro ⟨p, hp, hm⟩; exact ih p hp hm
  · simp
  · intro s t u v vs r _ _ _ h1 h2; simpa using ⟨h1, h2⟩
  · simp
  · intro s t u w v vs r _ _ _ _ h1 h2; simpa using ⟨h1, h2⟩
  · simp
  · intro s t u w k v es r _ _ _ _ h1 h2; exact List.forall_mem_cons.mpr ⟨h1, h2⟩
  · intro s t u w x r k v _ _ _ _ _ h; exact h
  · intro s i t u w r es _ _ _ _ ih
    rw [hasMerged_object]
    simp only [List.mem_singleton, exists_eq_left, hasMerged_map_unmerged]
    rintro ⟨p, hp, hm⟩; exact ih p hp hm
  · intro s i t u w x r ls es _ _ _ _ _ _ ih
    rw [hasMerged_block, hasMerged_blk_unmerged]
    simp only [List.mem_singleton, exists_eq_left, hasMerged_map_unmerged]
    rintro ⟨p, hp, hm⟩; exact ih p hp hm

/-- C22: documents one after the other: all entries, duplicates included, in source order. -/
theorem c22_concat (s t : Str) (a b : List (Key × Value)) (h : fromStr U P s none = .ok (.unmerged a))
    (h' : fromStr U P t none = .ok (.unmerged b)) :
    fromStr U P (s ++ '\n' :: t) none = .ok (.unmerged (a ++ b)) := by
  refine (c02_from_str_appended_text_is_never_ignored U P s t a _ h ?_).2 ⟨b, rfl, h'⟩
  intro u hu
  obtain ⟨es, -, hd⟩ := (c21_from_str_accepts_exactly_the_grammar _ _ _ _).1 h'
  exact isEntries_no_comma (.inl rfl) hu hd

/-- C22: an attribute on its own is a document with exactly that entry: `identifier = value`. -/
theorem c22_attribute (i v : Str) (x : Value) (hi : IsIdent U i) (hv : IsValue U P v x [])
    (hb : ¬ Starts InlineItem v) :
    fromStr U P (i ++ '=' :: v) none = .ok (.unmerged [(.identifier (.borrowed i), x)]) := by
  rw [c21_from_str_accepts_exactly_the_grammar]
  have hid : Ident U (i ++ '=' :: v) i ('=' :: v) :=
    ⟨rfl, hi, by rw [head_cons]; exact not_identChar (by decide) (by decide)⟩
  refine ⟨_, rfl, .entry _ _ [] [] _ _ _ _ (skipLayout_ident hid) ?_ .eof (.done _ _ ?_)⟩
  · exact .attribute _ _ v v [] _ _ _ (.ident _ _ _ hid) (.refl (not_inline_of (by decide) (by decide) (by decide)))
      (.refl hb) hv (.refl (by rintro ⟨j, t, hj, e⟩; obtain ⟨c, u, e', -⟩ := layoutItem_head (t := t) (inlineItem_layout hj); rw [← e] at e'; cases e'))
  · exact .refl (by rintro ⟨j, t, hj, e⟩; obtain ⟨c, u, e', -⟩ := layoutItem_head (t := t) hj; rw [← e] at e'; cases e')

/-- Non-vacuity of C22: the example document (with key `a` twice), twice. -/
example : fromStr asciiClass zeroFloats (oldDoc ++ '\n' :: oldDoc) none = .ok (.unmerged (oldDocEntries ++ oldDocEntries)) :=
  c22_concat _ _ _ _ _ _ parse_oldDoc parse_oldDoc

/-! ## C32 -/

theorem fromStr_entry {s : Str} {es es' : List (Key × Value)} (h : OldDocument U P s es) :
    fromStr U P s none = .ok (.unmerged es') ↔ es' = es := by
  rw [c21_from_str_accepts_exactly_the_grammar]
  constructor
  · rintro ⟨es'', e, h'⟩; injection e with e; rw [e]; exact c21_entries_unique U P s _ _ h' h
  · rintro rfl; exact ⟨_, rfl, h⟩

/-- C32: a number literal `t` as the value of an attribute is the integer `k` iff it is a plain integer literal with
value `k`, and `k` is in the range of `i64`. -/
theorem c32_integer (i t : Str) (n : Number) (k : Int) (hi : IsIdent U i) (ht : IsNumber t n)  :
    fromStr U P (i ++ '=' :: t) none = .ok (.unmerged [(.identifier (.borrowed i), .integer k)]) ↔
      IntLit t k ∧ InI64 k := by
  have htok : NumberTok (t ++ []) n [] := ⟨t, rfl, ht, fun p hp hne => absurd (List.prefix_nil.1 hp) hne⟩
  have hstart : ¬ Starts InlineItem t := by
    obtain ⟨c, u, e, hc⟩ := isNumber_head ht []
    rw [List.append_nil] at e
    rw [numHead_iff] at hc
    rw [e]
    refine not_inline_of ?_ ?_ ?_ <;> (rintro rfl; revert hc; decide)
  constructor
  · intro h
    obtain ⟨es, e, hd⟩ := (c21_from_str_accepts_exactly_the_grammar _ _ _ _).1 h
    injection e with e
    by_cases hk : ∃ k', IntLit t k' ∧ InI64 k'
    · obtain ⟨k', h1, h2⟩ := hk
      have := c22_attribute U P i t (.integer k') hi (by simpa using IsValue.number t n _ [] htok (.integer t k' h1 h2)) hstart
      rw [h] at this
      simp at this
      subst this; exact ⟨h1, h2⟩
    · exfalso
      cases hp : P t with
      | some f =>
        have := c22_attribute U P i t (.float f) hi (by simpa using IsValue.number t n _ [] htok (.float t f hk hp)) hstart
        rw [h] at this
        simp at this
      | none =>
        -- the value would have to be read some other way
        rw [← e] at hd
        have hid : Ident U (i ++ '=' :: t) i ('=' :: t) :=
          ⟨rfl, hi, by rw [head_cons]; exact not_identChar (by decide) (by decide)⟩
        obtain ⟨t1, u1, h1, h2⟩ : ∃ t1 u1, SkipLayout (i ++ '=' :: t) t1 ∧
          IsEntry U P t1 (.identifier (.borrowed i)) (.integer k) u1 := by cases hd; exact ⟨_, _, ‹_›, ‹_›⟩
        have e1 := h1.functional layoutItem_prefix (skipLayout_ident hid)
        rw [e1] at h2
        cases h2 with
        | «attribute» =>
          obtain ⟨a, b, c, d, q1, q2, q3, q4⟩ : ∃ a b c d, IsKey U (i ++ '=' :: t) (.identifier (.borrowed i)) a ∧
            SkipInline a ('=' :: b) ∧ SkipInline b c ∧ IsValue U P c (.integer k) d := ⟨_, _, _, _, ‹_›, ‹_›, ‹_›, ‹_›⟩
          have ea : a = '=' :: t := by
            generalize hx : i ++ '=' :: t = x at q1
            cases q1 with
            | ident _ _ q => subst hx; exact (ident_functional q hid).2
          subst ea
          have e2 := skip_eq_of_not_starts q2 (not_inline_of (by decide) (by decide) (by decide))
          injection e2 with _ e2
          subst e2
          have e3 := skip_eq_of_not_starts q3 hstart
          subst e3
          generalize hx : (Value.integer k) = x at q4
          cases q4 with
          | number t' n' _ _ q5 q6 =>
            subst hx
            obtain ⟨t2, e4, q7, q8⟩ := q5
            have : d = [] := by
              have htok' : NumberTok (t' ++ d) n [] := ⟨t' ++ d, by simp, ht, fun p hp hne => absurd (List.prefix_nil.1 hp) hne⟩
              have a := number_iff.2 htok'
              rw [number_iff.2 ⟨t2, e4, q7, q8⟩] at a
              injection a
            subst this
            cases q6 with
            | integer _ q9 q10 => exact hk ⟨k, by simpa using q9, q10⟩
          | _ => cases hx
  · rintro ⟨h1, h2⟩
    exact c22_attribute U P i t (.integer k) hi (by simpa using IsValue.number t n _ [] htok (.integer t k h1 h2)) hstart

/-- C32: otherwise it is the float that the standard library reads (its parser accepts every such literal). -/
theorem c32_float (i t : Str) (n : Number) (f : F64) (hi : IsIdent U i) (ht : IsNumber t n)
    (hk : ¬ ∃ k, IntLit t k ∧ InI64 k) (hp : P t = some f) :
    fromStr U P (i ++ '=' :: t) none = .ok (.unmerged [(.identifier (.borrowed i), .float f)]) := by
  have htok : NumberTok (t ++ []) n [] := ⟨t, rfl, ht, fun p hp hne => absurd (List.prefix_nil.1 hp) hne⟩
  have hstart : ¬ Starts InlineItem t := by
    obtain ⟨c, u, e, hc⟩ := isNumber_head ht []
    rw [List.append_nil] at e
    rw [numHead_iff] at hc
    rw [e]
    refine not_inline_of ?_ ?_ ?_ <;> (rintro rfl; revert hc; decide)
  exact c22_attribute U P i t (.float f) hi (by simpa using IsValue.number t n _ [] htok (.float t f hk hp)) hstart

/-- C32: every integer anywhere in a parsed document is in the range of `i64`. -/
theorem c32_integers_in_range (s : Str) (m : MapValues) (h : fromStr U P s none = .ok m) (k : Int)
    (hk : Value.integer k ∈ mapLeaves m) : InI64 k := by
  obtain ⟨es, rfl, hd⟩ := (c21_from_str_accepts_exactly_the_grammar _ _ _ _).1 h
  have hel : ∀ es : List (Key × Value), mapLeaves (.unmerged es) = entriesLeaves es := fun _ => rfl
  refine (old_induct (U := U) (P := P) (m1 := fun _ v _ => ∀ k, Value.integer k ∈ leaves v → InI64 k)
    (m2 := fun _ vs _ => ∀ k, Value.integer k ∈ listLeaves vs → InI64 k)
    (m3 := fun _ vs _ => ∀ k, Value.integer k ∈ listLeaves vs → InI64 k)
    (m4 := fun _ es _ => ∀ k, Value.integer k ∈ entriesLeaves es → InI64 k)
    (m5 := fun _ _ v _ => ∀ k, Value.integer k ∈ leaves v → InI64 k)
    ?_ ?_ ?_ ?_ ?_ ?_ ?_ ?_ ?_ ?_ ?_ ?_ ?_ ?_ ?_ ?_).2.1 hd k hk
  · simp [leaves]
  · simp [leaves]
  · simp [leaves]
  · intro t n v r _ h k hk
    cases h with
    | integer _ _ h => simp [leaves] at hk; subst hk; exact h
    | float => simp [leaves] at hk
  · simp [leaves]
  · intro s vs r _ ih; simpa [leaves] using ih
  · intro s t es r _ _ ih; simpa [leaves, mapsLeaves, mapLeaves] using ih
  · simp [listLeaves]
  · intro s t u v vs r _ _ _ h1 h2 k hk
    simp only [listLeaves, List.mem_append] at hk
    exact hk.elim (h1 k) (h2 k)
  · simp [listLeaves]
  · intro s t u w v vs r _ _ _ _ h1 h2 k hk
    simp only [listLeaves, List.mem_append] at hk
    exact hk.elim (h1 k) (h2 k)
  · simp [entriesLeaves]
  · intro s t u w key v es r _ _ _ _ h1 h2 k hk
    simp only [entriesLeaves, List.mem_append] at hk
    exact hk.elim (h1 k) (h2 k)
  · intro s t u w x r k v _ _ _ _ _ h; exact h
  · intro s i t u w r es _ _ _ _ ih; simpa [leaves, mapsLeaves, mapLeaves] using ih
  · intro s i t u w x r ls es _ _ _ _ _ _ ih; simpa [leaves, blockLeaves, bodiesLeaves, mapLeaves] using ih

/-- `f` is read by the standard library from a number literal that is not an integer in the range of `i64`. -/
def FloatRead (P : F64Parse) (f : F64) : Prop := ∃ t n, IsNumber t n ∧ (¬ ∃ k, IntLit t k ∧ InI64 k) ∧ P t = some f

/-- C32: every float anywhere in a parsed document is what the standard library read from a number literal that is not an
integer in the range of `i64`. -/
theorem c32_floats_are_read (s : Str) (m : MapValues) (h : fromStr U P s none = .ok m) (k : F64)
    (hk : Value.float k ∈ mapLeaves m) : FloatRead P k := by
  obtain ⟨es, rfl, hd⟩ := (c21_from_str_accepts_exactly_the_grammar _ _ _ _).1 h
  have hel : ∀ es : List (Key × Value), mapLeaves (.unmerged es) = entriesLeaves es := fun _ => rfl
  refine (old_induct (U := U) (P := P) (m1 := fun _ v _ => ∀ k, Value.float k ∈ leaves v → FloatRead P k)
    (m2 := fun _ vs _ => ∀ k, Value.float k ∈ listLeaves vs → FloatRead P k)
    (m3 := fun _ vs _ => ∀ k, Value.float k ∈ listLeaves vs → FloatRead P k)
    (m4 := fun _ es _ => ∀ k, Value.float k ∈ entriesLeaves es → FloatRead P k)
    (m5 := fun _ _ v _ => ∀ k, Value.float k ∈ leaves v → FloatRead P k)
    ?_ ?_ ?_ ?_ ?_ ?_ ?_ ?_ ?_ ?_ ?_ ?_ ?_ ?_ ?_ ?_).2.1 hd k hk
  · simp [leaves]
  · simp [leaves]
  · simp [leaves]
  · intro t n v r htok h k hk
    obtain ⟨t', e, hn, -⟩ := htok
    have e := List.append_cancel_right e
    subst e
    cases h with
    | integer _ _ h => simp [leaves] at hk
    | float _ h1 h2 => simp [leaves] at hk; subst hk; exact ⟨_, _, hn, h1, h2⟩
  · simp [leaves]
  · intro s vs r _ ih; simpa [leaves] using ih
  · intro s t es r _ _ ih; simpa [leaves, mapsLeaves, mapLeaves] using ih
  · simp [listLeaves]
  · intro s t u v vs r _ _ _ h1 h2 k hk
    simp only [listLeaves, List.mem_append] at hk
    exact hk.elim (h1 k) (h2 k)
  · simp [listLeaves]
  · intro s t u w v vs r _ _ _ _ h1 h2 k hk
    simp only [listLeaves, List.mem_append] at hk
    exact hk.elim (h1 k) (h2 k)
  · simp [entriesLeaves]
  · intro s t u w key v es r _ _ _ _ h1 h2 k hk
    simp only [entriesLeaves, List.mem_append] at hk
    exact hk.elim (h1 k) (h2 k)
  · intro s t u w x r k v _ _ _ _ _ h; exact h
  · intro s i t u w r es _ _ _ _ ih; simpa [leaves, mapsLeaves, mapLeaves] using ih
  · intro s i t u w x r ls es _ _ _ _ _ _ ih; simpa [leaves, blockLeaves, bodiesLeaves, mapLeaves] using ih

/-- Non-vacuity of C32: `i64::MAX` is exact, one more is a float. -/
example : fromStr asciiClass zeroFloats "a=9223372036854775807".toList none = .ok (.unmerged [(idKey "a", .integer 9223372036854775807)]) := by
  decide +kernel
example : fromStr asciiClass zeroFloats "a=9223372036854775808".toList none = .ok (.unmerged [(idKey "a", .float ⟨0⟩)]) := by
  decide +kernel

/-! ## C33 -/

/-- C33: on every document, `TakeFirst` and `TakeLast` panic. -/
theorem c33_panics_on_documents (s : Str) (es : List (Key × Value)) (h : OldDocument U P s es) (b : MergeBehaviour)
    (hb : b ≠ .error) : fromStr U P s (some b) = .panic := by
  unfold fromStr
  rw [oldBody_iff.2 ⟨rfl, es, rfl, h⟩]
  cases b with
  | error => exact absurd rfl hb
  | _ => rfl

/-- C33: on everything else they do what `from_str` without merging does. -/
theorem c33_otherwise_the_parse_error (s : Str) (h : ¬ ∃ es, OldDocument U P s es) (b : MergeBehaviour) :
    fromStr U P s (some b) = fromStr U P s none := by
  unfold fromStr
  cases hb : oldBody U P s with
  | ok r x =>
    obtain ⟨-, es, -, hd⟩ := oldBody_iff.1 hb
    exact absurd ⟨es, hd⟩ h
  | _ => rfl

example : fromStr asciiClass zeroFloats oldDoc (some .takeLast) = .panic :=
  c33_panics_on_documents _ _ _ _ oldDoc_in_grammar _ (by decide)

/-! ## C19 for values -/

/-- C19: `as_owned` of a value changes nothing but the ownership of keys, in every tree whose hash maps are valid. -/
theorem c19_value_as_owned (v : Value) (h : UniqueKeys (.val v)) : v.asOwned = ownValue v := asOwned_eq_aux.1 v h

/-- C19: the same for maps. -/
theorem c19_map_as_owned (m : MapValues) (h : UniqueKeys (.map m)) : Value.asOwnedMap m = ownMap m := asOwned_eq_aux.2 m h

/-- C19: the hypothesis holds of everything `from_str` returns, merged or not. -/
theorem c19_from_str_valid (s : Str) (merge : Option MergeBehaviour) (m : MapValues) (h : fromStr U P s merge = .ok m) :
    UniqueKeys (.map m) := by
  have hnone : ∀ m, fromStr U P s none = .ok m → UniqueKeys (.map m) := by
    intro m h
    have := c22_nothing_merged U P s m h
    exact ⟨fun x hx => absurd (.inl ⟨x, hx⟩) this, fun x hx => absurd (.inr ⟨x, hx⟩) this⟩
  cases merge with
  | none => exact hnone m h
  | some b =>
    by_cases hd : ∃ es, OldDocument U P s es
    · obtain ⟨es, hd⟩ := hd
      cases b with
      | error =>
        rcases (c21_from_str_merging U P s es hd _).1 h with ⟨m', h1, h2⟩ | ⟨e, -, h2⟩
        · injection h2 with h2
          subst h2
          refine merge_unique.2 _ _ (hnone _ ?_) h1
          exact (c21_from_str_accepts_exactly_the_grammar _ _ _ _).2 ⟨es, rfl, hd⟩
        · cases h2
      | takeFirst => rw [c33_panics_on_documents U P s es hd _ (by decide)] at h; cases h
      | takeLast => rw [c33_panics_on_documents U P s es hd _ (by decide)] at h; cases h
    · rw [c33_otherwise_the_parse_error U P s hd] at h
      exact hnone m h

/-- C29: so in everything `from_str` returns, at every depth, no merged map has two entries with the same key, and no
merged block set two entries with the same labels. -/
theorem c29_from_str_keys_unique (s : Str) (merge : Option MergeBehaviour) (m : MapValues)
    (h : fromStr U P s merge = .ok m) :
    (∀ l, Inside (.map m) (.map (.merged l)) → (l.map fun p => p.1.norm).Nodup) ∧
    (∀ l, Inside (.map m) (.blk (.merged l)) → (l.map Prod.fst).Nodup) :=
  c19_from_str_valid U P s merge m h

example : Value.asOwnedMap (.merged docMerged) = ownMap (.merged docMerged) ∧
    Value.asOwnedMap (.merged docMerged) ≠ .merged docMerged := by
  constructor <;> decide +kernel

/-! ## C18 for values -/

/-- C18: `from_slice` on the encoding of a text does what `from_str` does. -/
theorem c18_from_slice_of_text (s : Str) (merge : Option MergeBehaviour) :
    fromSlice U P (utf8 s) merge = fromStr U P s merge := by
  unfold fromSlice; rw [fromUtf8_iff.2 rfl]

/-- C18: invalid UTF-8 is an error. -/
theorem c18_from_slice_invalid (bytes : List Nat) (merge : Option MergeBehaviour) (h : ∀ s, bytes ≠ utf8 s) :
    fromSlice U P bytes merge = .error .utf8 := by
  unfold fromSlice
  cases hf : fromUtf8 bytes with
  | none => rfl
  | some s => exact absurd (fromUtf8_iff.1 hf) (h s)

/-- C18: `from_reader` succeeds exactly when the reader delivers, in whatever chunks, the UTF-8 encoding of a text on
which `from_str` succeeds; the result is the same with owned keys. -/
theorem c18_from_reader (es : List ReadEvent) (merge : Option MergeBehaviour) (m : MapValues) :
    fromReader U P es merge = .ok m ↔
      ∃ s m', Delivers es (some (utf8 s)) ∧ fromStr U P s merge = .ok m' ∧ m = ownMap m' := by
  simp only [delivers_iff]
  unfold fromReader
  constructor
  · intro h
    split at h
    · cases h
    · rename_i bytes hb
      split at h
      · cases h
      · rename_i s hs
        split at h
        · rename_i m' hp
          injection h with h
          exact ⟨s, m', by rw [hb, fromUtf8_iff.1 hs], hp,
            by rw [← c19_map_as_owned m' (c19_from_str_valid U P s merge m' hp)]; exact h.symm⟩
        · cases h
        · cases h
        · cases h
  · rintro ⟨s, m', h1, h2, rfl⟩
    rw [h1]
    simp only []
    rw [fromUtf8_iff.2 rfl]
    simp only []
    rw [h2]
    simp only []
    rw [c19_map_as_owned m' (c19_from_str_valid U P s merge m' h2)]

/-- C18: read errors and invalid UTF-8 are errors. -/
theorem c18_from_reader_fails (es : List ReadEvent) (merge : Option MergeBehaviour)
    (h : Delivers es none ∨ ∃ bytes, Delivers es (some bytes) ∧ ∀ s, bytes ≠ utf8 s) :
    fromReader U P es merge = .error .io := by
  unfold fromReader
  rcases h with h | ⟨bytes, h, hs⟩
  · rw [delivers_iff.1 h]
  · rw [delivers_iff.1 h]
    simp only []
    cases hf : fromUtf8 bytes with
    | none => rfl
    | some s => exact absurd (fromUtf8_iff.1 hf) (hs s)

example : fromReader asciiClass zeroFloats [.data [97, 61], .interrupted, .data [49], .data []] (some .error) =
    .ok (.merged [(.identifier (.ownedS ['a']), .integer 1)]) := by decide +kernel

/-- C34: borrowing the labels of a block keeps the kind, the pairs and their order (a merged block has distinct labels). -/
theorem c34_borrow_keys (b : VBlock) (h : ∀ m, b = .merged m → (m.map Prod.fst).Nodup) : b.borrowKeys = b := by
  cases b with
  | merged m =>
    have := collect_distinct (id : List Str → List Str) m (by simpa using h m rfl)
    simp only [VBlock.borrowKeys, this]
  | unmerged l => rfl

example : (VBlock.borrowKeys (.merged [([['a']], .unmerged []), ([['b'], ['c']], .merged [])])).getSingle id [['b'], ['c']] =
    some (.merged []) := by rfl

end Verif.Props
