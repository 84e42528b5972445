import Verif.Proofs.Safety
import Verif.Proofs.IntParse
import Verif.Proofs.RecognizeFloat
import Verif.Spec.OldGrammar
/-! # The legacy value grammar: the parser accepts exactly the grammar -/
set_option autoImplicit false

namespace Verif
open PRes Spec

section
variable {U : CharClass} {P : F64Parse}

/-! ## consuming -/

theorem entryEnd_suffix {s r : Str} (h : IsEntryEnd s r) : r <:+ s := by
  cases h with
  | comma _ _ h => exact (List.suffix_cons _ _).trans h.suffix
  | newline _ _ h => exact (newlines_consumes h).suffix
  | eof => exact List.suffix_refl _

theorem isKey_consumes {s r : Str} {k : Key} (h : IsKey U s k r) : Consumes s r := by
  cases h with
  | ident i _ h => exact ident_consumes h
  | string v _ h => exact quoted_consumes h

theorem stringLabels_suffix {s r : Str} {ls : List Str} (h : IsStringLabels s ls r) : r <:+ s := by
  induction h with
  | nil => exact List.suffix_refl _
  | cons s t u l ls r h1 h2 _ ih => exact ih.trans ((quoted_consumes h2).suffix.trans h1.suffix)

/-- Simultaneous induction on the relations of the grammar. -/
theorem old_induct {m1 : Str → Value → Str → Prop} {m2 : Str → List Value → Str → Prop}
    {m3 : Str → List Value → Str → Prop} {m4 : Str → List (Key × Value) → Str → Prop}
    {m5 : Str → Key → Value → Str → Prop}
    (null : ∀ r, m1 ('n' :: 'u' :: 'l' :: 'l' :: r) .null r)
    (true : ∀ r, m1 ('t' :: 'r' :: 'u' :: 'e' :: r) (.boolean true) r)
    (false : ∀ r, m1 ('f' :: 'a' :: 'l' :: 's' :: 'e' :: r) (.boolean false) r)
    (number : ∀ t n v r, NumberTok (t ++ r) n r → NumberValue P t v → m1 (t ++ r) v r)
    (string : ∀ s (v : CowStr) r, StringTok U s v r → m1 s (.string v.str) r)
    (list : ∀ s vs r, IsListBody U P s vs r → m2 s vs r → m1 ('[' :: s) (.list vs) r)
    (map : ∀ s t es r, SkipLayout s ('{' :: t) → IsEntries U P t es ('}' :: r) → m4 t es ('}' :: r) →
      m1 s (.object [.unmerged es]) r)
    (empty : ∀ s r, IsTupleEnd s r → m2 s [] r)
    (elems : ∀ s t u v vs r, SkipLayout s t → IsValue U P t v u → IsListTail U P u vs r → m1 t v u → m3 u vs r →
      m2 s (v :: vs) r)
    (last : ∀ s r, IsTupleEnd s r → m3 s [] r)
    (more : ∀ s t u w v vs r, SkipLayout s (',' :: t) → SkipLayout t u → IsValue U P u v w → IsListTail U P w vs r →
      m1 u v w → m3 w vs r → m3 s (v :: vs) r)
    (done : ∀ s r, SkipLayout s r → m4 s [] r)
    (entry : ∀ s t u w k v es r, SkipLayout s t → IsEntry U P t k v u → IsEntryEnd u w → IsEntries U P w es r →
      m5 t k v u → m4 w es r → m4 s ((k, v) :: es) r)
    (attr : ∀ s t u w x r k v, IsKey U s k t → SkipInline t ('=' :: u) → SkipInline u w → IsValue U P w v x →
      SkipInline x r → m1 w v x → m5 s k v r)
    (emap : ∀ s i t u w r es, Ident U s i t → SkipLayout t ('{' :: u) → IsEntries U P u es ('}' :: w) →
      SkipInline w r → m4 u es ('}' :: w) → m5 s (.identifier (.borrowed i)) (.object [.unmerged es]) r)
    (eblock : ∀ s i t u w x r ls es, Ident U s i t → IsStringLabels t ls u → ls ≠ [] → SkipLayout u ('{' :: w) →
      IsEntries U P w es ('}' :: x) → SkipInline x r → m4 w es ('}' :: x) →
      m5 s (.identifier (.borrowed i)) (.block (.unmerged [(ls, .unmerged es)])) r) :
    (∀ {s v r}, IsValue U P s v r → m1 s v r) ∧ (∀ {s es r}, IsEntries U P s es r → m4 s es r) ∧
    (∀ {s k v r}, IsEntry U P s k v r → m5 s k v r) := by
  refine ⟨fun h => ?_, fun h => ?_, fun h => ?_⟩
  · exact IsValue.rec (motive_1 := fun s v r _ => m1 s v r) (motive_2 := fun s v r _ => m2 s v r)
      (motive_3 := fun s v r _ => m3 s v r) (motive_4 := fun s v r _ => m4 s v r)
      (motive_5 := fun s k v r _ => m5 s k v r) null true false number string list map empty elems last more done
      entry attr emap eblock h
  · exact IsEntries.rec (motive_1 := fun s v r _ => m1 s v r) (motive_2 := fun s v r _ => m2 s v r)
      (motive_3 := fun s v r _ => m3 s v r) (motive_4 := fun s v r _ => m4 s v r)
      (motive_5 := fun s k v r _ => m5 s k v r) null true false number string list map empty elems last more done
      entry attr emap eblock h
  · exact IsEntry.rec (motive_1 := fun s v r _ => m1 s v r) (motive_2 := fun s v r _ => m2 s v r)
      (motive_3 := fun s v r _ => m3 s v r) (motive_4 := fun s v r _ => m4 s v r)
      (motive_5 := fun s k v r _ => m5 s k v r) null true false number string list map empty elems last more done
      entry attr emap eblock h

theorem isValue_consumes_aux :
    (∀ {s : Str} {v : Value} {r : Str}, IsValue U P s v r → Consumes s r) ∧
    (∀ {s : Str} {es : List (Key × Value)} {r : Str}, IsEntries U P s es r →
      r <:+ s ∧ ¬ Starts LayoutItem r) ∧
    (∀ {s : Str} {k : Key} {v : Value} {r : Str}, IsEntry U P s k v r → Consumes s r) := by
  refine old_induct (m1 := fun s _ r => Consumes s r) (m2 := fun s _ r => Consumes s r)
      (m3 := fun s _ r => Consumes s r) (m4 := fun s _ r => r <:+ s ∧ ¬ Starts LayoutItem r)
      (m5 := fun s _ _ r => Consumes s r) ?_ ?_ ?_ ?_ ?_ ?_ ?_ ?_ ?_ ?_ ?_ ?_ ?_ ?_ ?_ ?_
  · intro r; exact ⟨['n', 'u', 'l', 'l'], by simp, rfl⟩
  · intro r; exact ⟨['t', 'r', 'u', 'e'], by simp, rfl⟩
  · intro r; exact ⟨['f', 'a', 'l', 's', 'e'], by simp, rfl⟩
  · intro t n v r h _; exact numberTok_consumes h
  · intro s v r h; exact stringTok_consumes h
  · intro s vs r _ h; exact h.of_suffix (List.suffix_cons _ _)
  · intro s t es r h _ ih
    exact (consumes_cons _ _).of_suffix (ih.1.trans ((List.suffix_cons _ _).trans h.suffix))
  · intro s r h; exact tupleEnd_consumes h
  · intro s t u v vs r h _ _ ih ih'; exact ih'.of_suffix (ih.suffix.trans h.suffix)
  · intro s r h; exact tupleEnd_consumes h
  · intro s t u w v vs r h h' _ _ ih ih'
    exact ih'.of_suffix (ih.suffix.trans (h'.suffix.trans ((List.suffix_cons _ _).trans h.suffix)))
  · intro s r h; exact ⟨h.suffix, h.not_starts⟩
  · intro s t u w k v es r h1 _ h3 _ ih2 ih4
    exact ⟨ih4.1.trans ((entryEnd_suffix h3).trans (ih2.suffix.trans h1.suffix)), ih4.2⟩
  · intro s t u w x r k v h1 h2 h3 _ h5 ih
    exact (isKey_consumes h1).then (h5.suffix.trans (ih.suffix.trans (h3.suffix.trans
      ((List.suffix_cons _ _).trans h2.suffix))))
  · intro s i t u w r es h1 h2 _ h4 ih
    exact (ident_consumes h1).then (h4.suffix.trans ((List.suffix_cons _ _).trans (ih.1.trans
      ((List.suffix_cons _ _).trans h2.suffix))))
  · intro s i t u w x r ls es h1 h2 _ h4 _ h6 ih
    exact (ident_consumes h1).then (h6.suffix.trans ((List.suffix_cons _ _).trans (ih.1.trans
      ((List.suffix_cons _ _).trans (h4.suffix.trans (stringLabels_suffix h2))))))

theorem isValue_consumes {s r : Str} {v : Value} (h : IsValue U P s v r) : Consumes s r := isValue_consumes_aux.1 h
theorem isEntries_suffix {s r : Str} {es : List (Key × Value)} (h : IsEntries U P s es r) : r <:+ s :=
  (isValue_consumes_aux.2.1 h).1
theorem isEntries_not_starts {s r : Str} {es : List (Key × Value)} (h : IsEntries U P s es r) :
    ¬ Starts LayoutItem r := (isValue_consumes_aux.2.1 h).2
theorem isEntry_consumes {s r : Str} {k : Key} {v : Value} (h : IsEntry U P s k v r) : Consumes s r :=
  isValue_consumes_aux.2.2 h

/-! ## numbers and keys -/

theorem inI64_iff {k : Int} : i64.inRange k = true ↔ InI64 k := by
  rw [inRange_iff]
  unfold InI64 IntTy.min IntTy.max i64
  simp only [if_true]
  constructor <;> intro h <;> omega

theorem numberValue_iff {t : Str} {v : Value} : numberValue P t = some v ↔ NumberValue P t v := by
  have key : ∀ k, parseInt i64 t = some k ↔ IntLit t k ∧ InI64 k := by
    intro k
    rw [parseInt_iff, inI64_iff]
    exact ⟨fun h => ⟨h.1, h.2.1⟩, fun h => ⟨h.1, h.2, .inl rfl⟩⟩
  unfold numberValue
  constructor
  · intro h
    split at h
    · rename_i i hi
      injection h with h; subst h
      exact .integer _ _ ((key i).1 hi).1 ((key i).1 hi).2
    · rename_i hi
      split at h
      · rename_i f hf
        injection h with h; subst h
        refine .float _ _ ?_ hf
        rintro ⟨k, hk⟩
        rw [(key k).2 hk] at hi; cases hi
      · cases h
  · intro h
    cases h with
    | integer k h1 h2 => rw [(key k).2 ⟨h1, h2⟩]
    | float f h1 h2 =>
      have : parseInt i64 t = none := by
        cases hp : parseInt i64 t with
        | none => rfl
        | some k => exact absurd ⟨k, (key k).1 hp⟩ h1
      rw [this, h2]

theorem oldNumber_iff {s r : Str} {v : Value} :
    oldNumber P s = .ok r v ↔ ∃ t n, s = t ++ r ∧ NumberTok s n r ∧ NumberValue P t v := by
  rw [oldNumber_eq, mapRes_eq_ok]
  simp only [recognize_eq_ok fun v hv => (numberTok_consumes (number_iff.1 hv)).suffix, number_iff, numberValue_iff]
  constructor
  · rintro ⟨t, ⟨n, h1, h2⟩, h3⟩; exact ⟨t, n, h2, h1, h3⟩
  · rintro ⟨t, n, h2, h1, h3⟩; exact ⟨t, ⟨n, h1, h2⟩, h3⟩

theorem oldNumber_err {s : Str} (h : ¬ Head (fun c => IsDig c ∨ c = '.' ∨ c = '+' ∨ c = '-') s) :
    oldNumber P s = .err := by
  rw [oldNumber_eq]
  unfold mapRes recognize
  rw [number_err h]; rfl

theorem oldKey_iff {s r : Str} {k : Key} : oldKey U s = .ok r k ↔ IsKey U s k r := by
  unfold oldKey
  simp only [orElse_eq_ok, mapP_eq_ok, identifier_iff, stringLiteral_iff]
  constructor
  · rintro (⟨i, h, rfl⟩ | ⟨-, v, h, rfl⟩)
    · exact .ident _ _ _ h
    · exact .string _ _ _ h
  · intro h
    cases h with
    | ident i _ h => exact .inl ⟨i, h, rfl⟩
    | string v _ h =>
      refine .inr ⟨?_, v, h, rfl⟩
      obtain ⟨src, rfl, -⟩ := h
      rw [mapP_apply, identifier_err]
      · rfl
      · rw [List.cons_append, head_cons]; exact not_identStart (by decide) (by decide)

theorem stringLiteral_err {s : Str} (h : ¬ Head (fun c => c = '"') s) : stringLiteral s = .err := by
  unfold stringLiteral
  have : tag ['"'] s = .err := by
    rw [tag_eq_err]; rintro ⟨t, rfl⟩; exact h ⟨_, _, rfl, rfl⟩
  simp [this]

theorem oldKey_err {s : Str} (h : ¬ Head (fun c => IdentStart U c ∨ c = '"') s) : oldKey U s = .err := by
  unfold oldKey
  rw [orElse_eq_err]
  constructor
  · rw [mapP_apply, identifier_err fun ⟨c, t, e, hc⟩ => h ⟨c, t, e, .inl hc⟩]; rfl
  · rw [mapP_apply, stringLiteral_err fun ⟨c, t, e, hc⟩ => h ⟨c, t, e, .inr hc⟩]; rfl

/-! ## soundness -/

/-- `v` and `m` are sound. -/
def SoundOld (U : CharClass) (P : F64Parse) (v : Parser Value) (m : Parser MapValues) : Prop :=
  (∀ s r x, v s = .ok r x → IsValue U P s x r) ∧
  (∀ s r x, m s = .ok r x → ∃ es, x = .unmerged es ∧ IsEntries U P s es r)

theorem isEntries_prepend {l s r : Str} {es : List (Key × Value)} (hl : Seq LayoutItem l) (h : IsEntries U P s es r) :
    IsEntries U P (l ++ s) es r := by
  cases h with
  | done => rename_i h; exact .done _ _ (h.prepend hl)
  | entry => exact .entry _ _ _ _ _ _ _ _ (Skip.prepend hl ‹_›) ‹_› ‹_› ‹_›

theorem isEntries_unprepend {l s r : Str} {es : List (Key × Value)} (hl : Seq LayoutItem l)
    (h : IsEntries U P (l ++ s) es r) : IsEntries U P s es r := by
  generalize hs : l ++ s = s' at h
  cases h with
  | done => rename_i h; subst hs; exact .done _ _ (h.unprepend layoutItem_prefix hl)
  | entry => subst hs; exact .entry _ _ _ _ _ _ _ _ (Skip.unprepend layoutItem_prefix hl ‹_›) ‹_› ‹_› ‹_›

theorem isEntries_skip {s t r : Str} {es : List (Key × Value)} (h : SkipLayout s t) :
    IsEntries U P s es r ↔ IsEntries U P t es r := by
  obtain ⟨l, hl, rfl, -⟩ := h
  exact ⟨isEntries_unprepend hl, isEntries_prepend hl⟩

section
variable {v : Parser Value} {m : Parser MapValues}

theorem mapExpression_eq_ok {s r : Str} {x : MapValues} :
    mapExpression m s = .ok r x ↔ ∃ t t' u, SkipLayout s ('{' :: t) ∧ SkipLayout t t' ∧ m t' = .ok u x ∧
      SkipLayout u ('}' :: r) := by
  unfold mapExpression
  simp only [bindP_eq_ok, wsAround_eq_ok, tag_eq_ok, pure_apply]
  constructor
  · rintro ⟨t0, _, ⟨t1, t2, h1, ⟨rfl, -⟩, h2⟩, u0, _, ⟨u1, u2, h3, h4, h5⟩, r', _, ⟨rfl, -⟩, h8⟩
    injection h8 with h9 h10; subst h9 h10
    have := layout_again_eq h2 h3; subst this
    exact ⟨t2, u1, u2, h1, h2, h4, h5⟩
  · rintro ⟨t, t', u, h1, h2, h3, h4⟩
    exact ⟨t', _, ⟨_, t, h1, ⟨rfl, rfl⟩, h2⟩, '}' :: r, _, ⟨t', u, h2.again, h3, h4⟩, r, _, ⟨rfl, rfl⟩, rfl⟩

theorem mapExpression_sound (hm : ∀ s r x, m s = .ok r x → ∃ es, x = .unmerged es ∧ IsEntries U P s es r)
    {s r : Str} {x : MapValues} (h : mapExpression m s = .ok r x) :
    ∃ t es, x = .unmerged es ∧ SkipLayout s ('{' :: t) ∧ IsEntries U P t es ('}' :: r) := by
  obtain ⟨t, t', u, h1, h2, h3, h4⟩ := mapExpression_eq_ok.1 h
  obtain ⟨es, rfl, h5⟩ := hm _ _ _ h3
  have : '}' :: r = u := h4.functional layoutItem_prefix (.refl (isEntries_not_starts h5))
  subst this
  exact ⟨t, es, rfl, h1, (isEntries_skip h2).2 h5⟩

theorem listElem_iff {s r : Str} {x : Value} : listElem v s = .ok r x ↔ ∃ t, SkipLayout s t ∧ v t = .ok r x := by
  unfold listElem; exact wsThen_eq_ok

theorem listTail_sound (hv : ∀ s r x, v s = .ok r x → IsValue U P s x r) :
    ∀ (n : Nat) (s r r' : Str) (es : List Value), sepTailAux tupleSep (listElem v) n s = .ok r es →
      IsTupleEnd r r' → IsListTail U P s es r' := by
  intro n
  induction n with
  | zero => intro s r r' es h; cases h
  | succ n ih =>
    intro s r r' es h hr
    rw [sepTailAux_succ] at h
    split at h
    · injection h with h1 h2; subst h1 h2; exact .last _ _ hr
    · cases h
    · cases h
    · cases h
    · rename_i t v hs
      split at h
      · injection h with h1 h2; subst h1 h2; exact .last _ _ hr
      · cases h
      · cases h
      · cases h
      · rename_i u w hp
        split at h
        · obtain ⟨es', h1, rfl⟩ := map_eq_ok.1 h
          obtain ⟨x, hx, hp⟩ := listElem_iff.1 hp
          exact .more _ _ _ _ _ _ _ (tupleSep_iff.1 hs).2 hx (hv _ _ _ hp) (ih _ _ _ _ h1 hr)
        · cases h

theorem list_sound (hv : ∀ s r x, v s = .ok r x → IsValue U P s x r) {s r : Str} {es : List Value}
    (h : list v s = .ok r es) : ∃ t, s = '[' :: t ∧ IsListBody U P t es r := by
  unfold list at h
  rw [tagThen_eq_ok] at h
  obtain ⟨t, rfl, h⟩ := h
  refine ⟨t, rfl, ?_⟩
  simp only [bindP_eq_ok, pure_apply] at h
  obtain ⟨u, es', h1, v, _, h2, h3⟩ := h
  injection h3 with h4 h5; subst h4 h5
  have h2 := tupleEnd_iff.1 h2
  unfold separatedList at h1
  split at h1
  · injection h1 with h1 h3; subst h1 h3; exact .empty _ _ h2
  · cases h1
  · cases h1
  · cases h1
  · rename_i x w hp
    split at h1
    · obtain ⟨es'', h1', rfl⟩ := map_eq_ok.1 h1
      obtain ⟨y, hy, hp⟩ := listElem_iff.1 hp
      exact .elems _ _ _ _ _ _ hy (hv _ _ _ hp) (listTail_sound hv _ _ _ _ _ h1' h2)
    · cases h1

theorem valueStep_sound (h : SoundOld U P v m) {s r : Str} {x : Value} (hs : valueStep U P v m s = .ok r x) :
    IsValue U P s x r := by
  unfold valueStep null boolean at hs
  simp only [orElse_eq_ok, mapP_eq_ok, tag_eq_ok, oldNumber_iff, string_iff] at hs
  rcases hs with ⟨_, ⟨_, ⟨rfl, -⟩, -⟩, rfl⟩ | ⟨-, ⟨t, n, rfl, h1, h2⟩ | ⟨-, ⟨b, hb, rfl⟩ | ⟨-, ⟨w, hw, rfl⟩ |
    ⟨-, ⟨es, hl, rfl⟩ | ⟨-, es, hm, rfl⟩⟩⟩⟩⟩
  · exact .null _
  · exact .number _ _ _ _ h1 h2
  · rcases hb with ⟨_, ⟨rfl, -⟩, rfl⟩ | ⟨-, _, ⟨rfl, -⟩, rfl⟩
    · exact .true _
    · exact .false _
  · exact .string _ _ _ hw
  · obtain ⟨t, rfl, h'⟩ := list_sound h.1 hl
    exact .list _ _ _ h'
  · obtain ⟨t, es, rfl, h1, h2⟩ := mapExpression_sound h.2 hm
    exact .map _ _ _ _ h1 h2

theorem attributeEq_ok {s r : Str} {a : Key × Value} :
    attributeEq U v s = .ok r a ↔ ∃ s' t u w, SkipInline s s' ∧ IsKey U s' a.1 t ∧ SkipInline t ('=' :: u) ∧
      SkipInline u w ∧ v w = .ok r a.2 := by
  unfold attributeEq
  rw [inlineThen_eq_ok]
  simp only [bindP_eq_ok, tag_eq_ok, oldKey_iff, pure_apply]
  constructor
  · rintro ⟨t, h1, u, i, h2, v0, _, h3, v, _, ⟨rfl, -⟩, w, _, h4, x, ex, h5, h7⟩
    injection h7 with h8 h9; subst h8 h9
    exact ⟨t, u, v, w, h1, h2, inlineWs_skip h3, inlineWs_skip h4, h5⟩
  · rintro ⟨s', t, u, w, h1, h2, h3, h4, h5⟩
    obtain ⟨_, h3⟩ := inlineWs_iff.2 h3
    obtain ⟨_, h4⟩ := inlineWs_iff.2 h4
    exact ⟨s', h1, t, _, h2, _, _, h3, u, _, ⟨rfl, rfl⟩, w, _, h4, r, _, h5, rfl⟩

theorem attributeMap_ok {s r : Str} {a : Key × Value} :
    attributeMap U m s = .ok r a ↔ ∃ s' i t t' u w x, SkipInline s s' ∧ Ident U s' i t ∧ SkipInline t t' ∧
      (t' = '=' :: u ∨ (¬ Head (fun c => c = '=') t' ∧ u = t')) ∧ SkipInline u w ∧ mapExpression m w = .ok r x ∧
      a = (.identifier (.borrowed i), .object [x]) := by
  unfold attributeMap
  rw [inlineThen_eq_ok]
  simp only [bindP_eq_ok, opt_eq_ok, tag_eq_ok, identifier_iff, pure_apply]
  constructor
  · rintro ⟨s', h1, t, i, h2, t', _, h3, u, o, h4, w, _, h5, r', x, h6, h7⟩
    injection h7 with h8 h9; subst h8 h9
    refine ⟨s', i, t, t', u, w, x, h1, h2, inlineWs_skip h3, ?_, inlineWs_skip h5, h6, rfl⟩
    rcases h4 with ⟨_, ⟨rfl, -⟩, -⟩ | ⟨h, rfl, -⟩
    · exact .inl rfl
    · refine .inr ⟨?_, rfl⟩
      rintro ⟨c, y, rfl, rfl⟩
      rw [tag_eq_err] at h
      exact h ⟨y, rfl⟩
  · rintro ⟨s', i, t, t', u, w, x, h1, h2, h3, h4, h5, h6, rfl⟩
    obtain ⟨_, h3⟩ := inlineWs_iff.2 h3
    obtain ⟨_, h5⟩ := inlineWs_iff.2 h5
    rcases h4 with rfl | ⟨h, rfl⟩
    · exact ⟨s', h1, t, i, h2, _, _, h3, u, _, .inl ⟨_, ⟨rfl, rfl⟩, rfl⟩, w, _, h5, r, x, h6, rfl⟩
    · refine ⟨s', h1, t, i, h2, _, _, h3, u, none, .inr ⟨?_, rfl, rfl⟩, w, _, h5, r, x, h6, rfl⟩
      rw [tag_eq_err]; rintro ⟨y, rfl⟩; exact h ⟨_, _, rfl, rfl⟩

theorem labels_sound {s r : Str} {ls : List Str} (h : many0 (do let _ ← inlineWs; stringLiteral) s = .ok r ls) :
    IsStringLabels s ls r := by
  rw [many0_eq_ok] at h
  induction h with
  | stop s h => exact .nil _
  | stuck s r' v h hl =>
    obtain ⟨t, h1, h2⟩ := inlineThen_eq_ok.1 h
    have := (quoted_consumes (stringLiteral_iff.1 h2)).length
    have := h1.length
    exact absurd hl (by omega)
  | cons s r' v vs t h hl _ ih =>
    obtain ⟨t, h1, h2⟩ := inlineThen_eq_ok.1 h
    exact .cons _ _ _ _ _ _ h1 (stringLiteral_iff.1 h2) ih

theorem attributeBlock_ok {s r : Str} {a : Key × Value} :
    attributeBlock U m s = .ok r a ↔ ∃ s' i t ls u w x, SkipInline s s' ∧ Ident U s' i t ∧
      many0 (do let _ ← inlineWs; stringLiteral) t = .ok u ls ∧ SkipInline u w ∧ mapExpression m w = .ok r x ∧
      a = (.identifier (.borrowed i), .block (.unmerged [(ls, x)])) := by
  unfold attributeBlock
  rw [inlineThen_eq_ok]
  simp only [bindP_eq_ok, identifier_iff, pure_apply]
  constructor
  · rintro ⟨s', h1, t, i, h2, u, ls, h3, w, _, h5, r', x, h6, h7⟩
    injection h7 with h8 h9; subst h8 h9
    exact ⟨s', i, t, ls, u, w, x, h1, h2, h3, inlineWs_skip h5, h6, rfl⟩
  · rintro ⟨s', i, t, ls, u, w, x, h1, h2, h3, h5, h6, rfl⟩
    obtain ⟨_, h5⟩ := inlineWs_iff.2 h5
    exact ⟨s', h1, t, i, h2, u, ls, h3, w, _, h5, r, x, h6, rfl⟩

theorem skip_not_head {c d : Char} {s t : Str} (h : SkipLayout s (c :: t)) (hd : ¬ LayoutStart d) (hcd : c ≠ d) :
    ¬ Head (fun x => x = d) s := by
  rcases skip_head h with rfl | hs
  · rw [head_cons]; exact hcd
  · exact not_head hs fun x hx e => hd (e ▸ hx)

theorem oldAttribute_sound (h : SoundOld U P v m) {s r : Str} {a : Key × Value}
    (ha : oldAttribute U v m s = .ok r a) : ∃ t, SkipInline s t ∧ IsEntry U P t a.1 a.2 r := by
  unfold oldAttribute at ha
  simp only [bindP_eq_ok, pure_apply] at ha
  obtain ⟨u, a', ha, r', _, hr, h'⟩ := ha
  injection h' with h1 h2; subst h1 h2
  replace hr := inlineWs_skip hr
  simp only [orElse_eq_ok] at ha
  rcases ha with ha | ⟨-, ha | ⟨hm, ha⟩⟩
  · obtain ⟨s', t, y, w, h1, h2, h3, h4, h5⟩ := attributeEq_ok.1 ha
    exact ⟨s', h1, .attribute _ _ _ _ _ _ _ _ h2 h3 h4 (h.1 _ _ _ h5) hr⟩
  · obtain ⟨s', i, t, t', y, w, x, h1, h2, h3, h4, h5, h6, rfl⟩ := attributeMap_ok.1 ha
    obtain ⟨z, es, rfl, h7, h8⟩ := mapExpression_sound h.2 h6
    refine ⟨s', h1, ?_⟩
    rcases h4 with rfl | ⟨-, rfl⟩
    · exact .attribute _ _ _ _ _ _ _ _ (.ident _ _ _ h2) h3 h5 (.map _ _ _ _ h7 h8) hr
    · exact .map _ _ _ _ _ _ _ h2 (layout_of_inline h3 (layout_of_inline h5 h7)) h8 hr
  · obtain ⟨s', i, t, ls, y, w, x, h1, h2, h3, h5, h6, rfl⟩ := attributeBlock_ok.1 ha
    have hl := labels_sound h3
    obtain ⟨z, es, rfl, h7, h8⟩ := mapExpression_sound h.2 h6
    refine ⟨s', h1, .block _ _ _ _ _ _ _ _ _ h2 hl ?_ (layout_of_inline h5 h7) h8 hr⟩
    rintro rfl
    cases hl
    have : attributeMap U m s = .ok u (.identifier (.borrowed i), .object [.unmerged es]) :=
      attributeMap_ok.2 ⟨s', i, t, w, w, w, .unmerged es, h1, h2, h5,
        .inr ⟨skip_not_head h7 (by simp [LayoutStart]) (by decide), rfl⟩, h5.again, h6, rfl⟩
    rw [this] at hm; cases hm

theorem attributeEnd_sound {s r : Str} (h : attributeEnd s = .ok r ()) :
    ∃ r', IsEntryEnd s r' ∧ ∃ l, Seq LayoutItem l ∧ r' = l ++ r := by
  unfold attributeEnd at h
  simp only [orElse_eq_ok, mapP_eq_ok, wsAround_eq_ok, tag_eq_ok, eof_eq_ok] at h
  rcases h with ⟨_, ⟨t, u, h1, ⟨rfl, -⟩, h2⟩, -⟩ | ⟨-, ⟨_, h, -⟩ | ⟨-, rfl, rfl⟩⟩
  · obtain ⟨l, hl, rfl, -⟩ := h2
    exact ⟨l ++ r, .comma _ _ h1, l, hl, rfl⟩
  · exact ⟨r, .newline _ _ (newline_sound h), [], .nil, rfl⟩
  · exact ⟨[], .eof, [], .nil, rfl⟩

theorem mapItem_eq_ok {s r : Str} {a : Key × Value} :
    mapItem U v m s = .ok r a ↔ ∃ t u, SkipLayout s t ∧ oldAttribute U v m t = .ok u a ∧ attributeEnd u = .ok r () := by
  unfold mapItem
  rw [wsThen_eq_ok]
  simp only [bindP_eq_ok, pure_apply]
  constructor
  · rintro ⟨t, h1, u, _, h2, r', _, h3, h4⟩
    injection h4 with h5 h6; subst h5 h6
    exact ⟨t, u, h1, h2, h3⟩
  · rintro ⟨t, u, h1, h2, h3⟩
    exact ⟨t, h1, u, _, h2, r, _, h3, rfl⟩

theorem mapItem_sound (h : SoundOld U P v m) {s r : Str} {a : Key × Value} (ha : mapItem U v m s = .ok r a) :
    ∃ t u w l, SkipLayout s t ∧ IsEntry U P t a.1 a.2 u ∧ IsEntryEnd u w ∧ Seq LayoutItem l ∧ w = l ++ r := by
  obtain ⟨t, u, h1, h2, h3⟩ := mapItem_eq_ok.1 ha
  obtain ⟨t', h4, h5⟩ := oldAttribute_sound h h2
  have := inline_after_layout h1 h4; subst this
  obtain ⟨w, h6, l, hl, hw⟩ := attributeEnd_sound h3
  exact ⟨t', u, w, l, h1, h5, h6, hl, hw⟩

theorem mapStep_sound (h : SoundOld U P v m) {s r : Str} {x : MapValues} (hs : mapStep U v m s = .ok r x) :
    ∃ es, x = .unmerged es ∧ IsEntries U P s es r := by
  unfold mapStep at hs
  simp only [bindP_eq_ok, pure_apply] at hs
  obtain ⟨t, vs, h1, r', _, h2, h3⟩ := hs
  injection h3 with h4 h5; subst h4 h5
  refine ⟨vs, rfl, ?_⟩
  replace h2 := ws_skip h2
  rw [many0_eq_ok] at h1
  induction h1 with
  | stop s h => exact .done _ _ h2
  | stuck s r' v ha hl =>
    obtain ⟨t, u, w, l, h3, h4, h5, _, rfl⟩ := mapItem_sound h ha
    have := (((isEntry_consumes h4).of_suffix h3.suffix).then (entryEnd_suffix h5)).length
    simp at this
    exact absurd hl (by omega)
  | cons s r' a vs t ha hl _ ih =>
    obtain ⟨t, u, w, l, h3, h4, h5, hl, rfl⟩ := mapItem_sound h ha
    obtain ⟨k, x⟩ := a
    exact .entry _ _ _ _ _ _ _ _ h3 h4 h5 (isEntries_prepend hl (ih h2))

end

theorem oldN_sound : ∀ n : Nat, SoundOld U P (oldN U P n).1 (oldN U P n).2 := by
  intro n
  induction n with
  | zero => exact ⟨fun s r x h => (by cases h), fun s r x h => (by cases h)⟩
  | succ n ih => exact ⟨fun s r x h => valueStep_sound ih h, fun s r x h => mapStep_sound ih h⟩

/-! ## completeness -/
section
variable {v : Parser Value} {m : Parser MapValues} {n : Nat}

/-- `v` and `m` do what is asked on inputs shorter than `n`. -/
def CompleteOld (U : CharClass) (P : F64Parse) (v : Parser Value) (m : Parser MapValues) (n : Nat) : Prop :=
  (∀ s x r, s.length < n → IsValue U P s x r → v s = .ok r x) ∧
  (∀ c t, (c = ']' ∨ c = ',') → (c :: t).length < n → v (c :: t) = .err) ∧
  (∀ s es r, s.length < n → BodyEnd r → IsEntries U P s es r → m s = .ok r (.unmerged es))

theorem listElem_end (hc : CompleteOld U P v m n) {s r : Str} (hs : s.length < n) (h : SkipLayout s (']' :: r)) :
    listElem v s = .err := by
  unfold listElem
  rw [ws_bind (fun _ _ => rfl) h]
  exact hc.2.1 _ _ (.inl rfl) (by have := h.length; omega)

theorem listTail_complete (hc : CompleteOld U P v m n) : ∀ (es : List Value) (k : Nat) (s r : Str),
    s.length < n → s.length < k → IsListTail U P s es r →
    ∃ r', sepTailAux tupleSep (listElem v) k s = .ok r' es ∧ IsTupleEnd r' r := by
  intro es
  induction es with
  | nil =>
    intro m s r hn hm h
    obtain ⟨m, rfl⟩ := Nat.exists_eq_succ_of_ne_zero (by omega : m ≠ 0)
    cases h with
    | last =>
      rename_i h
      refine ⟨s, ?_, h⟩
      rw [sepTailAux_succ]
      cases h with
      | close _ h =>
        have : tupleSep s = .err := by
          unfold tupleSep; rw [ws_bind (fun _ _ => rfl) h]; exact tag_cons_ne (by decide)
        rw [this]
      | comma t _ h h' =>
        rw [tupleSep_iff.2 ⟨rfl, h⟩]
        have : listElem v t = .err := listElem_end hc (by have := h.length; simp at this; omega) h'
        simp only [this]
  | cons x es ih =>
    intro m s r hn hm h
    obtain ⟨m, rfl⟩ := Nat.exists_eq_succ_of_ne_zero (by omega : m ≠ 0)
    cases h with
    | more =>
      rename_i t u w a1 a2 a3 a4
      obtain ⟨h1, h2, h3, h4⟩ : SkipLayout s (',' :: t) ∧ SkipLayout t u ∧ IsValue U P u x w ∧ IsListTail U P w es r :=
        ⟨‹_›, ‹_›, ‹_›, ‹_›⟩
      have l1 := h1.length
      have l2 := h2.length
      have l3 := (isValue_consumes h3).length
      simp at l1
      obtain ⟨r', h5, h6⟩ := ih m w r (by omega) (by omega) h4
      refine ⟨r', ?_, h6⟩
      rw [sepTailAux_succ, tupleSep_iff.2 ⟨rfl, h1⟩]
      simp only []
      rw [listElem_iff.2 ⟨u, h2, hc.1 _ _ _ (by omega) h3⟩]
      simp only []
      rw [if_pos (by omega), h5]; rfl

theorem list_complete (hc : CompleteOld U P v m n) {s r : Str} {es : List Value} (hs : s.length < n)
    (h : IsListBody U P s es r) : list v ('[' :: s) = .ok r es := by
  have key : ∃ r', separatedList tupleSep (listElem v) s = .ok r' es ∧ IsTupleEnd r' r := by
    unfold separatedList
    cases h with
    | empty =>
      rename_i h
      refine ⟨s, ?_, h⟩
      have : listElem v s = .err := by
        cases h with
        | close _ h => exact listElem_end hc hs h
        | comma t _ h _ =>
          unfold listElem
          rw [ws_bind (fun _ _ => rfl) h]
          exact hc.2.1 _ _ (.inr rfl) (by have := h.length; omega)
      rw [this]
    | elems =>
      rename_i t u x xs a1 a2 a3
      obtain ⟨h1, h2, h3⟩ : SkipLayout s t ∧ IsValue U P t x u ∧ IsListTail U P u xs r := ⟨‹_›, ‹_›, ‹_›⟩
      have l1 := h1.length
      have l2 := (isValue_consumes h2).length
      obtain ⟨r', h4, h5⟩ := listTail_complete hc xs (u.length + 1) u r (by omega) (by omega) h3
      refine ⟨r', ?_, h5⟩
      rw [listElem_iff.2 ⟨t, h1, hc.1 _ _ _ (by omega) h2⟩]
      simp only []
      rw [if_pos (by omega), h4]; rfl
  obtain ⟨r', h1, h2⟩ := key
  unfold list
  rw [show '[' :: s = ['['] ++ s from rfl, bind_apply, tag_append, bind_ok, bind_apply, h1, bind_ok, bind_apply,
    tupleEnd_iff.2 h2]
  rfl

theorem mapExpression_complete (hc : CompleteOld U P v m n) {s t r : Str} {es : List (Key × Value)}
    (hs : s.length ≤ n) (h : SkipLayout s ('{' :: t)) (he : IsEntries U P t es ('}' :: r)) :
    mapExpression m s = .ok r (.unmerged es) := by
  obtain ⟨t', ht'⟩ := skipLayout_total t
  have l1 := h.length
  have l2 := ht'.length
  simp at l1
  exact mapExpression_eq_ok.2 ⟨t, t', _, h, ht', hc.2.2 _ _ _ (by omega) (.inr ⟨_, rfl⟩) ((isEntries_skip ht').1 he),
    .refl (isEntries_not_starts he)⟩

theorem mapExpression_err {s t : Str} (h : SkipLayout s t) (hc : ¬ Head (fun d => d = '{') t) :
    mapExpression m s = .err := by
  unfold mapExpression
  simp [wsAround_tag_err h hc]

theorem nullV_err {s : Str} (h : ¬ Head (fun c => c = 'n') s) : mapP (fun _ => Value.null) null s = .err := by
  have : tag ['n', 'u', 'l', 'l'] s = .err := by
    rw [tag_eq_err]; rintro ⟨t, rfl⟩; exact h ⟨_, _, rfl, rfl⟩
  simp [null, this]

theorem booleanV_err {s : Str} (h : ¬ Head (fun c => c = 't' ∨ c = 'f') s) : mapP Value.boolean boolean s = .err := by
  have := boolean_err h
  rw [mapP_apply, map_eq_err] at this ⊢
  exact this

theorem stringV_err {s : Str} (h : ¬ Head (fun c => c = '"' ∨ c = '<') s) :
    mapP (fun x : CowStr => Value.string x.str) (string U) s = .err := by
  have := string_err (U := U) h
  rw [mapP_apply, map_eq_err] at this ⊢
  exact this

theorem list_err {s : Str} (h : ¬ Head (fun c => c = '[') s) : mapP Value.list (list v) s = .err := by
  have : tag ['['] s = .err := by
    rw [tag_eq_err]; rintro ⟨t, rfl⟩; exact h ⟨_, _, rfl, rfl⟩
  unfold list
  simp [this]

theorem valueStep_notToken {s : Str} (h : Head NotToken s) :
    valueStep U P v m s = mapP (fun x => Value.object [x]) (mapExpression m) s := by
  unfold valueStep
  rw [orElse_of_err (nullV_err (not_head h _)), orElse_of_err, orElse_of_err (booleanV_err (not_head h _)),
    orElse_of_err (stringV_err (not_head h _)), orElse_of_err (list_err (not_head h _))]
  · unfold NotToken; decide
  · unfold NotToken; decide
  · unfold NotToken; decide
  · rw [oldNumber_err (not_head h _)]
    intro c hc
    rw [numHead_iff]
    revert c
    unfold NotToken; decide
  · unfold NotToken; decide

theorem valueStep_complete (hc : CompleteOld U P v m n) {s r : Str} {x : Value} (hs : s.length ≤ n)
    (h : IsValue U P s x r) : valueStep U P v m s = .ok r x := by
  cases h with
  | null =>
    unfold valueStep
    apply orElse_of_ok
    have : tag ['n', 'u', 'l', 'l'] ('n' :: 'u' :: 'l' :: 'l' :: r) = .ok r _ := tag_append ['n', 'u', 'l', 'l'] r
    simp [null, this]
  | true =>
    unfold valueStep
    rw [orElse_of_err (nullV_err (by rw [head_cons]; decide)), orElse_of_err, orElse_of_ok]
    · unfold boolean
      have : tag ['t', 'r', 'u', 'e'] ('t' :: 'r' :: 'u' :: 'e' :: r) = .ok r _ := tag_append ['t', 'r', 'u', 'e'] r
      rw [mapP_apply, orElse_of_ok (r := r) (v := true)]
      · rfl
      · simp [this]
    · rw [oldNumber_err]
      rw [head_cons, numHead_iff]; decide
  | false =>
    unfold valueStep
    rw [orElse_of_err (nullV_err (by rw [head_cons]; decide)), orElse_of_err, orElse_of_ok]
    · unfold boolean
      have : tag ['f', 'a', 'l', 's', 'e'] ('f' :: 'a' :: 'l' :: 's' :: 'e' :: r) = .ok r _ :=
        tag_append ['f', 'a', 'l', 's', 'e'] r
      rw [mapP_apply, orElse_of_err]
      · simp [this]
      · rw [mapP_apply, tag_cons_ne (by decide)]; rfl
    · rw [oldNumber_err]
      rw [head_cons, numHead_iff]; decide
  | number =>
    rename_i t k h2 h1
    unfold valueStep
    have hh : Head (fun c => IsDig c ∨ c = '.' ∨ c = '+' ∨ c = '-') (t ++ r) := by
      obtain ⟨t', e, hn, -⟩ := h1; rw [e]; exact isNumber_head hn r
    rw [orElse_of_err (nullV_err (number_head_not hh)), orElse_of_ok]
    exact oldNumber_iff.2 ⟨t, k, rfl, h1, h2⟩
  | string =>
    rename_i w h
    have hh : Head (fun c => c = '"' ∨ c = '<') s := by
      cases h with
      | quoted => rename_i h; obtain ⟨src, rfl, -⟩ := h; exact ⟨_, _, rfl, .inl rfl⟩
      | heredoc => rename_i h; obtain ⟨t, rfl⟩ := h.head; exact ⟨_, _, rfl, .inr rfl⟩
    unfold valueStep
    rw [orElse_of_err (nullV_err (not_head hh _)), orElse_of_err, orElse_of_err (booleanV_err (not_head hh _)), orElse_of_ok]
    · simp [string_iff.2 h]
    · rintro c (rfl | rfl) <;> decide
    · rw [oldNumber_err (not_head hh _)]
      intro c hc; rw [numHead_iff]; rcases hc with rfl | rfl <;> decide
    · rintro c (rfl | rfl) <;> decide
  | list =>
    rename_i t es h
    have hh : Head (fun c => c = '[') ('[' :: t) := ⟨_, _, rfl, rfl⟩
    unfold valueStep
    rw [orElse_of_err (nullV_err (not_head hh _)), orElse_of_err, orElse_of_err (booleanV_err (not_head hh _)),
      orElse_of_err (stringV_err (not_head hh _)), orElse_of_ok]
    · simp [list_complete hc (by simp at hs; omega) h]
    · rintro c rfl; decide
    · rintro c rfl; decide
    · rw [oldNumber_err (not_head hh _)]
      rintro c rfl; rw [numHead_iff]; decide
    · rintro c rfl; decide
  | map =>
    rename_i t es h1 h2
    rw [valueStep_notToken (skip_notToken h1 (by unfold NotToken; decide))]
    simp [mapExpression_complete hc hs h1 h2]

theorem valueStep_err {c : Char} {t : Str} (h : c = ']' ∨ c = ',') : valueStep U P v m (c :: t) = .err := by
  have hn : NotToken c := by unfold NotToken; rcases h with rfl | rfl <;> decide
  have hs : SkipLayout (c :: t) (c :: t) := .refl (not_starts_layout (by
    unfold LayoutStart; rcases h with rfl | rfl <;> decide))
  rw [valueStep_notToken ⟨c, t, rfl, hn⟩, mapP_apply, mapExpression_err hs]
  · rfl
  · rw [head_cons]; rcases h with rfl | rfl <;> decide

theorem attributeEq_err {s i t u : Str} (h0 : SkipInline s s) (h : Ident U s i t) (h1 : SkipInline t u)
    (hu : ¬ Head (fun c => c = '=') u) : attributeEq U v s = .err := by
  unfold attributeEq
  rw [inlineWs_bind (fun _ _ => rfl) h0, bind_apply, oldKey_iff.2 (.ident _ _ _ h), bind_ok,
    inlineWs_bind (fun _ _ => rfl) h1, bind_apply, tag_eq_err.2]
  · rfl
  · rintro ⟨x, rfl⟩; exact hu ⟨_, _, rfl, rfl⟩

theorem attributeMap_err {s i t u : Str} (h0 : SkipInline s s) (h : Ident U s i t) (h1 : SkipInline t ('"' :: u)) :
    attributeMap U m s = .err := by
  unfold attributeMap
  rw [inlineWs_bind (fun _ _ => rfl) h0, bind_apply, identifier_iff.2 h, bind_ok,
    inlineWs_bind (fun _ _ => rfl) h1, bind_apply]
  have : opt (tag ['=']) ('"' :: u) = .ok ('"' :: u) none := by
    rw [opt_eq_ok]; exact .inr ⟨tag_cons_ne (by decide), rfl, rfl⟩
  rw [this, bind_ok, inlineWs_bind (fun _ _ => rfl) h1.again, bind_apply,
    mapExpression_err (.refl (not_starts_layout (by simp [LayoutStart]))) (by rw [head_cons]; decide)]
  rfl

/-- Inline layout and then a brace: no label. -/
theorem label_err {s t : Str} (h : SkipLayout s ('{' :: t)) :
    (do let _ ← inlineWs; stringLiteral : Parser Str) s = .err := by
  obtain ⟨u, hu⟩ := skipInline_total s
  rw [inlineWs_bind (fun _ _ => rfl) hu]
  exact stringLiteral_err (skip_not_head (layout_of_inline' hu h) (by simp [LayoutStart]) (by decide))

theorem labels_complete {s r t : Str} {ls : List Str} (h : IsStringLabels s ls r) (hr : SkipLayout r ('{' :: t)) :
    many0 (do let _ ← inlineWs; stringLiteral : Parser Str) s = .ok r ls := by
  induction h with
  | nil s => exact many0_stop (label_err hr)
  | cons s t' u l ls r h1 h2 _ ih =>
    have : (do let _ ← inlineWs; stringLiteral : Parser Str) s = .ok u l :=
      inlineThen_eq_ok.2 ⟨t', h1, stringLiteral_iff.2 h2⟩
    rw [many0_cons this (by have := h1.length; have := (quoted_consumes h2).length; omega), ih hr]; rfl

theorem oldAttribute_complete (hc : CompleteOld U P v m n) {s r : Str} {k : Key} {x : Value}
    (h0 : SkipInline s s) (hs : s.length ≤ n) (h : IsEntry U P s k x r) : oldAttribute U v m s = .ok r (k, x) := by
  unfold oldAttribute
  cases h with
  | «attribute» =>
    rename_i t u w y a1 a2 a3 a4 a5
    obtain ⟨h1, h2, h3, h4, h5⟩ : IsKey U s k t ∧ SkipInline t ('=' :: u) ∧ SkipInline u w ∧ IsValue U P w x y ∧
      SkipInline y r := ⟨‹_›, ‹_›, ‹_›, ‹_›, ‹_›⟩
    have l1 := (isKey_consumes h1).length
    have l2 := h2.length
    have l3 := h3.length
    simp at l2
    have : attributeEq U v s = .ok y (k, x) :=
      attributeEq_ok.2 ⟨s, t, u, w, h0, h1, h2, h3, hc.1 _ _ _ (by omega) h4⟩
    rw [bind_apply, orElse_of_ok this, bind_ok, inlineWs_bind (fun _ _ => rfl) h5]; rfl
  | map =>
    rename_i i t u w es a1 a2 a3 a4
    obtain ⟨h1, h2, h3, h4⟩ : Ident U s i t ∧ SkipLayout t ('{' :: u) ∧ IsEntries U P u es ('}' :: w) ∧
      SkipInline w r := ⟨‹_›, ‹_›, ‹_›, ‹_›⟩
    obtain ⟨t', ht'⟩ := skipInline_total t
    have hb := layout_of_inline' ht' h2
    have hne : ¬ Head (fun c => c = '=') t' := skip_not_head hb (by simp [LayoutStart]) (by decide)
    have l1 := (ident_consumes h1).length
    have l2 := ht'.length
    have : attributeMap U m s = .ok w (.identifier (.borrowed i), .object [.unmerged es]) :=
      attributeMap_ok.2 ⟨s, i, t, t', t', t', _, h0, h1, ht', .inr ⟨hne, rfl⟩, ht'.again,
        mapExpression_complete hc (by omega) hb h3, rfl⟩
    rw [bind_apply, orElse_of_err (attributeEq_err h0 h1 ht' hne), orElse_of_ok this, bind_ok,
      inlineWs_bind (fun _ _ => rfl) h4]; rfl
  | block =>
    rename_i i t u w y ls es a1 a2 a3 a4 a5 a6
    obtain ⟨h1, h2, h3, h4, h5, h6⟩ : Ident U s i t ∧ IsStringLabels t ls u ∧ ls ≠ [] ∧ SkipLayout u ('{' :: w) ∧
      IsEntries U P w es ('}' :: y) ∧ SkipInline y r := ⟨‹_›, ‹_›, ‹_›, ‹_›, ‹_›, ‹_›⟩
    obtain ⟨u', hu'⟩ := skipInline_total u
    have hb := layout_of_inline' hu' h4
    have l1 := (ident_consumes h1).length
    have l2 := (stringLabels_suffix h2).length_le
    have l3 := hu'.length
    have hq : ∃ z, SkipInline t ('"' :: z) := by
      cases h2 with
      | nil => exact absurd rfl h3
      | cons =>
        rename_i z l1 l2 l3 l4 l5 l6
        have hz : ∃ a b, Quoted PlainLine z a b := ⟨_, _, ‹_›⟩
        obtain ⟨a, b, src, rfl, -⟩ := hz
        exact ⟨_, ‹_›⟩
    obtain ⟨z, hz⟩ := hq
    have : attributeBlock U m s = .ok y (.identifier (.borrowed i), .block (.unmerged [(ls, .unmerged es)])) :=
      attributeBlock_ok.2 ⟨s, i, t, ls, u, u', _, h0, h1, labels_complete h2 h4, hu',
        mapExpression_complete hc (by omega) hb h5, rfl⟩
    rw [bind_apply, orElse_of_err (attributeEq_err h0 h1 hz (by rw [head_cons]; decide)),
      orElse_of_err (attributeMap_err h0 h1 hz), this, bind_ok, inlineWs_bind (fun _ _ => rfl) h6]; rfl

theorem oldAttribute_err {s : Str} (h0 : SkipInline s s) (h : ¬ Head (fun c => IdentStart U c ∨ c = '"') s) :
    oldAttribute U v m s = .err := by
  have hi : identifier U s = .err := identifier_err fun ⟨c, t, e, hc⟩ => h ⟨c, t, e, .inl hc⟩
  unfold oldAttribute
  rw [bind_apply]
  have : (attributeEq U v <//> attributeMap U m <//> attributeBlock U m) s = .err := by
    rw [orElse_eq_err, orElse_eq_err]
    refine ⟨?_, ?_, ?_⟩
    · unfold attributeEq
      rw [inlineWs_bind (fun _ _ => rfl) h0, bind_apply, oldKey_err h]; rfl
    · unfold attributeMap
      rw [inlineWs_bind (fun _ _ => rfl) h0, bind_apply, hi]; rfl
    · unfold attributeBlock
      rw [inlineWs_bind (fun _ _ => rfl) h0, bind_apply, hi]; rfl
  rw [this]; rfl

theorem isKey_head {s r : Str} {k : Key} (h : IsKey U s k r) : Head (fun c => IdentStart U c ∨ c = '"') s := by
  cases h with
  | ident i _ h =>
    obtain ⟨rfl, h, -⟩ := h
    cases h with
    | mk c cs hc _ => exact ⟨c, _, rfl, .inl hc⟩
  | string v _ h => obtain ⟨src, rfl, -⟩ := h; exact ⟨_, _, rfl, .inr rfl⟩

theorem isEntry_key {s r : Str} {k : Key} {x : Value} (h : IsEntry U P s k x r) : ∃ t, IsKey U s k t := by
  cases h with
  | «attribute» => exact ⟨_, ‹_›⟩
  | map => exact ⟨_, .ident _ _ _ ‹_›⟩
  | block => exact ⟨_, .ident _ _ _ ‹_›⟩

theorem bodyEnd_not_key {r : Str} (hr : BodyEnd r) : ¬ Head (fun c => IdentStart U c ∨ c = '"') r := by
  rcases hr with rfl | ⟨t, rfl⟩
  · rintro ⟨c, t, h, -⟩; cases h
  · rw [head_cons]
    rintro (h | h)
    · exact absurd h (not_identStart (by decide) (by decide))
    · cases h

/-- Entries up to the end of a map or document do not begin with a comma. -/
theorem isEntries_no_comma {s t r : Str} {es : List (Key × Value)} (hr : BodyEnd r) (hs : SkipLayout s (',' :: t)) :
    ¬ IsEntries U P s es r := by
  intro h
  cases h with
  | done =>
    rename_i h
    have := h.functional layoutItem_prefix hs
    subst this
    rcases hr with h | ⟨_, h⟩ <;> cases h
  | entry =>
    rename_i t' u w k x es h1 h2 h3 h4
    have e : t' = ',' :: t := Skip.functional layoutItem_prefix ‹_› hs
    subst e
    obtain ⟨y, hy⟩ := isEntry_key ‹_›
    have := isKey_head hy
    rw [head_cons] at this
    rcases this with h | h
    · exact absurd h (not_identStart (by decide) (by decide))
    · cases h

theorem newlines_layout {s r : Str} (h : Newlines s r) : ∃ l, Seq LayoutItem l ∧ s = l ++ r := by
  obtain ⟨i, l, hi, hl, rfl⟩ := h
  exact ⟨i ++ l, (newlineItem_seq hi).append (hl.mono fun _ => newlineItem_seq), rfl⟩

theorem attributeEnd_complete {s w r : Str} {es : List (Key × Value)} (hr : BodyEnd r) (h : IsEntryEnd s w)
    (he : IsEntries U P w es r) : ∃ w', attributeEnd s = .ok w' () ∧ w' <:+ w ∧ IsEntries U P w' es r := by
  unfold attributeEnd
  cases h with
  | comma =>
    rename_i h
    obtain ⟨w', hw'⟩ := skipLayout_total w
    refine ⟨w', ?_, hw'.suffix, (isEntries_skip hw').1 he⟩
    rw [orElse_of_ok]
    rw [mapP_eq_ok]
    exact ⟨[','], wsAround_eq_ok.2 ⟨_, _, h, tag_append [','] w, hw'⟩, rfl⟩
  | newline =>
    rename_i h
    obtain ⟨w', _, l, h1, h2, rfl⟩ := newline_complete h
    refine ⟨w', ?_, List.suffix_append _ _, isEntries_unprepend h2 he⟩
    rw [orElse_of_err, orElse_of_ok (r := w') (v := ())]
    · simp [h1]
    · obtain ⟨t, ht⟩ := skipLayout_total s
      rw [mapP_apply, wsAround_tag_err ht]
      · rfl
      · rintro ⟨c, y, rfl, rfl⟩
        obtain ⟨l', hl', rfl⟩ := newlines_layout h
        exact isEntries_no_comma hr (ht.unprepend layoutItem_prefix hl') he
  | eof =>
    refine ⟨[], ?_, List.suffix_refl _, he⟩
    rw [orElse_of_err, orElse_of_err]
    · rfl
    · rw [mapP_apply, map_eq_err]
      refine Tame.newline.not_ok fun r v hk => ?_
      obtain ⟨c, t, h, -⟩ := newlines_head (newline_sound hk)
      cases h
    · rw [mapP_apply, wsAround_tag_err (.refl _)]
      · rfl
      · rintro ⟨c, t, h, -⟩; cases h
      · rintro ⟨i, t, hi, h⟩
        obtain ⟨c, u, e, -⟩ := layoutItem_head (t := t) hi
        rw [← h] at e; cases e

theorem mapMany_complete (hc : CompleteOld U P v m n) : ∀ (es : List (Key × Value)) (s r : Str),
    s.length ≤ n → BodyEnd r → IsEntries U P s es r →
    ∃ t, many0 (mapItem U v m) s = .ok t es ∧ SkipLayout t r := by
  intro es
  induction es with
  | nil =>
    intro s r hs hr h
    have h : SkipLayout s r := by cases h; assumption
    refine ⟨s, many0_stop ?_, h⟩
    unfold mapItem
    rw [ws_bind (fun _ _ => rfl) h, bind_apply, oldAttribute_err (skipInline_again h) (bodyEnd_not_key hr)]
    rfl
  | cons el els ih =>
    intro s r hs hr h
    obtain ⟨k, x⟩ := el
    obtain ⟨t, u, w, h1, h2, h3, h4⟩ : ∃ t u w, SkipLayout s t ∧ IsEntry U P t k x u ∧ IsEntryEnd u w ∧
      IsEntries U P w els r := by cases h; exact ⟨_, _, _, ‹_›, ‹_›, ‹_›, ‹_›⟩
    obtain ⟨w', h5, h6, h7⟩ := attributeEnd_complete hr h3 h4
    have l1 := h1.length
    have l2 := (isEntry_consumes h2).length
    have l3 := (entryEnd_suffix h3).length_le
    have l4 := h6.length_le
    obtain ⟨y, h8, h9⟩ := ih w' r (by omega) hr h7
    refine ⟨y, ?_, h9⟩
    have hi : mapItem U v m s = .ok w' (k, x) :=
      mapItem_eq_ok.2 ⟨t, u, h1, oldAttribute_complete hc (skipInline_again h1) (by omega) h2, h5⟩
    rw [many0_cons hi (by omega), h8]; rfl

theorem mapStep_complete (hc : CompleteOld U P v m n) {s r : Str} {es : List (Key × Value)} (hs : s.length ≤ n)
    (hr : BodyEnd r) (h : IsEntries U P s es r) : mapStep U v m s = .ok r (.unmerged es) := by
  obtain ⟨t, h1, h2⟩ := mapMany_complete hc es s r hs hr h
  obtain ⟨_, h3⟩ := ws_iff.2 h2
  unfold mapStep
  simp [h1, h3]

end

theorem oldN_complete : ∀ n : Nat, CompleteOld U P (oldN U P n).1 (oldN U P n).2 n := by
  intro n
  induction n with
  | zero => exact ⟨fun s x r h => absurd h (by omega), fun c t _ h => absurd h (by omega),
      fun s es r h => absurd h (by omega)⟩
  | succ n ih => exact ⟨fun s x r hs h => valueStep_complete ih (by omega) h, fun c t hc _ => valueStep_err hc,
      fun s es r hs hr h => mapStep_complete ih (by omega) hr h⟩

theorem singleValue_iff {s r : Str} {x : Value} : singleValue U P s = .ok r x ↔ IsValue U P s x r := by
  unfold singleValue
  exact ⟨(oldN_sound _).1 s r x, (oldN_complete (s.length + 1)).1 s x r (by omega)⟩

theorem mapValues_sound {s r : Str} {x : MapValues} (h : mapValues U P s = .ok r x) :
    ∃ es, x = .unmerged es ∧ IsEntries U P s es r := (oldN_sound _).2 s r x h

theorem mapValues_complete {s r : Str} {es : List (Key × Value)} (hr : BodyEnd r) (h : IsEntries U P s es r) :
    mapValues U P s = .ok r (.unmerged es) := (oldN_complete (s.length + 1)).2.2 s es r (by omega) hr h

theorem oldBody_iff {s r : Str} {x : MapValues} :
    oldBody U P s = .ok r x ↔ r = [] ∧ ∃ es, x = .unmerged es ∧ OldDocument U P s es := by
  unfold oldBody exact OldDocument
  rw [bind_eq_ok]
  constructor
  · rintro ⟨r', x', h, h'⟩
    cases r' with
    | nil =>
      simp at h'
      obtain ⟨rfl, rfl⟩ := h'
      exact ⟨rfl, mapValues_sound h⟩
    | cons c r' => simp at h'
  · rintro ⟨rfl, es, rfl, h⟩
    exact ⟨[], _, mapValues_complete (.inl rfl) h, rfl⟩

/-! ## termination and panics -/

variable {n : Nat} {B : Str → Prop} {v : Parser Value} {m : Parser MapValues}

theorem Loc.mapRes {α β : Type} {g : α → Option β} {p : Parser α} (hp : Loc B n p) : Loc B n (mapRes p g) where
  suf s r v h := by obtain ⟨w, h, -⟩ := mapRes_eq_ok.1 h; exact hp.suf _ _ _ h
  pan s h := by
    unfold Verif.mapRes at h
    rcases bind_eq_panic.1 h with h | ⟨r, v, _, h⟩
    · exact hp.pan s h
    · split at h <;> cases h
  div s hs h := by
    unfold Verif.mapRes at h
    rcases bind_eq_diverge.1 h with h | ⟨r, v, _, h⟩
    · exact hp.div s hs h
    · split at h <;> cases h

theorem Loc.stringLiteral : Loc B n stringLiteral :=
  .of_safe Safe.stringLiteral fun _ _ _ h => (quoted_consumes (stringLiteral_iff.1 h)).suffix

theorem Loc.list (hv : Loc B n v) : Loc B (n + 1) (list v) :=
  .bindStrict (.tag _) (fun _ _ _ => tag_strict) fun _ =>
    .bind (.separatedList (.bind .ws fun _ => .tag _) (.bind .ws fun _ => hv)) fun _ =>
    .bind (.bind .ws fun _ => .bind (.wsAround (.opt (.tag _))) fun _ => .bind (.tag _) fun _ => .pure _) fun _ => .pure _

theorem Loc.mapExpression (hm : Loc B n m) : Loc B (n + 1) (mapExpression m) :=
  .bindStrict (.wsAround (.tag _)) (fun _ _ _ => wsTag_strict) fun _ =>
    .bind (.wsAround hm) fun _ => .bind (.tag _) fun _ => .pure _

theorem Loc.valueStep (hv : Loc (HeredocPanics U) n v) (hm : Loc (HeredocPanics U) n m) :
    Loc (HeredocPanics U) (n + 1) (valueStep U P v m) :=
  .orElse (.mapP .null) (.orElse (by rw [oldNumber_eq]; exact .mapRes (.recognize .number)) (.orElse (.mapP .boolean) (.orElse (.mapP .string)
    (.orElse (.mapP (.list hv)) (.mapP (.mapExpression hm))))))

theorem oldKey_strict {s r : Str} {k : Key} (h : oldKey U s = .ok r k) : r.length < s.length :=
  (isKey_consumes (oldKey_iff.1 h)).length

theorem Loc.oldKey : Loc B n (oldKey U) := .orElse (.mapP (.identifier U)) (.mapP .stringLiteral)

theorem Loc.attributeEq (hv : Loc B n v) : Loc B (n + 1) (attributeEq U v) :=
  .bind .inlineWs fun _ => .bindStrict .oldKey (fun _ _ _ => oldKey_strict) fun _ =>
    .bind .inlineWs fun _ => .bind (.tag _) fun _ => .bind .inlineWs fun _ => .bind hv fun _ => .pure _

theorem Loc.attributeMap (hm : Loc B n m) : Loc B (n + 1) (attributeMap U m) :=
  .bind .inlineWs fun _ => .bind (.identifier U) fun _ =>
    .bind .inlineWs fun _ => .bind (.opt (.tag _)) fun _ => .bind .inlineWs fun _ =>
    .bind (.mapExpression hm) fun _ => .pure _

theorem Loc.attributeBlock (hm : Loc B n m) : Loc B (n + 1) (attributeBlock U m) :=
  .bind .inlineWs fun _ => .bind (.identifier U) fun _ =>
    .bind (.many0 (.bind .inlineWs fun _ => .stringLiteral)) fun _ => .bind .inlineWs fun _ =>
    .bind (.mapExpression hm) fun _ => .pure _

theorem Loc.mapStep (hv : Loc B n v) (hm : Loc B n m) : Loc B (n + 1) (mapStep U v m) :=
  .bind (.many0 (.bind .ws fun _ => .bind
    (.bind (.orElse (.attributeEq hv) (.orElse (.attributeMap hm) (.attributeBlock hm))) fun _ =>
      .bind .inlineWs fun _ => .pure _) fun _ =>
    .bind (.orElse (.mapP (.wsAround (.tag _))) (.orElse (.mapP .newline) .eof)) fun _ => .pure _)) fun _ =>
  .bind .ws fun _ => .pure _

theorem Loc.oldN : ∀ n : Nat, Loc (HeredocPanics U) n (oldN U P n).1 ∧ Loc (HeredocPanics U) n (oldN U P n).2 := by
  intro n
  induction n with
  | zero =>
    exact ⟨⟨fun _ _ _ h => (by cases h), fun _ h => (by cases h), fun s h => by omega⟩,
      ⟨fun _ _ _ h => (by cases h), fun _ h => (by cases h), fun s h => by omega⟩⟩
  | succ n ih => exact ⟨.valueStep ih.1 ih.2, .mapStep ih.1 ih.2⟩

theorem oldBody_not_diverge (s : Str) : oldBody U P s ≠ .diverge := by
  intro h
  unfold oldBody exact at h
  rcases bind_eq_diverge.1 h with h | ⟨r, v, _, h⟩
  · exact (Loc.oldN (s.length + 1)).2.div s (by omega) h
  · split at h <;> cases h

theorem oldBody_panic {s : Str} (h : oldBody U P s = .panic) : ∃ u, u <:+ s ∧ HeredocPanics U u := by
  unfold oldBody exact at h
  rcases bind_eq_panic.1 h with h | ⟨r, v, _, h⟩
  · exact (Loc.oldN (s.length + 1)).2.pan s h
  · split at h <;> cases h

end
end Verif
