import Verif.Spec.OldPrint
import Verif.Proofs.Print
import Verif.Proofs.OldConcat
import Verif.Proofs.Agree
/-! # Printed legacy values are read back -/
set_option autoImplicit false

namespace Verif
open PRes Spec

variable {U : CharClass} {P : F64Parse} {I : Int → Str} {F : F64 → Str}

/-- A key with the ownership that the parser gives it. -/
def parsedKey : Key → Key
  | .identifier s => .identifier (.borrowed s.str)
  | .string s => .string (.ownedS s.str)

theorem ownKey_parsed (k : Key) : ownKey (parsedKey k) = ownKey k := by cases k <;> rfl

theorem intLit_isNumber {t : Str} {k : Int} (h : IntLit t k) : ∃ n, IsNumber t n := by
  obtain ⟨sg, ds, pos, m, rfl, rfl, hs, hd, -⟩ := intLit_cases.1 h
  have := IsNumber.mk sg ds [] pos (some ds) none none hs (.int ds hd) .none
  rw [List.append_nil] at this
  exact ⟨_, this⟩

theorem printOldKey_read {k : Key} (h : WritableKey U k) (r : Str) :
    IsKey U (printOldKey k ++ ' ' :: r) (parsedKey k) (' ' :: r) ∧
      Head (fun c => ¬ LayoutStart c) (printOldKey k ++ ' ' :: r) := by
  cases k with
  | identifier s =>
    have hi : Ident U (s.str ++ ' ' :: r) s.str (' ' :: r) :=
      ⟨rfl, h, by rw [head_cons]; exact not_identChar (by decide) (by decide)⟩
    exact ⟨.ident _ _ _ hi, ident_start hi⟩
  | string s => exact ⟨.string _ _ _ (quoted_quoteLine _ _), '"', _, rfl, by decide⟩

theorem number_head_nl {t : Str} {n : Number} (h : IsNumber t n) (r : Str) : Head (fun c => ¬ LayoutStart c) (t ++ r) := by
  obtain ⟨c, u, e, hc⟩ := isNumber_head h r
  exact ⟨c, u, e, num_not_layout hc⟩

theorem printValue_head {v : Value} (h : WritableValue U P I F v) (r : Str) :
    Head (fun c => ¬ LayoutStart c) (printValue I F v ++ r) := by
  cases h with
  | null => rw [printValue]; exact ⟨_, _, rfl, by decide⟩
  | integer i h _ => rw [printValue]; obtain ⟨n, hn⟩ := intLit_isNumber h; exact number_head_nl hn r
  | float f h _ => rw [printValue]; obtain ⟨n, hn⟩ := h; exact number_head_nl hn r
  | boolean b => cases b <;> rw [printValue] <;> exact ⟨_, _, rfl, by decide⟩
  | string s => rw [printValue]; exact ⟨_, _, rfl, by decide⟩
  | list l _ => rw [printValue]; exact ⟨_, _, rfl, by decide⟩
  | map es _ => rw [printValue]; exact ⟨_, _, rfl, by decide⟩

theorem printStringLabels_read : ∀ (ls : List Str) (r : Str),
    IsStringLabels (ls.flatMap (fun t => ' ' :: quoteLine t) ++ ' ' :: '{' :: r) ls (' ' :: '{' :: r)
  | [], r => .nil _
  | l :: ls, r => by
    have ih := printStringLabels_read ls r
    have h2 := quoted_quoteLine l (ls.flatMap (fun t => ' ' :: quoteLine t) ++ ' ' :: '{' :: r)
    have := IsStringLabels.cons (' ' :: (quoteLine l ++ (ls.flatMap (fun t => ' ' :: quoteLine t) ++ ' ' :: '{' :: r))) _ _ _ _ _
      (skip_blank_inline ⟨'"', _, rfl, by decide⟩) h2 ih
    simpa using this

theorem layout_nl (s : Str) {es : List (Key × Value)} {r : Str} (h : IsEntries U P s es r) : IsEntries U P ('\n' :: s) es r :=
  isEntries_prepend (l := ['\n']) (.single (.space '\n' (by simp))) h

mutual
/-- Values are read back. -/
theorem printValue_read {v : Value} : WritableValue U P I F v → ∀ (c : Char) (r : Str), AfterExpr c →
    ∃ v', IsValue U P (printValue I F v ++ c :: r) v' (c :: r) ∧ ownValue v' = ownValue v
  | .null, c, r, _ => by rw [printValue]; exact ⟨.null, .null _, rfl⟩
  | .integer i h h', c, r, hc => by
    rw [printValue]
    obtain ⟨n, hn⟩ := intLit_isNumber h
    exact ⟨.integer i, .number _ _ _ _ (numberTok_of (afterExpr_not_num hc) hn r) (.integer _ _ h h'), rfl⟩
  | .float f ⟨n, hn⟩ h, c, r, hc => by
    rw [printValue]
    exact ⟨.float f, .number _ _ _ _ (numberTok_of (afterExpr_not_num hc) hn r) h, rfl⟩
  | .boolean true, c, r, _ => by rw [printValue]; exact ⟨_, .true _, rfl⟩
  | .boolean false, c, r, _ => by rw [printValue]; exact ⟨_, .false _, rfl⟩
  | .string s, c, r, _ => by
    rw [printValue]; exact ⟨_, .string _ _ _ (.quoted _ _ _ (quoted_quote' _ _)), rfl⟩
  | .list l h, c, r, _ => by
    obtain ⟨l', h1, h2⟩ := printValues_read h (c :: r)
    refine ⟨.list l', ?_, by simp only [ownValue, h2]⟩
    rw [printValue]
    simpa using IsValue.list _ _ _ h1
  | .map es h, c, r, _ => by
    obtain ⟨es', h1, h2⟩ := printEntries_read h ('}' :: c :: r) (.inr ⟨_, rfl⟩)
    refine ⟨.object [.unmerged es'], ?_, by simp only [ownValue, ownMaps, ownMap, h2]⟩
    rw [printValue]
    simpa using IsValue.map ('{' :: '\n' :: (printEntries I F es ++ '}' :: c :: r)) _ _ _ (skip_self (by decide))
      (layout_nl _ h1)
/-- Lists are read back. -/
theorem printValues_read {l : List Value} : WritableList U P I F l → ∀ (r : Str),
    ∃ l', IsListBody U P (printValues I F l ++ ']' :: r) l' r ∧ ownList l' = ownList l
  | .nil, r => by rw [printValues]; exact ⟨[], .empty _ _ (.close _ _ (skip_self (by decide))), rfl⟩
  | .cons v l hv hl, r => by
    obtain ⟨l', k1, k2⟩ := printValues_read hl r
    cases l with
    | nil =>
      obtain ⟨v', h1, h2⟩ := printValue_read hv ']' r (by simp [AfterExpr])
      refine ⟨[v'], ?_, by simp only [ownList, h2]⟩
      rw [printValues]
      exact .elems _ _ _ _ _ _ (.refl (not_starts_head (printValue_head hv _))) h1
        (.last _ _ (.close _ _ (skip_self (by decide))))
    | cons w l =>
      obtain ⟨v', h1, h2⟩ := printValue_read hv ',' (' ' :: (printValues I F (w :: l) ++ ']' :: r)) (by simp [AfterExpr])
      cases k1 with
      | empty => cases k2
      | elems =>
        rename_i t u w' l' k3 k4 k5
        refine ⟨v' :: w' :: l', ?_, by rw [ownList, h2, k2, ← ownList]⟩
        have k6 : SkipLayout (' ' :: (printValues I F (w :: l) ++ ']' :: r)) t := Skip.prepend blank_layout ‹_›
        rw [printValues, List.append_assoc]
        exact .elems _ _ _ _ _ _ (.refl (not_starts_head (printValue_head hv _))) h1
          (.more _ _ _ _ _ _ _ (skip_self (by decide)) k6 ‹_› ‹_›)
/-- Entries are read back. -/
theorem printEntries_read {es : List (Key × Value)} : WritableEntries U P I F es → ∀ (r : Str), BodyEnd r →
    ∃ es', IsEntries U P (printEntries I F es ++ r) es' r ∧ ownEntries es' = ownEntries es
  | .nil, r, hr => by
    rw [printEntries]
    refine ⟨[], .done _ _ (.refl ?_), rfl⟩
    rcases hr with rfl | ⟨t, rfl⟩
    · rintro ⟨i, t, hi, e⟩
      obtain ⟨_, _, e', _⟩ := layoutItem_head (t := t) hi
      rw [e'] at e; cases e
    · exact not_starts_layout (by decide)
  | .value k v l hk hv hl, r, hr => by
    obtain ⟨l', k1, k2⟩ := printEntries_read hl r hr
    obtain ⟨v', h1, h2⟩ := printValue_read hv '\n' (printEntries I F l ++ r) (by simp [AfterExpr])
    obtain ⟨h3, h4⟩ := printOldKey_read hk ('=' :: ' ' :: (printValue I F v ++ '\n' :: (printEntries I F l ++ r)))
    refine ⟨(parsedKey k, v') :: l', ?_, by simp only [ownEntries, h2, k2, ownKey_parsed]⟩
    have := IsEntries.entry _ _ _ _ _ _ _ _ (.refl (not_starts_head h4))
      (IsEntry.attribute _ _ _ _ _ _ _ _ h3 (skip_blank_inline ⟨_, _, rfl, by decide⟩)
        (skip_blank_inline (printValue_head hv _)) h1 (.refl not_inline_nl)) (.newline _ _ (newlines_nl _)) k1
    have e : printEntries I F ((k, v) :: l) =
        printOldKey k ++ ' ' :: '=' :: ' ' :: printValue I F v ++ '\n' :: printEntries I F l := by
      cases hv <;> rw [printEntries] <;> simp
    rw [e]
    simpa using this
  | .block s ls es l hs hne hes hl, r, hr => by
    obtain ⟨l', k1, k2⟩ := printEntries_read hl r hr
    obtain ⟨es', h1, h2⟩ := printEntries_read hes ('}' :: '\n' :: (printEntries I F l ++ r)) (.inr ⟨_, rfl⟩)
    refine ⟨(.identifier (.borrowed s.str), .block (.unmerged [(ls, .unmerged es')])) :: l', ?_, by
      simp only [ownEntries, ownValue, ownBodies, ownMap, h2, k2, ownKey]; rfl⟩
    rw [printEntries]
    have hi : Ident U (s.str ++ (ls.flatMap (fun t => ' ' :: quoteLine t) ++ ' ' :: '{' :: '\n' :: (printEntries I F es ++
        '}' :: '\n' :: (printEntries I F l ++ r)))) s.str (ls.flatMap (fun t => ' ' :: quoteLine t) ++ ' ' :: '{' :: '\n' ::
        (printEntries I F es ++ '}' :: '\n' :: (printEntries I F l ++ r))) := by
      refine ⟨rfl, hs, ?_⟩
      cases ls with
      | nil => exact absurd rfl hne
      | cons l ls => rw [List.flatMap_cons, List.cons_append, List.cons_append, head_cons]; exact not_identChar (by decide) (by decide)
    have := IsEntries.entry _ _ _ _ _ _ _ _ (.refl (not_starts_head (ident_start hi)))
      (IsEntry.block _ _ _ _ _ _ _ _ _ hi (printStringLabels_read ls _) hne
        (skip_blank_layout ⟨_, _, rfl, by decide⟩) (layout_nl _ h1) (.refl not_inline_nl)) (.newline _ _ (newlines_nl _)) k1
    simpa [printOldKey] using this
end

theorem printEntries_value {k : Key} {v : Value} {l : List (Key × Value)} (hv : WritableValue U P I F v) :
    printEntries I F ((k, v) :: l) = printOldKey k ++ ' ' :: '=' :: ' ' :: printValue I F v ++ '\n' :: printEntries I F l := by
  cases hv <;> rw [printEntries] <;> simp

theorem printOldKey_object {k : Key} (h : WritableKey U k) (r : Str) :
    ∃ k', IsObjectKey U (printOldKey k ++ ' ' :: r) k' (' ' :: r) := by
  cases k with
  | identifier s =>
    exact ⟨_, .ident _ s.str _ ⟨rfl, h, by rw [head_cons]; exact not_identChar (by decide) (by decide)⟩⟩
  | string s =>
    refine ⟨_, .expr (quoteLine s.str) (.string (.ownedS s.str)) _ ?_ (.string _ _ _ (.quoted _ _ _
      (quoted_line_plain (quoted_quoteLine _ _))))⟩
    rintro ⟨c, t, e, hc⟩
    injection e with e _; subst e
    exact absurd hc (not_identStart (by decide) (by decide))

theorem object_nl {s r : Str} {es : List (ObjKey × Expr)} (h : IsObjectBody U s es r) : IsObjectBody U ('\n' :: s) es r := by
  have hl : Seq LayoutItem ['\n'] := .single (.space '\n' (by simp))
  cases h with
  | close => exact .close _ _ (Skip.prepend hl ‹_›)
  | elem => exact .elem _ _ _ _ _ _ _ _ _ _ _ _ (Skip.prepend hl ‹SkipLayout _ _›) ‹_› ‹_› ‹_› ‹_› ‹_› ‹_› ‹_›

mutual
/-- Values are read by the new grammar. -/
theorem printValue_expr {v : Value} : WritableValue U P I F v → CommonValue v → ∀ (c : Char) (r : Str), AfterExpr c →
    ∃ e, IsExpr U (printValue I F v ++ c :: r) e (c :: r)
  | .null, _, c, r, _ => by rw [printValue]; exact ⟨_, .null _⟩
  | .integer i h h', _, c, r, hc => by
    rw [printValue]
    obtain ⟨n, hn⟩ := intLit_isNumber h
    exact ⟨_, .number _ _ _ (numberTok_of (afterExpr_not_num hc) hn r)⟩
  | .float f ⟨n, hn⟩ h, _, c, r, hc => by
    rw [printValue]; exact ⟨_, .number _ _ _ (numberTok_of (afterExpr_not_num hc) hn r)⟩
  | .boolean true, _, c, r, _ => by rw [printValue]; exact ⟨_, .true _⟩
  | .boolean false, _, c, r, _ => by rw [printValue]; exact ⟨_, .false _⟩
  | .string s, _, c, r, _ => by
    rw [printValue]; exact ⟨_, .string _ _ _ (.quoted _ _ _ (quoted_quote' _ _))⟩
  | .list l h, hc, c, r, _ => by
    have hc : CommonList l := by cases hc; assumption
    obtain ⟨l', h1, -⟩ := printValues_expr h hc (c :: r)
    rw [printValue]
    exact ⟨_, by simpa using IsExpr.tuple _ _ _ h1⟩
  | .map es h, hc, c, r, _ => by
    have hc : CommonMap es := by cases hc; assumption
    obtain ⟨es', h1⟩ := printEntries_object h hc (c :: r)
    rw [printValue]
    exact ⟨.object es', by
      simpa using IsExpr.object ('{' :: '\n' :: (printEntries I F es ++ '}' :: c :: r)) _ _ _ (skip_self (by decide))
        (object_nl h1)⟩
/-- Lists are read by the new grammar. -/
theorem printValues_expr {l : List Value} : WritableList U P I F l → CommonList l → ∀ (r : Str),
    ∃ es, IsTupleBody U (printValues I F l ++ ']' :: r) es r ∧ es.length = l.length
  | .nil, _, r => by rw [printValues]; exact ⟨[], .empty _ _ (.close _ _ (skip_self (by decide))), rfl⟩
  | .cons v l hv hl, hc, r => by
    have hc1 : CommonValue v := by cases hc; assumption
    have hc2 : CommonList l := by cases hc; assumption
    obtain ⟨l', k1, k2⟩ := printValues_expr hl hc2 r
    cases l with
    | nil =>
      obtain ⟨e, h1⟩ := printValue_expr hv hc1 ']' r (by simp [AfterExpr])
      refine ⟨[e], ?_, rfl⟩
      rw [printValues]
      exact .elems _ _ _ _ _ _ (.refl (not_starts_head (printValue_head hv _))) h1
        (.last _ _ (.close _ _ (skip_self (by decide))))
    | cons w l =>
      obtain ⟨e, h1⟩ := printValue_expr hv hc1 ',' (' ' :: (printValues I F (w :: l) ++ ']' :: r)) (by simp [AfterExpr])
      cases k1 with
      | empty => cases k2
      | elems =>
        rename_i t u w' l' k3 k4 k5
        refine ⟨e :: w' :: l', ?_, by simpa using k2⟩
        have k6 : SkipLayout (' ' :: (printValues I F (w :: l) ++ ']' :: r)) t := Skip.prepend blank_layout ‹_›
        rw [printValues, List.append_assoc]
        exact .elems _ _ _ _ _ _ (.refl (not_starts_head (printValue_head hv _))) h1
          (.more _ _ _ _ _ _ _ (skip_self (by decide)) k6 ‹_› ‹_›)
/-- Maps are read by the new grammar. -/
theorem printEntries_object {es : List (Key × Value)} : WritableEntries U P I F es → CommonMap es → ∀ (r : Str),
    ∃ es', IsObjectBody U (printEntries I F es ++ '}' :: r) es' r
  | .nil, _, r => by rw [printEntries]; exact ⟨[], .close _ _ (skip_self (by decide))⟩
  | .value k v l hk hv hl, hc, r => by
    have hc1 : CommonValue v := by cases hc; assumption
    have hc2 : CommonMap l := by cases hc; assumption
    obtain ⟨l', k1⟩ := printEntries_object hl hc2 r
    obtain ⟨e, h1⟩ := printValue_expr hv hc1 '\n' (printEntries I F l ++ '}' :: r) (by simp [AfterExpr])
    obtain ⟨k', h3⟩ := printOldKey_object hk ('=' :: ' ' :: (printValue I F v ++ '\n' :: (printEntries I F l ++ '}' :: r)))
    have h4 := (printOldKey_read hk ('=' :: ' ' :: (printValue I F v ++ '\n' :: (printEntries I F l ++ '}' :: r)))).2
    have := IsObjectBody.elem _ _ _ _ _ _ _ _ _ _ _ _ (.refl (not_starts_head h4)) h3
      (skip_blank_inline ⟨_, _, rfl, by decide⟩) (skip_blank_inline (printValue_head hv _)) h1
      (.refl not_inline_nl) (.newline _ _ (newlines_nl _)) k1
    rw [printEntries_value hv]
    exact ⟨_, by simpa using this⟩
  | .block s ls es l hs hne hes hl, hc, r => by
    cases hc
    rename_i hc _
    cases hc
end

/-- Documents are read by the new grammar. -/
theorem printEntries_body {es : List (Key × Value)} : WritableEntries U P I F es → CommonEntries es → ∀ (r : Str), BodyEnd r →
    ∃ b, IsBody U (printEntries I F es ++ r) b r
  | .nil, _, r, hr => by
    rw [printEntries]
    refine ⟨[], .done _ _ (.refl ?_)⟩
    rcases hr with rfl | ⟨t, rfl⟩
    · rintro ⟨i, t, hi, e⟩
      obtain ⟨_, _, e', _⟩ := layoutItem_head (t := t) hi
      rw [e'] at e; cases e
    · exact not_starts_layout (by decide)
  | .value k v l hk hv hl, hc, r, hr => by
    obtain ⟨⟨s, rfl⟩, hc1, hc2⟩ : (∃ s, k = .identifier s) ∧ CommonValue v ∧ CommonEntries l := by
      cases hc with
      | value s _ _ h1 h2 => exact ⟨⟨_, rfl⟩, h1, h2⟩
      | block => cases hv
    obtain ⟨l', k1⟩ := printEntries_body hl hc2 r hr
    obtain ⟨e, h1⟩ := printValue_expr hv hc1 '\n' (printEntries I F l ++ r) (by simp [AfterExpr])
    have hi : Ident U (s.str ++ ' ' :: '=' :: ' ' :: (printValue I F v ++ '\n' :: (printEntries I F l ++ r))) s.str
        (' ' :: '=' :: ' ' :: (printValue I F v ++ '\n' :: (printEntries I F l ++ r))) :=
      ⟨rfl, hk, by rw [head_cons]; exact not_identChar (by decide) (by decide)⟩
    have := IsBody.elem _ _ _ _ _ _ _ (.refl (not_starts_head (ident_start hi)))
      (IsElement.attribute _ _ _ _ (IsAttribute.mk _ _ _ _ _ _ _ _ hi (skip_blank_inline ⟨_, _, rfl, by decide⟩)
        (skip_blank_inline (printValue_head hv _)) h1 (.refl not_inline_nl))) (.newline _ _ (newlines_nl _)) k1
    rw [printEntries_value hv]
    exact ⟨_, by simpa [printOldKey] using this⟩
  | .block s ls es l hs hne hes hl, hc, r, hr => by
    obtain ⟨hc1, hc2⟩ : CommonEntries es ∧ CommonEntries l := by
      cases hc with
      | value s _ _ h1 h2 => cases h1
      | block _ _ _ _ h1 h2 => exact ⟨h1, h2⟩
    obtain ⟨l', k1⟩ := printEntries_body hl hc2 r hr
    obtain ⟨b, h1⟩ := printEntries_body hes hc1 ('}' :: '\n' :: (printEntries I F l ++ r)) (.inr ⟨_, rfl⟩)
    have hls := printLabels_read (U := U) (ls.map .stringLiteral) (by
      intro l hl
      obtain ⟨t, -, rfl⟩ := List.mem_map.1 hl
      exact trivial) ('\n' :: (printEntries I F es ++ '}' :: '\n' :: (printEntries I F l ++ r)))
    rw [List.flatMap_map] at hls
    simp only [printLabel] at hls
    have hi : Ident U (s.str ++ (ls.flatMap (fun t => ' ' :: quoteLine t) ++ ' ' :: '{' :: '\n' :: (printEntries I F es ++
        '}' :: '\n' :: (printEntries I F l ++ r)))) s.str (ls.flatMap (fun t => ' ' :: quoteLine t) ++ ' ' :: '{' :: '\n' ::
        (printEntries I F es ++ '}' :: '\n' :: (printEntries I F l ++ r))) := by
      refine ⟨rfl, hs, ?_⟩
      cases ls with
      | nil => exact absurd rfl hne
      | cons l ls => rw [List.flatMap_cons, List.cons_append, List.cons_append, head_cons]; exact not_identChar (by decide) (by decide)
    have := IsBody.elem _ _ _ _ _ _ _ (.refl (not_starts_head (ident_start hi)))
      (IsElement.block _ _ _ _ _ _ _ _ _ _ hi hls (.refl not_inline_nl) (newlines_nl _) h1 (.refl not_inline_nl))
      (.newline _ _ (newlines_nl _)) k1
    rw [printEntries]
    exact ⟨_, by simpa [printOldKey] using this⟩

/-- What the legacy parser returns can be written. -/
theorem isEntries_writable (hI : ∀ k, InI64 k → IntLit (I k) k)
    (hF : ∀ t n f, IsNumber t n → NumberValue P t (.float f) → (∃ m, IsNumber (F f) m) ∧ NumberValue P (F f) (.float f))
    {s r : Str} {es : List (Key × Value)} (h : IsEntries U P s es r) : WritableEntries U P I F es := by
  refine (old_induct (U := U) (P := P) (m1 := fun _ v _ => WritableValue U P I F v) (m2 := fun _ l _ => WritableList U P I F l)
    (m3 := fun _ l _ => WritableList U P I F l) (m4 := fun _ l _ => WritableEntries U P I F l)
    (m5 := fun _ k v _ => ∀ l, WritableEntries U P I F l → WritableEntries U P I F ((k, v) :: l))
    ?_ ?_ ?_ ?_ ?_ ?_ ?_ ?_ ?_ ?_ ?_ ?_ ?_ ?_ ?_ ?_).2.1 h
  · intro r; exact .null
  · intro r; exact .boolean _
  · intro r; exact .boolean _
  · intro t n v r h1 h2
    obtain ⟨t', e, hn, -⟩ := h1
    have := List.append_cancel_right e; subst this
    cases h2 with
    | integer k h3 h4 => exact .integer _ (hI _ h4) h4
    | float f h3 h4 =>
      obtain ⟨k1, k2⟩ := hF _ _ f hn (.float _ _ h3 h4)
      exact .float _ k1 k2
  · intro s v r _; exact .string _
  · intro s vs r _ h; exact .list _ h
  · intro s t es r _ _ h; exact .map _ h
  · intro s r _; exact .nil
  · intro s t u v vs r _ _ _ h1 h2; exact .cons _ _ h1 h2
  · intro s r _; exact .nil
  · intro s t u w v vs r _ _ _ _ h1 h2; exact .cons _ _ h1 h2
  · intro s r _; exact .nil
  · intro s t u w k v es r _ _ _ _ h1 h2; exact h1 _ h2
  · intro s t u w x r k v hk _ _ _ _ h l hl
    refine .value _ _ _ ?_ h hl
    cases hk with
    | ident => rename_i i h; exact h.2.1
    | string => exact trivial
  · intro s i t u w r es hi _ _ _ h l hl
    exact .value _ _ _ hi.2.1 (.map _ h) hl
  · intro s i t u w x r ls es hi _ hne _ _ _ h l hl
    exact .block _ _ _ _ hi.2.1 hne h hl

/-! ## A tree determines the entries it agrees with -/

theorem numberValue_functional {t : Str} {v w : Value} (h : NumberValue P t v) (h' : NumberValue P t w) : v = w := by
  cases h with
  | integer k h1 h2 =>
    cases h' with
    | integer k' h3 h4 => rw [intLit_functional h1 h3]
    | float f h3 h4 => exact absurd ⟨_, h1, h2⟩ h3
  | float f h1 h2 =>
    cases h' with
    | integer k' h3 h4 => exact absurd ⟨_, h3, h4⟩ h1
    | float f' h3 h4 => rw [h2] at h4; injection h4 with h4; rw [h4]

theorem agreeKey_own {k : ObjKey} {a b : Key} (h : AgreeKey k a) (h' : AgreeKey k b) : ownKey a = ownKey b := by
  cases h with
  | ident s t h1 => cases h' with | ident _ t' h2 => simp [ownKey, ← h1, ← h2]
  | string s t h1 => cases h' with | string _ t' h2 => simp [ownKey, (quotedLine_funct h1 h2).1]

mutual
theorem agree_own {e : Expr} {v w : Value} : Agree P e v → Agree P e w → ownValue v = ownValue w
  | .null, h => by cases h; rfl
  | .boolean b, h => by cases h; rfl
  | .number n v h1, h => by
    cases h with
    | number _ w h2 => rw [numberValue_functional h1 h2]
  | .string s, h => by cases h; rfl
  | .tuple es vs h1, h => by
    cases h with
    | tuple _ ws h2 => simp only [ownValue, agreeList_own h1 h2]
  | .object es vs h1, h => by
    cases h with
    | object _ ws h2 => simp only [ownValue, ownMaps, ownMap, agreeObject_own h1 h2]
theorem agreeList_own {es : List Expr} {vs ws : List Value} : AgreeList P es vs → AgreeList P es ws → ownList vs = ownList ws
  | .nil, h => by cases h; rfl
  | .cons e v es vs h1 h2, h => by
    cases h with
    | cons _ w _ ws h3 h4 => simp only [ownList, agree_own h1 h3, agreeList_own h2 h4]
theorem agreeObject_own {es : List (ObjKey × Expr)} {vs ws : List (Key × Value)} : AgreeObject P es vs → AgreeObject P es ws →
    ownEntries vs = ownEntries ws
  | .nil, h => by cases h; rfl
  | .cons k e k' v es vs h0 h1 h2, h => by
    cases h with
    | cons _ _ _ w _ ws h3 h4 h5 => simp only [ownEntries, agreeKey_own h0 h3, agree_own h1 h4, agreeObject_own h2 h5]
end

theorem stringLabels_inj {a b : List Str} (h : a.map BlockLabel.stringLiteral = b.map .stringLiteral) : a = b := by
  induction a generalizing b with
  | nil => cases b <;> simp_all
  | cons x a ih =>
    cases b with
    | nil => cases h
    | cons y b => simp only [List.map_cons, List.cons.injEq, BlockLabel.stringLiteral.injEq] at h; rw [h.1, ih h.2]

mutual
theorem agreeBody_own {b : Body} {vs ws : List (Key × Value)} : AgreeBody P b vs → AgreeBody P b ws →
    ownEntries vs = ownEntries ws
  | .nil, h => by cases h; rfl
  | .cons el k v b es h1 h2, h => by
    cases h with
    | cons _ k' w _ ws h3 h4 =>
      obtain ⟨e1, e2⟩ := agreeElement_own h1 h3
      simp only [ownEntries, e1, e2, agreeBody_own h2 h4]
theorem agreeElement_own {el : BodyElement} {k k' : Key} {v w : Value} : AgreeElement P el k v → AgreeElement P el k' w →
    ownKey k = ownKey k' ∧ ownValue v = ownValue w
  | .attribute s t e v h1 h2, h => by
    cases h with
    | «attribute» _ t' _ w h3 h4 => exact ⟨by simp [ownKey, ← h1, ← h3], agree_own h2 h4⟩
  | .object s t b es h1 h2, h => by
    generalize hz : BodyElement.block s [] b = z at h
    cases h with
    | «attribute» => cases hz
    | object s' t' _ es' h3 h4 =>
      cases hz
      exact ⟨by simp [ownKey, ← h1, ← h3], by simp only [ownValue, ownMaps, ownMap, agreeBody_own h2 h4]⟩
    | block s' t' ls b' es' h3 h4 h5 =>
      injection hz with _ e _
      cases ls with
      | nil => exact absurd rfl h4
      | cons => cases e
  | .block s t ls b es h1 h0 h2, h => by
    generalize hz : BodyElement.block s (ls.map .stringLiteral) b = z at h
    cases h with
    | «attribute» => cases hz
    | object s' t' _ es' h3 h4 =>
      injection hz with _ e _
      cases ls with
      | nil => exact absurd rfl h0
      | cons => cases e
    | block s' t' ls' b' es' h3 h4 h5 =>
      injection hz with e1 e2 e3
      subst e1 e3
      have := stringLabels_inj e2; subst this
      exact ⟨by simp [ownKey, ← h1, ← h3], by simp only [ownValue, ownBodies, ownMap, agreeBody_own h2 h5]⟩
end

end Verif
