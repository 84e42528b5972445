import Verif.Model.Calls
import Verif.Proofs.Position
/-! # The number of calls of the recursive parsers -/
set_option autoImplicit false

namespace Verif
open PRes Spec CParser

section
variable {α β : Type}

theorem CParser.run_bind (p : CParser α) (f : α → CParser β) : (p >>= f).run = p.run >>= fun v => (f v).run := rfl

theorem exprC_run (U : CharClass) : ∀ n, (exprC U n).run = exprN U n
  | 0 => rfl
  | n + 1 => by
    have : (exprC U (n + 1)).run = exprStep U (exprC U n).run := rfl
    rw [this, exprC_run U n]; rfl

theorem bodyC_run (U : CharClass) : ∀ n, (bodyC U n).run = bodyN U n
  | 0 => rfl
  | n + 1 => by
    have : (bodyC U (n + 1)).run = bodyStep U (bodyC U n).run := rfl
    rw [this, bodyC_run U n]; rfl

theorem cost_bind_le {p : CParser α} {f : α → CParser β} {s : Str} {B : Nat} (h0 : p.cost s ≤ B)
    (h : ∀ r v, p.run s = .ok r v → p.cost s + (f v).cost r ≤ B) : (p >>= f).cost s ≤ B := by
  show p.cost s + _ ≤ B
  split
  · exact h _ _ ‹_›
  · exact h0

theorem cost_bind_ok {p : CParser α} {f : α → CParser β} {s r : Str} {v : α} (h : p.run s = .ok r v) :
    (p >>= f).cost s = p.cost s + (f v).cost r := by
  show p.cost s + _ = _
  rw [h]

theorem cost_lift_bind_le {p : Parser α} {f : α → CParser β} {s : Str} {B : Nat}
    (h : ∀ r v, p s = .ok r v → (f v).cost r ≤ B) : (lift p >>= f).cost s ≤ B :=
  cost_bind_le (Nat.zero_le _) fun r v hr => by
    have := h r v hr
    show 0 + _ ≤ B
    omega

theorem cost_lift_bind_ok {p : Parser α} {f : α → CParser β} {s r : Str} {v : α} (h : p s = .ok r v) :
    (lift p >>= f).cost s = (f v).cost r := by
  rw [cost_bind_ok h]; show 0 + _ = _; omega

theorem cost_lift_bind_err {p : Parser α} {f : α → CParser β} {s : Str} (h : ∀ r v, p s ≠ .ok r v) :
    (lift p >>= f).cost s = 0 :=
  Nat.le_zero.1 (cost_lift_bind_le fun r v hr => absurd hr (h r v))

@[simp] theorem cost_pure (v : α) (s : Str) : (pure v : CParser α).cost s = 0 := rfl
@[simp] theorem cost_lift (p : Parser α) (s : Str) : (lift p).cost s = 0 := rfl

/-- What follows a costly parser in the productions costs nothing. -/
theorem cost_bind_free {p : CParser α} {f : α → CParser β} {s : Str} (h : ∀ v r, (f v).cost r = 0) :
    (p >>= f).cost s = p.cost s := by
  show p.cost s + _ = _
  split
  · rw [h]; rfl
  · rfl

theorem cost_ws_bind {p : CParser α} {s t : Str} (h : SkipLayout s t) : (lift ws >>= fun _ => p).cost s = p.cost t := by
  obtain ⟨v, hv⟩ := ws_iff.2 h
  exact cost_lift_bind_ok hv

theorem cost_inline_bind {p : CParser α} {s t : Str} (h : SkipInline s t) :
    (lift inlineWs >>= fun _ => p).cost s = p.cost t := by
  obtain ⟨v, hv⟩ := inlineWs_iff.2 h
  exact cost_lift_bind_ok hv

theorem free_tail {p : Parser α} {f : α → CParser β} (h : ∀ v r, (f v).cost r = 0) (s : Str) :
    (lift p >>= f).cost s = 0 := by rw [cost_bind_free h]; rfl

theorem cost_wsAround {p : CParser α} {s t : Str} (h : SkipLayout s t) : (wsAroundC p).cost s = p.cost t := by
  unfold wsAroundC
  rw [cost_ws_bind h, cost_bind_free]
  intro v r; exact free_tail (fun _ _ => rfl) _

end

/-! ## Expressions -/

/-- The number of calls is at most twice the length of what is consumed; a failing call costs at most twice the length
of the input and one more. -/
structure Lin (U : CharClass) (e : CParser Expr) : Prop where
  sound : ∀ s r v, e.run s = .ok r v → IsExpr U s v r
  ok : ∀ s r v, e.run s = .ok r v → e.cost s + 2 * r.length ≤ 2 * s.length
  any : ∀ s, e.cost s ≤ 2 * s.length + 1
  stop : ∀ c t, (c = ']' ∨ c = '}' ∨ c = ',') → e.cost (c :: t) ≤ 1

variable {U : CharClass}

theorem not_isExpr_stop {c : Char} {t r : Str} {v : Expr} (hc : c = ']' ∨ c = '}' ∨ c = ',') : ¬ IsExpr U (c :: t) v r := by
  intro h
  have h1 := (exprN_complete (U := U) ((c :: t).length + 1)).1 _ _ _ (Nat.lt_succ_self _) h
  have h2 := (exprN_complete (U := U) ((c :: t).length + 1)).2 c t hc (Nat.lt_succ_self _)
  rw [h1] at h2; cases h2

section
variable {e : CParser Expr} (he : Lin U e)
include he

theorem elem_stop {c : Char} {s t : Str} (hc : c = ']' ∨ c = '}' ∨ c = ',') (h : SkipLayout s (c :: t)) :
    (tupleElemC e).cost s ≤ 1 := by
  unfold tupleElemC
  rw [cost_ws_bind h]
  exact he.stop _ _ hc

theorem elem_any (s : Str) : (tupleElemC e).cost s ≤ 2 * s.length + 1 := by
  obtain ⟨t, ht⟩ := skipLayout_total s
  unfold tupleElemC
  rw [cost_ws_bind ht]
  have := he.any t
  have := ht.length
  omega

theorem elem_ok {s r : Str} {v : Expr} (h : (tupleElemC e).run s = .ok r v) :
    (tupleElemC e).cost s + 2 * r.length ≤ 2 * s.length ∧ r.length < s.length := by
  obtain ⟨t, ht, h⟩ := tupleElem_iff.1 (show tupleElem e.run s = .ok r v from h)
  unfold tupleElemC
  rw [cost_ws_bind ht]
  have := he.ok _ _ _ h
  have := ht.length
  have := (isExpr_consumes (he.sound _ _ _ h)).length
  omega

theorem sepTail_any : ∀ (n : Nat) (s : Str), sepTailCost tupleSep (tupleElemC e) n s ≤ 2 * s.length + 1 := by
  intro n
  induction n with
  | zero => intro s; exact Nat.zero_le _
  | succ n ih =>
    intro s
    rw [sepTailCost]
    split
    · rename_i r v hs
      have l := (tupleSep_iff.1 hs).2.length
      simp at l
      have := elem_any he r
      split
      · rename_i r' w hp
        have := elem_ok he hp
        split
        · have := ih r'; omega
        · omega
      · omega
    · omega

theorem sepTail_end : ∀ (n : Nat) (s u r : Str) (es : List Expr),
    sepTailAux tupleSep (tupleElemC e).run n s = .ok u es → IsTupleEnd u r →
    sepTailCost tupleSep (tupleElemC e) n s + 2 * u.length ≤ 2 * s.length + 1 := by
  intro n
  induction n with
  | zero => intro s u r es h; cases h
  | succ n ih =>
    intro s u r es h hr
    rw [sepTailCost]
    rw [sepTailAux_succ] at h
    cases hs : tupleSep s with
    | ok r0 v =>
      rw [hs] at h
      simp only at h ⊢
      have hsep := (tupleSep_iff.1 hs).2
      have l := hsep.length
      simp at l
      cases hp : (tupleElemC e).run r0 with
      | ok r' w =>
        rw [hp] at h
        simp only at h ⊢
        have := elem_ok he hp
        split at h
        · rename_i hl
          obtain ⟨es', h1, rfl⟩ := map_eq_ok.1 h
          rw [if_pos hl]
          have := ih _ _ _ _ h1 hr
          omega
        · cases h
      | err =>
        rw [hp] at h
        simp only at h ⊢
        injection h with h1 h2; subst h1
        have : (tupleElemC e).cost r0 ≤ 1 := by
          cases hr with
          | close _ h => have := h.functional layoutItem_prefix hsep; simp at this
          | comma t _ h h' =>
            have := h.functional layoutItem_prefix hsep
            simp at this; subst this
            exact elem_stop he (.inl rfl) h'
        omega
      | fail => rw [hp] at h; cases h
      | panic => rw [hp] at h; cases h
      | diverge => rw [hp] at h; cases h
    | err => rw [hs] at h; injection h with h1 h2; subst h1; simp
    | fail => rw [hs] at h; cases h
    | panic => rw [hs] at h; cases h
    | diverge => rw [hs] at h; cases h

omit he in
theorem tuple_cost_none {s : Str} (h : ¬ Head (fun c => c = '[') s) : (tupleC e).cost s = 0 := by
  unfold tupleC
  refine cost_lift_bind_err fun r v hr => ?_
  obtain ⟨rfl, -⟩ := tag_eq_ok.1 hr
  exact h ⟨_, _, rfl, rfl⟩

omit he in
theorem tuple_cost_some (t : Str) : (tupleC e).cost ('[' :: t) = (CParser.separatedList tupleSep (tupleElemC e)).cost t := by
  unfold tupleC
  rw [cost_lift_bind_ok (tag_cons_self _ _), cost_bind_free]
  intro v r; exact free_tail (fun _ _ => rfl) _

theorem tuple_any (s : Str) : (tupleC e).cost s ≤ 2 * s.length := by
  by_cases h : Head (fun c => c = '[') s
  · obtain ⟨_, t, rfl, rfl⟩ := h
    rw [tuple_cost_some]
    show (tupleElemC e).cost t + _ ≤ 2 * (t.length + 1)
    have := elem_any he t
    split
    · have := elem_ok he ‹_›
      split
      · have := sepTail_any he (‹Str›.length + 1) ‹Str›; omega
      · omega
    · omega
  · rw [tuple_cost_none h]; exact Nat.zero_le _

theorem tuple_ok {s r : Str} {es : List Expr} (h : (tupleC e).run s = .ok r es) :
    (tupleC e).cost s + 2 * r.length + 1 ≤ 2 * s.length := by
  have h' : tuple e.run s = .ok r es := h
  unfold tuple at h'
  rw [tagThen_eq_ok] at h'
  obtain ⟨t, rfl, h'⟩ := h'
  simp only [bindP_eq_ok, pure_apply] at h'
  obtain ⟨u, es', h1, v, _, h2, h3⟩ := h'
  injection h3 with h4 h5; subst h4 h5
  have h2 := tupleEnd_iff.1 h2
  have l := (tupleEnd_consumes h2).length
  show (tupleC e).cost ('[' :: t) + 2 * v.length + 1 ≤ 2 * (t.length + 1)
  rw [tuple_cost_some]
  show (tupleElemC e).cost t + _ + 2 * v.length + 1 ≤ 2 * (t.length + 1)
  unfold Verif.separatedList at h1
  have hd : tupleElem e.run = (tupleElemC e).run := rfl
  rw [hd] at h1
  cases hp : (tupleElemC e).run t with
  | ok r' w =>
    rw [hp] at h1
    simp only at h1 ⊢
    have := elem_ok he hp
    split at h1
    · rename_i hl
      obtain ⟨es', h1', rfl⟩ := map_eq_ok.1 h1
      rw [if_pos hl]
      have := sepTail_end he _ _ _ _ _ h1' h2
      omega
    · cases h1
  | err =>
    rw [hp] at h1
    simp only at h1 ⊢
    injection h1 with h1 _; subst h1
    have : (tupleElemC e).cost t ≤ 1 := by
      cases h2 with
      | close _ h => exact elem_stop he (.inl rfl) h
      | comma t _ h h' => exact elem_stop he (.inr (.inr rfl)) h
    omega
  | fail => rw [hp] at h1; cases h1
  | panic => rw [hp] at h1; cases h1
  | diverge => rw [hp] at h1; cases h1

/-! ### objects -/

theorem key_any (s : Str) : (objectElementIdentifierC U e).cost s ≤ 2 * s.length + 1 := by
  show 0 + _ ≤ _
  split
  · show 0 + e.cost s ≤ _; have := he.any s; omega
  · omega

theorem key_ok {s r : Str} {k : ObjKey} (h : (objectElementIdentifierC U e).run s = .ok r k) :
    (objectElementIdentifierC U e).cost s + 2 * r.length ≤ 2 * s.length ∧ r.length < s.length := by
  have h' : objectElementIdentifier U e.run s = .ok r k := h
  have hc := (isObjectKey_consumes (objectKey_sound he.sound h')).length
  refine ⟨?_, hc⟩
  show 0 + _ + _ ≤ _
  unfold objectElementIdentifier at h'
  rcases orElse_eq_ok.1 h' with h1 | ⟨h1, h2⟩
  · have : (lift (mapP (fun s => ObjKey.ident (.borrowed s)) (identifier U))).run s = .ok r k := h1
    rw [this]; simp only; omega
  · have : (lift (mapP (fun s => ObjKey.ident (.borrowed s)) (identifier U))).run s = .err := h1
    rw [this]
    obtain ⟨_, h3, -⟩ := mapP_eq_ok.1 h2
    unfold Verif.recognize at h3
    obtain ⟨r', w, h4, h5⟩ := bind_eq_ok.1 h3
    injection h5 with h6 _; subst h6
    have := he.ok _ _ _ h4
    show 0 + e.cost s + _ ≤ _
    omega

theorem item_any (s : Str) : (objectItemC U e).cost s ≤ 2 * s.length + 1 := by
  obtain ⟨t, ht⟩ := skipLayout_total s
  obtain ⟨t', ht'⟩ := skipInline_total t
  unfold objectItemC
  rw [cost_ws_bind ht, cost_bind_free (fun v r => free_tail (fun _ _ => rfl) _)]
  unfold objectElementC
  rw [cost_inline_bind ht']
  have := ht.length
  have := ht'.length
  refine cost_bind_le ?_ fun u k hk => ?_
  · have := key_any he t'; omega
  · obtain ⟨u', hu'⟩ := skipInline_total u
    have := key_ok he hk
    have := hu'.length
    rw [cost_inline_bind hu']
    suffices h : (lift (tag ['=']) >>= fun _ => lift inlineWs >>= fun _ => e >>= fun v => lift inlineWs >>= fun _ =>
        (pure (k, v) : CParser (ObjKey × Expr))).cost u' ≤ 2 * u'.length + 1 by
      omega
    refine cost_lift_bind_le fun r v hr => ?_
    obtain ⟨rfl, -⟩ := tag_eq_ok.1 hr
    obtain ⟨r', hr'⟩ := skipInline_total r
    rw [cost_inline_bind hr', cost_bind_free (fun v r => free_tail (fun _ _ => rfl) _)]
    have := he.any r'
    have := hr'.length
    simp; omega

theorem item_ok {s r : Str} {el : ObjKey × Expr} (h : (objectItemC U e).run s = .ok r el) :
    (objectItemC U e).cost s + 2 * r.length ≤ 2 * s.length ∧ r.length < s.length := by
  have h' : objectItem U e.run s = .ok r el := h
  refine ⟨?_, (objectItem_consumes he.sound h').length⟩
  obtain ⟨t, t', u, v, w, x, y, h1, h2, h3, h4, h5, h6, h7, h8⟩ := objectItem_eq_ok.1 h'
  unfold objectItemC
  rw [cost_ws_bind h1, cost_bind_free (fun v r => free_tail (fun _ _ => rfl) _)]
  unfold objectElementC
  rw [cost_inline_bind h2, cost_bind_ok (show (objectElementIdentifierC U e).run t' = _ from h3), cost_inline_bind h4,
    cost_lift_bind_ok (tag_cons_self _ _), cost_inline_bind h5, cost_bind_free (fun v r => free_tail (fun _ _ => rfl) _)]
  have := key_ok he (show (objectElementIdentifierC U e).run t' = _ from h3)
  have := he.ok _ _ _ h6
  have := h1.length
  have := h2.length
  have := h4.length
  have := h5.length
  have := h7.length
  have := (objectSep_suffix (objectSeparator_sound h8)).length_le
  simp at *
  omega

theorem item_end {s r : Str} (h : SkipLayout s ('}' :: r)) : (objectItemC U e).cost s ≤ 1 := by
  unfold objectItemC
  rw [cost_ws_bind h, cost_bind_free (fun v r => free_tail (fun _ _ => rfl) _)]
  unfold objectElementC
  rw [cost_inline_bind (skipInline_again h)]
  have hk : (objectElementIdentifierC U e).cost ('}' :: r) ≤ 1 := by
    show 0 + _ ≤ _
    split
    · show 0 + e.cost _ ≤ _
      have := he.stop '}' r (.inr (.inl rfl)); omega
    · omega
  refine cost_bind_le hk fun u k hu => ?_
  exfalso
  have := objectKey_sound he.sound (show objectElementIdentifier U e.run ('}' :: r) = .ok u k from hu)
  generalize hz : '}' :: r = z at this
  cases this with
  | ident =>
    rename_i h; subst hz; exact absurd h.head rbrace_not_ident
  | expr => rename_i h; rw [← hz] at h; exact not_isExpr_stop (.inr (.inl rfl)) h

theorem items_any : ∀ (n : Nat) (s : Str), many0Cost (objectItemC U e) n s ≤ 2 * s.length + 1 := by
  intro n
  induction n with
  | zero => intro s; exact Nat.zero_le _
  | succ n ih =>
    intro s
    rw [many0Cost]
    have := item_any he s
    split
    · rename_i r v h
      have := item_ok he h
      split
      · have := ih r; omega
      · omega
    · omega

theorem items_end : ∀ (n : Nat) (s u r : Str) (es : List (ObjKey × Expr)),
    many0Aux (objectItemC U e).run n s = .ok u es → SkipLayout u ('}' :: r) →
    many0Cost (objectItemC U e) n s + 2 * u.length ≤ 2 * s.length + 1 := by
  intro n
  induction n with
  | zero => intro s u r es h; cases h
  | succ n ih =>
    intro s u r es h hu
    rw [many0Cost]
    simp only [many0Aux] at h
    cases hi : (objectItemC U e).run s with
    | ok r' v =>
      rw [hi] at h
      simp only at h ⊢
      have := item_ok he hi
      rw [if_pos this.2] at h ⊢
      obtain ⟨es', h1, rfl⟩ := map_eq_ok.1 h
      have := ih _ _ _ _ h1 hu
      omega
    | err =>
      rw [hi] at h
      injection h with h1 h2; subst h1
      have := item_end he hu
      simp only
      omega
    | fail => rw [hi] at h; cases h
    | panic => rw [hi] at h; cases h
    | diverge => rw [hi] at h; cases h

omit he in
theorem wsTag_ok {c : Char} {s r v : Str} (h : wsAround (tag [c]) s = .ok r v) : ∃ t, SkipLayout s (c :: t) ∧ SkipLayout t r := by
  obtain ⟨t, u, h1, h2, h3⟩ := wsAround_eq_ok.1 h
  obtain ⟨rfl, -⟩ := tag_eq_ok.1 h2
  exact ⟨u, h1, h3⟩

omit he in
theorem object_cost_none {s t : Str} (h : SkipLayout s t) (hc : ¬ Head (fun d => d = '{') t) : (objectC U e).cost s = 0 := by
  unfold objectC
  refine cost_lift_bind_err fun r v hr => ?_
  obtain ⟨u, hu, -⟩ := wsTag_ok hr
  have := h.functional layoutItem_prefix hu; subst this
  exact hc ⟨_, _, rfl, rfl⟩

omit he in
theorem object_cost_some {s t t' : Str} (h : SkipLayout s ('{' :: t)) (h' : SkipLayout t t') :
    (objectC U e).cost s = many0Cost (objectItemC U e) (t'.length + 1) t' := by
  unfold objectC
  have : wsAround (tag ['{']) s = .ok t' ['{'] := wsAround_eq_ok.2 ⟨_, t, h, tag_cons_self _ _, h'⟩
  rw [cost_lift_bind_ok this, cost_bind_free (fun v r => free_tail (fun _ _ => rfl) _), cost_wsAround h'.again]
  unfold objectBodyC
  rw [cost_bind_free (fun v r => free_tail (fun _ _ => rfl) _)]
  rfl

theorem object_any (s : Str) : (objectC U e).cost s ≤ 2 * s.length := by
  obtain ⟨t, ht⟩ := skipLayout_total s
  by_cases h : Head (fun c => c = '{') t
  · obtain ⟨_, t, rfl, rfl⟩ := h
    obtain ⟨t', ht'⟩ := skipLayout_total t
    rw [object_cost_some ht ht']
    have := items_any he (t'.length + 1) t'
    have := ht.length
    have := ht'.length
    simp at *
    omega
  · rw [object_cost_none ht h]; exact Nat.zero_le _

theorem object_ok {s r : Str} {es : List (ObjKey × Expr)} (h : (objectC U e).run s = .ok r es) :
    (objectC U e).cost s + 2 * r.length + 1 ≤ 2 * s.length := by
  obtain ⟨t, t', u, h1, h2, h3, h4⟩ := object_eq_ok.1 (show object U e.run s = .ok r es from h)
  rw [object_cost_some h1 h2]
  have := items_end he _ _ _ _ _ (show many0Aux (objectItemC U e).run (t'.length + 1) t' = .ok u es from h3) h4
  have := h1.length
  have := h2.length
  have := h4.length
  simp at *
  omega

omit he in
theorem bracket_cost_none {s t : Str} (h : SkipLayout s t) (hc : ¬ Head (fun d => d = '(') t) :
    (bracketExpressionC e).cost s = 0 := by
  unfold bracketExpressionC
  refine cost_lift_bind_err fun r v hr => ?_
  obtain ⟨u, hu, -⟩ := wsTag_ok hr
  have := h.functional layoutItem_prefix hu; subst this
  exact hc ⟨_, _, rfl, rfl⟩

omit he in
theorem bracket_cost_some {s t t' : Str} (h : SkipLayout s ('(' :: t)) (h' : SkipLayout t t') :
    (bracketExpressionC e).cost s = e.cost t' := by
  unfold bracketExpressionC
  have : wsAround (tag ['(']) s = .ok t' ['('] := wsAround_eq_ok.2 ⟨_, t, h, tag_cons_self _ _, h'⟩
  rw [cost_lift_bind_ok this, cost_bind_free (fun v r => free_tail (fun _ _ => rfl) _), cost_wsAround h'.again]

theorem bracket_any (s : Str) : (bracketExpressionC e).cost s ≤ 2 * s.length := by
  obtain ⟨t, ht⟩ := skipLayout_total s
  by_cases h : Head (fun c => c = '(') t
  · obtain ⟨_, t, rfl, rfl⟩ := h
    obtain ⟨t', ht'⟩ := skipLayout_total t
    rw [bracket_cost_some ht ht']
    have := he.any t'
    have := ht.length
    have := ht'.length
    simp at *
    omega
  · rw [bracket_cost_none ht h]; exact Nat.zero_le _

theorem bracket_ok {s r : Str} {v : Expr} (h : (bracketExpressionC e).run s = .ok r v) :
    (bracketExpressionC e).cost s + 2 * r.length + 1 ≤ 2 * s.length := by
  obtain ⟨t, t', u, h1, h2, h3, h4⟩ := bracket_eq_ok.1 (show bracketExpression e.run s = .ok r v from h)
  rw [bracket_cost_some h1 h2]
  have := he.ok _ _ _ h3
  have := h1.length
  have := h2.length
  have := h4.length
  simp at *
  omega
end

/-- What one production contributes. -/
def Fine {α : Type} (p : CParser α) (s : Str) : Prop :=
  (∀ r v, p.run s = .ok r v → p.cost s + 2 * r.length + 1 ≤ 2 * s.length) ∧ p.cost s ≤ 2 * s.length

theorem Fine.lift {α : Type} {p : Parser α} {s : Str} (h : ∀ r v, p s = .ok r v → Consumes s r) : Fine (lift p) s :=
  ⟨fun r v hr => by
    have := (h r v hr).length
    show 0 + _ + _ ≤ _
    omega, Nat.zero_le _⟩

/-- Of two alternatives only one makes calls. -/
theorem Fine.orElse {α : Type} {p q : CParser α} {s : Str} (hp : Fine p s) (hq : Fine q s)
    (h : p.cost s = 0 ∨ (q.cost s = 0 ∧ ∀ r v, q.run s ≠ .ok r v)) : Fine (p <///> q) s := by
  constructor
  · intro r v hr
    show p.cost s + _ + _ + _ ≤ _
    rcases orElse_eq_ok.1 (show (p.run <//> q.run) s = .ok r v from hr) with h1 | ⟨h1, h2⟩
    · rw [h1]; have := hp.1 _ _ h1; simp only; omega
    · rw [h1]
      have := hq.1 _ _ h2
      simp only
      rcases h with h | h
      · omega
      · exact absurd h2 (h.2 r v)
  · show p.cost s + _ ≤ _
    have := hp.2
    have := hq.2
    split <;> rcases h with h | h <;> omega

theorem lin_step {e : CParser Expr} (he : Lin U e) : Lin U (call (exprStepC U e)) := by
  have hsound : ∀ s r v, (exprStepC U e).run s = .ok r v → IsExpr U s v r := fun s r v h =>
    exprStep_sound he.sound (show exprStep U e.run s = .ok r v from h)
  have fine : ∀ s, Fine (exprStepC U e) s := by
    intro s
    have hlift : ∀ {p : Parser Expr} {q : CParser Expr}, (∀ r v, p s = .ok r v → Consumes s r) → Fine q s →
        Fine (lift p <///> q) s := fun hp hq => .orElse (.lift hp) hq (.inl rfl)
    obtain ⟨w, hw⟩ := skipLayout_total s
    have ht : Fine (map Expr.tuple (tupleC e)) s := ⟨fun r v h => by
      obtain ⟨_, h, -⟩ := mapP_eq_ok.1 (show mapP Expr.tuple (tupleC e).run s = .ok r v from h)
      exact tuple_ok he h, tuple_any he s⟩
    have ho : Fine (map Expr.object (objectC U e)) s := ⟨fun r v h => by
      obtain ⟨_, h, -⟩ := mapP_eq_ok.1 (show mapP Expr.object (objectC U e).run s = .ok r v from h)
      exact object_ok he h, object_any he s⟩
    have hb : Fine (bracketExpressionC e) s := ⟨fun r v h => bracket_ok he h, bracket_any he s⟩
    have hob : Fine (map Expr.object (objectC U e) <///> bracketExpressionC e) s := by
      refine .orElse ho hb ?_
      by_cases h : Head (fun c => c = '{') w
      · refine .inr ⟨bracket_cost_none hw (not_head h (by rintro c rfl; decide)), fun r v hr => ?_⟩
        have := bracket_err (e := e.run) hw (not_head h (by rintro c rfl; decide))
        rw [show (bracketExpressionC e).run s = bracketExpression e.run s from rfl, this] at hr
        cases hr
      · exact .inl (object_cost_none hw h)
    unfold exprStepC
    refine hlift ?_ (hlift ?_ (hlift ?_ (hlift ?_ (.orElse ht hob ?_))))
    · intro r v h
      obtain ⟨_, h, -⟩ := mapP_eq_ok.1 h
      obtain ⟨_, h, -⟩ := mapP_eq_ok.1 (show mapP _ _ s = _ from h)
      obtain ⟨rfl, -⟩ := tag_eq_ok.1 h
      exact ⟨_, by simp, rfl⟩
    · intro r v h
      obtain ⟨_, h, -⟩ := mapP_eq_ok.1 h
      exact numberTok_consumes (number_iff.1 h)
    · intro r v h
      obtain ⟨_, h, -⟩ := mapP_eq_ok.1 h
      unfold boolean at h
      simp only [orElse_eq_ok, mapP_eq_ok, tag_eq_ok] at h
      rcases h with ⟨_, ⟨rfl, -⟩, -⟩ | ⟨-, _, ⟨rfl, -⟩, -⟩
      · exact ⟨_, by simp, rfl⟩
      · exact ⟨_, by simp, rfl⟩
    · intro r v h
      obtain ⟨_, h, -⟩ := mapP_eq_ok.1 h
      exact stringTok_consumes (string_iff.1 h)
    · by_cases h : Head (fun c => c = '[') s
      · obtain ⟨_, t, rfl, rfl⟩ := h
        have hw : SkipLayout ('[' :: t) ('[' :: t) := .refl (not_starts_layout (by unfold LayoutStart; decide))
        have n1 : ¬ Head (fun d => d = '{') ('[' :: t) := by rw [head_cons]; decide
        have n2 : ¬ Head (fun d => d = '(') ('[' :: t) := by rw [head_cons]; decide
        refine .inr ⟨?_, fun r v hr => ?_⟩
        · show (objectC U e).cost _ + _ = 0
          rw [object_cost_none hw n1, bracket_cost_none hw n2]
          split <;> rfl
        · rw [show (map Expr.object (objectC U e) <///> bracketExpressionC e).run ('[' :: t) =
            (mapP Expr.object (object U e.run) <//> bracketExpression e.run) ('[' :: t) from rfl,
            orElse_of_err (object_err hw n1), bracket_err hw n2] at hr
          cases hr
      · exact .inl (tuple_cost_none h)
  refine ⟨hsound, ?_, ?_, ?_⟩
  · intro s r v h
    have := (fine s).1 r v h
    show 1 + (exprStepC U e).cost s + _ ≤ _
    omega
  · intro s
    have := (fine s).2
    show 1 + (exprStepC U e).cost s ≤ _
    omega
  · intro c t hc
    show 1 + (exprStepC U e).cost (c :: t) ≤ 1
    have hw : SkipLayout (c :: t) (c :: t) := .refl (not_starts_layout (by rcases hc with rfl | rfl | rfl <;> (unfold LayoutStart; decide)))
    have n0 : ¬ Head (fun d => d = '[') (c :: t) := by rw [head_cons]; rcases hc with rfl | rfl | rfl <;> decide
    have n1 : ¬ Head (fun d => d = '{') (c :: t) := by rw [head_cons]; rcases hc with rfl | rfl | rfl <;> decide
    have n2 : ¬ Head (fun d => d = '(') (c :: t) := by rw [head_cons]; rcases hc with rfl | rfl | rfl <;> decide
    have c0 : (map Expr.tuple (tupleC e)).cost (c :: t) = 0 := tuple_cost_none n0
    have c1 : (map Expr.object (objectC U e)).cost (c :: t) = 0 := object_cost_none hw n1
    have c2 := bracket_cost_none (e := e) hw n2
    have h1 : ∀ {p q : CParser Expr} {s : Str}, p.cost s = 0 → q.cost s = 0 → (p <///> q).cost s = 0 := by
      intro p q s h1 h2
      show p.cost s + _ = 0
      rw [h1, h2]; split <;> rfl
    unfold exprStepC
    rw [h1 rfl (h1 rfl (h1 rfl (h1 rfl (h1 c0 (h1 c1 c2)))))]
    exact Nat.le_refl _

theorem lin_expr : ∀ n, Lin U (exprC U n)
  | 0 => ⟨fun s r v h => (by cases h), fun s r v h => (by cases h), fun s => (by show 1 + 0 ≤ _; omega), fun c t _ => Nat.le_refl 1⟩
  | n + 1 => lin_step (lin_expr n)

theorem expressionC_sound {s r : Str} {v : Expr} (h : (expressionC U).run s = .ok r v) : IsExpr U s v r :=
  exprN_sound _ _ _ _ (show exprN U (s.length + 1) s = .ok r v from h)

theorem expressionC_ok {s r : Str} {v : Expr} (h : (expressionC U).run s = .ok r v) :
    (expressionC U).cost s + 2 * r.length ≤ 2 * s.length :=
  (lin_expr (U := U) (s.length + 1)).ok s r v (by rw [exprC_run]; exact h)

theorem expressionC_any (s : Str) : (expressionC U).cost s ≤ 2 * s.length + 1 :=
  (lin_expr (U := U) (s.length + 1)).any s

/-! ## Bodies -/

/-- The input starts with a name and `=`. -/
def HasEq (U : CharClass) (s : Str) : Prop := ∃ s' i t v, SkipInline s s' ∧ Ident U s' i t ∧ SkipInline t ('=' :: v)

theorem attributeC_zero {s : Str} (h : ¬ HasEq U s) : (attributeC U).cost s = 0 := by
  obtain ⟨s', hs'⟩ := skipInline_total s
  unfold attributeC
  rw [cost_inline_bind hs']
  refine Nat.le_zero.1 (cost_lift_bind_le fun t i hi => ?_)
  obtain ⟨t', ht'⟩ := skipInline_total t
  rw [cost_inline_bind ht']
  refine cost_lift_bind_le fun v _ hv => ?_
  obtain ⟨rfl, -⟩ := tag_eq_ok.1 hv
  exact absurd ⟨s', i, t, v, hs', identifier_iff.1 hi, ht'⟩ h

theorem attributeC_some {s s' i t v w : Str} (h1 : SkipInline s s') (h2 : Ident U s' i t) (h3 : SkipInline t ('=' :: v))
    (h4 : SkipInline v w) : (attributeC U).cost s = (expressionC U).cost w := by
  unfold attributeC
  rw [cost_inline_bind h1, cost_lift_bind_ok (identifier_iff.2 h2), cost_inline_bind h3,
    cost_lift_bind_ok (tag_cons_self _ _), cost_inline_bind h4, cost_bind_free (fun v r => free_tail (fun _ _ => rfl) _)]

theorem fine_attribute (s : Str) : Fine (attributeC U) s := by
  by_cases h : HasEq U s
  · obtain ⟨s', i, t, v, h1, h2, h3⟩ := h
    obtain ⟨w, h4⟩ := skipInline_total v
    have l1 := h1.length
    have l2 := (ident_consumes h2).length
    have l3 := h3.length
    have l4 := h4.length
    simp at l3
    constructor
    · intro r a hr
      rw [attributeC_some h1 h2 h3 h4]
      obtain ⟨x, hx, ha⟩ := attributeP_iff.1 (show attributeP U s = .ok r a from hr)
      have := si_funct h1 hx; subst this
      obtain ⟨k, ex⟩ := a
      obtain ⟨i', u', v', w', x', b2, b3, b4, b5, b6⟩ : ∃ i' u' v' w' x', Ident U s' i' u' ∧
          SkipInline u' ('=' :: v') ∧ SkipInline v' w' ∧ IsExpr U w' ex x' ∧ SkipInline x' r := by
        cases ha; exact ⟨_, _, _, _, _, ‹_›, ‹_›, ‹_›, ‹_›, ‹_›⟩
      obtain ⟨-, rfl⟩ := ident_functional h2 b2
      have := si_funct h3 b3
      simp at this; subst this
      have := si_funct h4 b4; subst this
      have := expressionC_ok (U := U) (expression_iff.2 b5)
      have := b6.length
      omega
    · rw [attributeC_some h1 h2 h3 h4]
      have := expressionC_any (U := U) w
      omega
  · have h0 := attributeC_zero h
    refine ⟨fun r a hr => ?_, by rw [h0]; exact Nat.zero_le _⟩
    obtain ⟨x, hx, ha⟩ := attributeP_iff.1 (show attributeP U s = .ok r a from hr)
    have := ((isAttribute_consumes ha).of_suffix hx.suffix).length
    omega

/-- The common beginning of both kinds of blocks makes no calls. -/
theorem header_cost_le {α : Type} {f : Str → List BlockLabel → CParser α} {s : Str} {B : Nat}
    (h : ∀ s' i t ls u, SkipInline s s' → Ident U s' i t → IsLabels U t ls u → (f i ls).cost u ≤ B) :
    (do let _ ← lift inlineWs
        let t ← lift (identifier U)
        let _ ← lift inlineWs
        let ls ← lift (blockLabels U)
        let _ ← lift inlineWs
        let _ ← lift (tag ['{'])
        f t ls : CParser α).cost s ≤ B := by
  obtain ⟨s', h1⟩ := skipInline_total s
  rw [cost_inline_bind h1]
  refine cost_lift_bind_le fun t i h2 => ?_
  obtain ⟨t', h3⟩ := skipInline_total t
  rw [cost_inline_bind h3]
  refine cost_lift_bind_le fun x ls h4 => ?_
  obtain ⟨y, h5⟩ := skipInline_total x
  rw [cost_inline_bind h5]
  refine cost_lift_bind_le fun u _ h6 => ?_
  obtain ⟨rfl, -⟩ := tag_eq_ok.1 h6
  exact h _ _ _ _ _ h1 (identifier_iff.1 h2) ((isLabels_inline h3).2 (blockLabels_sound h4 h5))

theorem not_labels_eq {t v u : Str} {ls : List BlockLabel} (h : SkipInline t ('=' :: v)) : ¬ IsLabels U t ls u := by
  intro h'
  obtain ⟨x, hx, hh⟩ := isLabels_head h'
  have := si_funct h hx; subst this
  exact hh ⟨_, _, rfl, rfl⟩

theorem no_header {s s' i t : Str} {ls : List BlockLabel} {u : Str} (h : HasEq U s) (h1 : SkipInline s s') (h2 : Ident U s' i t)
    (h3 : IsLabels U t ls u) : False := by
  obtain ⟨s'', i', t', v, g1, g2, g3⟩ := h
  have := si_funct g1 h1; subst this
  obtain ⟨-, rfl⟩ := ident_functional g2 h2
  exact not_labels_eq g3 h3

theorem one_cost_tail {s u' : Str} {i : Str} {ls : List BlockLabel} (h : SkipInline s u') :
    (do let _ ← lift inlineWs
        let a ← CParser.opt (attributeC U)
        let _ ← lift inlineWs
        let _ ← lift (tag ['}'])
        let _ ← lift inlineWs
        pure (newOneLine (.borrowed i) ls a) : CParser BodyElement).cost s = (attributeC U).cost u' := by
  rw [cost_inline_bind h, cost_bind_free (fun v r => free_tail (fun _ _ => free_tail (fun _ _ => free_tail (fun _ _ => rfl) _) _) _)]
  rfl

/-- The input starts with a block header followed, on the same line, by a name and `=`. -/
def HasOneLine (U : CharClass) (s : Str) : Prop :=
  ∃ s' i t ls u u', SkipInline s s' ∧ Ident U s' i t ∧ IsLabels U t ls u ∧ SkipInline u u' ∧ HasEq U u'

theorem one_zero {s : Str} (h : ¬ HasOneLine U s) : (oneLineBlockC U).cost s = 0 := by
  refine Nat.le_zero.1 (header_cost_le fun s' i t ls u h1 h2 h3 => ?_)
  obtain ⟨u', h4⟩ := skipInline_total u
  rw [one_cost_tail h4, attributeC_zero]
  · exact Nat.le_refl _
  · exact fun h5 => h ⟨_, _, _, _, _, _, h1, h2, h3, h4, h5⟩

theorem fine_one (s : Str) : Fine (oneLineBlockC U) s := by
  constructor
  · intro r el hr
    have hr' : oneLineBlock U s = .ok r el := hr
    unfold oneLineBlock at hr'
    obtain ⟨s', i, t, ls, u, h1, h2, h3, h4⟩ := header_eq_ok.1 hr'
    simp only [bindP_eq_ok, tag_eq_ok, pure_apply] at h4
    obtain ⟨u', _, h5, w, a, h6, w', _, h7, v, _, ⟨rfl, -⟩, r', _, h8, h9⟩ := h4
    injection h9 with h10 h11; subst h10 h11
    have h5 := inlineWs_skip h5
    have h7 := inlineWs_skip h7
    have h8 := inlineWs_skip h8
    have hw : (attributeC U).cost u' + 2 * w.length ≤ 2 * u'.length ∨ (w = u' ∧ (attributeC U).cost u' = 0) := by
      rcases opt_eq_ok.1 h6 with ⟨a, h6', rfl⟩ | ⟨h6', rfl, rfl⟩
      · have := (fine_attribute (U := U) u').1 _ _ h6'
        omega
      · refine .inr ⟨rfl, attributeC_zero fun he => ?_⟩
        obtain ⟨x, i', t', v', g1, g2, g3⟩ := he
        have e1 := inline_again_eq h5 g1; subst e1
        have e2 := si_funct h7 g1
        rw [← e2] at g2
        exact absurd g2.head rbrace_not_ident
    have hc : (oneLineBlockC U).cost s ≤ (attributeC U).cost u' := by
      refine header_cost_le fun s'' i' t' ls' y g1 g2 g3 => ?_
      have := si_funct h1 g1; subst this
      obtain ⟨-, rfl⟩ := ident_functional h2 g2
      obtain ⟨-, rfl⟩ := isLabels_functional h3 g3
      rw [one_cost_tail h5]
      exact Nat.le_refl _
    have := h1.length
    have := (ident_consumes h2).length
    have := (isLabels_consumes h3).length
    have := h5.length
    have := h7.length
    have := h8.length
    rcases hw with hw | ⟨rfl, hw⟩ <;> simp at * <;> omega
  · refine header_cost_le fun s' i t ls u h1 h2 h3 => ?_
    obtain ⟨u', h4⟩ := skipInline_total u
    rw [one_cost_tail h4]
    have := (fine_attribute (U := U) u').2
    have := h1.length
    have := (ident_consumes h2).length
    have := (isLabels_consumes h3).length
    have := h4.length
    omega

/-- The bound for bodies: what a body stops at is `}` or the end of the input, or it was not worth it. -/
structure LinBody (U : CharClass) (b : CParser Body) : Prop where
  sound : SoundBody U b.run
  ok : ∀ s r v, b.run s = .ok r v → Head (fun c => c = '}') r → b.cost s + 2 * r.length ≤ 2 * s.length + 1
  any : ∀ s, b.cost s ≤ 2 * s.length + 1

section
variable {b : CParser Body} (hb : LinBody U b)
include hb

omit hb in
theorem block_cost_tail {u u' : Str} {i : Str} {ls : List BlockLabel} {B : Nat} (h : SkipInline u u')
    (hB : ∀ v v', Newlines u' v → SkipInline v v' → b.cost v' ≤ B) :
    (do let _ ← lift inlineWs
        let _ ← lift newline
        let _ ← lift inlineWs
        let body ← b
        let _ ← lift inlineWs
        let _ ← lift (tag ['}'])
        let _ ← lift inlineWs
        pure (.block (.borrowed i) ls body) : CParser BodyElement).cost u ≤ B := by
  rw [cost_inline_bind h]
  refine cost_lift_bind_le fun v _ hv => ?_
  obtain ⟨v', hv'⟩ := skipInline_total v
  rw [cost_inline_bind hv', cost_bind_free (fun v r => free_tail (fun _ _ => free_tail (fun _ _ => free_tail (fun _ _ => rfl) _) _) _)]
  exact hB _ _ (newline_sound hv) hv'

theorem fine_block (s : Str) : Fine (blockC U b) s := by
  constructor
  · intro r el hr
    have hr' : block U b.run s = .ok r el := hr
    unfold block at hr'
    obtain ⟨s', i, t, ls, u, h1, h2, h3, h4⟩ := header_eq_ok.1 hr'
    simp only [bindP_eq_ok, tag_eq_ok, pure_apply] at h4
    obtain ⟨u', _, h5, v, _, h6, v', _, h7, w, body, h8, w', _, h9, x, _, ⟨rfl, -⟩, r', _, h10, h11⟩ := h4
    injection h11 with h12 h13; subst h12 h13
    have h5 := inlineWs_skip h5
    have h7 := inlineWs_skip h7
    have h9 := inlineWs_skip h9
    have h10 := inlineWs_skip h10
    have h8' := hb.sound _ _ _ h8
    have hw : SkipInline w w := by
      refine IsBody.rec (motive_1 := fun _ _ r _ => SkipInline r r) (motive_2 := fun _ _ _ _ => True)
        ?_ ?_ ?_ ?_ ?_ ?_ h8'
      · intro s r h; exact skipInline_again h
      · intros; assumption
      all_goals intros; trivial
    have hww := inline_again_eq hw h9
    have hh : Head (fun c => c = '}') w := ⟨_, _, hww.symm, rfl⟩
    have hbc := hb.ok _ _ _ h8 hh
    have hc : (blockC U b).cost s ≤ b.cost v' := by
      refine header_cost_le fun s'' i' t' ls' y g1 g2 g3 => ?_
      have := si_funct h1 g1; subst this
      obtain ⟨-, rfl⟩ := ident_functional h2 g2
      obtain ⟨-, rfl⟩ := isLabels_functional h3 g3
      obtain ⟨u'', h5'⟩ := skipInline_total u
      rw [cost_inline_bind h5, cost_lift_bind_ok h6, cost_inline_bind h7,
        cost_bind_free (fun v r => free_tail (fun _ _ => free_tail (fun _ _ => free_tail (fun _ _ => rfl) _) _) _)]
      exact Nat.le_refl _
    have := h1.length
    have := (ident_consumes h2).length
    have := (isLabels_consumes h3).length
    have := h5.length
    have := (newlines_consumes (newline_sound h6)).length
    have := h7.length
    have := h9.length
    have := h10.length
    simp at *
    omega
  · refine header_cost_le fun s' i t ls u h1 h2 h3 => ?_
    obtain ⟨u', h4⟩ := skipInline_total u
    refine block_cost_tail h4 fun v v' h5 h6 => ?_
    have := hb.any v'
    have := h1.length
    have := (ident_consumes h2).length
    have := (isLabels_consumes h3).length
    have := h4.length
    have := (newlines_consumes h5).length
    have := h6.length
    omega

theorem fine_element (s : Str) : Fine (bodyElementC U b) s := by
  have ha : Fine (map (fun a : Attribute => BodyElement.attribute a.1 a.2) (attributeC U)) s := ⟨fun r v h => by
    obtain ⟨_, h, -⟩ := mapP_eq_ok.1 (show mapP (fun a : Attribute => BodyElement.attribute a.1 a.2) (attributeC U).run s = .ok r v from h)
    exact (fine_attribute s).1 _ _ h, (fine_attribute s).2⟩
  unfold bodyElementC
  refine .orElse ha (.orElse (fine_one s) (fine_block hb s) ?_) ?_
  · by_cases h : HasOneLine U s
    · obtain ⟨s', i, t, ls, u, u', h1, h2, h3, h4, h5⟩ := h
      have hn : ∀ {v}, ¬ Newlines u' v := by
        intro v hv
        obtain ⟨x, i', t', v', g1, g2, g3⟩ := h5
        have := inline_again_eq h4 g1; subst this
        exact newline_not_identStart hv g2.head
      refine .inr ⟨Nat.le_zero.1 (header_cost_le fun s'' i' t' ls' y g1 g2 g3 => ?_), fun r v hr => ?_⟩
      · have := si_funct h1 g1; subst this
        obtain ⟨-, rfl⟩ := ident_functional h2 g2
        obtain ⟨-, rfl⟩ := isLabels_functional h3 g3
        exact block_cost_tail h4 fun v v' h5 _ => absurd h5 hn
      · have hr' : block U b.run s = .ok r v := hr
        unfold block at hr'
        obtain ⟨s'', i', t', ls', y, g1, g2, g3, g4⟩ := header_eq_ok.1 hr'
        have := si_funct h1 g1; subst this
        obtain ⟨-, rfl⟩ := ident_functional h2 g2
        obtain ⟨-, rfl⟩ := isLabels_functional h3 g3
        obtain ⟨z, hz, g4⟩ := inlineThen_eq_ok.1 g4
        have := si_funct h4 hz; subst this
        obtain ⟨_, _, g5, -⟩ := bindP_eq_ok.1 g4
        exact hn (newline_sound g5)
    · exact .inl (one_zero h)
  · by_cases h : HasEq U s
    · refine .inr ⟨?_, fun r v hr => ?_⟩
      · show (oneLineBlockC U).cost s + _ = 0
        have c1 : (oneLineBlockC U).cost s = 0 := one_zero fun ⟨s', i, t, ls, u, u', h1, h2, h3, _⟩ => no_header h h1 h2 h3
        have c2 : (blockC U b).cost s = 0 :=
          Nat.le_zero.1 (header_cost_le fun s' i t ls u h1 h2 h3 => (no_header h h1 h2 h3).elim)
        rw [c1, c2]; split <;> rfl
      · rcases orElse_eq_ok.1 (show (oneLineBlock U <//> block U b.run) s = .ok r v from hr) with h' | ⟨-, h'⟩
        · unfold oneLineBlock at h'
          obtain ⟨s', i, t, ls, u, h1, h2, h3, -⟩ := header_eq_ok.1 h'
          exact no_header h h1 h2 h3
        · unfold block at h'
          obtain ⟨s', i, t, ls, u, h1, h2, h3, -⟩ := header_eq_ok.1 h'
          exact no_header h h1 h2 h3
    · exact .inl (attributeC_zero h)

theorem bitem_any (s : Str) : (bodyItemC U b).cost s ≤ 2 * s.length := by
  obtain ⟨t, ht⟩ := skipLayout_total s
  unfold bodyItemC
  rw [cost_ws_bind ht, cost_bind_free (fun v r => free_tail (fun _ _ => rfl) _)]
  have := (fine_element hb t).2
  have := ht.length
  omega

theorem bitem_ok {s r : Str} {el : BodyElement} (h : (bodyItemC U b).run s = .ok r el) :
    (bodyItemC U b).cost s + 2 * r.length ≤ 2 * s.length ∧ r.length < s.length := by
  obtain ⟨t, u, h1, h2, h3⟩ := bodyItem_eq_ok.1 (show bodyItem U b.run s = .ok r el from h)
  unfold bodyItemC
  rw [cost_ws_bind h1, cost_bind_free (fun v r => free_tail (fun _ _ => rfl) _)]
  have := (fine_element hb t).1 _ _ h2
  have := h1.length
  have := (elementEnd_suffix (elementEnd_sound h3)).length_le
  omega

theorem bitem_end {s r : Str} (h : SkipLayout s r) (hr : Head (fun c => c = '}') r) : (bodyItemC U b).cost s = 0 := by
  unfold bodyItemC
  rw [cost_ws_bind h, cost_bind_free (fun v r => free_tail (fun _ _ => rfl) _)]
  obtain ⟨_, t, rfl, rfl⟩ := hr
  have hi : ∀ {s' i t'}, SkipInline ('}' :: t) s' → Ident U s' i t' → False := by
    intro s' i t' h1 h2
    have := inline_after_layout h h1; subst this
    exact absurd h2.head rbrace_not_ident
  have c0 : (attributeC U).cost ('}' :: t) = 0 := attributeC_zero fun ⟨_, _, _, _, h1, h2, _⟩ => hi h1 h2
  have c1 : (oneLineBlockC U).cost ('}' :: t) = 0 := one_zero fun ⟨_, _, _, _, _, _, h1, h2, _⟩ => hi h1 h2
  have c2 : (blockC U b).cost ('}' :: t) = 0 :=
    Nat.le_zero.1 (header_cost_le fun s' i t ls u h1 h2 h3 => (hi h1 h2).elim)
  have h1 : ∀ {p q : CParser BodyElement} {s : Str}, p.cost s = 0 → q.cost s = 0 → (p <///> q).cost s = 0 := by
    intro p q s h1 h2
    show p.cost s + _ = 0
    rw [h1, h2]; split <;> rfl
  exact h1 c0 (h1 c1 c2)

theorem bitems_any : ∀ (n : Nat) (s : Str), many0Cost (bodyItemC U b) n s ≤ 2 * s.length := by
  intro n
  induction n with
  | zero => intro s; exact Nat.zero_le _
  | succ n ih =>
    intro s
    rw [many0Cost]
    have := bitem_any hb s
    split
    · rename_i r v h
      have := bitem_ok hb h
      split
      · have := ih r; omega
      · omega
    · omega

theorem bitems_end : ∀ (n : Nat) (s u r : Str) (es : Body),
    many0Aux (bodyItemC U b).run n s = .ok u es → SkipLayout u r → Head (fun c => c = '}') r →
    many0Cost (bodyItemC U b) n s + 2 * u.length ≤ 2 * s.length := by
  intro n
  induction n with
  | zero => intro s u r es h; cases h
  | succ n ih =>
    intro s u r es h hu hr
    rw [many0Cost]
    simp only [many0Aux] at h
    cases hi : (bodyItemC U b).run s with
    | ok r' v =>
      rw [hi] at h
      simp only at h ⊢
      have := bitem_ok hb hi
      rw [if_pos this.2] at h ⊢
      obtain ⟨es', h1, rfl⟩ := map_eq_ok.1 h
      have := ih _ _ _ _ h1 hu hr
      omega
    | err =>
      rw [hi] at h
      injection h with h1 h2; subst h1
      have := bitem_end hb hu hr
      simp only
      omega
    | fail => rw [hi] at h; cases h
    | panic => rw [hi] at h; cases h
    | diverge => rw [hi] at h; cases h

theorem linBody_step : LinBody U (call (bodyStepC U b)) := by
  have hc : ∀ s, (bodyStepC U b).cost s = many0Cost (bodyItemC U b) (s.length + 1) s := by
    intro s
    unfold bodyStepC
    rw [cost_bind_free (fun v r => free_tail (fun _ _ => rfl) _)]
    rfl
  refine ⟨fun s r v h => bodyStep_sound hb.sound _ _ _ h, ?_, ?_⟩
  · intro s r v h hr
    show 1 + (bodyStepC U b).cost s + _ ≤ _
    rw [hc]
    have h' : bodyStep U b.run s = .ok r v := h
    unfold bodyStep at h'
    simp only [bindP_eq_ok, pure_apply] at h'
    obtain ⟨t, vs, h1, r', _, h2, h3⟩ := h'
    injection h3 with h4 h5; subst h4 h5
    have h2 := ws_skip h2
    have := bitems_end hb _ _ _ _ _ (show many0Aux (bodyItemC U b).run (s.length + 1) s = .ok t vs from h1) h2 hr
    have := h2.length
    omega
  · intro s
    show 1 + (bodyStepC U b).cost s ≤ _
    rw [hc]
    have := bitems_any hb (s.length + 1) s
    omega

end

theorem linBody : ∀ n, LinBody U (bodyC U n)
  | 0 => ⟨fun s r v h => (by cases h), fun s r v h => (by cases h), fun s => (by show 1 + 0 ≤ _; omega)⟩
  | n + 1 => linBody_step (linBody n)

end Verif
