import Verif.Spec.Depth
import Verif.Model.OldCalls
import Verif.Proofs.OldParser
import Verif.Proofs.Calls
/-! # The number of calls of the recursive parsers of the legacy grammar -/
set_option autoImplicit false

namespace Verif
open PRes Spec CParser

theorem oldC_run (U : CharClass) (P : F64Parse) : ∀ n, (oldC U P n).1.run = (oldN U P n).1 ∧ (oldC U P n).2.run = (oldN U P n).2
  | 0 => ⟨rfl, rfl⟩
  | n + 1 => by
    have h1 : (oldC U P (n + 1)).1.run = valueStep U P (oldC U P n).1.run (oldC U P n).2.run := rfl
    have h2 : (oldC U P (n + 1)).2.run = mapStep U (oldC U P n).1.run (oldC U P n).2.run := rfl
    rw [h1, h2, (oldC_run U P n).1, (oldC_run U P n).2]
    exact ⟨rfl, rfl⟩

section
variable {U : CharClass} {P : F64Parse} {v : CParser Value} {m : CParser MapValues}

theorem cost_orElse_ok {α : Type} {p q : CParser α} {s r : Str} {x : α} (h : p.run s = .ok r x) :
    (p <///> q).cost s = p.cost s := by
  show p.cost s + _ = _
  rw [h]; rfl

theorem cost_orElse_err {α : Type} {p q : CParser α} {s : Str} (h : p.run s = .err) :
    (p <///> q).cost s = p.cost s + q.cost s := by
  show p.cost s + _ = _
  rw [h]

theorem cost_orElse_lift {α : Type} {p : Parser α} {q : CParser α} {s : Str} : (lift p <///> q).cost s ≤ q.cost s := by
  show 0 + _ ≤ _
  split <;> omega

theorem mapExpr_cost_some {s t t' : Str} (h : SkipLayout s ('{' :: t)) (h' : SkipLayout t t') :
    (mapExpressionC m).cost s = m.cost t' := by
  unfold mapExpressionC
  have : wsAround (tag ['{']) s = .ok t' ['{'] := wsAround_eq_ok.2 ⟨_, t, h, tag_cons_self _ _, h'⟩
  rw [cost_lift_bind_ok this, cost_bind_free (fun v r => free_tail (fun _ _ => rfl) _), cost_wsAround h'.again]

theorem mapExpr_cost_none {s t : Str} (h : SkipLayout s t) (hc : ¬ Head (fun d => d = '{') t) : (mapExpressionC m).cost s = 0 := by
  unfold mapExpressionC
  refine cost_lift_bind_err fun r v hr => ?_
  obtain ⟨u, hu, -⟩ := wsTag_ok hr
  have := h.functional layoutItem_prefix hu; subst this
  exact hc ⟨_, _, rfl, rfl⟩

theorem eq_cost_some {s k' : Str} {k : Key} {u w : Str} (h0 : SkipInline s s) (h1 : IsKey U s k k') (h2 : SkipInline k' ('=' :: u))
    (h3 : SkipInline u w) : (attributeEqC U v).cost s = v.cost w := by
  unfold attributeEqC
  rw [cost_inline_bind h0, cost_lift_bind_ok (oldKey_iff.2 h1), cost_inline_bind h2, cost_lift_bind_ok (tag_cons_self _ _),
    cost_inline_bind h3, cost_bind_free (fun _ _ => rfl)]

theorem eq_cost_none {s i t u : Str} (h0 : SkipInline s s) (h : Ident U s i t) (h1 : SkipInline t u)
    (hu : ¬ Head (fun c => c = '=') u) : (attributeEqC U v).cost s = 0 := by
  unfold attributeEqC
  rw [cost_inline_bind h0, cost_lift_bind_ok (oldKey_iff.2 (.ident _ _ _ h)), cost_inline_bind h1]
  refine cost_lift_bind_err fun r x hr => ?_
  obtain ⟨rfl, -⟩ := tag_eq_ok.1 hr
  exact hu ⟨_, _, rfl, rfl⟩

/-- The name of a map is not followed by `=`. -/
theorem map_cost {s i t t' : Str} (h0 : SkipInline s s) (h : Ident U s i t) (h1 : SkipInline t t')
    (hu : ¬ Head (fun c => c = '=') t') : (attributeMapC U m).cost s = (mapExpressionC m).cost t' := by
  have ho : Verif.opt (tag ['=']) t' = .ok t' none := by
    rw [opt_eq_ok]
    refine .inr ⟨?_, rfl, rfl⟩
    rw [tag_eq_err]; rintro ⟨y, rfl⟩; exact hu ⟨_, _, rfl, rfl⟩
  unfold attributeMapC
  rw [cost_inline_bind h0, cost_lift_bind_ok (identifier_iff.2 h), cost_inline_bind h1, cost_lift_bind_ok ho,
    cost_inline_bind h1.again, cost_bind_free (fun _ _ => rfl)]

theorem block_cost {s i t u u' : Str} {ls : List Str} (h0 : SkipInline s s) (h : Ident U s i t)
    (h1 : Verif.many0 (do let _ ← inlineWs; stringLiteral : Parser Str) t = .ok u ls) (h2 : SkipInline u u') :
    (attributeBlockC U m).cost s = (mapExpressionC m).cost u' := by
  unfold attributeBlockC
  rw [cost_inline_bind h0, cost_lift_bind_ok (identifier_iff.2 h), cost_lift_bind_ok h1, cost_inline_bind h2,
    cost_bind_free (fun _ _ => rfl)]

theorem attr_cost (s : Str) : (oldAttributeC U v m).cost s =
    (attributeEqC U v <///> attributeMapC U m <///> attributeBlockC U m).cost s := by
  unfold oldAttributeC
  rw [cost_bind_free]
  intro a r; exact free_tail (fun _ _ => rfl) _

/-! ## What is accepted is read with few calls -/

/-- On what they accept (shorter than `n`), the number of calls is at most twice the length of what is consumed. -/
structure LinOld (U : CharClass) (P : F64Parse) (v : CParser Value) (m : CParser MapValues) (n : Nat) : Prop where
  complete : CompleteOld U P v.run m.run n
  value : ∀ s x r, s.length < n → IsValue U P s x r → v.cost s + 2 * r.length ≤ 2 * s.length
  stop : ∀ c t, (c = ']' ∨ c = ',') → (c :: t).length < n → v.cost (c :: t) ≤ 1
  entries : ∀ s es r, s.length < n → BodyEnd r → IsEntries U P s es r → m.cost s + 2 * r.length ≤ 2 * s.length + 1

variable {n : Nat}

theorem listElem_stop (hc : LinOld U P v m n) {c : Char} {s r : Str} (hs : s.length < n) (hcc : c = ']' ∨ c = ',')
    (h : SkipLayout s (c :: r)) : (listElemC v).cost s ≤ 1 := by
  unfold listElemC
  rw [cost_ws_bind h]
  exact hc.stop _ _ hcc (by have := h.length; omega)

theorem listTail_cost (hc : LinOld U P v m n) : ∀ (es : List Value) (k : Nat) (s r : Str),
    s.length < n → s.length < k → IsListTail U P s es r →
    sepTailCost tupleSep (listElemC v) k s + 2 * r.length ≤ 2 * s.length := by
  intro es
  induction es with
  | nil =>
    intro k s r hn hk h
    obtain ⟨k, rfl⟩ := Nat.exists_eq_succ_of_ne_zero (by omega : k ≠ 0)
    cases h with
    | last =>
      rename_i h
      rw [sepTailCost]
      have l := (tupleEnd_consumes h).length
      cases h with
      | close _ h =>
        have : tupleSep s = .err := by
          unfold tupleSep; rw [ws_bind (fun _ _ => rfl) h]; exact tag_cons_ne (by decide)
        rw [this]; simp only; omega
      | comma t _ h h' =>
        rw [tupleSep_iff.2 ⟨rfl, h⟩]
        have l1 := h.length
        simp at l1
        have he : (listElemC v).run t = .err := listElem_end hc.complete (by omega) h'
        have := listElem_stop hc (by omega) (.inl rfl) h'
        simp only [he]
        omega
  | cons x es ih =>
    intro k s r hn hk h
    obtain ⟨k, rfl⟩ := Nat.exists_eq_succ_of_ne_zero (by omega : k ≠ 0)
    cases h with
    | more =>
      rename_i t u w a1 a2 a3 a4
      obtain ⟨h1, h2, h3, h4⟩ : SkipLayout s (',' :: t) ∧ SkipLayout t u ∧ IsValue U P u x w ∧ IsListTail U P w es r :=
        ⟨‹_›, ‹_›, ‹_›, ‹_›⟩
      have l1 := h1.length
      have l2 := h2.length
      have l3 := (isValue_consumes h3).length
      simp at l1
      have := ih k w r (by omega) (by omega) h4
      rw [sepTailCost, tupleSep_iff.2 ⟨rfl, h1⟩]
      simp only []
      have hr : (listElemC v).run t = .ok w x := listElem_iff.2 ⟨u, h2, hc.complete.1 _ _ _ (by omega) h3⟩
      rw [hr]
      simp only []
      rw [if_pos (by omega)]
      have hcost : (listElemC v).cost t = v.cost u := by unfold listElemC; rw [cost_ws_bind h2]
      have := hc.value _ _ _ (by omega) h3
      omega

theorem list_cost (hc : LinOld U P v m n) {s r : Str} {es : List Value} (hs : s.length < n)
    (h : IsListBody U P s es r) : (listC v).cost ('[' :: s) + 2 * r.length + 1 ≤ 2 * (s.length + 1) := by
  have hl : (listC v).cost ('[' :: s) = (CParser.separatedList tupleSep (listElemC v)).cost s := by
    unfold listC
    rw [cost_lift_bind_ok (tag_cons_self _ _), cost_bind_free]
    intro v r; exact free_tail (fun _ _ => rfl) _
  rw [hl]
  show (listElemC v).cost s + _ + _ + _ ≤ _
  cases h with
  | empty =>
    rename_i h
    have l := (tupleEnd_consumes h).length
    have : (listElemC v).run s = .err ∧ (listElemC v).cost s ≤ 1 := by
      cases h with
      | close _ h => exact ⟨listElem_end hc.complete hs h, listElem_stop hc hs (.inl rfl) h⟩
      | comma t _ h _ =>
        refine ⟨?_, listElem_stop hc hs (.inr rfl) h⟩
        show listElem v.run s = .err
        unfold listElem
        rw [ws_bind (fun _ _ => rfl) h]
        exact hc.complete.2.1 _ _ (.inr rfl) (by have := h.length; omega)
    rw [this.1]
    simp only
    have := this.2
    omega
  | elems =>
    rename_i t u x xs a1 a2 a3
    obtain ⟨h1, h2, h3⟩ : SkipLayout s t ∧ IsValue U P t x u ∧ IsListTail U P u xs r := ⟨‹_›, ‹_›, ‹_›⟩
    have l1 := h1.length
    have l2 := (isValue_consumes h2).length
    have := listTail_cost hc xs (u.length + 1) u r (by omega) (by omega) h3
    have hr : (listElemC v).run s = .ok u x := listElem_iff.2 ⟨t, h1, hc.complete.1 _ _ _ (by omega) h2⟩
    rw [hr]
    simp only []
    rw [if_pos (by omega)]
    have hcost : (listElemC v).cost s = v.cost t := by unfold listElemC; rw [cost_ws_bind h1]
    have := hc.value _ _ _ (by omega) h2
    omega

theorem mapExpr_cost (hc : LinOld U P v m n) {s t r : Str} {es : List (Key × Value)}
    (hs : s.length ≤ n) (h : SkipLayout s ('{' :: t)) (he : IsEntries U P t es ('}' :: r)) :
    (mapExpressionC m).cost s + 2 * r.length + 3 ≤ 2 * s.length := by
  obtain ⟨t', ht'⟩ := skipLayout_total t
  have l1 := h.length
  have l2 := ht'.length
  simp at l1
  rw [mapExpr_cost_some h ht']
  have := hc.entries _ _ _ (by omega) (.inr ⟨_, rfl⟩) ((isEntries_skip ht').1 he)
  simp at this
  omega

theorem value_cost (hc : LinOld U P v m n) {s r : Str} {x : Value} (hs : s.length ≤ n)
    (h : IsValue U P s x r) : (valueStepC U P v m).cost s + 2 * r.length + 1 ≤ 2 * s.length := by
  have l := (isValue_consumes h).length
  have up : (valueStepC U P v m).cost s ≤ (map Value.list (listC v) <///> map (fun x => Value.object [x]) (mapExpressionC m)).cost s := by
    unfold valueStepC
    exact Nat.le_trans cost_orElse_lift (Nat.le_trans cost_orElse_lift (Nat.le_trans cost_orElse_lift cost_orElse_lift))
  have zero : ¬ Head NotToken s → ¬ Head (fun c => c = '[') s → (valueStepC U P v m).cost s = 0 := by
    intro h1 h2
    refine Nat.le_zero.1 (Nat.le_trans up ?_)
    have hl : (map Value.list (listC v)).cost s = 0 := by
      show (listC v).cost s = 0
      unfold listC
      refine cost_lift_bind_err fun r v hr => ?_
      obtain ⟨rfl, -⟩ := tag_eq_ok.1 hr
      exact h2 ⟨_, _, rfl, rfl⟩
    have hm : (map (fun x => Value.object [x]) (mapExpressionC m)).cost s = 0 := by
      obtain ⟨t, ht⟩ := skipLayout_total s
      refine mapExpr_cost_none ht fun ⟨c, u, e, hc⟩ => h1 ?_
      subst e hc
      exact skip_notToken ht (by unfold NotToken; decide)
    show (map Value.list (listC v)).cost s + _ ≤ 0
    rw [hl, hm]; split <;> exact Nat.le_refl _
  cases h with
  | null =>
    rw [zero (by rw [head_cons]; unfold NotToken; decide) (by rw [head_cons]; decide)]; omega
  | true =>
    rw [zero (by rw [head_cons]; unfold NotToken; decide) (by rw [head_cons]; decide)]; omega
  | false =>
    rw [zero (by rw [head_cons]; unfold NotToken; decide) (by rw [head_cons]; decide)]; omega
  | number =>
    rename_i t k h2 h1
    have hh : Head (fun c => IsDig c ∨ c = '.' ∨ c = '+' ∨ c = '-') (t ++ r) := by
      obtain ⟨t', e, hn, -⟩ := h1; rw [e]; exact isNumber_head hn r
    have hn : ∀ c, (IsDig c ∨ c = '.' ∨ c = '+' ∨ c = '-') → ¬ NotToken c := by
      intro c hc
      rw [numHead_iff] at hc
      intro h
      unfold NotToken at h
      simp only [List.mem_cons, List.not_mem_nil, or_false] at h
      rcases h with rfl | rfl | rfl | rfl | rfl | rfl | rfl | rfl | rfl | rfl | rfl <;> revert hc <;> decide
    have hb : ∀ c, (IsDig c ∨ c = '.' ∨ c = '+' ∨ c = '-') → ¬ (c = '[') := by
      rintro c hc rfl
      rw [numHead_iff] at hc; revert hc; decide
    rw [zero (not_head hh hn) (not_head hh hb)]; omega
  | string =>
    rename_i w h
    have hh : Head (fun c => c = '"' ∨ c = '<') s := by
      cases h with
      | quoted => rename_i h; obtain ⟨src, rfl, -⟩ := h; exact ⟨_, _, rfl, .inl rfl⟩
      | heredoc => rename_i h; obtain ⟨t, rfl⟩ := h.head; exact ⟨_, _, rfl, .inr rfl⟩
    rw [zero (not_head hh (by rintro c (rfl | rfl) <;> (unfold NotToken; decide))) (not_head hh (by rintro c (rfl | rfl) <;> decide))]
    omega
  | list =>
    rename_i t es h
    have hlist := list_cost hc (by simp at hs; omega) h
    have hr : (map Value.list (listC v)).run ('[' :: t) = .ok r (.list es) := by
      show mapP Value.list (list v.run) ('[' :: t) = _
      simp [list_complete hc.complete (by simp at hs; omega) h]
    rw [cost_orElse_ok hr] at up
    have : (map Value.list (listC v)).cost ('[' :: t) = (listC v).cost ('[' :: t) := rfl
    simp only [List.length_cons]
    omega
  | map =>
    rename_i t es h1 h2
    have hm := mapExpr_cost hc hs h1 h2
    have hl : (map Value.list (listC v)).cost s = 0 := by
      show (listC v).cost s = 0
      unfold listC
      refine cost_lift_bind_err fun r v hr => ?_
      obtain ⟨rfl, -⟩ := tag_eq_ok.1 hr
      exact skip_not_head h1 (by unfold LayoutStart; decide) (by decide) ⟨_, _, rfl, rfl⟩
    have : (map Value.list (listC v) <///> map (fun x => Value.object [x]) (mapExpressionC m)).cost s ≤ (mapExpressionC m).cost s := by
      show (map Value.list (listC v)).cost s + _ ≤ _
      rw [hl]
      split
      · show 0 + (mapExpressionC m).cost s ≤ _; omega
      · omega
    omega

theorem attribute_cost (hc : LinOld U P v m n) {s r : Str} {k : Key} {x : Value}
    (h0 : SkipInline s s) (hs : s.length ≤ n) (h : IsEntry U P s k x r) :
    (oldAttributeC U v m).cost s + 2 * r.length ≤ 2 * s.length := by
  rw [attr_cost]
  cases h with
  | «attribute» =>
    rename_i t u w y a1 a2 a3 a4 a5
    obtain ⟨h1, h2, h3, h4, h5⟩ : IsKey U s k t ∧ SkipInline t ('=' :: u) ∧ SkipInline u w ∧ IsValue U P w x y ∧
      SkipInline y r := ⟨‹_›, ‹_›, ‹_›, ‹_›, ‹_›⟩
    have l1 := (isKey_consumes h1).length
    have l2 := h2.length
    have l3 := h3.length
    have l5 := h5.length
    simp at l2
    have : (attributeEqC U v).run s = .ok y (k, x) :=
      attributeEq_ok.2 ⟨s, t, u, w, h0, h1, h2, h3, hc.complete.1 _ _ _ (by omega) h4⟩
    rw [cost_orElse_ok this, eq_cost_some h0 h1 h2 h3]
    have := hc.value _ _ _ (by omega) h4
    omega
  | map =>
    rename_i i t u w es a1 a2 a3 a4
    obtain ⟨h1, h2, h3, h4⟩ : Ident U s i t ∧ SkipLayout t ('{' :: u) ∧ IsEntries U P u es ('}' :: w) ∧
      SkipInline w r := ⟨‹_›, ‹_›, ‹_›, ‹_›⟩
    obtain ⟨t', ht'⟩ := skipInline_total t
    have hb := layout_of_inline' ht' h2
    have hne : ¬ Head (fun c => c = '=') t' := skip_not_head hb (by simp [LayoutStart]) (by decide)
    have l1 := (ident_consumes h1).length
    have l2 := ht'.length
    have l4 := h4.length
    have hr : (attributeMapC U m).run s = .ok w (.identifier (.borrowed i), .object [.unmerged es]) :=
      attributeMap_ok.2 ⟨s, i, t, t', t', t', _, h0, h1, ht', .inr ⟨hne, rfl⟩, ht'.again,
        mapExpression_complete hc.complete (by omega) hb h3, rfl⟩
    rw [cost_orElse_err (show (attributeEqC U v).run s = .err from attributeEq_err h0 h1 ht' hne), cost_orElse_ok hr,
      eq_cost_none h0 h1 ht' hne, map_cost h0 h1 ht' hne]
    have := mapExpr_cost hc (by omega) hb h3
    omega
  | block =>
    rename_i i t u w y ls es a1 a2 a3 a4 a5 a6
    obtain ⟨h1, h2, h3, h4, h5, h6⟩ : Ident U s i t ∧ IsStringLabels t ls u ∧ ls ≠ [] ∧ SkipLayout u ('{' :: w) ∧
      IsEntries U P w es ('}' :: y) ∧ SkipInline y r := ⟨‹_›, ‹_›, ‹_›, ‹_›, ‹_›, ‹_›⟩
    obtain ⟨u', hu'⟩ := skipInline_total u
    have hb := layout_of_inline' hu' h4
    have l1 := (ident_consumes h1).length
    have l2 := (stringLabels_suffix h2).length_le
    have l3 := hu'.length
    have l6 := h6.length
    have hq : ∃ z, SkipInline t ('"' :: z) := by
      cases h2 with
      | nil => exact absurd rfl h3
      | cons =>
        rename_i z l1 l2 l3 l4 l5 l6
        have hz : ∃ a b, Quoted PlainLine z a b := ⟨_, _, ‹_›⟩
        obtain ⟨a, b, src, rfl, -⟩ := hz
        exact ⟨_, ‹_›⟩
    obtain ⟨z, hz⟩ := hq
    have hne : ¬ Head (fun c => c = '=') ('"' :: z) := by rw [head_cons]; decide
    rw [cost_orElse_err (show (attributeEqC U v).run s = .err from attributeEq_err h0 h1 hz hne),
      cost_orElse_err (show (attributeMapC U m).run s = .err from attributeMap_err h0 h1 hz),
      eq_cost_none h0 h1 hz hne, map_cost h0 h1 hz hne,
      mapExpr_cost_none (.refl (not_starts_layout (by simp [LayoutStart]))) (by rw [head_cons]; decide),
      block_cost h0 h1 (labels_complete h2 h4) hu']
    have := mapExpr_cost hc (by omega) hb h5
    omega

theorem item_cost (s t : Str) (h : SkipLayout s t) : (mapItemC U v m).cost s = (oldAttributeC U v m).cost t := by
  unfold mapItemC
  rw [cost_ws_bind h, cost_bind_free]
  intro a r; exact free_tail (fun _ _ => rfl) _

theorem attribute_cost_end {s : Str} (h0 : SkipInline s s) (h : ¬ Head (fun c => IdentStart U c ∨ c = '"') s) :
    (oldAttributeC U v m).cost s = 0 := by
  have hi : identifier U s = .err := identifier_err fun ⟨c, t, e, hc⟩ => h ⟨c, t, e, .inl hc⟩
  rw [attr_cost]
  have c0 : (attributeEqC U v).cost s = 0 := by
    unfold attributeEqC
    rw [cost_inline_bind h0]
    exact cost_lift_bind_err fun r x hr => by rw [oldKey_err h] at hr; cases hr
  have c1 : (attributeMapC U m).cost s = 0 := by
    unfold attributeMapC
    rw [cost_inline_bind h0]
    exact cost_lift_bind_err fun r x hr => by rw [hi] at hr; cases hr
  have c2 : (attributeBlockC U m).cost s = 0 := by
    unfold attributeBlockC
    rw [cost_inline_bind h0]
    exact cost_lift_bind_err fun r x hr => by rw [hi] at hr; cases hr
  have h1 : ∀ {p q : CParser (Key × Value)} {s : Str}, p.cost s = 0 → q.cost s = 0 → (p <///> q).cost s = 0 := by
    intro p q s h1 h2
    show p.cost s + _ = 0
    rw [h1, h2]; split <;> rfl
  exact h1 c0 (h1 c1 c2)

theorem items_cost (hc : LinOld U P v m n) : ∀ (es : List (Key × Value)) (k : Nat) (s r : Str),
    s.length ≤ n → s.length < k → BodyEnd r → IsEntries U P s es r →
    many0Cost (mapItemC U v m) k s + 2 * r.length ≤ 2 * s.length := by
  intro es
  induction es with
  | nil =>
    intro k s r hs hk hr h
    obtain ⟨k, rfl⟩ := Nat.exists_eq_succ_of_ne_zero (by omega : k ≠ 0)
    have h : SkipLayout s r := by cases h; assumption
    have l := h.length
    have hi : (mapItemC U v m).run s = .err := by
      show mapItem U v.run m.run s = .err
      unfold mapItem
      rw [ws_bind (fun _ _ => rfl) h, bind_apply, oldAttribute_err (skipInline_again h) (bodyEnd_not_key hr)]
      rfl
    rw [many0Cost, hi, item_cost _ _ h, attribute_cost_end (skipInline_again h) (bodyEnd_not_key hr)]
    simp only
    omega
  | cons el els ih =>
    intro k s r hs hk hr h
    obtain ⟨k, rfl⟩ := Nat.exists_eq_succ_of_ne_zero (by omega : k ≠ 0)
    obtain ⟨ky, x⟩ := el
    obtain ⟨t, u, w, h1, h2, h3, h4⟩ : ∃ t u w, SkipLayout s t ∧ IsEntry U P t ky x u ∧ IsEntryEnd u w ∧
      IsEntries U P w els r := by cases h; exact ⟨_, _, _, ‹_›, ‹_›, ‹_›, ‹_›⟩
    obtain ⟨w', h5, h6, h7⟩ := attributeEnd_complete hr h3 h4
    have l1 := h1.length
    have l2 := (isEntry_consumes h2).length
    have l3 := (entryEnd_suffix h3).length_le
    have l4 := h6.length_le
    have := ih k w' r (by omega) (by omega) hr h7
    have hi : (mapItemC U v m).run s = .ok w' (ky, x) :=
      mapItem_eq_ok.2 ⟨t, u, h1, oldAttribute_complete hc.complete (skipInline_again h1) (by omega) h2, h5⟩
    have := attribute_cost hc (skipInline_again h1) (by omega) h2
    rw [many0Cost, hi, item_cost _ _ h1]
    simp only
    rw [if_pos (by omega)]
    omega

theorem step_cost (s : Str) : (mapStepC U v m).cost s = many0Cost (mapItemC U v m) (s.length + 1) s := by
  unfold mapStepC
  rw [cost_bind_free]
  · rfl
  · intro a r; exact free_tail (fun _ _ => rfl) _

end

variable {U : CharClass} {P : F64Parse}

theorem linOld : ∀ n : Nat, LinOld U P (oldC U P n).1 (oldC U P n).2 n := by
  intro n
  have hcomp : CompleteOld U P (oldC U P n).1.run (oldC U P n).2.run n := by
    rw [(oldC_run U P n).1, (oldC_run U P n).2]; exact oldN_complete n
  induction n with
  | zero => exact ⟨hcomp, fun s x r h => absurd h (by omega), fun c t _ h => absurd h (by omega),
      fun s es r h => absurd h (by omega)⟩
  | succ n ih =>
    have ih := ih (by rw [(oldC_run U P n).1, (oldC_run U P n).2]; exact oldN_complete n)
    refine ⟨hcomp, fun s x r hs h => ?_, fun c t hc _ => ?_, fun s es r hs hr h => ?_⟩
    · have := value_cost ih (by omega) h
      show 1 + (valueStepC U P _ _).cost s + _ ≤ _
      omega
    · show 1 + (valueStepC U P _ _).cost (c :: t) ≤ 1
      have hs : SkipLayout (c :: t) (c :: t) := .refl (not_starts_layout (by
        unfold LayoutStart; rcases hc with rfl | rfl <;> decide))
      have hl : (map Value.list (listC (oldC U P n).1)).cost (c :: t) = 0 := by
        show (listC (oldC U P n).1).cost (c :: t) = 0
        unfold listC
        exact cost_lift_bind_err fun r v hr => by
          rw [tag_cons_ne (by rcases hc with rfl | rfl <;> decide)] at hr; cases hr
      have hm : (map (fun x => Value.object [x]) (mapExpressionC (oldC U P n).2)).cost (c :: t) = 0 :=
        mapExpr_cost_none hs (by rw [head_cons]; rcases hc with rfl | rfl <;> decide)
      have h1 : ∀ {p q : CParser Value} {s : Str}, p.cost s = 0 → q.cost s = 0 → (p <///> q).cost s = 0 := by
        intro p q s h1 h2
        show p.cost s + _ = 0
        rw [h1, h2]; split <;> rfl
      unfold valueStepC
      rw [h1 rfl (h1 rfl (h1 rfl (h1 rfl (h1 hl hm))))]
      exact Nat.le_refl _
    · show 1 + (mapStepC U _ _).cost s + _ ≤ _
      rw [step_cost]
      have := items_cost ih es (s.length + 1) s r (by omega) (by omega) hr h
      omega

/-! ## Some texts that are refused take exponentially many calls -/

theorem nested_skip (k : Nat) : SkipLayout (nested k) (nested k) := by
  refine .refl ?_
  cases k with
  | zero =>
    rintro ⟨i, t, hi, h⟩
    obtain ⟨c, u, e, -⟩ := layoutItem_head (t := t) hi
    rw [← h] at e; cases e
  | succ k => exact not_starts_layout (by unfold LayoutStart; decide)

theorem nested_ident (t : Str) : Ident U ('a' :: '{' :: t) ['a'] ('{' :: t) := by
  refine ⟨rfl, .mk _ _ (.inl ?_) (by simp), ?_⟩
  · rw [U.idStart_ascii _ (by decide)]; decide
  · rw [head_cons]
    rintro (h | h)
    · rw [U.idContinue_ascii _ (by decide)] at h; revert h; decide
    · revert h; decide

theorem nested_calls : ∀ k n, k < n → (oldC U P n).2.run (nested k) = .ok (nested k) (.unmerged []) ∧
    (oldC U P n).2.cost (nested k) = 2 ^ (k + 1) - 1 := by
  intro k
  induction k with
  | zero =>
    intro n hn
    obtain ⟨n, rfl⟩ := Nat.exists_eq_succ_of_ne_zero (by omega : n ≠ 0)
    have hs := nested_skip 0
    have hnk : ¬ Head (fun c => IdentStart U c ∨ c = '"') (nested 0) := bodyEnd_not_key (.inl rfl)
    have hi : mapItem U (oldC U P n).1.run (oldC U P n).2.run (nested 0) = .err := by
      unfold mapItem
      rw [ws_bind (fun _ _ => rfl) hs, bind_apply, oldAttribute_err (skipInline_again hs) hnk]
      rfl
    refine ⟨?_, ?_⟩
    · show mapStep U (oldC U P n).1.run (oldC U P n).2.run (nested 0) = _
      unfold mapStep
      obtain ⟨_, h3⟩ := ws_iff.2 hs
      rw [bind_apply, many0_stop hi, bind_ok, bind_apply, h3]; rfl
    · show 1 + (mapStepC U (oldC U P n).1 (oldC U P n).2).cost (nested 0) = _
      rw [step_cost, many0Cost, show (mapItemC U (oldC U P n).1 (oldC U P n).2).run (nested 0) = .err from hi, item_cost _ _ hs,
        attribute_cost_end (skipInline_again hs) hnk]
      rfl
  | succ k ih =>
    intro n hn
    obtain ⟨n, rfl⟩ := Nat.exists_eq_succ_of_ne_zero (by omega : n ≠ 0)
    obtain ⟨hrun, hcost⟩ := ih n (by omega)
    have hs := nested_skip (k + 1)
    have h0 := skipInline_again hs
    have hid : Ident U (nested (k + 1)) ['a'] ('{' :: nested k) := nested_ident _
    have hb : SkipLayout ('{' :: nested k) ('{' :: nested k) := .refl (not_starts_layout (by unfold LayoutStart; decide))
    have hbi := skipInline_again hb
    have hne : ¬ Head (fun c => c = '=') ('{' :: nested k) := by rw [head_cons]; decide
    have hme : mapExpression (oldC U P n).2.run ('{' :: nested k) = .err := by
      unfold mapExpression
      have : wsAround (tag ['{']) ('{' :: nested k) = .ok (nested k) ['{'] :=
        wsAround_eq_ok.2 ⟨_, nested k, hb, tag_cons_self _ _, nested_skip k⟩
      have h2 : wsAround (oldC U P n).2.run (nested k) = .ok (nested k) (.unmerged []) :=
        wsAround_eq_ok.2 ⟨_, _, nested_skip k, hrun, nested_skip k⟩
      rw [bind_apply, this, bind_ok, bind_apply, h2, bind_ok, bind_apply]
      have : tag ['}'] (nested k) = .err := by
        cases k with
        | zero => exact tag_cons_nil
        | succ k => exact tag_cons_ne (by decide)
      rw [this]; rfl
    have hmc : (mapExpressionC (oldC U P n).2).cost ('{' :: nested k) = 2 ^ (k + 1) - 1 := by
      rw [mapExpr_cost_some hb (nested_skip k), hcost]
    have hl : Verif.many0 (do let _ ← inlineWs; stringLiteral : Parser Str) ('{' :: nested k) = .ok ('{' :: nested k) [] :=
      many0_stop (label_err hb)
    have e1 : attributeEq U (oldC U P n).1.run (nested (k + 1)) = .err := attributeEq_err h0 hid hbi hne
    have e2 : attributeMap U (oldC U P n).2.run (nested (k + 1)) = .err := by
      have ho : Verif.opt (tag ['=']) ('{' :: nested k) = .ok ('{' :: nested k) none := by
        rw [opt_eq_ok]; exact .inr ⟨tag_cons_ne (by decide), rfl, rfl⟩
      unfold attributeMap
      rw [inlineWs_bind (fun _ _ => rfl) h0, bind_apply, identifier_iff.2 hid, bind_ok,
        inlineWs_bind (fun _ _ => rfl) hbi, bind_apply, ho, bind_ok, inlineWs_bind (fun _ _ => rfl) hbi, bind_apply, hme]
      rfl
    have e3 : attributeBlock U (oldC U P n).2.run (nested (k + 1)) = .err := by
      unfold attributeBlock
      rw [inlineWs_bind (fun _ _ => rfl) h0, bind_apply, identifier_iff.2 hid, bind_ok, bind_apply, hl, bind_ok,
        inlineWs_bind (fun _ _ => rfl) hbi, bind_apply, hme]
      rfl
    have hi : mapItem U (oldC U P n).1.run (oldC U P n).2.run (nested (k + 1)) = .err := by
      unfold mapItem oldAttribute
      rw [ws_bind (fun _ _ => rfl) hs, bind_apply, bind_apply, orElse_of_err e1, orElse_of_err e2, e3]
      rfl
    refine ⟨?_, ?_⟩
    · show mapStep U (oldC U P n).1.run (oldC U P n).2.run (nested (k + 1)) = _
      unfold mapStep
      obtain ⟨_, h3⟩ := ws_iff.2 hs
      rw [bind_apply, many0_stop hi, bind_ok, bind_apply, h3]; rfl
    · show 1 + (mapStepC U (oldC U P n).1 (oldC U P n).2).cost (nested (k + 1)) = _
      rw [step_cost, many0Cost, show (mapItemC U (oldC U P n).1 (oldC U P n).2).run (nested (k + 1)) = .err from hi,
        item_cost _ _ hs, attr_cost, cost_orElse_err (show (attributeEqC U (oldC U P n).1).run _ = .err from e1),
        cost_orElse_err (show (attributeMapC U (oldC U P n).2).run _ = .err from e2), eq_cost_none h0 hid hbi hne,
        map_cost h0 hid hbi hne, block_cost h0 hid hl hbi, hmc]
      have : 2 ^ (k + 1 + 1) = 2 * 2 ^ (k + 1) := by rw [Nat.pow_succ]; omega
      have : 0 < 2 ^ (k + 1) := Nat.two_pow_pos (k + 1)
      simp only
      omega

theorem nested_length (k : Nat) : (nested k).length = 2 * k := by
  induction k with
  | zero => rfl
  | succ k ih => simp only [nested, List.length_cons, ih]; omega

end Verif
