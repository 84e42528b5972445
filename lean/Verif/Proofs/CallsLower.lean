import Verif.Spec.Calls
import Verif.Proofs.Calls
import Verif.Proofs.OldCalls
/-! # Lower bounds for the number of calls -/
set_option autoImplicit false

namespace Verif
open PRes Spec CParser

/-- Wherever `p` succeeds it costs at least the weight of its result. -/
def AtLeast {α : Type} (p : CParser α) (w : α → Nat) : Prop := ∀ s r v, p.run s = .ok r v → w v ≤ p.cost s

section
variable {α β : Type}

theorem atLeast_lift (p : Parser α) : AtLeast (lift p) (fun _ => 0) := fun _ _ _ _ => Nat.zero_le _

theorem atLeast_lift_of {p : Parser α} {w : α → Nat} (h : ∀ s r v, p s = .ok r v → w v = 0) : AtLeast (lift p) w :=
  fun s r v hv => by rw [h s r v hv]; exact Nat.zero_le _

theorem atLeast_pure {v : α} {w : α → Nat} {s r : Str} {x : α} (h : (pure v : CParser α).run s = .ok r x) : x = v := by
  have : (PRes.ok s v : PRes α) = .ok r x := h
  injection this with _ h; exact h.symm

theorem run_bind_ok {p : CParser α} {f : α → CParser β} {s r : Str} {x : β} (h : (p >>= f).run s = .ok r x) :
    ∃ t v, p.run s = .ok t v ∧ (f v).run t = .ok r x ∧ (p >>= f).cost s = p.cost s + (f v).cost t := by
  have h' : (p.run s).bind (fun t v => (f v).run t) = .ok r x := h
  cases hp : p.run s with
  | ok t v =>
    rw [hp] at h'
    exact ⟨t, v, rfl, h', cost_bind_ok hp⟩
  | _ => rw [hp] at h'; cases h'

theorem atLeast_bind {p : CParser α} {f : α → CParser β} {w : α → Nat} {u : β → Nat} (hp : AtLeast p w)
    (hf : ∀ v s r x, (f v).run s = .ok r x → u x ≤ w v + (f v).cost s) : AtLeast (p >>= f) u := by
  intro s r x h
  obtain ⟨t, v, h1, h2, h3⟩ := run_bind_ok h
  have := hp s t v h1
  have := hf v t r x h2
  omega

/-- a layout parser (or token) in front -/
theorem atLeast_skip {p : Parser α} {q : α → CParser β} {u : β → Nat} (hf : ∀ v, AtLeast (q v) u) : AtLeast (lift p >>= q) u :=
  atLeast_bind (atLeast_lift p) fun v s r x h => by have := hf v s r x h; omega

/-- what is left after the parser that yields the result -/
def Keeps (q : CParser β) (y : β) : Prop := ∀ s r x, q.run s = .ok r x → x = y

theorem keeps_pure (y : β) : Keeps (pure y) y := fun _ _ _ h => atLeast_pure (w := fun _ => 0) h

theorem keeps_skip {p : Parser α} {q : α → CParser β} {y : β} (h : ∀ v, Keeps (q v) y) : Keeps (lift p >>= q) y := by
  intro s r x hx
  obtain ⟨t, v, _, h2, _⟩ := run_bind_ok hx
  exact h v t r x h2

theorem atLeast_then {p : CParser α} {q : α → CParser β} {w : α → Nat} {u : β → Nat} {g : α → β} (hp : AtLeast p w)
    (hq : ∀ v, Keeps (q v) (g v)) (hu : ∀ v, u (g v) ≤ w v) : AtLeast (p >>= q) u :=
  atLeast_bind hp fun v s r x h => by rw [hq v s r x h]; have := hu v; omega

theorem atLeast_orElse {p q : CParser α} {w : α → Nat} (hp : AtLeast p w) (hq : AtLeast q w) : AtLeast (p <///> q) w := by
  intro s r v h
  have h' : (match p.run s with | .err => q.run s | r => r) = .ok r v := h
  show w v ≤ p.cost s + _
  cases hr : p.run s with
  | ok t x =>
    rw [hr] at h'
    have := hp s r v (hr.trans h')
    omega
  | err =>
    rw [hr] at h'
    have := hq s r v h'
    simp only []; omega
  | _ => rw [hr] at h'; cases h'

theorem atLeast_map {p : CParser α} {g : α → β} {w : α → Nat} {u : β → Nat} (hp : AtLeast p w) (hu : ∀ v, u (g v) ≤ w v) :
    AtLeast (map g p) u := by
  intro s r x h
  have h' : (p.run s).map g = .ok r x := h
  cases hr : p.run s with
  | ok t v =>
    rw [hr] at h'
    injection h' with h1 h2
    subst h2
    exact Nat.le_trans (hu v) (hp s t v hr)
  | _ => rw [hr] at h'; cases h'

theorem atLeast_opt {p : CParser α} {w : α → Nat} (hp : AtLeast p w) : AtLeast (CParser.opt p) (fun o => (o.map w).getD 0) := by
  intro s r x h
  have h' : Verif.opt p.run s = .ok r x := h
  unfold Verif.opt at h'
  cases hr : p.run s with
  | ok t v =>
    rw [hr] at h'
    injection h' with h1 h2
    subst h2
    exact hp s t v hr
  | err =>
    rw [hr] at h'
    injection h' with h1 h2
    subst h2
    exact Nat.zero_le _
  | _ => rw [hr] at h'; cases h'

theorem atLeast_many0 {p : CParser α} {w : α → Nat} (hp : AtLeast p w) : AtLeast (CParser.many0 p) (fun l => (l.map w).sum) := by
  have key : ∀ n s r l, many0Aux p.run n s = .ok r l → (l.map w).sum ≤ many0Cost p n s := by
    intro n
    induction n with
    | zero => intro s r l h; cases h
    | succ n ih =>
      intro s r l h
      unfold many0Aux at h
      unfold many0Cost
      cases hr : p.run s with
      | ok t v =>
        rw [hr] at h
        simp only [] at h ⊢
        split at h
        · rename_i hlt
          rw [if_pos hlt]
          cases hm : many0Aux p.run n t with
          | ok r' l' =>
            rw [hm] at h
            injection h with h1 h2
            subst h2
            have := ih t r' l' hm
            have := hp s t v hr
            simp only [List.map_cons, List.sum_cons]
            omega
          | _ => rw [hm] at h; cases h
        · injection h with h1 h2
          subst h2; exact Nat.zero_le _
      | err =>
        rw [hr] at h
        injection h with h1 h2
        subst h2; exact Nat.zero_le _
      | _ => rw [hr] at h; cases h
  intro s r l h
  exact key _ s r l h

theorem atLeast_separatedList {sep : Parser β} {p : CParser α} {w : α → Nat} (hp : AtLeast p w) :
    AtLeast (CParser.separatedList sep p) (fun l => (l.map w).sum) := by
  have key : ∀ n s r l, sepTailAux sep p.run n s = .ok r l → (l.map w).sum ≤ sepTailCost sep p n s := by
    intro n
    induction n with
    | zero => intro s r l h; cases h
    | succ n ih =>
      intro s r l h
      unfold sepTailAux at h
      unfold sepTailCost
      cases hs : sep s with
      | ok t y =>
        rw [hs] at h
        simp only [] at h ⊢
        cases hr : p.run t with
        | ok t' v =>
          rw [hr] at h
          simp only [] at h ⊢
          split at h
          · rename_i hlt
            rw [if_pos hlt]
            cases hm : sepTailAux sep p.run n t' with
            | ok r' l' =>
              rw [hm] at h
              injection h with h1 h2
              subst h2
              have := ih t' r' l' hm
              have := hp t t' v hr
              simp only [List.map_cons, List.sum_cons]
              omega
            | _ => rw [hm] at h; cases h
          · cases h
        | err =>
          rw [hr] at h
          injection h with h1 h2
          subst h2; exact Nat.zero_le _
        | _ => rw [hr] at h; cases h
      | err =>
        rw [hs] at h
        injection h with h1 h2
        subst h2; exact Nat.zero_le _
      | _ => rw [hs] at h; cases h
  intro s r l h
  have h' : Verif.separatedList sep p.run s = .ok r l := h
  show _ ≤ p.cost s + _
  unfold Verif.separatedList at h'
  cases hr : p.run s with
  | ok t v =>
    rw [hr] at h'
    simp only [] at h' ⊢
    split at h'
    · rename_i hlt
      rw [if_pos hlt]
      cases hm : sepTailAux sep p.run (t.length + 1) t with
      | ok r' l' =>
        rw [hm] at h'
        injection h' with h1 h2
        subst h2
        have := key _ t r' l' hm
        have := hp s t v hr
        simp only [List.map_cons, List.sum_cons]
        omega
      | _ => rw [hm] at h'; cases h'
    · cases h'
  | err =>
    rw [hr] at h'
    injection h' with h1 h2
    subst h2; exact Nat.zero_le _
  | _ => rw [hr] at h'; cases h'

theorem atLeast_call {p : CParser α} {w : α → Nat} (hp : AtLeast p w) : AtLeast (call p) (fun v => 1 + w v) := by
  intro s r v h
  have := hp s r v h
  exact Nat.add_le_add_left this 1

theorem atLeast_mono {p : CParser α} {w u : α → Nat} (hp : AtLeast p w) (h : ∀ v, u v ≤ w v) : AtLeast p u :=
  fun s r v hv => Nat.le_trans (h v) (hp s r v hv)

theorem atLeast_wsAround {p : CParser α} {w : α → Nat} (hp : AtLeast p w) : AtLeast (wsAroundC p) w :=
  atLeast_skip fun _ => atLeast_then (g := id) hp (fun v => keeps_skip fun _ => keeps_pure v) fun _ => Nat.le_refl _

end

/-! ## expressions -/

theorem exprsCount_sum : ∀ l : List Expr, exprsCount l = (l.map exprCount).sum
  | [] => rfl
  | e :: l => by simp only [exprsCount, List.map_cons, List.sum_cons, exprsCount_sum l]

theorem elemsCount_sum : ∀ l : List (ObjKey × Expr), elemsCount l = (l.map fun p => exprCount p.2).sum
  | [] => rfl
  | (k, e) :: l => by simp only [elemsCount, List.map_cons, List.sum_cons, elemsCount_sum l]

/-- the number of expressions strictly inside -/
private def inner : Expr → Nat
  | .tuple es => exprsCount es
  | .object es => elemsCount es
  | _ => 0

private theorem exprCount_inner (e : Expr) : exprCount e = 1 + inner e := by cases e <;> simp [exprCount, inner]

private theorem mapP_ok {α β : Type} {g : α → β} {p : Parser α} {s r : Str} {v : β} (h : mapP g p s = .ok r v) : ∃ x, v = g x := by
  have h' : (p s).map g = .ok r v := h
  cases hp : p s with
  | ok t x => rw [hp] at h'; injection h' with _ h; exact ⟨x, h.symm⟩
  | _ => rw [hp] at h'; cases h'

theorem exprC_lower (U : CharClass) : ∀ n, AtLeast (exprC U n) exprCount
  | 0 => fun s r v h => by cases h
  | n + 1 => by
    have ih := exprC_lower U n
    refine atLeast_mono (w := fun v => 1 + inner v) (atLeast_call ?_) fun v => Nat.le_of_eq (exprCount_inner v)
    unfold exprStepC
    have flat : ∀ {α : Type} (g : α → Expr) (p : Parser α), (∀ x, inner (g x) = 0) → AtLeast (lift (mapP g p)) inner := by
      intro α g p hg
      refine atLeast_lift_of fun s r v h => ?_
      obtain ⟨x, rfl⟩ := mapP_ok h
      exact hg x
    refine atLeast_orElse (flat _ _ fun _ => rfl) (atLeast_orElse (flat _ _ fun _ => rfl) (atLeast_orElse (flat _ _ fun _ => rfl)
      (atLeast_orElse (flat _ _ fun _ => rfl) (atLeast_orElse ?_ (atLeast_orElse ?_ ?_)))))
    · refine atLeast_map (w := fun l => (l.map exprCount).sum) ?_ fun l => Nat.le_of_eq (by simp only [inner, exprsCount_sum])
      unfold tupleC tupleElemC
      refine atLeast_skip fun _ => atLeast_then (g := id) (atLeast_separatedList (atLeast_skip fun _ => ih)) (fun v => keeps_skip fun _ => keeps_pure v) fun _ => Nat.le_refl _
    · refine atLeast_map (w := fun l => (l.map fun p => exprCount p.2).sum) ?_ fun l => Nat.le_of_eq (by simp only [inner, elemsCount_sum])
      unfold objectC objectBodyC objectItemC objectElementC
      refine atLeast_skip fun _ => atLeast_then (g := id) (atLeast_wsAround (atLeast_then (g := id) (atLeast_many0 ?_) (fun v => keeps_skip fun _ => keeps_pure v) fun _ => Nat.le_refl _))
        (fun v => keeps_skip fun _ => keeps_pure v) fun _ => Nat.le_refl _
      refine atLeast_skip fun _ => atLeast_then (g := id) ?_ (fun v => keeps_skip fun _ => keeps_pure v) fun _ => Nat.le_refl _
      refine atLeast_skip fun _ => ?_
      refine atLeast_bind (w := fun _ => 0) (fun _ _ _ _ => Nat.zero_le _) fun k s r x h => ?_
      rw [Nat.zero_add]
      revert h
      refine (show AtLeast _ (fun p : ObjKey × Expr => exprCount p.2) from ?_) s r x
      exact atLeast_skip fun _ => atLeast_skip fun _ => atLeast_skip fun _ =>
        atLeast_then (g := fun v => (k, v)) ih (fun v => keeps_skip fun _ => keeps_pure _) fun _ => Nat.le_refl _
    · unfold bracketExpressionC
      refine atLeast_skip fun _ => atLeast_then (g := id) (atLeast_wsAround (atLeast_mono (u := inner) ih fun v => ?_)) (fun v => keeps_skip fun _ => keeps_pure v) fun _ => Nat.le_refl _
      rw [exprCount_inner]; omega

/-! ## bodies -/

theorem elementsCount_sum : ∀ l : List BodyElement, elementsCount l = (l.map elementCount).sum
  | [] => rfl
  | e :: l => by simp only [elementsCount, List.map_cons, List.sum_cons, elementsCount_sum l]

private theorem attributeC_lower (U : CharClass) : AtLeast (attributeC U) (fun a => exprCount a.2) := by
  unfold attributeC
  refine atLeast_skip fun _ => atLeast_skip fun i => atLeast_skip fun _ => atLeast_skip fun _ => atLeast_skip fun _ => ?_
  refine atLeast_then (w := exprCount) (g := fun v => (.borrowed i, v)) ?_ (fun v => keeps_skip fun _ => keeps_pure _) fun _ => Nat.le_refl _
  intro s r v h
  have := exprC_lower U (s.length + 1) s r v (by rw [exprC_run]; exact h)
  exact this

private theorem longBody_le (b : List BodyElement) : longBody b ≤ 1 := by
  unfold longBody
  split <;> omega

theorem bodyC_lower (U : CharClass) : ∀ n, AtLeast (bodyC U n) (fun b => 1 + elementsCount b)
  | 0 => fun s r v h => by cases h
  | n + 1 => by
    have ih := bodyC_lower U n
    refine atLeast_call ?_
    unfold bodyStepC bodyItemC
    refine atLeast_then (g := id) (atLeast_many0 (w := elementCount) ?_) (fun v => keeps_skip fun _ => keeps_pure v)
      fun v => Nat.le_of_eq (elementsCount_sum v)
    refine atLeast_skip fun _ => atLeast_then (g := id) ?_ (fun v => keeps_skip fun _ => keeps_pure v) fun _ => Nat.le_refl _
    unfold bodyElementC
    refine atLeast_orElse (atLeast_map (attributeC_lower U) fun a => Nat.le_refl _) (atLeast_orElse ?_ ?_)
    · unfold oneLineBlockC
      refine atLeast_skip fun _ => atLeast_skip fun t => atLeast_skip fun _ => atLeast_skip fun ls => atLeast_skip fun _ =>
        atLeast_skip fun _ => atLeast_skip fun _ => atLeast_then (g := fun a => newOneLine (.borrowed t) ls a)
          (atLeast_opt (attributeC_lower U)) (fun v => keeps_skip fun _ => keeps_skip fun _ => keeps_skip fun _ => keeps_pure _) ?_
      intro a
      cases a with
      | none => exact Nat.le_refl _
      | some a => simp [newOneLine, elementCount, elementsCount, longBody]
    · unfold blockC
      refine atLeast_skip fun _ => atLeast_skip fun t => atLeast_skip fun _ => atLeast_skip fun ls => atLeast_skip fun _ =>
        atLeast_skip fun _ => atLeast_skip fun _ => atLeast_skip fun _ => atLeast_skip fun _ =>
          atLeast_then (g := fun b => .block (.borrowed t) ls b)
          ih (fun v => keeps_skip fun _ => keeps_skip fun _ => keeps_skip fun _ => keeps_pure _) fun b => ?_
      have : elementCount (.block (.borrowed t) ls b) = longBody b + elementsCount b := by simp only [elementCount]
      have h2 := longBody_le b
      show elementCount (.block (.borrowed t) ls b) ≤ _
      omega

/-! ## the legacy grammar -/

theorem valuesCount_sum : ∀ l : List Value, valuesCount l = (l.map valueCount).sum
  | [] => rfl
  | e :: l => by simp only [valuesCount, List.map_cons, List.sum_cons, valuesCount_sum l]

theorem entriesCount_sum : ∀ l : List (Key × Value), entriesCount l = (l.map fun p => valueCount p.2).sum
  | [] => rfl
  | (k, e) :: l => by simp only [entriesCount, List.map_cons, List.sum_cons, entriesCount_sum l]

/-- the number of values strictly inside -/
private def innerV : Value → Nat
  | .list l => valuesCount l
  | .object l => mapsCount l
  | .block (.merged l) => bodiesCount l
  | .block (.unmerged l) => bodiesCount l
  | _ => 0

private theorem valueCount_inner (v : Value) : valueCount v = 1 + innerV v := by
  cases v with
  | block b => cases b <;> simp [valueCount, innerV]
  | _ => simp [valueCount, innerV]

private theorem mapExpressionC_lower {m : CParser MapValues} {w : MapValues → Nat} (hm : AtLeast m w) : AtLeast (mapExpressionC m) w := by
  unfold mapExpressionC
  exact atLeast_skip fun _ => atLeast_then (g := id) (atLeast_wsAround hm) (fun v => keeps_skip fun _ => keeps_pure v) fun _ => Nat.le_refl _

theorem oldC_lower (U : CharClass) (P : F64Parse) :
    ∀ n, AtLeast (oldC U P n).1 valueCount ∧ AtLeast (oldC U P n).2 (fun m => 1 + mapCount m)
  | 0 => ⟨(fun s r v h => by cases h), (fun s r v h => by cases h)⟩
  | n + 1 => by
    obtain ⟨iv, im⟩ := oldC_lower U P n
    constructor
    · refine atLeast_mono (w := fun v => 1 + innerV v) (atLeast_call ?_) fun v => Nat.le_of_eq (valueCount_inner v)
      unfold valueStepC
      have flat : ∀ {α : Type} (g : α → Value) (p : Parser α), (∀ x, innerV (g x) = 0) → AtLeast (lift (mapP g p)) innerV := by
        intro α g p hg
        refine atLeast_lift_of fun s r v h => ?_
        obtain ⟨x, rfl⟩ := mapP_ok h
        exact hg x
      refine atLeast_orElse (flat _ _ fun _ => rfl) (atLeast_orElse ?_ (atLeast_orElse (flat _ _ fun _ => rfl)
        (atLeast_orElse (flat _ _ fun _ => rfl) (atLeast_orElse ?_ ?_))))
      · refine atLeast_lift_of fun s r v h => ?_
        obtain ⟨t, n, e1, h1, h2⟩ := oldNumber_iff.1 h
        cases h2 <;> simp only [innerV]
      · refine atLeast_map (w := fun l => (l.map valueCount).sum) ?_ fun l => Nat.le_of_eq (by simp only [innerV, valuesCount_sum])
        unfold listC listElemC
        refine atLeast_skip fun _ => atLeast_then (g := id) (atLeast_separatedList (atLeast_skip fun _ => iv)) (fun v => keeps_skip fun _ => keeps_pure v) fun _ => Nat.le_refl _
      · refine atLeast_map (mapExpressionC_lower im) fun m => ?_
        simp only [innerV, mapsCount]; omega
    · refine atLeast_call ?_
      unfold mapStepC mapItemC oldAttributeC
      refine atLeast_then (g := fun es => .unmerged es) (atLeast_many0 (w := fun p => valueCount p.2) ?_) (fun v => keeps_skip fun _ => keeps_pure _)
        fun v => Nat.le_of_eq (by simp only [mapCount, entriesCount_sum])
      refine atLeast_skip fun _ => atLeast_then (g := id) ?_ (fun v => keeps_skip fun _ => keeps_pure v) fun _ => Nat.le_refl _
      refine atLeast_then (g := id) ?_ (fun v => keeps_skip fun _ => keeps_pure v) fun _ => Nat.le_refl _
      refine atLeast_orElse ?_ (atLeast_orElse ?_ ?_)
      · unfold attributeEqC
        exact atLeast_skip fun _ => atLeast_skip fun k => atLeast_skip fun _ => atLeast_skip fun _ => atLeast_skip fun _ =>
          atLeast_then (g := fun x => (k, x)) iv (fun v => keeps_pure _) fun _ => Nat.le_refl _
      · unfold attributeMapC
        refine atLeast_skip fun _ => atLeast_skip fun k => atLeast_skip fun _ => atLeast_skip fun _ => atLeast_skip fun _ =>
          atLeast_then (g := fun x => (.identifier (.borrowed k), .object [x])) (mapExpressionC_lower im) (fun v => keeps_pure _) fun m => ?_
        show valueCount (.object [m]) ≤ _
        exact Nat.le_of_eq (by simp only [valueCount, mapsCount]; omega)
      · unfold attributeBlockC
        refine atLeast_skip fun _ => atLeast_skip fun k => atLeast_skip fun ls => atLeast_skip fun _ =>
          atLeast_then (g := fun x => (.identifier (.borrowed k), .block (.unmerged [(ls, x)]))) (mapExpressionC_lower im) (fun v => keeps_pure _) fun m => ?_
        show valueCount (.block (.unmerged [(ls, m)])) ≤ _
        exact Nat.le_of_eq (by simp only [valueCount, bodiesCount]; omega)

end Verif
