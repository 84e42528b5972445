import Verif.Spec.Equal
import Verif.Props.Sources
/-!
# C61: equality of syntax trees

`==` on bodies and expressions is derived in Rust except on numbers (C12).
-/
set_option autoImplicit false
set_option linter.unusedSectionVars false

namespace Verif.Props
open Verif Spec

/-- Rust's `==` on numbers -/
abbrev NumEq (O : FloatOps) : Number → Number → Prop := fun n m => n.eq O m = true

theorem objKey_eq_iff (k l : ObjKey) : k.eq l = true ↔ EqKey k l := by
  cases k <;> cases l <;> simp only [ObjKey.eq, beq_iff_eq, Bool.false_eq_true, false_iff]
  · exact ⟨fun h => .ident _ _ h, fun h => by cases h; assumption⟩
  · intro h; cases h
  · intro h; cases h
  · exact ⟨fun h => .expr _ _ h, fun h => by cases h; assumption⟩

theorem label_eq_iff (k l : BlockLabel) : k.eq l = true ↔ EqLabel k l := by
  cases k <;> cases l <;> simp only [BlockLabel.eq, beq_iff_eq, Bool.false_eq_true, false_iff]
  · exact ⟨fun h => by subst h; exact .string _, fun h => by cases h; rfl⟩
  · intro h; cases h
  · intro h; cases h
  · exact ⟨fun h => .ident _ _ h, fun h => by cases h; assumption⟩

theorem labels_eq_iff : ∀ a b : List BlockLabel, BlockLabel.eqList a b = true ↔ AllPairs EqLabel a b
  | [], [] => by simp [BlockLabel.eqList]; exact .nil
  | [], _ :: _ => by simp only [BlockLabel.eqList, Bool.false_eq_true, false_iff]; intro h; cases h
  | _ :: _, [] => by simp only [BlockLabel.eqList, Bool.false_eq_true, false_iff]; intro h; cases h
  | a :: as, b :: bs => by
    simp only [BlockLabel.eqList, Bool.and_eq_true, label_eq_iff, labels_eq_iff as bs]
    exact ⟨fun h => .cons _ _ _ _ h.1 h.2, fun h => by cases h; exact ⟨‹_›, ‹_›⟩⟩

mutual
theorem expr_eq_iff (O : FloatOps) : ∀ a b : Expr, a.eq O b = true ↔ EqExpr (NumEq O) a b
  | .null, b => by
    cases b <;> simp only [Expr.eq, Bool.false_eq_true, false_iff, true_iff] <;> first | exact .null | (intro h; cases h)
  | .number n, b => by
    cases b <;> simp only [Expr.eq, Bool.false_eq_true, false_iff] <;>
      first
      | exact ⟨fun h => .number _ _ h, fun h => by cases h; assumption⟩
      | (intro h; cases h)
  | .boolean x, b => by
    cases b <;> simp only [Expr.eq, Bool.false_eq_true, false_iff, beq_iff_eq] <;>
      first
      | exact ⟨fun h => by subst h; exact .boolean _, fun h => by cases h; rfl⟩
      | (intro h; cases h)
  | .string s, b => by
    cases b <;> simp only [Expr.eq, Bool.false_eq_true, false_iff, beq_iff_eq] <;>
      first
      | exact ⟨fun h => .string _ _ h, fun h => by cases h; assumption⟩
      | (intro h; cases h)
  | .tuple as, b => by
    cases b <;> simp only [Expr.eq, Bool.false_eq_true, false_iff, tuple_eq_iff O as] <;>
      first
      | exact ⟨fun h => .tuple _ _ h, fun h => by cases h; assumption⟩
      | (intro h; cases h)
  | .object as, b => by
    cases b <;> simp only [Expr.eq, Bool.false_eq_true, false_iff, object_eq_iff O as] <;>
      first
      | exact ⟨fun h => .object _ _ h, fun h => by cases h; assumption⟩
      | (intro h; cases h)
theorem tuple_eq_iff (O : FloatOps) : ∀ a b : List Expr, Expr.eqList O a b = true ↔ EqTuple (NumEq O) a b
  | [], [] => by simp only [Expr.eqList, true_iff]; exact .nil
  | [], _ :: _ => by simp only [Expr.eqList, Bool.false_eq_true, false_iff]; intro h; cases h
  | _ :: _, [] => by simp only [Expr.eqList, Bool.false_eq_true, false_iff]; intro h; cases h
  | a :: as, b :: bs => by
    simp only [Expr.eqList, Bool.and_eq_true, expr_eq_iff O a b, tuple_eq_iff O as bs]
    exact ⟨fun h => .cons _ _ _ _ h.1 h.2, fun h => by cases h; exact ⟨‹_›, ‹_›⟩⟩
theorem object_eq_iff (O : FloatOps) : ∀ a b : List (ObjKey × Expr), Expr.eqPairs O a b = true ↔ EqObject (NumEq O) a b
  | [], [] => by simp only [Expr.eqPairs, true_iff]; exact .nil
  | [], _ :: _ => by simp only [Expr.eqPairs, Bool.false_eq_true, false_iff]; intro h; cases h
  | _ :: _, [] => by simp only [Expr.eqPairs, Bool.false_eq_true, false_iff]; intro h; cases h
  | (k, a) :: as, (l, b) :: bs => by
    simp only [Expr.eqPairs, Bool.and_eq_true, expr_eq_iff O a b, object_eq_iff O as bs, objKey_eq_iff]
    exact ⟨fun h => .cons _ _ _ _ _ _ h.1.1 h.1.2 h.2, fun h => by cases h; exact ⟨⟨‹_›, ‹_›⟩, ‹_›⟩⟩
end

mutual
theorem element_eq_iff (O : FloatOps) : ∀ a b : BodyElement, a.eq O b = true ↔ EqElement (NumEq O) a b
  | .attribute k e, b => by
    cases b <;> simp only [BodyElement.eq, Bool.false_eq_true, false_iff, Bool.and_eq_true, beq_iff_eq, expr_eq_iff]
    · exact ⟨fun h => .attribute _ _ _ _ h.1 h.2, fun h => by cases h; exact ⟨‹_›, ‹_›⟩⟩
    · intro h; cases h
  | .block t ls c, b => by
    cases b <;>
      simp only [BodyElement.eq, Bool.false_eq_true, false_iff, Bool.and_eq_true, beq_iff_eq, labels_eq_iff, body_eq_iff O c]
    · intro h; cases h
    · exact ⟨fun h => .block _ _ _ _ _ _ h.1.1 h.1.2 h.2, fun h => by cases h; exact ⟨⟨‹_›, ‹_›⟩, ‹_›⟩⟩
theorem body_eq_iff (O : FloatOps) : ∀ a b : List BodyElement, BodyElement.eqList O a b = true ↔ EqBody (NumEq O) a b
  | [], [] => by simp only [BodyElement.eqList, true_iff]; exact .nil
  | [], _ :: _ => by simp only [BodyElement.eqList, Bool.false_eq_true, false_iff]; intro h; cases h
  | _ :: _, [] => by simp only [BodyElement.eqList, Bool.false_eq_true, false_iff]; intro h; cases h
  | a :: as, b :: bs => by
    simp only [BodyElement.eqList, Bool.and_eq_true, element_eq_iff O a b, body_eq_iff O as bs]
    exact ⟨fun h => .cons _ _ _ _ h.1 h.2, fun h => by cases h; exact ⟨‹_›, ‹_›⟩⟩
end

/-- C61: `==` on bodies: the same elements in the same order, with the same names, kinds and texts of labels and keys,
the same strings and booleans, and equal numbers. -/
theorem c61_bodies (O : FloatOps) (a b : Body) : BodyElement.eqList O a b = true ↔ EqBody (NumEq O) a b :=
  body_eq_iff O a b

/-- C61: the same for expressions. -/
theorem c61_expressions (O : FloatOps) (a b : Expr) : a.eq O b = true ↔ EqExpr (NumEq O) a b := expr_eq_iff O a b

/-! ## reflexivity -/

theorem leafNumbers_append : ∀ a b : List Leaf, leafNumbers (a ++ b) = leafNumbers a ++ leafNumbers b
  | [], b => rfl
  | .number n :: a, b => by simp [leafNumbers, leafNumbers_append a b]
  | .string _ :: a, b => by simp [leafNumbers, leafNumbers_append a b]
  | .key _ :: a, b => by simp [leafNumbers, leafNumbers_append a b]
  | .name _ :: a, b => by simp [leafNumbers, leafNumbers_append a b]
  | .label _ :: a, b => by simp [leafNumbers, leafNumbers_append a b]

theorem leafNumbers_labels : ∀ ls : List BlockLabel, leafNumbers (ls.map Leaf.label) = []
  | [] => rfl
  | _ :: ls => by simp [leafNumbers, leafNumbers_labels ls]

theorem eqKey_refl : ∀ k : ObjKey, EqKey k k
  | .ident _ => .ident _ _ rfl
  | .expr _ => .expr _ _ rfl

theorem eqLabels_refl : ∀ ls : List BlockLabel, AllPairs EqLabel ls ls
  | [] => .nil
  | .stringLiteral _ :: ls => .cons _ _ _ _ (.string _) (eqLabels_refl ls)
  | .identifier _ :: ls => .cons _ _ _ _ (.ident _ _ rfl) (eqLabels_refl ls)

section
variable {N : Number → Number → Prop}

mutual
theorem eqExpr_refl : ∀ e : Expr, EqExpr N e e ↔ ∀ n ∈ leafNumbers (exprLeaves e), N n n
  | .null => by simp only [exprLeaves, leafNumbers]; exact ⟨fun _ _ h => (by cases h), fun _ => .null⟩
  | .number n => by
    simp only [exprLeaves, leafNumbers, List.mem_singleton, forall_eq]
    exact ⟨fun h => by cases h; assumption, fun h => .number _ _ h⟩
  | .boolean b => by simp only [exprLeaves, leafNumbers]; exact ⟨fun _ _ h => (by cases h), fun _ => .boolean b⟩
  | .string s => by simp only [exprLeaves, leafNumbers]; exact ⟨fun _ _ h => (by cases h), fun _ => .string s s rfl⟩
  | .tuple es => by
    simp only [exprLeaves]
    rw [← eqTuple_refl es]
    exact ⟨fun h => by cases h; assumption, fun h => .tuple _ _ h⟩
  | .object es => by
    simp only [exprLeaves]
    rw [← eqObject_refl es]
    exact ⟨fun h => by cases h; assumption, fun h => .object _ _ h⟩
theorem eqTuple_refl : ∀ es : List Expr, EqTuple N es es ↔ ∀ n ∈ leafNumbers (tupleLeaves es), N n n
  | [] => by simp only [tupleLeaves, leafNumbers]; exact ⟨fun _ _ h => (by cases h), fun _ => .nil⟩
  | e :: es => by
    simp only [tupleLeaves, leafNumbers_append, List.mem_append]
    constructor
    · intro h n hn
      cases h with
      | cons _ _ _ _ h1 h2 =>
        rcases hn with hn | hn
        · exact (eqExpr_refl e).1 h1 n hn
        · exact (eqTuple_refl es).1 h2 n hn
    · intro h
      exact .cons _ _ _ _ ((eqExpr_refl e).2 fun n hn => h n (.inl hn)) ((eqTuple_refl es).2 fun n hn => h n (.inr hn))
theorem eqObject_refl : ∀ es : List (ObjKey × Expr), EqObject N es es ↔ ∀ n ∈ leafNumbers (objectLeaves es), N n n
  | [] => by simp only [objectLeaves, leafNumbers]; exact ⟨fun _ _ h => (by cases h), fun _ => .nil⟩
  | (k, e) :: es => by
    simp only [objectLeaves, leafNumbers, leafNumbers_append, List.mem_append]
    constructor
    · intro h n hn
      cases h with
      | cons _ _ _ _ _ _ _ h1 h2 =>
        rcases hn with hn | hn
        · exact (eqExpr_refl e).1 h1 n hn
        · exact (eqObject_refl es).1 h2 n hn
    · intro h
      exact .cons _ _ _ _ _ _ (eqKey_refl k) ((eqExpr_refl e).2 fun n hn => h n (.inl hn))
        ((eqObject_refl es).2 fun n hn => h n (.inr hn))
end

mutual
theorem eqElement_refl : ∀ e : BodyElement, EqElement N e e ↔ ∀ n ∈ leafNumbers (elementLeaves e), N n n
  | .attribute k e => by
    simp only [elementLeaves, leafNumbers]
    rw [← eqExpr_refl e]
    exact ⟨fun h => by cases h; assumption, fun h => .attribute _ _ _ _ rfl h⟩
  | .block t ls b => by
    simp only [elementLeaves, leafNumbers, leafNumbers_append, leafNumbers_labels, List.nil_append]
    rw [← eqBody_refl b]
    exact ⟨fun h => by cases h; assumption, fun h => .block _ _ _ _ _ _ rfl (eqLabels_refl ls) h⟩
theorem eqBody_refl : ∀ b : List BodyElement, EqBody N b b ↔ ∀ n ∈ leafNumbers (bodyLeaves b), N n n
  | [] => by simp only [bodyLeaves, leafNumbers]; exact ⟨fun _ _ h => (by cases h), fun _ => .nil⟩
  | e :: es => by
    simp only [bodyLeaves, leafNumbers_append, List.mem_append]
    constructor
    · intro h n hn
      cases h with
      | cons _ _ _ _ h1 h2 =>
        rcases hn with hn | hn
        · exact (eqElement_refl e).1 h1 n hn
        · exact (eqBody_refl es).1 h2 n hn
    · intro h
      exact .cons _ _ _ _ ((eqElement_refl e).2 fun n hn => h n (.inl hn)) ((eqBody_refl es).2 fun n hn => h n (.inr hn))
end

/-! ## symmetry and transitivity -/

theorem eqKey_symm {k l : ObjKey} (h : EqKey k l) : EqKey l k := by
  cases h with
  | ident _ _ h => exact .ident _ _ h.symm
  | expr _ _ h => exact .expr _ _ h.symm

theorem eqKey_trans {k l m : ObjKey} (h : EqKey k l) (h' : EqKey l m) : EqKey k m := by
  cases h with
  | ident _ _ h => cases h' with | ident _ _ h' => exact .ident _ _ (h.trans h')
  | expr _ _ h => cases h' with | expr _ _ h' => exact .expr _ _ (h.trans h')

theorem eqLabel_symm {k l : BlockLabel} (h : EqLabel k l) : EqLabel l k := by
  cases h with
  | string => exact .string _
  | ident _ _ h => exact .ident _ _ h.symm

theorem eqLabel_trans {k l m : BlockLabel} (h : EqLabel k l) (h' : EqLabel l m) : EqLabel k m := by
  cases h with
  | string => exact h'
  | ident _ _ h => cases h' with | ident _ _ h' => exact .ident _ _ (h.trans h')

theorem allPairs_symm {α : Type} {R : α → α → Prop} (hR : ∀ a b, R a b → R b a) {as bs : List α} (h : AllPairs R as bs) :
    AllPairs R bs as := by
  induction h with
  | nil => exact .nil
  | cons _ _ _ _ h _ ih => exact .cons _ _ _ _ (hR _ _ h) ih

theorem allPairs_trans {α : Type} {R : α → α → Prop} (hR : ∀ a b c, R a b → R b c → R a c) {as bs : List α}
    (h : AllPairs R as bs) : ∀ {cs : List α}, AllPairs R bs cs → AllPairs R as cs := by
  induction h with
  | nil => intro cs h; exact h
  | cons _ _ _ _ h _ ih =>
    intro cs h'
    cases h' with
    | cons _ _ _ _ h1 h2 => exact .cons _ _ _ _ (hR _ _ _ h h1) (ih h2)

variable (hN : ∀ n m, N n m → N m n)
include hN

mutual
theorem eqExpr_symm : ∀ {a b : Expr}, EqExpr N a b → EqExpr N b a
  | _, _, .null => .null
  | _, _, .number _ _ h => .number _ _ (hN _ _ h)
  | _, _, .boolean _ => .boolean _
  | _, _, .string _ _ h => .string _ _ h.symm
  | _, _, .tuple _ _ h => .tuple _ _ (eqTuple_symm h)
  | _, _, .object _ _ h => .object _ _ (eqObject_symm h)
theorem eqTuple_symm : ∀ {a b : List Expr}, EqTuple N a b → EqTuple N b a
  | _, _, .nil => .nil
  | _, _, .cons _ _ _ _ h h' => .cons _ _ _ _ (eqExpr_symm h) (eqTuple_symm h')
theorem eqObject_symm : ∀ {a b : List (ObjKey × Expr)}, EqObject N a b → EqObject N b a
  | _, _, .nil => .nil
  | _, _, .cons _ _ _ _ _ _ hk h h' => .cons _ _ _ _ _ _ (eqKey_symm hk) (eqExpr_symm h) (eqObject_symm h')
end

mutual
theorem eqElement_symm : ∀ {a b : BodyElement}, EqElement N a b → EqElement N b a
  | _, _, .attribute _ _ _ _ hk h => .attribute _ _ _ _ hk.symm (eqExpr_symm hN h)
  | _, _, .block _ _ _ _ _ _ hk hl h =>
    .block _ _ _ _ _ _ hk.symm (allPairs_symm (R := EqLabel) (fun _ _ => eqLabel_symm) hl) (eqBody_symm h)
theorem eqBody_symm : ∀ {a b : List BodyElement}, EqBody N a b → EqBody N b a
  | _, _, .nil => .nil
  | _, _, .cons _ _ _ _ h h' => .cons _ _ _ _ (eqElement_symm h) (eqBody_symm h')
end
omit hN

variable (hT : ∀ n m k, N n m → N m k → N n k)
include hT

mutual
theorem eqExpr_trans : ∀ {a b c : Expr}, EqExpr N a b → EqExpr N b c → EqExpr N a c
  | _, _, _, .null, h => h
  | _, _, _, .number _ _ h, .number _ _ h' => .number _ _ (hT _ _ _ h h')
  | _, _, _, .boolean _, h => h
  | _, _, _, .string _ _ h, .string _ _ h' => .string _ _ (h.trans h')
  | _, _, _, .tuple _ _ h, .tuple _ _ h' => .tuple _ _ (eqTuple_trans h h')
  | _, _, _, .object _ _ h, .object _ _ h' => .object _ _ (eqObject_trans h h')
theorem eqTuple_trans : ∀ {a b c : List Expr}, EqTuple N a b → EqTuple N b c → EqTuple N a c
  | _, _, _, .nil, h => h
  | _, _, _, .cons _ _ _ _ h i, .cons _ _ _ _ h' i' => .cons _ _ _ _ (eqExpr_trans h h') (eqTuple_trans i i')
theorem eqObject_trans : ∀ {a b c : List (ObjKey × Expr)}, EqObject N a b → EqObject N b c → EqObject N a c
  | _, _, _, .nil, h => h
  | _, _, _, .cons _ _ _ _ _ _ k h i, .cons _ _ _ _ _ _ k' h' i' =>
    .cons _ _ _ _ _ _ (eqKey_trans k k') (eqExpr_trans h h') (eqObject_trans i i')
end

mutual
theorem eqElement_trans : ∀ {a b c : BodyElement}, EqElement N a b → EqElement N b c → EqElement N a c
  | _, _, _, .attribute _ _ _ _ k h, .attribute _ _ _ _ k' h' => .attribute _ _ _ _ (k.trans k') (eqExpr_trans hT h h')
  | _, _, _, .block _ _ _ _ _ _ k l h, .block _ _ _ _ _ _ k' l' h' =>
    .block _ _ _ _ _ _ (k.trans k') (allPairs_trans (R := EqLabel) (fun _ _ _ => eqLabel_trans) l l') (eqBody_trans h h')
theorem eqBody_trans : ∀ {a b c : List BodyElement}, EqBody N a b → EqBody N b c → EqBody N a c
  | _, _, _, .nil, h => h
  | _, _, _, .cons _ _ _ _ h i, .cons _ _ _ _ h' i' => .cons _ _ _ _ (eqElement_trans h h') (eqBody_trans i i')
end
end

/-- C61: a body equals itself exactly if every number in it does. (By C12 an integer does exactly if it fits 128 bits.) -/
theorem c61_reflexive (O : FloatOps) (b : Body) :
    BodyElement.eqList O b b = true ↔ ∀ n ∈ bodyNumbers b, n.eq O n = true := by
  rw [body_eq_iff]; exact eqBody_refl b

theorem number_eq_symm (O : FloatOps) (hO : ∀ x y, O.close x y = O.close y x) (n m : Number) : n.eq O m = m.eq O n := by
  have beq : ∀ a b : Int, (a == b) = (b == a) := fun a b => by
    by_cases h : a = b
    · subst h; rfl
    · rw [beq_eq_false_iff_ne.2 h, beq_eq_false_iff_ne.2 (Ne.symm h)]
  unfold Number.eq
  rw [Bool.or_comm n.isFloat, Bool.and_comm n.isUnsigned]
  split
  · cases O.parse n.input.str <;> cases O.parse m.input.str <;> simp [hO]
  split
  · cases n.asInt ⟨false, 128⟩ <;> cases m.asInt ⟨false, 128⟩ <;> simp [beq]
  · cases n.asInt ⟨true, 128⟩ <;> cases m.asInt ⟨true, 128⟩ <;> simp [beq]

/-- C61: `==` on bodies is symmetric (if comparing floats is). -/
theorem c61_symmetric (O : FloatOps) (hO : ∀ x y, O.close x y = O.close y x) (a b : Body) :
    BodyElement.eqList O a b = BodyElement.eqList O b a := by
  have key : ∀ a b : Body, BodyElement.eqList O a b = true → BodyElement.eqList O b a = true := fun a b h =>
    (body_eq_iff O b a).2 (eqBody_symm (fun n m h => by rw [NumEq, number_eq_symm O hO]; exact h) ((body_eq_iff O a b).1 h))
  cases h : BodyElement.eqList O a b with
  | true => exact (key a b h).symm
  | false =>
    cases h' : BodyElement.eqList O b a with
    | false => rfl
    | true => rw [key b a h'] at h; cases h

section
variable {N M : Number → Number → Prop} {P : Number → Prop} (hM : ∀ n m, N n m → P n → P m → M n m)
include hM

mutual
theorem eqExpr_restrict : ∀ {a b : Expr}, EqExpr N a b → (∀ n ∈ exprNumbers a, P n) → (∀ n ∈ exprNumbers b, P n) → EqExpr M a b
  | _, _, .null, _, _ => .null
  | _, _, .number n m h, ha, hb =>
    .number _ _ (hM _ _ h (ha n (by simp [exprNumbers, exprLeaves, leafNumbers])) (hb m (by simp [exprNumbers, exprLeaves, leafNumbers])))
  | _, _, .boolean _, _, _ => .boolean _
  | _, _, .string _ _ h, _, _ => .string _ _ h
  | _, _, .tuple _ _ h, ha, hb =>
    .tuple _ _ (eqTuple_restrict h (by simpa only [exprNumbers, exprLeaves] using ha) (by simpa only [exprNumbers, exprLeaves] using hb))
  | _, _, .object _ _ h, ha, hb =>
    .object _ _ (eqObject_restrict h (by simpa only [exprNumbers, exprLeaves] using ha) (by simpa only [exprNumbers, exprLeaves] using hb))
theorem eqTuple_restrict : ∀ {a b : List Expr}, EqTuple N a b → (∀ n ∈ leafNumbers (tupleLeaves a), P n) →
    (∀ n ∈ leafNumbers (tupleLeaves b), P n) → EqTuple M a b
  | _, _, .nil, _, _ => .nil
  | _, _, .cons _ _ _ _ h i, ha, hb => by
    simp only [tupleLeaves, leafNumbers_append, List.mem_append] at ha hb
    exact .cons _ _ _ _ (eqExpr_restrict h (fun n x => ha n (.inl x)) (fun n x => hb n (.inl x)))
      (eqTuple_restrict i (fun n x => ha n (.inr x)) (fun n x => hb n (.inr x)))
theorem eqObject_restrict : ∀ {a b : List (ObjKey × Expr)}, EqObject N a b → (∀ n ∈ leafNumbers (objectLeaves a), P n) →
    (∀ n ∈ leafNumbers (objectLeaves b), P n) → EqObject M a b
  | _, _, .nil, _, _ => .nil
  | _, _, .cons _ _ _ _ _ _ k h i, ha, hb => by
    simp only [objectLeaves, leafNumbers, leafNumbers_append, List.mem_append] at ha hb
    exact .cons _ _ _ _ _ _ k (eqExpr_restrict h (fun n x => ha n (.inl x)) (fun n x => hb n (.inl x)))
      (eqObject_restrict i (fun n x => ha n (.inr x)) (fun n x => hb n (.inr x)))
end

mutual
theorem eqElement_restrict : ∀ {a b : BodyElement}, EqElement N a b → (∀ n ∈ leafNumbers (elementLeaves a), P n) →
    (∀ n ∈ leafNumbers (elementLeaves b), P n) → EqElement M a b
  | _, _, .attribute _ _ _ _ k h, ha, hb => by
    simp only [elementLeaves, leafNumbers] at ha hb
    exact .attribute _ _ _ _ k (eqExpr_restrict hM h ha hb)
  | _, _, .block _ _ _ _ _ _ k l h, ha, hb => by
    simp only [elementLeaves, leafNumbers, leafNumbers_append, leafNumbers_labels, List.nil_append] at ha hb
    exact .block _ _ _ _ _ _ k l (eqBody_restrict h ha hb)
theorem eqBody_restrict : ∀ {a b : List BodyElement}, EqBody N a b → (∀ n ∈ leafNumbers (bodyLeaves a), P n) →
    (∀ n ∈ leafNumbers (bodyLeaves b), P n) → EqBody M a b
  | _, _, .nil, _, _ => .nil
  | _, _, .cons _ _ _ _ h i, ha, hb => by
    simp only [bodyLeaves, leafNumbers_append, List.mem_append] at ha hb
    exact .cons _ _ _ _ (eqElement_restrict h (fun n x => ha n (.inl x)) (fun n x => hb n (.inl x)))
      (eqBody_restrict i (fun n x => ha n (.inr x)) (fun n x => hb n (.inr x)))
end
end

/-- The number is the parse of an integer literal. -/
def IsInteger (n : Number) : Prop := ∃ t k, IsNumber t n ∧ IntLit t k

/-- C61: among bodies whose numbers are integer literals, `==` is transitive. -/
theorem c61_transitive (O : FloatOps) (a b c : Body) (ha : ∀ n ∈ bodyNumbers a, IsInteger n)
    (hb : ∀ n ∈ bodyNumbers b, IsInteger n) (hc : ∀ n ∈ bodyNumbers c, IsInteger n)
    (hab : BodyElement.eqList O a b = true) (hbc : BodyElement.eqList O b c = true) : BodyElement.eqList O a c = true := by
  rw [body_eq_iff] at hab hbc ⊢
  have h1 := eqBody_restrict (M := fun n m => NumEq O n m ∧ IsInteger n ∧ IsInteger m) (fun n m h p q => ⟨h, p, q⟩) hab ha hb
  have h2 := eqBody_restrict (M := fun n m => NumEq O n m ∧ IsInteger n ∧ IsInteger m) (fun n m h p q => ⟨h, p, q⟩) hbc hb hc
  refine eqBody_restrict (P := fun _ => True) (fun n m h _ _ => h.1) (eqBody_trans ?_ h1 h2) (fun _ _ => trivial) (fun _ _ => trivial)
  rintro n m k ⟨h, p, q⟩ ⟨h', q', r⟩
  refine ⟨?_, p, r⟩
  obtain ⟨t, i, hn, hi⟩ := p
  obtain ⟨u, j, hm, hj⟩ := q
  obtain ⟨v, l, hk, hl⟩ := r
  have e1 := (c12_integer_equality O t u n m hn hm i j hi hj).1 h
  have e2 := (c12_integer_equality O u v m k hm hk j l hj hl).1 h'
  exact (c12_integer_equality O t v n k hn hk i l hi hl).2 ⟨e1.1.trans e2.1, e1.2⟩

/-- C61, the full property fails across kinds of numbers: comparing with a float ignores signs, so `1 == 1.0` and
`1.0 == -1` but not `1 == -1`, for any float type in which the three texts have the same magnitude. -/
theorem c61_not_transitive (O : FloatOps) (one neg : Str) (fl : Str) (a b c : Number) (x y z : O.F) (i j : Int)
    (ha : IsNumber one a) (hb : IsNumber fl b) (hc : IsNumber neg c) (hf : b.isFloat = true) (hi : IntLit one i) (hj : IntLit neg j)
    (hij : i ≠ j) (hx : O.parse one = some x) (hy : O.parse fl = some y) (hz : O.parse neg = some z)
    (hxy : O.abs x = O.abs y) (hyz : O.abs y = O.abs z) (hrefl : O.close (O.abs y) (O.abs y) = true) :
    (Expr.number a).eq O (.number b) = true ∧ (Expr.number b).eq O (.number c) = true ∧ (Expr.number a).eq O (.number c) = false := by
  have e : ∀ n m : Number, (Expr.number n).eq O (.number m) = n.eq O m := fun n m => rfl
  simp only [e]
  refine ⟨?_, ?_, ?_⟩
  · unfold Number.eq
    rw [hf, isNumber_text ha, isNumber_text hb]
    simp only [Bool.or_true, if_true, CowStr.borrowed, hx, hy, hxy, hrefl]
  · unfold Number.eq
    rw [hf, isNumber_text hc, isNumber_text hb]
    simp only [Bool.true_or, if_true, CowStr.borrowed, hy, hz, ← hyz, hrefl]
  · cases h : a.eq O c with
    | false => rfl
    | true => exact absurd ((c12_integer_equality O one neg a c ha hc i j hi hj).1 h).1 hij

/-! ## the theorems are not vacuous -/

/-- a float type for the examples: the text without its sign, read up to the point -/
def toyFloats : FloatOps := ⟨Str, fun s => some s, fun s => (match s with | '-' :: t => t | t => t).takeWhile (· != '.'), fun a b => a == b⟩

/-- numbers for the examples: `1`, `+1`, `1.0` and `-1` -/
def toyOne : Number := ⟨.borrowed ['1'], true, some (.borrowed ['1']), none, none⟩
def toyPlusOne : Number := ⟨.borrowed ['+', '1'], true, some (.borrowed ['1']), none, none⟩
def toyFloatOne : Number := ⟨.borrowed ['1', '.', '0'], true, some (.borrowed ['1']), some (.borrowed ['0']), none⟩
def toyMinusOne : Number := ⟨.borrowed ['-', '1'], false, some (.borrowed ['1']), none, none⟩

theorem toyOne_is : IsNumber ['1'] toyOne := by
  have h : number ['1'] = .ok [] toyOne := by decide +kernel
  obtain ⟨t, e, h⟩ := number_sound h
  rw [List.append_nil] at e
  exact e ▸ h
theorem toyPlusOne_is : IsNumber ['+', '1'] toyPlusOne := by
  have h : number ['+', '1'] = .ok [] toyPlusOne := by decide +kernel
  obtain ⟨t, e, h⟩ := number_sound h
  rw [List.append_nil] at e
  exact e ▸ h
theorem toyFloatOne_is : IsNumber ['1', '.', '0'] toyFloatOne := by
  have h : number ['1', '.', '0'] = .ok [] toyFloatOne := by decide +kernel
  obtain ⟨t, e, h⟩ := number_sound h
  rw [List.append_nil] at e
  exact e ▸ h
theorem toyMinusOne_is : IsNumber ['-', '1'] toyMinusOne := by
  have h : number ['-', '1'] = .ok [] toyMinusOne := by decide +kernel
  obtain ⟨t, e, h⟩ := number_sound h
  rw [List.append_nil] at e
  exact e ▸ h

/-- the blocks `b "l" { a = <number> }` of the examples -/
def toyBody (own : Bool) (n : Number) : Body :=
  [.block ⟨own, ['b']⟩ [.stringLiteral ['l']] [.attribute ⟨own, ['a']⟩ (.tuple [.number n, .string ⟨own, ['s']⟩])]]

example : BodyElement.eqList toyFloats (toyBody true toyOne) (toyBody false toyPlusOne) = true ∧
    BodyElement.eqList toyFloats (toyBody true toyOne) (toyBody false toyMinusOne) = false ∧
    BodyElement.eqList toyFloats (toyBody true toyOne) (toyBody false toyFloatOne) = true := by decide +kernel

theorem toy_digits : Digits ['1'] ∧ Numeral 10 ['1'] 1 := ⟨(decimal_spec 1).1.1, (decimal_spec 1).2⟩
theorem toyOne_int : IntLit ['1'] 1 := IntLit.mk [] ['1'] true 1 .none toy_digits.1 toy_digits.2
theorem toyPlusOne_int : IntLit ['+', '1'] 1 := IntLit.mk ['+'] ['1'] true 1 .plus toy_digits.1 toy_digits.2
theorem toyMinusOne_int : IntLit ['-', '1'] (-1) := IntLit.mk ['-'] ['1'] false 1 .minus toy_digits.1 toy_digits.2

example : ∃ a b c : Body, (∀ n ∈ bodyNumbers a, IsInteger n) ∧ (∀ n ∈ bodyNumbers b, IsInteger n) ∧
    (∀ n ∈ bodyNumbers c, IsInteger n) ∧ a ≠ b ∧ b ≠ c ∧ BodyElement.eqList toyFloats a b = true ∧
    BodyElement.eqList toyFloats b c = true := by
  refine ⟨toyBody true toyOne, toyBody false toyPlusOne, toyBody false toyOne, ?_, ?_, ?_, by decide +kernel, by decide +kernel,
    by decide +kernel, by decide +kernel⟩
  all_goals
    simp only [bodyNumbers, toyBody, bodyLeaves, elementLeaves, exprLeaves, tupleLeaves, leafNumbers, List.map, List.append_nil,
      List.nil_append, List.cons_append, List.mem_singleton, forall_eq]
  · exact ⟨_, _, toyOne_is, toyOne_int⟩
  · exact ⟨_, _, toyPlusOne_is, toyPlusOne_int⟩
  · exact ⟨_, _, toyOne_is, toyOne_int⟩

example : (Expr.number toyOne).eq toyFloats (.number toyFloatOne) = true ∧
    (Expr.number toyFloatOne).eq toyFloats (.number toyMinusOne) = true ∧
    (Expr.number toyOne).eq toyFloats (.number toyMinusOne) = false :=
  c61_not_transitive toyFloats ['1'] ['-', '1'] ['1', '.', '0'] toyOne toyFloatOne toyMinusOne _ _ _ 1 (-1) toyOne_is
    toyFloatOne_is toyMinusOne_is rfl toyOne_int toyMinusOne_int (by decide) rfl rfl rfl rfl rfl (by decide)

end Verif.Props
