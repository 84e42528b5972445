import Verif.Proofs.Body
/-! # Decidable equality of syntax trees (only used to check concrete examples) -/
set_option autoImplicit false

namespace Verif

mutual
/-- Equality test of expressions. -/
def Expr.eqb : Expr → Expr → Bool
  | .null, .null => true
  | .number a, .number b => decide (a = b)
  | .boolean a, .boolean b => decide (a = b)
  | .string a, .string b => decide (a = b)
  | .tuple a, .tuple b => Expr.eqbList a b
  | .object a, .object b => Expr.eqbPairs a b
  | _, _ => false
/-- Equality test of lists of expressions. -/
def Expr.eqbList : List Expr → List Expr → Bool
  | [], [] => true
  | a :: as, b :: bs => Expr.eqb a b && Expr.eqbList as bs
  | _, _ => false
/-- Equality test of object entries. -/
def Expr.eqbPairs : List (ObjKey × Expr) → List (ObjKey × Expr) → Bool
  | [], [] => true
  | (k, a) :: as, (l, b) :: bs => decide (k = l) && Expr.eqb a b && Expr.eqbPairs as bs
  | _, _ => false
end

mutual
theorem Expr.eqb_iff : ∀ (a b : Expr), Expr.eqb a b = true ↔ a = b
  | .null, b => by cases b <;> simp [Expr.eqb]
  | .number a, b => by cases b <;> simp [Expr.eqb]
  | .boolean a, b => by cases b <;> simp [Expr.eqb]
  | .string a, b => by cases b <;> simp [Expr.eqb]
  | .tuple a, b => by cases b <;> simp [Expr.eqb, Expr.eqbList_iff a]
  | .object a, b => by cases b <;> simp [Expr.eqb, Expr.eqbPairs_iff a]
theorem Expr.eqbList_iff : ∀ (a b : List Expr), Expr.eqbList a b = true ↔ a = b
  | [], b => by cases b <;> simp [Expr.eqbList]
  | a :: as, b => by cases b <;> simp [Expr.eqbList, Expr.eqb_iff a, Expr.eqbList_iff as]
theorem Expr.eqbPairs_iff : ∀ (a b : List (ObjKey × Expr)), Expr.eqbPairs a b = true ↔ a = b
  | [], b => by cases b <;> simp [Expr.eqbPairs]
  | (k, a) :: as, b => by
    cases b with
    | nil => simp [Expr.eqbPairs]
    | cons p bs => obtain ⟨l, b⟩ := p; simp [Expr.eqbPairs, Expr.eqb_iff a, Expr.eqbPairs_iff as]
end

instance : DecidableEq Expr := fun a b => decidable_of_iff _ (Expr.eqb_iff a b)

mutual
/-- Equality test of body elements. -/
def BodyElement.eqb : BodyElement → BodyElement → Bool
  | .attribute k a, .attribute l b => decide (k = l) && decide (a = b)
  | .block t ls a, .block u ms b => decide (t = u) && decide (ls = ms) && BodyElement.eqbList a b
  | _, _ => false
/-- Equality test of bodies. -/
def BodyElement.eqbList : List BodyElement → List BodyElement → Bool
  | [], [] => true
  | a :: as, b :: bs => BodyElement.eqb a b && BodyElement.eqbList as bs
  | _, _ => false
end

mutual
theorem BodyElement.eqb_iff : ∀ (a b : BodyElement), BodyElement.eqb a b = true ↔ a = b
  | .attribute k a, b => by cases b <;> simp [BodyElement.eqb]
  | .block t ls a, b => by cases b <;> simp [BodyElement.eqb, BodyElement.eqbList_iff a, and_assoc]
theorem BodyElement.eqbList_iff : ∀ (a b : List BodyElement), BodyElement.eqbList a b = true ↔ a = b
  | [], b => by cases b <;> simp [BodyElement.eqbList]
  | a :: as, b => by cases b <;> simp [BodyElement.eqbList, BodyElement.eqb_iff a, BodyElement.eqbList_iff as]
end

instance : DecidableEq BodyElement := fun a b => decidable_of_iff _ (BodyElement.eqb_iff a b)


/-! ## Deciding grammar facts on concrete texts by evaluation (for examples) -/
open Spec PRes

/-- The remaining input of a successful parse. -/
def PRes.rest? {α : Type} : PRes α → Option Str
  | .ok r _ => some r
  | _ => none

theorem PRes.rest?_eq {α : Type} {x : PRes α} {r : Str} (h : x.rest? = some r) : ∃ v, x = .ok r v := by
  cases x with
  | ok r' v => injection h with h; subst h; exact ⟨v, rfl⟩
  | _ => cases h

theorem skipLayout_eval {s r : Str} (h : (ws s).rest? = some r) : SkipLayout s r := by
  obtain ⟨v, hv⟩ := PRes.rest?_eq h; exact ws_skip hv
theorem skipInline_eval {s r : Str} (h : (inlineWs s).rest? = some r) : SkipInline s r := by
  obtain ⟨v, hv⟩ := PRes.rest?_eq h; exact inlineWs_skip hv
theorem ident_eval {U : CharClass} {s i r : Str} (h : identifier U s = .ok r i) : Ident U s i r := identifier_iff.1 h
theorem isExpr_eval {U : CharClass} {s r : Str} (h : (expression U s).rest? = some r) : ∃ e, IsExpr U s e r := by
  obtain ⟨v, hv⟩ := PRes.rest?_eq h; exact ⟨v, expression_iff.1 hv⟩
theorem newlines_eval {s r : Str} (h : (newline s).rest? = some r) : Newlines s r := by
  obtain ⟨v, hv⟩ := PRes.rest?_eq h; exact newline_sound hv

theorem isElement_eval {U : CharClass} {s r : Str} (h0 : (inlineWs s).rest? = some s)
    (h : (bodyElement U (body U) s).rest? = some r) : ∃ el, IsElement U s el r := by
  obtain ⟨v, hv⟩ := PRes.rest?_eq h
  obtain ⟨t, h1, h2⟩ := bodyElement_sound (fun s r v h => body_sound h) hv
  rw [h1.functional inlineItem_prefix (skipInline_eval h0)] at h2
  exact ⟨v, h2⟩
theorem isLabels_eval {U : CharClass} {s t r : Str} (h : (blockLabels U s).rest? = some t)
    (ht : (inlineWs t).rest? = some ('{' :: r)) : ∃ ls, IsLabels U s ls r := by
  obtain ⟨v, hv⟩ := PRes.rest?_eq h
  exact ⟨v, blockLabels_sound hv (skipInline_eval ht)⟩

end Verif
