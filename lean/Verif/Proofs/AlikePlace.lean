import Verif.Proofs.Alike
import Verif.Spec.Edit
/-! # Alike values at a place -/
set_option autoImplicit false

namespace Verif
open Spec

variable {P : F64Parse} {keep : Bool}

theorem allRel_place {α : Type} {R : α → α → Prop} (hr : ∀ a, R a a) {a b : α} (h : R a b) : ∀ (l r : List α), AllRel R (l ++ a :: r) (l ++ b :: r)
  | [], r => .cons _ _ _ _ h (by
      induction r with
      | nil => exact .nil
      | cons c r ih => exact .cons _ _ _ _ (hr c) ih)
  | c :: l, r => .cons _ _ _ _ (hr c) (allRel_place hr h l r)

theorem alike_fill_expr {e e' : Expr} (h : Alike P keep (.expr e) (.expr e')) : ∀ p : ExprPlace,
    Alike P keep (.expr (p.fill e)) (.expr (p.fill e'))
  | .here => h
  | .item l p r => .tuple _ _ (allRel_place (R := fun e e' => Alike P keep (.expr e) (.expr e')) (alike_refl_expr keep)
      (alike_fill_expr h p) l r)
  | .value l k p r => .object _ _ _ (by simp) (allRel_place (R := fun p p' : ObjKey × Expr => Alike P keep (.expr p.2) (.expr p'.2))
      (fun p => alike_refl_expr keep p.2) (alike_fill_expr h p) l r) (.refl _)

/-- An attribute or block with its counterpart. -/
def AlikeEl (P : F64Parse) (keep : Bool) : BodyElement → BodyElement → Prop
  | .attribute k e, .attribute k' e' => k = k' ∧ Alike P keep (.expr e) (.expr e')
  | .block t ls b, .block t' ls' b' => t = t' ∧ ls = ls' ∧ Alike P keep (.body b) (.body b')
  | _, _ => False

theorem alikeEl_refl (x : BodyElement) : AlikeEl P keep x x := by
  cases x with
  | «attribute» k e => exact ⟨rfl, alike_refl_expr keep e⟩
  | block t ls b => exact ⟨rfl, rfl, alike_refl_body keep b⟩

theorem alike_elements {b b' : Body} (h : AllRel (AlikeEl P keep) b b') : AlikeParts P keep b b' := by
  induction h with
  | nil => exact ⟨rfl, .nil, .nil, .nil⟩
  | cons x x' b b' h _ ih =>
    obtain ⟨h1, h2, h3, h4⟩ := ih
    cases x with
    | «attribute» k e =>
      cases x' with
      | block => exact h.elim
      | «attribute» k' e' =>
        obtain ⟨rfl, h⟩ := h
        refine ⟨?_, ?_, ?_, ?_⟩
        · simp only [attrs, List.filterMap_cons, List.map_cons] at h1 ⊢; rw [h1]
        · simp only [attrs, List.filterMap_cons] at h2 ⊢; exact .cons _ _ _ _ h h2
        · simpa only [blocks, List.filterMap_cons] using h3
        · simpa only [blocks, List.filterMap_cons] using h4
    | block t ls c =>
      cases x' with
      | «attribute» => exact h.elim
      | block t' ls' c' =>
        obtain ⟨rfl, rfl, h⟩ := h
        refine ⟨?_, ?_, ?_, ?_⟩
        · simpa only [attrs, List.filterMap_cons] using h1
        · simpa only [attrs, List.filterMap_cons] using h2
        · simp only [blocks, List.filterMap_cons] at h3 ⊢; exact .cons _ _ _ _ ⟨rfl, rfl⟩ h3
        · simp only [blocks, List.filterMap_cons] at h4 ⊢; exact .cons _ _ _ _ h h4

theorem alike_fill_element {e e' : Expr} (h : Alike P keep (.expr e) (.expr e')) : ∀ p : ElementPlace,
    AlikeEl P keep (p.fill e) (p.fill e')
  | .attribute k p => ⟨rfl, alike_fill_expr h p⟩
  | .block i ls l p r => ⟨rfl, rfl, (alike_elements (allRel_place alikeEl_refl (alike_fill_element h p) l r)).alike⟩

theorem alike_fill {e e' : Expr} (h : Alike P keep (.expr e) (.expr e')) (p : ValuePlace) :
    Alike P keep (.body (p.fill e)) (.body (p.fill e')) :=
  (alike_elements (allRel_place alikeEl_refl (alike_fill_element h p.place) p.before p.after)).alike

end Verif
