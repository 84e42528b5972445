import Verif.Proofs.Laid
import Verif.Props.Document
/-! # C15: layout may be chosen freely, everywhere -/
set_option autoImplicit false

namespace Verif.Props
open Verif Spec PRes

variable (U : CharClass)

theorem exprParse_iff (s : Str) (e : Expr) : Expr.parse U s = .ok e ↔ IsExpr U s e [] := by
  rw [← expression_iff]
  unfold Expr.parse PRes.toRes
  constructor
  · intro h
    split at h
    · rename_i r w hw
      dsimp only at h
      split at h
      · rename_i hr
        cases r with
        | nil => cases h; exact hw
        | cons => cases hr
      · cases h
    all_goals cases h
  · intro h; rw [h]; rfl

/-- C15: `parse_str` returns a tree for exactly the texts that write the tree with any layout: blanks, line ends and
comments of every kind wherever line ends do not matter, blanks and `/* */` comments within a line, any line ends after
an element. -/
theorem c15_every_layout_is_read (s : Str) (b : Body) : parseStr U s = .ok b ↔ LaidDocument U b s := by
  rw [parseStr_iff]
  exact ⟨document_laid, laidDocument_document⟩

/-- C15: two texts that write the same tree, with whatever layout, are parsed to the same result. -/
theorem c15_layout_never_matters (s s' : Str) (b : Body) (h : LaidDocument U b s) (h' : LaidDocument U b s') :
    parseStr U s = .ok b ∧ parseStr U s' = parseStr U s := by
  rw [(c15_every_layout_is_read U s b).2 h, (c15_every_layout_is_read U s' b).2 h']
  exact ⟨rfl, rfl⟩

/-- C15: the same for expressions on their own. -/
theorem c15_every_expression_layout_is_read (s : Str) (e : Expr) : Expr.parse U s = .ok e ↔ LaidExpr U none e s := by
  rw [exprParse_iff]
  constructor
  · intro h
    obtain ⟨t, h, e, hl, hx⟩ := isExpr_laid h
    rw [List.append_nil] at e
    subst e
    cases h with
    | none => exact hl
    | some e =>
      obtain ⟨q, hq⟩ := hx.next e rfl
      have he := hx.eol e rfl
      cases he <;> cases hq
  · intro h
    simpa using laidExpr_isExpr h [] (.none _) Head.not_nil

/-- C15: an expression may be replaced, inside a pair of brackets with any layout around it, by the same expression
with any other layout. -/
theorem c15_brackets_and_layout (l m n l' m' n' t t' : Str) (e : Expr) (h : Expr.parse U t = .ok e)
    (h' : Expr.parse U t' = .ok e) (hl : AnyLayout l) (hm : AnyLayout m) (hn : AnyLayout n) (hl' : AnyLayout l')
    (hm' : AnyLayout m') (hn' : AnyLayout n') :
    Expr.parse U (l ++ '(' :: m ++ t ++ n ++ [')']) = .ok e ∧
    Expr.parse U (l' ++ '(' :: m' ++ t' ++ n' ++ [')']) = .ok e := by
  simp only [c15_every_expression_layout_is_read] at *
  exact ⟨.bracket _ _ _ _ _ _ hl hm h hn (.none _), .bracket _ _ _ _ _ _ hl' hm' h' hn' (.none _)⟩

/-- The same tree laid out in two ways. -/
def laid₁ : Str := "a=[1,{b=2}]\nc x \"y\"{d=null}".toList
def laid₂ : Str :=
  "# first\n\n  a /* = */ = [ // one\n 1\n , /* two */ { # object\n  b\t= 2 // comma\n\r\n } , ] /* end */ \n\nc\tx/**/\"y\" { /* d */ d = null }  # last\n".toList

/-- Non-vacuity of C15: both layouts are layouts of the same tree. -/
example : ∃ b, b.length = 2 ∧ LaidDocument asciiClass b laid₁ ∧ LaidDocument asciiClass b laid₂ := by
  have h : ∀ s b, parseStr asciiClass s = .ok b → LaidDocument asciiClass b s :=
    fun s b => (c15_every_layout_is_read asciiClass s b).1
  exact ⟨[.attribute (.borrowed ['a']) (.tuple [.number ⟨.borrowed ['1'], true, some (.borrowed ['1']), none, none⟩,
      .object [(.ident (.borrowed ['b']), .number ⟨.borrowed ['2'], true, some (.borrowed ['2']), none, none⟩)]]),
    .block (.borrowed ['c']) [.identifier (.borrowed ['x']), .stringLiteral ['y']] [.attribute (.borrowed ['d']) .null]],
    rfl, h _ _ (by decide +kernel), h _ _ (by decide +kernel)⟩

/-- Non-vacuity of C15: an expression with layout inside, and one that must not be laid out differently: in quotes. -/
example : (∃ e, LaidExpr asciiClass none e "( /* x */ [ 1 ,\n2 ] )".toList) ∧
    Expr.parse asciiClass "\"a b\"".toList ≠ Expr.parse asciiClass "\"a  b\"".toList := by
  refine ⟨?_, by decide +kernel⟩
  exact ⟨_, (c15_every_expression_layout_is_read _ _ (.tuple [.number ⟨.borrowed ['1'], true, some (.borrowed ['1']), none, none⟩,
    .number ⟨.borrowed ['2'], true, some (.borrowed ['2']), none, none⟩])).1 (by decide +kernel)⟩

end Verif.Props
