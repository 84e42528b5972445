import Verif.Proofs.Edit
import Verif.Props.Laid
import Verif.Props.Document
/-!
# C89: editing a document in place

Every value of a document has its own piece of the text, and so have the elements of a body that is not written on one line.
Replacing the piece by another text of this kind replaces just that part of the result.
-/
set_option autoImplicit false

namespace Verif.Props
open Verif Spec

variable (U : CharClass)

theorem writtenBefore_iff {x post : Str} {e : Expr} : WrittenBefore U x e post ↔ ∃ h, LaidExpr U h e x ∧ Ending h post := by
  constructor
  · rintro (h | ⟨nl, v, he, hp, hh, rfl⟩)
    · exact ⟨none, (c15_every_expression_layout_is_read U x e).1 h, .none _⟩
    · exact ⟨some nl, .heredoc x nl v he hh, fun y hy => by injection hy with hy; exact hy ▸ hp,
        fun y hy => by injection hy with hy; exact hy ▸ he⟩
  · rintro ⟨h, hl, he⟩
    cases h with
    | none => exact .inl ((c15_every_expression_layout_is_read U x e).2 hl)
    | some nl =>
      cases hl with
      | heredoc _ _ v h1 h2 => exact .inr ⟨nl, v, h1, he.1 nl rfl, h2, rfl⟩

/-- C89: every value in a document has its piece of the text. With another value's text there, the document is the same except
for that value. -/
theorem c89_value_in_place (p : ValuePlace) (e : Expr) (s : Str) (h : parseStr U s = .ok (p.fill e)) :
    ∃ pre x post, s = pre ++ x ++ post ∧ WrittenBefore U x e post ∧
      ∀ x' e', WrittenBefore U x' e' post → parseStr U (pre ++ x' ++ post) = .ok (p.fill e') := by
  obtain ⟨pre, x, post, hx, rfl, h1, h2, h3⟩ := span_document p e ((c15_every_layout_is_read U _ _).1 h)
  have h2 := h2 [] (.none _)
  rw [List.append_nil] at h2
  refine ⟨pre, x, post, rfl, (writtenBefore_iff U).2 ⟨hx, h1, h2⟩, fun x' e' h4 => ?_⟩
  obtain ⟨h', h5, h6⟩ := (writtenBefore_iff U).1 h4
  obtain ⟨h'', h7, h8⟩ := h3 h' e' x' [] h5 (by simpa using h6)
  refine (c15_every_layout_is_read U _ _).2 (h8 ?_)
  cases h'' with
  | none => rfl
  | some y =>
    have h9 := h7.1 y rfl
    have h10 := h7.2 y rfl
    cases h10 <;> simp at h9

/-- C89: in particular any text that is an expression on its own may stand there. -/
theorem c89_expression_in_place (p : ValuePlace) (e : Expr) (s : Str) (h : parseStr U s = .ok (p.fill e)) :
    ∃ pre x post, s = pre ++ x ++ post ∧ WrittenBefore U x e post ∧
      ∀ x' e', Expr.parse U x' = .ok e' → parseStr U (pre ++ x' ++ post) = .ok (p.fill e') := by
  obtain ⟨pre, x, post, h1, h2, h3⟩ := c89_value_in_place U p e s h
  exact ⟨pre, x, post, h1, h2, fun x' e' h' => h3 x' e' (.inl h')⟩

/-- C89: the same for a place inside an expression. -/
theorem c89_value_in_expression (p : ExprPlace) (e : Expr) (s : Str) (h : Expr.parse U s = .ok (p.fill e)) :
    ∃ pre x post, s = pre ++ x ++ post ∧ WrittenBefore U x e post ∧
      ∀ x' e', WrittenBefore U x' e' post → Expr.parse U (pre ++ x' ++ post) = .ok (p.fill e') := by
  obtain ⟨pre, x, post, hx, rfl, h1, h2, h3⟩ := span_expr ((c15_every_expression_layout_is_read U _ _).1 h) p e rfl
  have h2 := h2 [] (.none _)
  rw [List.append_nil] at h2
  refine ⟨pre, x, post, rfl, (writtenBefore_iff U).2 ⟨hx, h1, h2⟩, fun x' e' h4 => ?_⟩
  obtain ⟨h', h5, h6⟩ := (writtenBefore_iff U).1 h4
  obtain ⟨h'', h7, h8⟩ := h3 h' e' x' [] h5 (by simpa using h6)
  refine (c15_every_expression_layout_is_read U _ _).2 ?_
  cases h'' with
  | none => exact h8
  | some y =>
    have h9 := h7.1 y rfl
    have h10 := h7.2 y rfl
    cases h10 <;> simp at h9

/-- C89: elements next to each other in a document of complete lines have their piece of the text, consisting of complete
lines; with other lines there, the document is the same except for these elements. In a block, the body must not be one
that may be written on one line. -/
theorem c89_elements_in_place (p : ElementsPlace) (els : Body) (s : Str) (hs : WholeLines s) (h : parseStr U s = .ok (p.fill els))
    (hb : p.InBlock → ¬ MayBeOneLine (p.inner els)) :
    ∃ pre x post, s = pre ++ x ++ post ∧ WholeLines x ∧ parseStr U x = .ok els ∧
      ∀ y els', WholeLines y → parseStr U y = .ok els' → parseStr U (pre ++ y ++ post) = .ok (p.fill els') := by
  obtain ⟨pre, x, post, h1, h2, h3, h4⟩ := elements_body p (laidDocument_of_lines hs ((c15_every_layout_is_read U _ _).1 h)) hb
  refine ⟨pre, x, post, h1, h2, (c15_every_layout_is_read U _ _).2 (.lines _ _ h3), fun y els' hy hp => ?_⟩
  exact (c15_every_layout_is_read U _ _).2
    (.lines _ _ (h4 els' y (laidDocument_of_lines hy ((c15_every_layout_is_read U _ _).1 hp))))

/-- C89: deleting their lines deletes the elements, and so does putting `#` in front of every line of them. -/
theorem c89_elements_removed (p : ElementsPlace) (els : Body) (s : Str) (hs : WholeLines s) (h : parseStr U s = .ok (p.fill els))
    (hb : p.InBlock → ¬ MayBeOneLine (p.inner els)) :
    ∃ pre x post, s = pre ++ x ++ post ∧ WholeLines x ∧ parseStr U x = .ok els ∧ parseStr U (pre ++ post) = .ok (p.fill []) ∧
      ∀ ls : List Str, (∀ l ∈ ls, TextLine l) → x = ls.flatten →
        parseStr U (pre ++ ls.flatMap (fun l => '#' :: l) ++ post) = .ok (p.fill []) := by
  obtain ⟨pre, x, post, h1, h2, h3, h4⟩ := elements_body p (laidDocument_of_lines hs ((c15_every_layout_is_read U _ _).1 h)) hb
  have h5 : ∀ l, AnyLayout l → parseStr U (pre ++ l ++ post) = .ok (p.fill []) := fun l hl =>
    (c15_every_layout_is_read U _ _).2 (.lines _ _ (h4 [] l (.done _ hl)))
  exact ⟨pre, x, post, h1, h2, (c15_every_layout_is_read U _ _).2 (.lines _ _ h3), by simpa using h5 [] .nil,
    fun ls hl _ => h5 _ (commented_layout hl)⟩

/-- C89: new lines may be put between any two elements (and at either end). -/
theorem c89_elements_inserted (p : ElementsPlace) (s : Str) (hs : WholeLines s) (h : parseStr U s = .ok (p.fill []))
    (hb : p.InBlock → ¬ MayBeOneLine (p.inner [])) :
    ∃ pre post, s = pre ++ post ∧
      ∀ y els, WholeLines y → parseStr U y = .ok els → parseStr U (pre ++ y ++ post) = .ok (p.fill els) := by
  obtain ⟨pre, x, post, h1, -, h3, h4⟩ := elements_body p (laidDocument_of_lines hs ((c15_every_layout_is_read U _ _).1 h)) hb
  refine ⟨pre, x ++ post, by simpa using h1, fun y els hy hp => ?_⟩
  have h5 := laidBody_append (laidDocument_of_lines hy ((c15_every_layout_is_read U _ _).1 hp)) h3
  rw [List.append_nil] at h5
  have := (c15_every_layout_is_read U _ _).2 (.lines _ _ (h4 els _ h5))
  simpa using this

/-- Sample: a block with a tuple in which a heredoc is replaced by an object; a value between brackets and parentheses. -/
def editBefore : Str := "a {\n x = [1, <<E\nt\nE\n, (2)]\n y = 3\n}\n".toList

example : ∃ (p : ValuePlace) (e e' : Expr), e ≠ e' ∧ parseStr asciiClass editBefore = .ok (p.fill e) ∧
    parseStr asciiClass "a {\n x = [1, { k = 4 }\n, (2)]\n y = 3\n}\n".toList = .ok (p.fill e') := by
  refine ⟨⟨[], .block (.borrowed ['a']) [] [] (.attribute (.borrowed ['x'])
    (.item [.number ⟨.borrowed ['1'], true, some (.borrowed ['1']), none, none⟩] .here
      [.number ⟨.borrowed ['2'], true, some (.borrowed ['2']), none, none⟩]))
    [.attribute (.borrowed ['y']) (.number ⟨.borrowed ['3'], true, some (.borrowed ['3']), none, none⟩)], []⟩,
    .string (.borrowed ['t']),
    .object [(.ident (.borrowed ['k']), .number ⟨.borrowed ['4'], true, some (.borrowed ['4']), none, none⟩)],
    by simp, by decide +kernel, by decide +kernel⟩

/-- The place of `y` in the sample. -/
def editPlace : ElementsPlace :=
  .block [] (.borrowed ['a']) [] (.between [.attribute (.borrowed ['x']) (.tuple [.number ⟨.borrowed ['1'], true, some (.borrowed ['1']), none, none⟩,
    .string (.borrowed ['t']), .number ⟨.borrowed ['2'], true, some (.borrowed ['2']), none, none⟩])] []) []

/-- Non-vacuity of C89 for elements: the attribute `y` of the sample, and the text without it. -/
example : ∃ els, els ≠ [] ∧ WholeLines editBefore ∧ parseStr asciiClass editBefore = .ok (editPlace.fill els) ∧ editPlace.InBlock ∧
    ¬ MayBeOneLine (editPlace.inner els) ∧
    parseStr asciiClass "a {\n x = [1, <<E\nt\nE\n, (2)]\n}\n".toList = .ok (editPlace.fill []) ∧
    parseStr asciiClass "a {\n x = [1, <<E\nt\nE\n, (2)]\n# y = 3\n}\n".toList = .ok (editPlace.fill []) := by
  refine ⟨[.attribute (.borrowed ['y']) (.number ⟨.borrowed ['3'], true, some (.borrowed ['3']), none, none⟩)], by simp,
    .inr ⟨"a {\n x = [1, <<E\nt\nE\n, (2)]\n y = 3\n}".toList, by decide +kernel⟩, by decide +kernel, trivial, ?_, by decide +kernel, by decide +kernel⟩
  rintro (h | ⟨k, e, h⟩)
  · simp [editPlace, ElementsPlace.inner] at h
  · simp [editPlace, ElementsPlace.inner] at h

/-- The restriction for blocks: an element of a block on one line cannot be replaced by lines. -/
example : parseStr asciiClass "a { x = 1 }\n".toList = .ok ((ElementsPlace.block [] (.borrowed ['a']) [] (.between [] []) []).fill
      [.attribute (.borrowed ['x']) (.number ⟨.borrowed ['1'], true, some (.borrowed ['1']), none, none⟩)]) ∧
    ∀ pre y, pre = "a {".toList ∨ pre = "a { ".toList → y = " x = 1\n".toList →
      ∀ b, parseStr asciiClass (pre ++ y ++ "}\n".toList) ≠ .ok b := by
  refine ⟨by decide +kernel, ?_⟩
  rintro pre y (rfl | rfl) rfl b h
  · have e : parseStr asciiClass ("a {".toList ++ " x = 1\n".toList ++ "}\n".toList) = .error .parse := by decide +kernel
    rw [e] at h; cases h
  · have e : parseStr asciiClass ("a { ".toList ++ " x = 1\n".toList ++ "}\n".toList) = .error .parse := by decide +kernel
    rw [e] at h; cases h

end Verif.Props
