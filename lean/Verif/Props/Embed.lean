import Verif.Proofs.Embed
import Verif.Props.Laid
import Verif.Props.Literals
/-! # C81: putting texts together -/
set_option autoImplicit false

namespace Verif.Props
open Verif Spec PRes

variable (U : CharClass)

/-- C81: a text between the braces of a block, on lines of its own, is read as this block exactly if the text is a
document; the body of the block is then that document. `hdr` is the type, the labels and `{`, with any layout. -/
theorem c81_block (i : CowStr) (ls : List BlockLabel) (hdr s : Str) (hh : LaidHeader U i ls hdr) (el : BodyElement) :
    parseStr U (hdr ++ '\n' :: s ++ ['\n', '}']) = .ok [el] ↔ ∃ b, el = .block i ls b ∧ parseStr U (s ++ ['\n']) = .ok b := by
  simp only [parseStr_iff]
  exact block_document hh el

/-- C81: a document may be followed by a line end. -/
theorem c81_line_end (s : Str) (b : Body) (h : parseStr U s = .ok b) : parseStr U (s ++ ['\n']) = .ok b := by
  rw [c15_every_layout_is_read] at *
  exact .lines _ _ (laidDocument_line h)

/-- C81: so every document can be made the body of a block. -/
theorem c81_document_in_block (i : CowStr) (ls : List BlockLabel) (hdr s : Str) (b : Body) (hh : LaidHeader U i ls hdr)
    (h : parseStr U s = .ok b) : parseStr U (hdr ++ '\n' :: s ++ ['\n', '}']) = .ok [.block i ls b] :=
  (c81_block U i ls hdr s hh _).2 ⟨b, rfl, c81_line_end U s b h⟩

/-- C81: one document per line (or more lines): the elements follow each other. -/
theorem c81_lines (ds : List (Str × Body)) (h : ∀ d ∈ ds, parseStr U d.1 = .ok d.2) :
    parseStr U (ds.flatMap fun d => d.1 ++ ['\n']) = .ok (ds.flatMap fun d => d.2) := by
  have : LaidBody U (ds.flatMap fun d => d.2) (ds.flatMap fun d => d.1 ++ ['\n']) := by
    induction ds with
    | nil => exact .done _ .nil
    | cons d ds ih =>
      simp only [List.flatMap_cons]
      exact laidBody_append (laidDocument_line ((c15_every_layout_is_read U _ _).1 (h d (by simp))))
        (ih fun d hd => h d (by simp [hd]))
  exact (c15_every_layout_is_read U _ _).2 (.lines _ _ this)

/-- C81: an expression becomes the value of an attribute. -/
theorem c81_attribute (k l m s n : Str) (e : Expr) (hk : IsIdent U k) (hl : AnyInline l) (hm : AnyInline m) (hn : AnyInline n)
    (h : Expr.parse U s = .ok e) : parseStr U (k ++ l ++ '=' :: m ++ s ++ n) = .ok [.attribute (.borrowed k) e] := by
  rw [c15_every_layout_is_read]
  rw [c15_every_expression_layout_is_read] at h
  exact .last [] [] _ _ (.done _ .nil) (.attribute _ _ _ _ (.mk k l m s n none e hk hl hm h hn (fun h => absurd rfl h)))

/-- C81: what stands behind the `=` of an attribute is an expression, when put into parentheses (it may end in layout, and a
heredoc needs the line end). -/
theorem c81_value_alone (k s : Str) (e : Expr) (hk : IsIdent U k)
    (h : parseStr U (k ++ '=' :: s) = .ok [.attribute (.borrowed k) e]) : Expr.parse U ('(' :: s ++ ['\n', ')']) = .ok e := by
  rw [parseStr_iff] at h
  rw [c15_every_expression_layout_is_read]
  exact attribute_value hk h

/-- C81: expressions, separated by commas, between `[` and `]`. -/
theorem c81_tuple (xs : List (Str × Expr)) (h : ∀ x ∈ xs, Expr.parse U x.1 = .ok x.2) :
    Expr.parse U ('[' :: [','].intercalate (xs.map (·.1)) ++ [']']) = .ok (.tuple (xs.map (·.2))) := by
  rw [c15_every_expression_layout_is_read]
  refine .tuple _ _ ?_
  simp only [c15_every_expression_layout_is_read] at h
  exact laidTuple_intercalate h

/-- C81: pairs `key=expression`, separated by commas, between `{` and `}`. -/
theorem c81_object (xs : List (Str × Str × Expr)) (hk : ∀ x ∈ xs, IsIdent U x.1) (h : ∀ x ∈ xs, Expr.parse U x.2.1 = .ok x.2.2) :
    Expr.parse U ('{' :: [','].intercalate (xs.map fun x => x.1 ++ '=' :: x.2.1) ++ ['}']) =
      .ok (.object (xs.map fun x => (.ident (.borrowed x.1), x.2.2))) := by
  rw [c15_every_expression_layout_is_read]
  simp only [c15_every_expression_layout_is_read] at h
  exact .object [] _ _ .nil (laidObject_intercalate hk h)

/-- C81: an expression in parentheses. -/
theorem c81_parentheses (s : Str) (e : Expr) (h : Expr.parse U s = .ok e) : Expr.parse U ('(' :: s ++ [')']) = .ok e := by
  rw [c15_every_expression_layout_is_read] at *
  have := LaidExpr.bracket (U := U) [] [] [] s none e .nil .nil h .nil (.none _)
  simpa using this

/-- Non-vacuity of C81: a document of two elements, one of which is a heredoc at its end, in a block; and a text that is
not a document, with which the block is not read. -/
example : ∃ b, b.length = 2 ∧ LaidHeader asciiClass (.borrowed ['a']) [.identifier (.borrowed ['b'])] "a b {".toList ∧
    parseStr asciiClass ("a b {".toList ++ '\n' :: "x = 1\ny = <<E\n}\nE".toList ++ ['\n', '}']) =
      .ok [.block (.borrowed ['a']) [.identifier (.borrowed ['b'])] b] ∧
    parseStr asciiClass ("x = 1\ny = <<E\n}\nE".toList ++ ['\n']) = .ok b ∧
    ∀ el, parseStr asciiClass ("a b {".toList ++ '\n' :: "x = 1\n}\nc {".toList ++ ['\n', '}']) ≠ .ok [el] := by
  have hid : ∀ c : Char, c ∈ ['a', 'b'] → IsIdent asciiClass [c] := by
    intro c hc
    simp only [List.mem_cons, List.not_mem_nil, or_false] at hc
    rcases hc with rfl | rfl
    · exact ((c14_longest_identifier asciiClass ['a'] ['a'] []).1 (by decide +kernel)).2.1
    · exact ((c14_longest_identifier asciiClass ['b'] ['b'] []).1 (by decide +kernel)).2.1
  have hsp : ∀ t : Str, ¬ Head (IdentChar asciiClass) (' ' :: t) := by
    rintro t ⟨c, y, e, hc⟩
    injection e with e _
    subst e
    exact layoutStart_not_identChar (by decide) hc
  refine ⟨[.attribute (.borrowed ['x']) (.number ⟨.borrowed ['1'], true, some (.borrowed ['1']), none, none⟩),
    .attribute (.borrowed ['y']) (.string (.borrowed "}".toList))], rfl, ?_, by decide +kernel, by decide +kernel, ?_⟩
  · exact .mk ['a'] _ _ (hid 'a' (by simp)) (hsp _)
      (.ident [' '] ['b'] _ _ (.single (.blank _ (by decide))) (hid 'b' (by simp)) (hsp _)
        (.open [' '] (.single (.blank _ (by decide)))))
  · intro el h
    have e : parseStr asciiClass ("a b {".toList ++ '\n' :: "x = 1\n}\nc {".toList ++ ['\n', '}']) =
        .ok [.block (.borrowed ['a']) [.identifier (.borrowed ['b'])]
          [.attribute (.borrowed ['x']) (.number ⟨.borrowed ['1'], true, some (.borrowed ['1']), none, none⟩)],
          .block (.borrowed ['c']) [] []] := by decide +kernel
    rw [e] at h
    injection h with h
    cases h

/-- Non-vacuity of C81: expressions and an object and a tuple of them. -/
example : ∃ e f, Expr.parse asciiClass "[ 1 ]".toList = .ok e ∧ Expr.parse asciiClass "\"a,b\"".toList = .ok f ∧
    Expr.parse asciiClass "[[ 1 ],\"a,b\"]".toList = .ok (.tuple [e, f]) ∧
    Expr.parse asciiClass "{x=[ 1 ],y=\"a,b\"}".toList = .ok (.object [(.ident (.borrowed ['x']), e), (.ident (.borrowed ['y']), f)]) :=
  ⟨.tuple [.number ⟨.borrowed ['1'], true, some (.borrowed ['1']), none, none⟩], .string (.ownedS "a,b".toList),
    by decide +kernel, by decide +kernel, by decide +kernel, by decide +kernel⟩

/-- Non-vacuity of C81: behind `=` there may be more layout than an expression on its own may have. -/
example : ∃ e, parseStr asciiClass ("x".toList ++ '=' :: "1 # one\n".toList) = .ok [.attribute (.borrowed ['x']) e] ∧
    Expr.parse asciiClass "1 # one\n".toList ≠ .ok e ∧ Expr.parse asciiClass ('(' :: "1 # one\n".toList ++ ['\n', ')']) = .ok e :=
  ⟨.number ⟨.borrowed ['1'], true, some (.borrowed ['1']), none, none⟩, by decide +kernel, by decide +kernel, by decide +kernel⟩

end Verif.Props
