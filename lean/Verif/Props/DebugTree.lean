import Verif.Proofs.DebugTree
import Verif.Spec.TreeTerm
import Verif.Props.RustTerm
import Verif.Props.Alike
import Verif.Props.Equality
/-! # C101: the `Debug` text of a parsed tree determines the tree -/
set_option autoImplicit false

namespace Verif
open Spec

section
variable (D : DebugStyle)

theorem render_struct (k : Nat) (n : String) (fs : List (DTree × DTree)) (hn : '\n' ∉ n.toList) :
    Struct n (entriesAt D k fs) (renderAt D k (.struct n.toList fs)) := by
  rw [renderAt_struct D k _ fs hn]
  have := Between.mk (a := '{') (b := '}') (t := entriesAt D k fs) ('\n' :: spaces (4 * k)) (ws_nl (ws_spaces _))
  exact .mk _ (by simpa using this)

theorem render_field (k : Nat) (n : String) (x : DTree) (l : List (DTree × DTree)) (hn : '\n' ∉ n.toList) :
    Field n (renderAt D (k + 1) x) (entriesAt D k l) (entriesAt D k ((.word n.toList, x) :: l)) := by
  have := render_entry D k (.word n.toList) x l
  rwa [render_word D _ _ hn] at this

theorem render_bool (k : Nat) : ∀ b : Bool, BoolTerm (renderAt D k (debugBool b)) b
  | true => by unfold debugBool; rw [render_word D k _ (by decide +kernel)]; exact .true
  | false => by unfold debugBool; rw [render_word D k _ (by decide +kernel)]; exact .false

theorem render_cow (k : Nat) (s : CowStr) : StringTerm (renderAt D k s.debug) s.str := render_str D k s.str

theorem render_option (k : Nat) : ∀ o : Option CowStr, OptionTerm (renderAt D k (debugOption CowStr.debug o)) o
  | none => by unfold debugOption; rw [render_word D k _ (by decide +kernel)]; exact .none
  | some s => .some _ _ _ (render_cow D (k + 1) s) (render_call D k _ _ (by decide +kernel))

theorem render_exponent (k : Nat) (e : Exponent) : ExponentTerm (renderAt D k e.debug) e :=
  .mk _ _ _ _ _ _ _ (render_bool D (k + 1) e.positive) (render_cow D (k + 1) e.exponent)
    (render_field D k "positive" _ _ (by decide +kernel)) (render_field D k "exponent" _ [] (by decide +kernel))
    (render_struct D k "Exponent" _ (by decide +kernel))

theorem render_optExponent (k : Nat) : ∀ o : Option Exponent, OptExponentTerm (renderAt D k (debugOption Exponent.debug o)) o
  | none => by unfold debugOption; rw [render_word D k _ (by decide +kernel)]; exact .none
  | some s => .some _ _ _ (render_exponent D (k + 1) s) (render_call D k _ _ (by decide +kernel))

theorem render_number (k : Nat) (n : Number) : NumberTerm (renderAt D k n.debug) n :=
  .mk _ _ _ _ _ _ _ _ _ _ _ _ _ _ _ _ (render_cow D (k + 1) n.input) (render_bool D (k + 1) n.positive)
    (render_option D (k + 1) n.whole) (render_option D (k + 1) n.fraction) (render_optExponent D (k + 1) n.exponent)
    (render_field D k "input" _ _ (by decide +kernel)) (render_field D k "positive" _ _ (by decide +kernel))
    (render_field D k "whole" _ _ (by decide +kernel)) (render_field D k "fraction" _ _ (by decide +kernel))
    (render_field D k "exponent" _ [] (by decide +kernel)) (render_struct D k "Number" _ (by decide +kernel))

theorem render_objKey (k : Nat) : ∀ x : ObjKey, ObjKeyTerm (renderAt D k x.debug) x
  | .ident s => .ident _ _ _ (render_cow D (k + 1) s) (render_call D k _ _ (by decide +kernel))
  | .expr s => .expr _ _ _ (render_cow D (k + 1) s) (render_call D k _ _ (by decide +kernel))

mutual
theorem render_expr (k : Nat) : ∀ e : Expr, ExprTerm (renderAt D k e.debug) e
  | .null => by unfold Expr.debug; rw [render_word D k _ (by decide +kernel)]; exact .null
  | .number n => .number _ _ _ (render_number D (k + 1) n) (render_call D k _ _ (by decide +kernel))
  | .boolean b => .boolean _ _ _ (render_bool D (k + 1) b) (render_call D k _ _ (by decide +kernel))
  | .string s => .string _ _ _ (render_cow D (k + 1) s) (render_call D k _ _ (by decide +kernel))
  | .tuple es => .tuple _ _ _ _ (render_exprs (k + 1) es) (render_list D (k + 1) _) (render_call D k _ _ (by decide +kernel))
  | .object es => .object _ _ _ _ (render_pairs (k + 1) es) (render_list D (k + 1) _) (render_call D k _ _ (by decide +kernel))
theorem render_exprs (k : Nat) : ∀ es : List Expr, ExprTerms (itemsAt D k (Expr.debugTuple es)) es
  | [] => .nil
  | e :: es => .cons _ _ _ _ _ (render_expr (k + 1) e) (render_exprs k es) (render_item D k _ _)
theorem render_pairs (k : Nat) : ∀ es : List (ObjKey × Expr), PairTerms (itemsAt D k (Expr.debugObject es)) es
  | [] => .nil
  | (x, e) :: es => .cons _ _ _ _ _ _ _ _ (render_objKey D (k + 2) x) (render_expr (k + 2) e) (render_couple D (k + 1) _ _)
      (render_pairs k es) (render_item D k _ _)
end

theorem render_label (k : Nat) : ∀ x : BlockLabel, LabelTerm (renderAt D k x.debug) x
  | .stringLiteral s => .stringLiteral _ _ _ (render_str D (k + 1) s) (render_call D k _ _ (by decide +kernel))
  | .identifier s => .identifier _ _ _ (render_cow D (k + 1) s) (render_call D k _ _ (by decide +kernel))

theorem render_labelList (k : Nat) : ∀ ls : List BlockLabel, LabelTerms (itemsAt D k (ls.map BlockLabel.debug)) ls
  | [] => .nil
  | l :: ls => .cons _ _ _ _ _ (render_label D (k + 1) l) (render_labelList k ls) (render_item D k _ _)

mutual
theorem render_element (k : Nat) : ∀ e : BodyElement, ElementTerm (renderAt D k e.debug) e
  | .attribute x e => .attribute _ _ _ _ _ _ (render_cow D (k + 2) x) (render_expr D (k + 2) e) (render_couple D (k + 1) _ _)
      (render_call D k _ _ (by decide +kernel))
  | .block t ls b => .block _ _ _ _ _ _ _ _ _ _ _ _ _ (render_cow D (k + 2) t) (render_labelList D (k + 2) ls) (render_list D (k + 2) _)
      (render_elements (k + 2) b) (render_list D (k + 2) _) (render_field D (k + 1) "type" _ _ (by decide +kernel))
      (render_field D (k + 1) "labels" _ _ (by decide +kernel)) (render_field D (k + 1) "body" _ [] (by decide +kernel))
      (render_struct D (k + 1) "Block" _ (by decide +kernel)) (render_call D k _ _ (by decide +kernel))
theorem render_elements (k : Nat) : ∀ b : List BodyElement, ElementTerms (itemsAt D k (BodyElement.debugList b)) b
  | [] => .nil
  | e :: b => .cons _ _ _ _ _ (render_element (k + 1) e) (render_elements k b) (render_item D k _ _)
end
end

namespace Props

/-- C101: two bodies have the same `{:#?}` text exactly if they are the same up to the ownership of their strings. -/
theorem c101_same_text_iff (D : DebugStyle) (a b : Body) : shownBody D a = shownBody D b ↔ forgetBody a = forgetBody b :=
  body_shown D a b

/-- C101: the same for expressions. -/
theorem c101_same_expression_iff (D : DebugStyle) (a b : Expr) : shownExpr D a = shownExpr D b ↔ forgetExpr a = forgetExpr b :=
  expr_shown D a b

/-- C101: the same for numbers, whose text and parts are shown. -/
theorem c101_same_number_iff (D : DebugStyle) (a b : Number) : shownNumber D a = shownNumber D b ↔ forgetNumber a = forgetNumber b :=
  number_shown D a b

/-- C101: the same for indexed blocks, hash maps being shown in iteration order. -/
theorem c101_same_blocks_iff (D : DebugStyle) (a b : Blocks) : shownBlocks D a = shownBlocks D b ↔ forgetBlocks a = forgetBlocks b :=
  blocks_shown D a b

/-- C101: an owned copy is shown like the original. -/
theorem c101_owned_copy (D : DebugStyle) (b : Body) : shownBody D b.asOwned = shownBody D b :=
  (body_shown D _ _).2 (forget_asOwned_body b)

/-- C101: the text is the tree as a Rust term. -/
theorem c101_text_is_a_term (D : DebugStyle) (b : Body) : BodyTerm (shownBody D b) b := by
  have h := BodyTerm.mk _ _ b (render_elements D 0 b) (render_list D 0 _)
  unfold renderAt at h
  rwa [shift_zero] at h

/-- C101: the same for expressions. -/
theorem c101_expression_is_a_term (D : DebugStyle) (e : Expr) : ExprTerm (shownExpr D e) e := by
  have h := render_expr D 0 e
  unfold renderAt at h
  rwa [shift_zero] at h

theorem asOwned_forget_number (n : Number) : (forgetNumber n).asOwned = n.asOwned := by
  obtain ⟨i, p, w, f, e⟩ := n
  cases w <;> cases f <;> cases e <;> rfl

mutual
theorem asOwned_forget_expr : ∀ e : Expr, (forgetExpr e).asOwned = e.asOwned
  | .null => rfl
  | .number n => by simp only [forgetExpr, Expr.asOwned, asOwned_forget_number]
  | .boolean _ => rfl
  | .string _ => rfl
  | .tuple es => by simp only [forgetExpr, Expr.asOwned, asOwned_forget_tuple es]
  | .object es => by simp only [forgetExpr, Expr.asOwned, asOwned_forget_object es]
theorem asOwned_forget_tuple : ∀ es : List Expr, Expr.asOwnedList (forgetTuple es) = Expr.asOwnedList es
  | [] => rfl
  | e :: es => by simp only [forgetTuple, Expr.asOwnedList, asOwned_forget_expr e, asOwned_forget_tuple es]
theorem asOwned_forget_object : ∀ es : List (ObjKey × Expr), Expr.asOwnedPairs (forgetObject es) = Expr.asOwnedPairs es
  | [] => rfl
  | (k, e) :: es => by
    simp only [forgetObject, Expr.asOwnedPairs, asOwned_forget_expr e, asOwned_forget_object es]
    cases k <;> rfl
end

mutual
theorem asOwned_forget_element : ∀ e : BodyElement, (forgetElement e).asOwned = e.asOwned
  | .attribute k e => by simp only [forgetElement, BodyElement.asOwned, asOwned_forget_expr e]; rfl
  | .block t ls b => by
    simp only [forgetElement, BodyElement.asOwned, asOwned_forget_body b, List.map_map]
    rw [show (BlockLabel.asOwned ∘ forgetLabel) = BlockLabel.asOwned from funext fun l => by cases l <;> rfl]
    rfl
theorem asOwned_forget_body : ∀ b : List BodyElement, BodyElement.asOwnedList (forgetBody b) = BodyElement.asOwnedList b
  | [] => rfl
  | e :: b => by simp only [forgetBody, BodyElement.asOwnedList, asOwned_forget_element e, asOwned_forget_body b]
end

/-- C101: two bodies have the same text exactly if their owned copies are identical. -/
theorem c101_same_text_iff_owned (D : DebugStyle) (a b : Body) : shownBody D a = shownBody D b ↔ a.asOwned = b.asOwned := by
  rw [c101_same_text_iff]
  refine ⟨fun h => ?_, fun h => ?_⟩
  · have := congrArg BodyElement.asOwnedList h
    rwa [asOwned_forget_body, asOwned_forget_body] at this
  · rw [← forget_asOwned_body a, ← forget_asOwned_body b]
    exact congrArg forgetBody h

/-- C101: bodies with the same text compare alike with every body, and equal each other if they equal themselves (as bodies do
whose integers fit 128 bits and whose floats are close to themselves, C61). -/
theorem c101_same_text_same_equality (D : DebugStyle) (O : FloatOps) (a b : Body) (h : shownBody D a = shownBody D b) :
    (∀ c, BodyElement.eqList O a c = BodyElement.eqList O b c) ∧
    (BodyElement.eqList O b b = true → BodyElement.eqList O a b = true) := by
  have h := (c101_same_text_iff_owned D a b).1 h
  have key : ∀ c, BodyElement.eqList O a c = BodyElement.eqList O b c := fun c => by
    rw [← c19_equality_unchanged O a c, ← c19_equality_unchanged O b c, h]
  exact ⟨key, fun hb => by rw [key b, hb]⟩

/-- C101: two documents whose trees have the same text are read alike at every type without borrowed strings. -/
theorem c101_same_text_read_alike (D : DebugStyle) (U : CharClass) (P : F64Parse) (I : F64OfInt) (ord ord' : HashOrder) (t : Ty)
    (ht : ProperTy t) (hs : StrFree t) (s s' : Str) (a b : Body) (ha : parseStr U s = .ok a) (hb : parseStr U s' = .ok b)
    (h : shownBody D a = shownBody D b) (v : DVal) (hv : deFromStr U P I ord t s = .ok v) :
    ∃ v', deFromStr U P I ord' t s' = .ok v' ∧ SameVal v v' := by
  unfold deFromStr at hv ⊢
  rw [ha] at hv
  rw [hb]
  exact c69_ownership P I ord ord' t ht hs a b ((c101_same_text_iff D a b).1 h) v hv

/-- C101: the text of a body is never that of a different document: what a reader of the text sees is one tree only, so the same
text of two parsed documents means that both were parsed to the same tree. -/
theorem c101_documents (D : DebugStyle) (U : CharClass) (s s' : Str) (a b : Body) (ha : parseStr U s = .ok a)
    (hb : parseStr U s' = .ok b) : shownBody D a = shownBody D b ↔
      ∃ c c', Document U s c ∧ Document U s' c' ∧ forgetBody c = forgetBody c' := by
  rw [c101_same_text_iff]
  refine ⟨fun h => ⟨a, b, parseStr_iff.1 ha, parseStr_iff.1 hb, h⟩, ?_⟩
  rintro ⟨c, c', hc, hc', h⟩
  rw [document_functional (parseStr_iff.1 ha) hc, document_functional (parseStr_iff.1 hb) hc']
  exact h

/-- Non-vacuity: equal numbers may have different texts, so the text says more than `==`. -/
example : shownNumber plainStyle toyOne ≠ shownNumber plainStyle toyPlusOne := by
  rw [Ne, c101_same_number_iff]
  decide +kernel

/-- a tree with most kinds of nodes -/
def shownTree : Body :=
  [.attribute (.borrowed ['a']) (.tuple [
      .number ⟨.borrowed "-1.5e2".toList, false, some (.borrowed ['1']), some (.borrowed ['5']), some ⟨true, .borrowed ['2']⟩⟩,
      .string (.borrowed ['"'])]),
   .block (.borrowed ['b']) [.stringLiteral ['c'], .identifier (.borrowed ['d'])] []]

/-- It is read from a document. -/
theorem shownTree_parses : parseStr asciiClass "a = [-1.5e2, <<E\n\"\nE\n]\nb \"c\" d {}\n".toList = .ok shownTree := by
  decide +kernel

/-- Non-vacuity: the whole text of a tree. -/
example : shownBody plainStyle [.block (.borrowed ['b']) [.stringLiteral ['"'], .identifier (.borrowed ['d'])] []] = "[
    Block(
        Block {
            type: \"b\",
            labels: [
                StringLiteral(
                    \"\\\"\",
                ),
                Identifier(
                    \"d\",
                ),
            ],
            body: [],
        },
    ),
]".toList := by
  simp only [shownBody, Body.debug, BodyElement.debugList, BodyElement.debug, Expr.debug, BlockLabel.debug, CowStr.debug, List.map, DTree.pretty, DTree.prettyItems, DTree.prettyEntries]
  decide +kernel

/-- Non-vacuity: a struct. -/
example : (Exponent.debug ⟨true, .borrowed ['2']⟩).pretty plainStyle = "Exponent {
    positive: true,
    exponent: \"2\",
}".toList := by decide +kernel

/-- Non-vacuity: a string kept as written in a heredoc and its owned copy have one text. -/
example : shownBody plainStyle shownTree = shownBody plainStyle shownTree.asOwned ∧ shownTree ≠ shownTree.asOwned :=
  ⟨(c101_owned_copy _ _).symm, by decide +kernel⟩

end Props
end Verif
