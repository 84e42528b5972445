import Verif.Proofs.Utf8
import Verif.Proofs.Decide
import Verif.Spec.Same
import Verif.Props.Literals
/-! # Other entry points and ownership: C18, C19, and part of C51 -/
set_option autoImplicit false

namespace Verif.Props
open Verif Spec PRes

variable (U : CharClass)

/-! ## C19 -/

theorem forget_asOwned_str (s : CowStr) : forgetStr s.asOwned = forgetStr s := rfl

theorem forget_asOwned_number (n : Number) : forgetNumber n.asOwned = forgetNumber n := by
  obtain ⟨i, p, w, f, e⟩ := n
  cases w <;> cases f <;> cases e <;> rfl

theorem forget_asOwned_key (k : ObjKey) : forgetKey k.asOwned = forgetKey k := by cases k <;> rfl

mutual
theorem forget_asOwned_expr : ∀ e : Expr, forgetExpr e.asOwned = forgetExpr e
  | .null => rfl
  | .number n => by simp [Expr.asOwned, forgetExpr, forget_asOwned_number]
  | .boolean b => rfl
  | .string s => rfl
  | .tuple es => by simp [Expr.asOwned, forgetExpr, forget_asOwned_list es]
  | .object es => by simp [Expr.asOwned, forgetExpr, forget_asOwned_pairs es]
theorem forget_asOwned_list : ∀ es : List Expr, forgetTuple (Expr.asOwnedList es) = forgetTuple es
  | [] => rfl
  | e :: es => by simp [Expr.asOwnedList, forgetTuple, forget_asOwned_expr e, forget_asOwned_list es]
theorem forget_asOwned_pairs : ∀ es : List (ObjKey × Expr), forgetObject (Expr.asOwnedPairs es) = forgetObject es
  | [] => rfl
  | (k, e) :: es => by
    simp [Expr.asOwnedPairs, forgetObject, forget_asOwned_expr e, forget_asOwned_pairs es, forget_asOwned_key]
end

theorem forget_asOwned_label (l : BlockLabel) : forgetLabel l.asOwned = forgetLabel l := by cases l <;> rfl

mutual
theorem forget_asOwned_element : ∀ e : BodyElement, forgetElement e.asOwned = forgetElement e
  | .attribute k e => by simp [BodyElement.asOwned, forgetElement, forget_asOwned_expr, forget_asOwned_str]
  | .block t ls b => by
    simp [BodyElement.asOwned, forgetElement, forget_asOwned_str, forget_asOwned_body b, forget_asOwned_label]
theorem forget_asOwned_body : ∀ b : List BodyElement, forgetBody (BodyElement.asOwnedList b) = forgetBody b
  | [] => rfl
  | e :: es => by simp [BodyElement.asOwnedList, forgetBody, forget_asOwned_element e, forget_asOwned_body es]
end

/-- C19: `as_owned` changes nothing but ownership: the same tree, up to ownership of strings. -/
theorem c19_same_tree (b : Body) : forgetBody b.asOwned = forgetBody b := forget_asOwned_body b

theorem c19_same_expression (e : Expr) : forgetExpr e.asOwned = forgetExpr e := forget_asOwned_expr e

theorem number_leaf_owned (n : Number) : LeafOwned (.number n.asOwned) := by
  obtain ⟨i, p, w, f, e⟩ := n
  refine ⟨rfl, ?_, ?_, ?_⟩ <;> intro s hs <;> simp [Number.asOwned] at hs <;> obtain ⟨x, -, rfl⟩ := hs <;> rfl

theorem key_leaf_owned (k : ObjKey) : LeafOwned (.key k.asOwned) := by cases k <;> rfl
theorem label_leaf_owned (l : BlockLabel) : LeafOwned (.label l.asOwned) := by cases l <;> first | rfl | trivial

mutual
theorem expr_owned : ∀ e : Expr, ∀ l ∈ exprLeaves e.asOwned, LeafOwned l
  | .null => by simp [Expr.asOwned, exprLeaves]
  | .number n => by simp [Expr.asOwned, exprLeaves, number_leaf_owned]
  | .boolean b => by simp [Expr.asOwned, exprLeaves]
  | .string s => by simp [Expr.asOwned, exprLeaves, LeafOwned, CowStr.asOwned, CowStr.ownedS]
  | .tuple es => by simpa [Expr.asOwned, exprLeaves] using tuple_owned es
  | .object es => by simpa [Expr.asOwned, exprLeaves] using object_owned es
theorem tuple_owned : ∀ es : List Expr, ∀ l ∈ tupleLeaves (Expr.asOwnedList es), LeafOwned l
  | [] => by simp [Expr.asOwnedList, tupleLeaves]
  | e :: es => by
    intro l hl
    rw [Expr.asOwnedList, tupleLeaves, List.mem_append] at hl
    rcases hl with h | h
    · exact expr_owned e l h
    · exact tuple_owned es l h
theorem object_owned : ∀ es : List (ObjKey × Expr), ∀ l ∈ objectLeaves (Expr.asOwnedPairs es), LeafOwned l
  | [] => by simp [Expr.asOwnedPairs, objectLeaves]
  | (k, e) :: es => by
    intro l hl
    rw [Expr.asOwnedPairs, objectLeaves, List.mem_cons, List.mem_append] at hl
    rcases hl with rfl | h | h
    · exact key_leaf_owned k
    · exact expr_owned e l h
    · exact object_owned es l h
end

mutual
theorem element_owned : ∀ e : BodyElement, ∀ l ∈ elementLeaves e.asOwned, LeafOwned l
  | .attribute k e => by
    intro l hl
    rw [BodyElement.asOwned, elementLeaves, List.mem_cons] at hl
    rcases hl with rfl | h
    · rfl
    · exact expr_owned e l h
  | .block t ls b => by
    intro l hl
    rw [BodyElement.asOwned, elementLeaves, List.mem_cons, List.mem_append] at hl
    rcases hl with rfl | h | h
    · rfl
    · simp only [List.map_map, List.mem_map] at h
      obtain ⟨x, -, rfl⟩ := h
      exact label_leaf_owned x
    · exact body_owned b l h
theorem body_owned : ∀ b : List BodyElement, ∀ l ∈ bodyLeaves (BodyElement.asOwnedList b), LeafOwned l
  | [] => by simp [BodyElement.asOwnedList, bodyLeaves]
  | e :: es => by
    intro l hl
    rw [BodyElement.asOwnedList, bodyLeaves, List.mem_append] at hl
    rcases hl with h | h
    · exact element_owned e l h
    · exact body_owned es l h
end

/-- C19: every string of the result is owned: nothing borrows from the input any more. -/
theorem c19_everything_owned (b : Body) : ∀ l ∈ bodyLeaves b.asOwned, LeafOwned l := body_owned b

theorem asOwned_idem_number (n : Number) : n.asOwned.asOwned = n.asOwned := by
  obtain ⟨i, p, w, f, e⟩ := n
  cases w <;> cases f <;> cases e <;> rfl

mutual
theorem asOwned_idem_expr : ∀ e : Expr, e.asOwned.asOwned = e.asOwned
  | .null => rfl
  | .number n => by simp [Expr.asOwned, asOwned_idem_number]
  | .boolean b => rfl
  | .string s => rfl
  | .tuple es => by simp [Expr.asOwned, asOwned_idem_list es]
  | .object es => by simp [Expr.asOwned, asOwned_idem_pairs es]
theorem asOwned_idem_list : ∀ es : List Expr, Expr.asOwnedList (Expr.asOwnedList es) = Expr.asOwnedList es
  | [] => rfl
  | e :: es => by simp [Expr.asOwnedList, asOwned_idem_expr e, asOwned_idem_list es]
theorem asOwned_idem_pairs : ∀ es : List (ObjKey × Expr), Expr.asOwnedPairs (Expr.asOwnedPairs es) = Expr.asOwnedPairs es
  | [] => rfl
  | (k, e) :: es => by
    have : k.asOwned.asOwned = k.asOwned := by cases k <;> rfl
    simp [Expr.asOwnedPairs, asOwned_idem_expr e, asOwned_idem_pairs es, this]
end

mutual
theorem asOwned_idem_element : ∀ e : BodyElement, e.asOwned.asOwned = e.asOwned
  | .attribute k e => by simp [BodyElement.asOwned, asOwned_idem_expr, CowStr.asOwned, CowStr.ownedS]
  | .block t ls b => by
    have : ∀ l : BlockLabel, l.asOwned.asOwned = l.asOwned := by intro l; cases l <;> rfl
    simp [BodyElement.asOwned, CowStr.asOwned, CowStr.ownedS, asOwned_idem_body b, this]
theorem asOwned_idem_body : ∀ b : List BodyElement,
    BodyElement.asOwnedList (BodyElement.asOwnedList b) = BodyElement.asOwnedList b
  | [] => rfl
  | e :: es => by simp [BodyElement.asOwnedList, asOwned_idem_element e, asOwned_idem_body es]
end

/-- C19: `as_owned` is idempotent. -/
theorem c19_idempotent (b : Body) : b.asOwned.asOwned = b.asOwned := asOwned_idem_body b

/-! Rust's `==` cannot see the difference either. -/

theorem number_eq_asOwned (O : FloatOps) (n m : Number) : n.asOwned.eq O m = n.eq O m := by
  have h1 : n.asOwned.isSigned = n.isSigned := by
    obtain ⟨i, p, w, f, e⟩ := n; cases f <;> cases e <;> rfl
  have h2 : n.asOwned.isFloat = n.isFloat := by simp [Number.isFloat, h1]
  have h3 : n.asOwned.isUnsigned = n.isUnsigned := by simp [Number.isUnsigned, h1]; rfl
  unfold Number.eq
  rw [h2, h3]
  rfl

theorem key_eq_asOwned (k l : ObjKey) : k.asOwned.eq l = k.eq l := by cases k <;> cases l <;> rfl

mutual
theorem expr_eq_asOwned (O : FloatOps) : ∀ a b : Expr, a.asOwned.eq O b = a.eq O b
  | .null, b => rfl
  | .number n, b => by cases b <;> simp [Expr.asOwned, Expr.eq, number_eq_asOwned]
  | .boolean _, b => rfl
  | .string s, b => by cases b <;> rfl
  | .tuple es, b => by cases b <;> simp [Expr.asOwned, Expr.eq, list_eq_asOwned O es]
  | .object es, b => by cases b <;> simp [Expr.asOwned, Expr.eq, pairs_eq_asOwned O es]
theorem list_eq_asOwned (O : FloatOps) : ∀ a b : List Expr, Expr.eqList O (Expr.asOwnedList a) b = Expr.eqList O a b
  | [], b => rfl
  | a :: as, b => by cases b <;> simp [Expr.asOwnedList, Expr.eqList, expr_eq_asOwned O a, list_eq_asOwned O as]
theorem pairs_eq_asOwned (O : FloatOps) : ∀ a b : List (ObjKey × Expr),
    Expr.eqPairs O (Expr.asOwnedPairs a) b = Expr.eqPairs O a b
  | [], b => rfl
  | (k, a) :: as, b => by
    cases b with
    | nil => rfl
    | cons p bs =>
      obtain ⟨l, b⟩ := p
      simp [Expr.asOwnedPairs, Expr.eqPairs, expr_eq_asOwned O a, pairs_eq_asOwned O as, key_eq_asOwned]
end

theorem labels_eq_asOwned : ∀ a b : List BlockLabel,
    BlockLabel.eqList (a.map BlockLabel.asOwned) b = BlockLabel.eqList a b
  | [], b => rfl
  | a :: as, b => by
    cases b with
    | nil => rfl
    | cons b bs =>
      have : a.asOwned.eq b = a.eq b := by cases a <;> cases b <;> rfl
      simp [BlockLabel.eqList, labels_eq_asOwned as, this]

mutual
theorem element_eq_asOwned (O : FloatOps) : ∀ a b : BodyElement, a.asOwned.eq O b = a.eq O b
  | .attribute k e, b => by cases b <;> simp [BodyElement.asOwned, BodyElement.eq, expr_eq_asOwned]; rfl
  | .block t ls c, b => by
    cases b with
    | «attribute» => simp [BodyElement.asOwned, BodyElement.eq]
    | block => simp [BodyElement.asOwned, BodyElement.eq, body_eq_asOwned O c, labels_eq_asOwned]; rfl
theorem body_eq_asOwned (O : FloatOps) : ∀ a b : List BodyElement,
    BodyElement.eqList O (BodyElement.asOwnedList a) b = BodyElement.eqList O a b
  | [], b => rfl
  | a :: as, b => by
    cases b <;> simp [BodyElement.asOwnedList, BodyElement.eqList, element_eq_asOwned O a, body_eq_asOwned O as]
end

/-- C19: Rust's `==` compares `b.as_owned()` with any body exactly as it compares `b`. -/
theorem c19_equality_unchanged (O : FloatOps) (a b : Body) :
    BodyElement.eqList O a.asOwned b = BodyElement.eqList O a b := body_eq_asOwned O a b

example : Body.asOwned exampleTree ≠ exampleTree ∧ bodyLeaves exampleTree ≠ [] := by
  constructor
  · decide +kernel
  · simp [exampleTree, bodyLeaves, elementLeaves]

/-! ## C18 -/

/-- C18: `parse_slice` succeeds exactly on the UTF-8 encoding of a document, with the tree `parse_str` returns. -/
theorem c18_parse_slice (bytes : List Nat) (b : Body) :
    parseSlice U bytes = .ok b ↔ ∃ s, bytes = utf8 s ∧ parseStr U s = .ok b := by
  unfold parseSlice
  constructor
  · intro h
    split at h
    · cases h
    · rename_i s hs; exact ⟨s, fromUtf8_iff.1 hs, h⟩
  · rintro ⟨s, rfl, h⟩
    rw [fromUtf8_iff.2 rfl]; exact h

/-- C18: on the encoding of a text, `parse_slice` does exactly what `parse_str` does, also when that is an error. -/
theorem c18_parse_slice_of_text (s : Str) : parseSlice U (utf8 s) = parseStr U s := by
  unfold parseSlice; rw [fromUtf8_iff.2 rfl]

/-- C18: invalid UTF-8 is an error. -/
theorem c18_parse_slice_invalid (bytes : List Nat) (h : ∀ s, bytes ≠ utf8 s) : parseSlice U bytes = .error .utf8 := by
  unfold parseSlice
  cases hf : fromUtf8 bytes with
  | none => rfl
  | some s => exact absurd (fromUtf8_iff.1 hf) (h s)

/-- What a reader delivers: the bytes of the chunks, interruptions being retried, up to the first empty chunk or the
end; `none` if an error comes first. -/
inductive Delivers : List ReadEvent → Option (List Nat) → Prop
  | done : Delivers [] (some [])
  | eof (es : List ReadEvent) : Delivers (.data [] :: es) (some [])
  | chunk (bs : List Nat) (es : List ReadEvent) (r : List Nat) : bs ≠ [] → Delivers es (some r) →
      Delivers (.data bs :: es) (some (bs ++ r))
  | chunkErr (bs : List Nat) (es : List ReadEvent) : bs ≠ [] → Delivers es none → Delivers (.data bs :: es) none
  | interrupted (es : List ReadEvent) (r : Option (List Nat)) : Delivers es r → Delivers (.interrupted :: es) r
  | error (es : List ReadEvent) : Delivers (.error :: es) none

theorem delivers_iff {es : List ReadEvent} {r : Option (List Nat)} : Delivers es r ↔ readToEnd es = r := by
  induction es generalizing r with
  | nil =>
    constructor
    · intro h; cases h; rfl
    · rintro rfl; exact .done
  | cons e es ih =>
    cases e with
    | data bs =>
      cases bs with
      | nil =>
        constructor
        · intro h
          cases h with
          | eof => rfl
          | chunk => contradiction
          | chunkErr => contradiction
        · rintro rfl; exact .eof _
      | cons b bs =>
        constructor
        · intro h
          cases h with
          | chunk _ _ _ _ h => rw [readToEnd, ih.1 h]; rfl
          | chunkErr _ _ _ h => rw [readToEnd, ih.1 h]; rfl
        · rintro rfl
          rw [readToEnd]
          cases hr : readToEnd es with
          | none => exact .chunkErr _ _ (by simp) (ih.2 hr)
          | some r => exact .chunk _ _ _ (by simp) (ih.2 hr)
    | interrupted =>
      constructor
      · intro h; cases h with | interrupted _ _ h => exact ih.1 h
      · rintro rfl; exact .interrupted _ _ (ih.2 rfl)
    | error =>
      constructor
      · intro h; cases h; rfl
      · rintro rfl; exact .error _

/-- C18: `parse_reader` succeeds exactly when the reader delivers, in whatever chunks, the UTF-8 encoding of a
document; the tree is the one `parse_str` returns, made owned. -/
theorem c18_parse_reader (es : List ReadEvent) (b : Body) :
    parseReader U es = .ok b ↔
      ∃ s b', Delivers es (some (utf8 s)) ∧ parseStr U s = .ok b' ∧ b = b'.asOwned := by
  simp only [delivers_iff]
  unfold parseReader
  constructor
  · intro h
    split at h
    · cases h
    · rename_i bytes hb
      split at h
      · cases h
      · rename_i s hs
        split at h
        · rename_i b' hp
          injection h with h
          exact ⟨s, b', by rw [hb, fromUtf8_iff.1 hs], hp, h.symm⟩
        · cases h
        · cases h
        · cases h
  · rintro ⟨s, b', h1, h2, rfl⟩
    rw [h1]
    simp only []
    rw [fromUtf8_iff.2 rfl]
    simp only []
    rw [h2]

/-- C18: read errors and invalid UTF-8 are errors, never a tree. -/
theorem c18_parse_reader_fails (es : List ReadEvent)
    (h : Delivers es none ∨ ∃ bytes, Delivers es (some bytes) ∧ ∀ s, bytes ≠ utf8 s) :
    parseReader U es = .error .io := by
  unfold parseReader
  rcases h with h | ⟨bytes, h, hs⟩
  · rw [delivers_iff.1 h]
  · rw [delivers_iff.1 h]
    simp only []
    cases hf : fromUtf8 bytes with
    | none => rfl
    | some s => exact absurd (fromUtf8_iff.1 hf) (hs s)

/-- Non-vacuity: a two-byte character split between chunks; an overlong encoding. -/
example : parseReader asciiClass [.data [97, 61, 34, 0xC3], .interrupted, .data [0xB6, 34], .data []] =
    .ok [.attribute (.ownedS ['a']) (.string (.ownedS ['ö']))] := by decide +kernel
example : parseSlice asciiClass [0xC0, 0x80] = .error .utf8 := by decide +kernel

/-! ## C51 (the parser's part) -/

/-- C51: every borrowed string in the tree of a document is a contiguous piece of the document. -/
theorem c51_borrowed_strings_are_slices (s : Str) (b : Body) (v : CowStr) (h : parseStr U s = .ok b)
    (hv : .string v ∈ bodyLeaves b) (hb : v.owned = false) : v.str <:+: s := by
  rw [parseStr_iff] at h
  have := isBody_leaves h _ hv
  cases this with
  | borrowed t h => exact h
  | owned t => cases hb

end Verif.Props
