import Verif.Model.DebugTree
import Verif.Proofs.Debug
import Verif.Spec.SameBlocks
/-! # The trees given to `Debug` determine parsed trees -/
set_option autoImplicit false

namespace Verif
open Spec

private theorem astNames : CleanWord (lit "Null") ∧ CleanWord (lit "Number") ∧ CleanWord (lit "Boolean") ∧
    CleanWord (lit "String") ∧ CleanWord (lit "Tuple") ∧ CleanWord (lit "Object") ∧ CleanWord (lit "Identifier") ∧
    CleanWord (lit "Expression") ∧ CleanWord (lit "StringLiteral") ∧ CleanWord (lit "Attribute") ∧ CleanWord (lit "Block") ∧
    CleanWord (lit "Exponent") ∧ CleanWord (lit "Some") ∧ CleanWord (lit "Body") ∧ CleanWord (lit "Labels") ∧
    CleanWord (lit "Blocks") ∧ CleanWord [] := by
  unfold CleanWord
  decide +kernel

private theorem word_clean : ∀ s ∈ [lit "Null", lit "None", lit "true", lit "false", lit "positive", lit "exponent", lit "input", lit "whole",
    lit "fraction", lit "type", lit "labels", lit "body", lit "empty", lit "blocks"], (DTree.word s).Clean := by
  simp only [DTree.Clean]
  unfold CleanWord
  decide +kernel

private theorem bool_clean (b : Bool) : (debugBool b).Clean := by
  cases b <;> exact word_clean _ (by decide +kernel)

private theorem cow_clean (s : CowStr) : s.debug.Clean := by
  simp only [CowStr.debug, DTree.Clean]

private theorem option_clean {α : Type} (f : α → DTree) (hf : ∀ x, (f x).Clean) (o : Option α) : (debugOption f o).Clean := by
  cases o with
  | none => exact word_clean _ (by decide +kernel)
  | some x =>
    simp only [debugOption, DTree.Clean, CleanItems]
    exact ⟨astNames.2.2.2.2.2.2.2.2.2.2.2.2.1, hf x, trivial⟩

private theorem exponent_clean (e : Exponent) : e.debug.Clean := by
  unfold Exponent.debug
  rw [DTree.Clean, CleanEntries, CleanEntries, CleanEntries]
  exact ⟨astNames.2.2.2.2.2.2.2.2.2.2.2.1, word_clean _ (by decide +kernel), bool_clean _, word_clean _ (by decide +kernel), cow_clean _, trivial⟩

theorem number_clean (n : Number) : n.debug.Clean := by
  unfold Number.debug
  simp only [DTree.Clean.eq_4, CleanEntries]
  exact ⟨astNames.2.1, word_clean _ (by decide +kernel), cow_clean _, word_clean _ (by decide +kernel), bool_clean _,
    word_clean _ (by decide +kernel), option_clean _ cow_clean _, word_clean _ (by decide +kernel), option_clean _ cow_clean _,
    word_clean _ (by decide +kernel), option_clean _ exponent_clean _, trivial⟩

private theorem objKey_clean (k : ObjKey) : k.debug.Clean := by
  have := astNames
  cases k <;> simp [ObjKey.debug, CowStr.debug, DTree.Clean, CleanItems, this]

private theorem label_clean (l : BlockLabel) : l.debug.Clean := by
  have := astNames
  cases l <;> simp [BlockLabel.debug, CowStr.debug, DTree.Clean, CleanItems, this]

private theorem labelList_clean : ∀ ls : List BlockLabel, CleanItems (ls.map BlockLabel.debug)
  | [] => trivial
  | l :: ls => ⟨label_clean l, labelList_clean ls⟩

mutual
theorem expr_clean : ∀ e : Expr, e.debug.Clean
  | .null => by unfold Expr.debug; exact word_clean _ (by decide +kernel)
  | .number n => by
    rw [Expr.debug, DTree.Clean, CleanItems, CleanItems]
    exact ⟨astNames.2.1, number_clean n, trivial⟩
  | .boolean b => by
    rw [Expr.debug, DTree.Clean, CleanItems, CleanItems]
    exact ⟨astNames.2.2.1, bool_clean b, trivial⟩
  | .string s => by
    rw [Expr.debug, DTree.Clean, CleanItems, CleanItems]
    exact ⟨astNames.2.2.2.1, cow_clean s, trivial⟩
  | .tuple es => by
    rw [Expr.debug, DTree.Clean, CleanItems, CleanItems, DTree.Clean]
    exact ⟨astNames.2.2.2.2.1, tuple_clean es, trivial⟩
  | .object es => by
    rw [Expr.debug, DTree.Clean, CleanItems, CleanItems, DTree.Clean]
    exact ⟨astNames.2.2.2.2.2.1, object_clean es, trivial⟩
private theorem tuple_clean : ∀ es : List Expr, CleanItems (Expr.debugTuple es)
  | [] => by rw [Expr.debugTuple, CleanItems]; trivial
  | e :: es => by
    rw [Expr.debugTuple, CleanItems]
    exact ⟨expr_clean e, tuple_clean es⟩
private theorem object_clean : ∀ es : List (ObjKey × Expr), CleanItems (Expr.debugObject es)
  | [] => by rw [Expr.debugObject, CleanItems]; trivial
  | (k, e) :: es => by
    rw [Expr.debugObject, CleanItems, DTree.Clean, CleanItems, CleanItems, CleanItems]
    exact ⟨⟨astNames.2.2.2.2.2.2.2.2.2.2.2.2.2.2.2.2, objKey_clean k, expr_clean e, trivial⟩, object_clean es⟩
end

mutual
private theorem element_clean : ∀ b : BodyElement, b.debug.Clean
  | .attribute k e => by
    rw [BodyElement.debug, DTree.Clean, CleanItems, CleanItems, DTree.Clean, CleanItems, CleanItems, CleanItems]
    exact ⟨astNames.2.2.2.2.2.2.2.2.2.1, ⟨astNames.2.2.2.2.2.2.2.2.2.2.2.2.2.2.2.2, cow_clean k, expr_clean e, trivial⟩, trivial⟩
  | .block t ls b => by
    rw [BodyElement.debug, DTree.Clean, CleanItems, CleanItems, DTree.Clean, CleanEntries, CleanEntries, CleanEntries, CleanEntries]
    refine ⟨astNames.2.2.2.2.2.2.2.2.2.2.1, ⟨astNames.2.2.2.2.2.2.2.2.2.2.1, word_clean _ (by decide +kernel), cow_clean t,
      word_clean _ (by decide +kernel), ?_, word_clean _ (by decide +kernel), ?_, trivial⟩, trivial⟩
    · rw [DTree.Clean]; exact labelList_clean ls
    · rw [DTree.Clean]; exact elements_clean b
private theorem elements_clean : ∀ b : List BodyElement, CleanItems (BodyElement.debugList b)
  | [] => by rw [BodyElement.debugList, CleanItems]; trivial
  | e :: b => by
    rw [BodyElement.debugList, CleanItems]
    exact ⟨element_clean e, elements_clean b⟩
end

theorem body_clean (b : Body) : b.debug.Clean := by
  unfold Body.debug
  rw [DTree.Clean]
  exact elements_clean b

private theorem bodies_clean : ∀ b : List Body, CleanItems (b.map Body.debug)
  | [] => trivial
  | x :: b => ⟨body_clean x, bodies_clean b⟩

mutual
private theorem blockBody_clean : ∀ b : BlockBody, b.debug.Clean
  | .body bs => by
    rw [BlockBody.debug, DTree.Clean, CleanItems, CleanItems, DTree.Clean]
    exact ⟨astNames.2.2.2.2.2.2.2.2.2.2.2.2.2.1, bodies_clean bs, trivial⟩
  | .labels empty m => by
    rw [BlockBody.debug, DTree.Clean, CleanEntries, CleanEntries, CleanEntries]
    refine ⟨astNames.2.2.2.2.2.2.2.2.2.2.2.2.2.2.1, word_clean _ (by decide +kernel), ?_, word_clean _ (by decide +kernel), ?_, trivial⟩
    · rw [DTree.Clean]; exact bodies_clean empty
    · rw [DTree.Clean]; exact labelMap_clean m
private theorem labelMap_clean : ∀ m : List (BlockLabel × BlockBody), CleanEntries (BlockBody.debugMap m)
  | [] => by rw [BlockBody.debugMap, CleanEntries]; trivial
  | (l, b) :: m => by
    rw [BlockBody.debugMap, CleanEntries]
    exact ⟨label_clean l, blockBody_clean b, labelMap_clean m⟩
end

theorem blocks_clean (b : Blocks) : b.debug.Clean := by
  unfold Blocks.debug
  rw [DTree.Clean, CleanEntries, CleanEntries]
  refine ⟨astNames.2.2.2.2.2.2.2.2.2.2.2.2.2.2.2.1, word_clean _ (by decide +kernel), ?_, trivial⟩
  rw [DTree.Clean]
  induction b with
  | nil => trivial
  | cons p b ih => exact ⟨cow_clean p.1, blockBody_clean p.2, ih⟩

/-! ## injectivity -/

private theorem cow_inj {a b : CowStr} (h : a.debug = b.debug) : forgetStr a = forgetStr b := by
  unfold CowStr.debug at h
  injection h with h
  unfold forgetStr
  rw [h]

private theorem bool_inj {a b : Bool} (h : debugBool a = debugBool b) : a = b := by
  cases a <;> cases b <;> first | rfl | exact absurd (DTree.word.inj h) (by decide +kernel)

private theorem option_inj {α β : Type} {f : α → DTree} {g : α → β} (hf : ∀ x y, f x = f y → g x = g y) {a b : Option α}
    (h : debugOption f a = debugOption f b) : a.map g = b.map g := by
  cases a <;> cases b <;> simp only [debugOption, DTree.tuple.injEq, List.cons.injEq, reduceCtorEq, and_true, true_and] at h
  · rfl
  · simp only [Option.map_some, hf _ _ h]

private theorem exponent_inj {a b : Exponent} (h : a.debug = b.debug) :
    (⟨a.positive, forgetStr a.exponent⟩ : Exponent) = ⟨b.positive, forgetStr b.exponent⟩ := by
  simp only [Exponent.debug, DTree.struct.injEq, List.cons.injEq, Prod.mk.injEq, true_and, and_true] at h
  rw [bool_inj h.1, cow_inj h.2]

theorem number_debug_inj {a b : Number} (h : a.debug = b.debug) : forgetNumber a = forgetNumber b := by
  simp only [Number.debug, DTree.struct.injEq, List.cons.injEq, Prod.mk.injEq, true_and, and_true] at h
  obtain ⟨h1, h2, h3, h4, h5⟩ := h
  unfold forgetNumber
  rw [cow_inj h1, bool_inj h2, option_inj (fun _ _ => cow_inj) h3, option_inj (fun _ _ => cow_inj) h4,
    option_inj (g := fun e => (⟨e.positive, forgetStr e.exponent⟩ : Exponent)) (fun _ _ => exponent_inj) h5]

private theorem objKey_inj {a b : ObjKey} (h : a.debug = b.debug) : forgetKey a = forgetKey b := by
  cases a <;> cases b <;> simp only [ObjKey.debug, DTree.tuple.injEq, List.cons.injEq, and_true, true_and] at h
  · simp only [forgetKey, cow_inj h]
  · exact absurd h.1 (by decide +kernel)
  · exact absurd h.1 (by decide +kernel)
  · simp only [forgetKey, cow_inj h]

private theorem label_inj {a b : BlockLabel} (h : a.debug = b.debug) : forgetLabel a = forgetLabel b := by
  cases a <;> cases b <;> simp only [BlockLabel.debug, DTree.tuple.injEq, List.cons.injEq, and_true, true_and] at h
  · injection h with h; rw [h]
  · exact absurd h.1 (by decide +kernel)
  · exact absurd h.1 (by decide +kernel)
  · simp only [forgetLabel, cow_inj h]

private theorem map_inj {α β γ : Type} {f : α → β} {g : α → γ} (hf : ∀ x y, f x = f y → g x = g y) : ∀ {a b : List α},
    a.map f = b.map f → a.map g = b.map g
  | [], [], _ => rfl
  | [], _ :: _, h => by simp at h
  | _ :: _, [], h => by simp at h
  | x :: a, y :: b, h => by
    simp only [List.map_cons, List.cons.injEq] at h ⊢
    exact ⟨hf _ _ h.1, map_inj hf h.2⟩

mutual
theorem expr_debug_inj : ∀ e f : Expr, e.debug = f.debug → forgetExpr e = forgetExpr f
  | .null, f, h => by cases f <;> simp only [Expr.debug, reduceCtorEq] at h; rfl
  | .number n, f, h => by
    cases f <;> simp only [Expr.debug, DTree.tuple.injEq, List.cons.injEq, reduceCtorEq, and_true, true_and] at h <;>
      first | exact absurd h.1 (by decide +kernel) | simp only [forgetExpr, number_debug_inj h]
  | .boolean n, f, h => by
    cases f <;> simp only [Expr.debug, DTree.tuple.injEq, List.cons.injEq, reduceCtorEq, and_true, true_and] at h <;>
      first | exact absurd h.1 (by decide +kernel) | simp only [forgetExpr, bool_inj h]
  | .string n, f, h => by
    cases f <;> simp only [Expr.debug, DTree.tuple.injEq, List.cons.injEq, reduceCtorEq, and_true, true_and] at h <;>
      first | exact absurd h.1 (by decide +kernel) | simp only [forgetExpr, cow_inj h]
  | .tuple n, f, h => by
    cases f <;> simp only [Expr.debug, DTree.tuple.injEq, List.cons.injEq, DTree.list.injEq, reduceCtorEq, and_true, true_and] at h <;>
      first | exact absurd h.1 (by decide +kernel) | simp only [forgetExpr, tuple_inj n _ h]
  | .object n, f, h => by
    cases f <;> simp only [Expr.debug, DTree.tuple.injEq, List.cons.injEq, DTree.list.injEq, reduceCtorEq, and_true, true_and] at h <;>
      first | exact absurd h.1 (by decide +kernel) | simp only [forgetExpr, object_inj n _ h]
private theorem tuple_inj : ∀ a b : List Expr, Expr.debugTuple a = Expr.debugTuple b → forgetTuple a = forgetTuple b
  | [], b, h => by cases b <;> simp only [Expr.debugTuple, reduceCtorEq] at h; rfl
  | x :: a, b, h => by
    cases b <;> simp only [Expr.debugTuple, reduceCtorEq, List.cons.injEq] at h
    simp only [forgetTuple, expr_debug_inj x _ h.1, tuple_inj a _ h.2]
private theorem object_inj : ∀ a b : List (ObjKey × Expr), Expr.debugObject a = Expr.debugObject b → forgetObject a = forgetObject b
  | [], b, h => by
    cases b with
    | nil => rfl
    | cons p b => obtain ⟨k, e⟩ := p; simp only [Expr.debugObject, reduceCtorEq] at h
  | (k, x) :: a, b, h => by
    cases b with
    | nil => simp only [Expr.debugObject, reduceCtorEq] at h
    | cons p b =>
      obtain ⟨l, y⟩ := p
      simp only [Expr.debugObject, List.cons.injEq, DTree.tuple.injEq, true_and, and_true] at h
      simp only [forgetObject, objKey_inj h.1.1, expr_debug_inj x _ h.1.2, object_inj a _ h.2]
end

mutual
private theorem element_inj : ∀ a b : BodyElement, a.debug = b.debug → forgetElement a = forgetElement b
  | .attribute k e, b, h => by
    cases b with
    | «attribute» l f =>
      simp only [BodyElement.debug, DTree.tuple.injEq, List.cons.injEq, true_and, and_true] at h
      simp only [forgetElement, cow_inj h.1, expr_debug_inj e f h.2]
    | block t ls b =>
      simp only [BodyElement.debug, DTree.tuple.injEq] at h
      exact absurd h.1 (by decide +kernel)
  | .block t ls x, b, h => by
    cases b with
    | «attribute» l f =>
      simp only [BodyElement.debug, DTree.tuple.injEq] at h
      exact absurd h.1 (by decide +kernel)
    | block u ms y =>
      simp only [BodyElement.debug, DTree.tuple.injEq, DTree.struct.injEq, DTree.list.injEq, List.cons.injEq, Prod.mk.injEq, true_and,
        and_true] at h
      simp only [forgetElement, cow_inj h.1, map_inj (fun _ _ => label_inj) h.2.1, elements_inj x y h.2.2]
private theorem elements_inj : ∀ a b : List BodyElement, BodyElement.debugList a = BodyElement.debugList b → forgetBody a = forgetBody b
  | [], b, h => by cases b <;> simp only [BodyElement.debugList, reduceCtorEq] at h; rfl
  | x :: a, b, h => by
    cases b <;> simp only [BodyElement.debugList, reduceCtorEq, List.cons.injEq] at h
    simp only [forgetBody, element_inj x _ h.1, elements_inj a _ h.2]
end

theorem body_debug_inj {a b : Body} (h : a.debug = b.debug) : forgetBody a = forgetBody b := by
  unfold Body.debug at h
  injection h with h
  exact elements_inj a b h

mutual
private theorem blockBody_inj : ∀ a b : BlockBody, a.debug = b.debug → forgetBlockBody a = forgetBlockBody b
  | .body x, b, h => by
    cases b <;> simp only [BlockBody.debug, DTree.tuple.injEq, List.cons.injEq, DTree.list.injEq, reduceCtorEq, true_and, and_true] at h
    simp only [forgetBlockBody, map_inj (fun _ _ => body_debug_inj) h]
  | .labels x m, b, h => by
    cases b <;> simp only [BlockBody.debug, DTree.struct.injEq, List.cons.injEq, Prod.mk.injEq, DTree.list.injEq, DTree.map.injEq,
      reduceCtorEq, true_and, and_true] at h
    simp only [forgetBlockBody, map_inj (fun _ _ => body_debug_inj) h.1, labelMap_inj m _ h.2]
private theorem labelMap_inj : ∀ a b : List (BlockLabel × BlockBody), BlockBody.debugMap a = BlockBody.debugMap b →
    forgetLabels a = forgetLabels b
  | [], b, h => by
    cases b with
    | nil => rfl
    | cons p b => obtain ⟨k, e⟩ := p; simp only [BlockBody.debugMap, reduceCtorEq] at h
  | (k, x) :: a, b, h => by
    cases b with
    | nil => simp only [BlockBody.debugMap, reduceCtorEq] at h
    | cons p b =>
      obtain ⟨l, y⟩ := p
      simp only [BlockBody.debugMap, List.cons.injEq, Prod.mk.injEq] at h
      simp only [forgetLabels, label_inj h.1.1, blockBody_inj x _ h.1.2, labelMap_inj a _ h.2]
end

theorem blocks_debug_inj {a b : Blocks} (h : a.debug = b.debug) : forgetBlocks a = forgetBlocks b := by
  simp only [Blocks.debug, DTree.struct.injEq, List.cons.injEq, Prod.mk.injEq, DTree.map.injEq, true_and, and_true] at h
  unfold forgetBlocks
  refine map_inj (fun x y h => ?_) h
  simp only [Prod.mk.injEq] at h
  simp only [cow_inj h.1, blockBody_inj _ _ h.2]

/-! ## ownership is not shown -/

private theorem number_forget (n : Number) : (forgetNumber n).debug = n.debug := by
  obtain ⟨i, p, w, f, e⟩ := n
  cases w <;> cases f <;> cases e <;> rfl

private theorem objKey_forget (k : ObjKey) : (forgetKey k).debug = k.debug := by cases k <;> rfl

private theorem label_forget (k : BlockLabel) : (forgetLabel k).debug = k.debug := by cases k <;> rfl

mutual
private theorem expr_forget : ∀ e : Expr, (forgetExpr e).debug = e.debug
  | .null => rfl
  | .number n => by simp only [forgetExpr, Expr.debug, number_forget]
  | .boolean _ => rfl
  | .string _ => rfl
  | .tuple es => by simp only [forgetExpr, Expr.debug, tuple_forget es]
  | .object es => by simp only [forgetExpr, Expr.debug, object_forget es]
private theorem tuple_forget : ∀ es : List Expr, Expr.debugTuple (forgetTuple es) = Expr.debugTuple es
  | [] => rfl
  | e :: es => by simp only [forgetTuple, Expr.debugTuple, expr_forget e, tuple_forget es]
private theorem object_forget : ∀ es : List (ObjKey × Expr), Expr.debugObject (forgetObject es) = Expr.debugObject es
  | [] => rfl
  | (k, e) :: es => by simp only [forgetObject, Expr.debugObject, objKey_forget k, expr_forget e, object_forget es]
end

mutual
private theorem element_forget : ∀ e : BodyElement, (forgetElement e).debug = e.debug
  | .attribute k e => by simp only [forgetElement, BodyElement.debug, expr_forget e]; rfl
  | .block t ls b => by
    simp only [forgetElement, BodyElement.debug, elements_forget b, List.map_map]
    rw [show (BlockLabel.debug ∘ forgetLabel) = BlockLabel.debug from funext label_forget]
    rfl
private theorem elements_forget : ∀ b : List BodyElement, BodyElement.debugList (forgetBody b) = BodyElement.debugList b
  | [] => rfl
  | e :: b => by simp only [forgetBody, BodyElement.debugList, element_forget e, elements_forget b]
end

private theorem body_forget (b : Body) : Body.debug (forgetBody b) = b.debug := by unfold Body.debug; rw [elements_forget]

private theorem bodies_forget (b : List Body) : (b.map forgetBody).map Body.debug = b.map Body.debug := by
  rw [List.map_map, show (Body.debug ∘ forgetBody) = Body.debug from funext body_forget]

mutual
private theorem blockBody_forget : ∀ b : BlockBody, (forgetBlockBody b).debug = b.debug
  | .body x => by simp only [forgetBlockBody, BlockBody.debug, bodies_forget]
  | .labels x m => by simp only [forgetBlockBody, BlockBody.debug, bodies_forget, labelMap_forget m]
private theorem labelMap_forget : ∀ m : List (BlockLabel × BlockBody), BlockBody.debugMap (forgetLabels m) = BlockBody.debugMap m
  | [] => rfl
  | (l, b) :: m => by simp only [forgetLabels, BlockBody.debugMap, label_forget, blockBody_forget b, labelMap_forget m]
end

private theorem blocks_forget (b : Blocks) : (forgetBlocks b).debug = b.debug := by
  unfold Blocks.debug forgetBlocks
  rw [List.map_map]
  congr 5
  funext p
  obtain ⟨t, x⟩ := p
  simp only [Function.comp, blockBody_forget x]
  rfl

theorem number_shown (D : DebugStyle) (a b : Number) : shownNumber D a = shownNumber D b ↔ forgetNumber a = forgetNumber b :=
  ⟨fun h => number_debug_inj (pretty_inj D _ _ (number_clean a) (number_clean b) h),
    fun h => by unfold shownNumber; rw [← number_forget a, h, number_forget]⟩

theorem expr_shown (D : DebugStyle) (a b : Expr) : shownExpr D a = shownExpr D b ↔ forgetExpr a = forgetExpr b :=
  ⟨fun h => expr_debug_inj _ _ (pretty_inj D _ _ (expr_clean a) (expr_clean b) h),
    fun h => by unfold shownExpr; rw [← expr_forget a, h, expr_forget]⟩

theorem body_shown (D : DebugStyle) (a b : Body) : shownBody D a = shownBody D b ↔ forgetBody a = forgetBody b :=
  ⟨fun h => body_debug_inj (pretty_inj D _ _ (body_clean a) (body_clean b) h),
    fun h => by unfold shownBody; rw [← body_forget a, h, body_forget]⟩

theorem blocks_shown (D : DebugStyle) (a b : Blocks) : shownBlocks D a = shownBlocks D b ↔ forgetBlocks a = forgetBlocks b :=
  ⟨fun h => blocks_debug_inj (pretty_inj D _ _ (blocks_clean a) (blocks_clean b) h),
    fun h => by unfold shownBlocks; rw [← blocks_forget a, h, blocks_forget]⟩

end Verif
