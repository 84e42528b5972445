import Verif.Proofs.DebugLine
import Verif.Proofs.DebugTree
import Verif.Proofs.DebugValue
import Verif.Spec.Line
import Verif.Props.DebugTree
/-! # C102: the `{:?}` text is the tree as a Rust term on one line, and determines the tree -/
set_option autoImplicit false

namespace Verif
open Spec

section
variable (D : DebugStyle)

/-- strings, integers and floats as std writes them -/
def texts : Texts := ⟨debugStr D, decimalInt, D.f64⟩

private theorem commas_cons (a b : Str) (l : List Str) : commas (a :: b :: l) = a ++ (", ".toList ++ commas (b :: l)) := by
  simp [commas, List.intercalate]

private theorem commas_one (a : Str) : commas [a] = a := by simp [commas, List.intercalate]

/-- items -/
private theorem items_line : ∀ ts : List DTree, DTree.lineItems D ts = commas (ts.map (DTree.line D)) ∧
    ∀ t : DTree, t.line D ++ DTree.lineMore D ts = commas ((t :: ts).map (DTree.line D))
  | [] => ⟨rfl, fun t => by simp [DTree.lineMore, commas_one]⟩
  | t :: ts => by
    have ih := (items_line ts).2
    refine ⟨by rw [DTree.lineItems, ih], fun u => ?_⟩
    rw [DTree.lineMore, List.append_assoc, ih t]
    simp only [List.map_cons, commas_cons]
    rfl

/-- an entry -/
private def entryLine (p : DTree × DTree) : Str := colonLine (p.1.line D) (p.2.line D)

/-- entries -/
private theorem entries_line : ∀ ts : List (DTree × DTree), DTree.lineEntries D ts = commas (ts.map (entryLine D)) ∧
    ∀ t : DTree × DTree, entryLine D t ++ DTree.lineMoreEntries D ts = commas ((t :: ts).map (entryLine D))
  | [] => ⟨rfl, fun t => by simp [DTree.lineMoreEntries, commas_one]⟩
  | (a, b) :: ts => by
    have ih := (entries_line ts).2
    refine ⟨?_, fun u => ?_⟩
    · rw [← ih (a, b)]; simp [DTree.lineEntries, entryLine, colonLine]
    · simp only [List.map_cons, commas_cons]
      have := ih (a, b)
      simp only [List.map_cons] at this
      rw [← this]
      simp [DTree.lineMoreEntries, entryLine, colonLine]

theorem line_call (n : String) (t : DTree) : (DTree.tuple n.toList [t]).line D = callLine n (t.line D) := by
  simp [DTree.line, DTree.lineItems, DTree.lineMore, callLine]

theorem line_couple (a b : DTree) : (DTree.tuple [] [a, b]).line D = coupleLine (a.line D) (b.line D) := by
  simp [DTree.line, DTree.lineItems, DTree.lineMore, coupleLine]

theorem line_list (ts : List DTree) : (DTree.list ts).line D = listLine (ts.map (DTree.line D)) := by
  rw [DTree.line, (items_line D ts).1]; rfl

theorem line_map (ts : List (DTree × DTree)) :
    (DTree.map ts).line D = mapLine (ts.map fun p => colonLine (p.1.line D) (p.2.line D)) := by
  rw [DTree.line, (entries_line D ts).1]; rfl

theorem line_struct (n : String) (ts : List (DTree × DTree)) :
    (DTree.struct n.toList ts).line D = recordLine n (ts.map fun p => colonLine (p.1.line D) (p.2.line D)) := by
  rw [DTree.line, (entries_line D ts).1]; rfl

theorem line_word (s : Str) : (DTree.word s).line D = s := by rw [DTree.line]

theorem line_cow (s : CowStr) : s.debug.line D = (texts D).str s.str := by rw [CowStr.debug, DTree.line]; rfl

theorem line_bool (b : Bool) : (debugBool b).line D = boolLine b := by cases b <;> rfl

theorem line_option : ∀ o : Option CowStr, (debugOption CowStr.debug o).line D = optLine (texts D) o
  | none => rfl
  | some s => by simp only [debugOption, lit, line_call, line_cow, optLine]

theorem line_exponent (e : Exponent) : e.debug.line D = exponentLine (texts D) e := by
  simp only [Exponent.debug, lit, line_struct, List.map, line_bool, line_cow, exponentLine, line_word]

theorem line_number (n : Number) : n.debug.line D = numberLine (texts D) n := by
  obtain ⟨i, p, w, f, e⟩ := n
  cases e with
  | none =>
    have h : (debugOption Exponent.debug none).line D = "None".toList := rfl
    simp only [Number.debug, lit, line_struct, List.map, line_bool, line_cow, numberLine, line_word, line_option, h]
  | some e =>
    have h : (debugOption Exponent.debug (some e)).line D = callLine "Some" (exponentLine (texts D) e) := by
      simp only [debugOption, lit, line_call, line_exponent]
    simp only [Number.debug, lit, line_struct, List.map, line_bool, line_cow, numberLine, line_word, line_option, h]

theorem line_objKey : ∀ k : ObjKey, k.debug.line D = objKeyLine (texts D) k
  | .ident s => by simp only [ObjKey.debug, lit, line_call, line_cow, objKeyLine]
  | .expr s => by simp only [ObjKey.debug, lit, line_call, line_cow, objKeyLine]

mutual
theorem line_expr : ∀ e : Expr, e.debug.line D = exprLine (texts D) e
  | .null => by simp only [Expr.debug, lit, line_word, exprLine]
  | .number n => by simp only [Expr.debug, lit, line_call, line_number, exprLine]
  | .boolean b => by simp only [Expr.debug, lit, line_call, line_bool, exprLine]
  | .string s => by simp only [Expr.debug, lit, line_call, line_cow, exprLine]
  | .tuple es => by simp only [Expr.debug, lit, line_call, line_list, line_exprs es, exprLine]
  | .object es => by simp only [Expr.debug, lit, line_call, line_list, line_pairs es, exprLine]
theorem line_exprs : ∀ es : List Expr, (Expr.debugTuple es).map (DTree.line D) = exprLines (texts D) es
  | [] => rfl
  | e :: es => by simp only [Expr.debugTuple, List.map, line_expr e, line_exprs es, exprLines]
theorem line_pairs : ∀ es : List (ObjKey × Expr), (Expr.debugObject es).map (DTree.line D) = pairLines (texts D) es
  | [] => rfl
  | (k, e) :: es => by simp only [Expr.debugObject, List.map, line_couple, line_objKey, line_expr e, line_pairs es, pairLines]
end

theorem line_label : ∀ l : BlockLabel, l.debug.line D = labelLine (texts D) l
  | .stringLiteral s => by simp only [BlockLabel.debug, lit, line_call, labelLine, DTree.line]; rfl
  | .identifier s => by simp only [BlockLabel.debug, lit, line_call, line_cow, labelLine]

theorem line_labels (ls : List BlockLabel) : (ls.map BlockLabel.debug).map (DTree.line D) = ls.map (labelLine (texts D)) := by
  rw [List.map_map]
  exact List.map_congr_left fun l _ => line_label D l

mutual
theorem line_element : ∀ e : BodyElement, e.debug.line D = elementLine (texts D) e
  | .attribute k e => by simp only [BodyElement.debug, lit, line_call, line_couple, line_cow, line_expr, elementLine]
  | .block t ls b => by
    simp only [BodyElement.debug, lit, line_call, line_struct, List.map, line_cow, line_list, line_labels, line_elements b, elementLine,
      line_word]
theorem line_elements : ∀ b : List BodyElement, (BodyElement.debugList b).map (DTree.line D) = elementLines (texts D) b
  | [] => rfl
  | e :: b => by simp only [BodyElement.debugList, List.map, line_element e, line_elements b, elementLines]
end

theorem line_body (b : Body) : b.debug.line D = bodyLine (texts D) b := by
  rw [Body.debug, line_list, line_elements]; rfl

theorem line_bodies (b : List Body) : (b.map Body.debug).map (DTree.line D) = b.map (bodyLine (texts D)) := by
  rw [List.map_map]
  exact List.map_congr_left fun b _ => line_body D b

mutual
theorem line_blockBody : ∀ b : BlockBody, b.debug.line D = blockBodyLine (texts D) b
  | .body bs => by simp only [BlockBody.debug, lit, line_call, line_list, line_bodies, blockBodyLine]
  | .labels empty m => by
    simp only [BlockBody.debug, lit, line_struct, List.map, line_word, line_list, line_bodies, line_map, line_labelMap m, blockBodyLine]
theorem line_labelMap : ∀ m : List (BlockLabel × BlockBody),
    ((BlockBody.debugMap m).map fun p => colonLine (p.1.line D) (p.2.line D)) = labelMapLines (texts D) m
  | [] => rfl
  | (l, b) :: m => by simp only [BlockBody.debugMap, List.map, line_label, line_blockBody b, line_labelMap m, labelMapLines]
end

theorem line_blocks (b : Blocks) : b.debug.line D = blocksLine (texts D) b := by
  simp only [Blocks.debug, lit, line_struct, List.map, line_word, line_map, List.map_map, blocksLine]
  congr 5
  funext x
  simp only [Function.comp, line_cow, line_blockBody]

theorem line_key : ∀ k : Key, k.debug.line D = keyLine (texts D) k
  | .identifier s => by simp only [Key.debug, lit, line_call, keyLine, DTree.line]; rfl
  | .string s => by simp only [Key.debug, lit, line_call, keyLine, DTree.line]; rfl

theorem line_debugLabels (ls : List Str) : (debugLabels ls).line D = labelsLine (texts D) ls := by
  rw [debugLabels, line_list, List.map_map, labelsLine]
  congr 1

mutual
theorem line_value : ∀ v : Value, (v.debug D).line D = valueLine (texts D) v
  | .null => by simp only [Value.debug, lit, line_word, valueLine]
  | .integer i => by simp only [Value.debug, lit, line_call, line_word, valueLine]; rfl
  | .float x => by simp only [Value.debug, lit, line_call, line_word, valueLine]; rfl
  | .boolean b => by cases b <;> simp only [Value.debug, lit, line_call, line_word, valueLine] <;> rfl
  | .string s => by simp only [Value.debug, lit, line_call, valueLine, DTree.line]; rfl
  | .list l => by simp only [Value.debug, lit, line_call, line_list, line_valueList l, valueLine]
  | .object l => by simp only [Value.debug, lit, line_call, line_list, line_maps l, valueLine]
  | .block (.merged l) => by simp only [Value.debug, lit, line_call, line_map, line_valueBodies l, valueLine]
  | .block (.unmerged l) => by simp only [Value.debug, lit, line_call, line_list, line_bodyPairs l, valueLine]
theorem line_valueList : ∀ l : List Value, (Value.debugList D l).map (DTree.line D) = valueLines (texts D) l
  | [] => rfl
  | v :: l => by simp only [Value.debugList, List.map, line_value v, line_valueList l, valueLines]
theorem line_maps : ∀ l : List (KVP Key Value), (Value.debugMaps D l).map (DTree.line D) = mapsLines (texts D) l
  | [] => rfl
  | m :: l => by simp only [Value.debugMaps, List.map, line_mapValues m, line_maps l, mapsLines]
theorem line_mapValues : ∀ m : KVP Key Value, (Value.debugMap D m).line D = mapValuesLine (texts D) m
  | .merged l => by simp only [Value.debugMap, lit, line_call, line_map, line_entries l, mapValuesLine]
  | .unmerged l => by simp only [Value.debugMap, lit, line_call, line_list, line_valuePairs l, mapValuesLine]
theorem line_entries : ∀ l : List (Key × Value),
    ((Value.debugEntries D l).map fun p => colonLine (p.1.line D) (p.2.line D)) = entryLines (texts D) l
  | [] => rfl
  | (k, v) :: l => by simp only [Value.debugEntries, List.map, line_key, line_value v, line_entries l, entryLines]
theorem line_valuePairs : ∀ l : List (Key × Value), (Value.debugPairs D l).map (DTree.line D) = entryCoupleLines (texts D) l
  | [] => rfl
  | (k, v) :: l => by simp only [Value.debugPairs, List.map, line_couple, line_key, line_value v, line_valuePairs l, entryCoupleLines]
theorem line_valueBodies : ∀ l : List (List Str × KVP Key Value),
    ((Value.debugBodies D l).map fun p => colonLine (p.1.line D) (p.2.line D)) = bodyEntryLines (texts D) l
  | [] => rfl
  | (ls, m) :: l => by simp only [Value.debugBodies, List.map, line_debugLabels, line_mapValues m, line_valueBodies l, bodyEntryLines]
theorem line_bodyPairs : ∀ l : List (List Str × KVP Key Value),
    (Value.debugBodyPairs D l).map (DTree.line D) = bodyCoupleLines (texts D) l
  | [] => rfl
  | (ls, m) :: l => by simp only [Value.debugBodyPairs, List.map, line_couple, line_debugLabels, line_mapValues m, line_bodyPairs l, bodyCoupleLines]
end

private theorem clean_no_nl {s : Str} (h : CleanWord s) : '\n' ∉ s := fun hc => by
  have := h _ hc
  exact absurd this (by decide)

/-- a tree is on one line -/
theorem line_no_nl (t : DTree) : t.Clean → '\n' ∉ t.line D := by
  have couple : ∀ {a b : Str}, '\n' ∉ a → '\n' ∉ b → '\n' ∉ a ++ b := fun ha hb h => (List.mem_append.1 h).elim ha hb
  refine DTree.rec (motive_1 := fun t => t.Clean → '\n' ∉ t.line D)
    (motive_2 := fun ts => CleanItems ts → '\n' ∉ DTree.lineItems D ts ∧ '\n' ∉ DTree.lineMore D ts)
    (motive_3 := fun es => CleanEntries es → '\n' ∉ DTree.lineEntries D es ∧ '\n' ∉ DTree.lineMoreEntries D es)
    (motive_4 := fun p => (p.1.Clean → '\n' ∉ p.1.line D) ∧ (p.2.Clean → '\n' ∉ p.2.line D)) ?_ ?_ ?_ ?_ ?_ ?_ ?_ ?_ ?_ ?_ ?_ t
  · intro s h
    simp only [DTree.Clean] at h
    rw [DTree.line]
    exact clean_no_nl h.2
  · intro s _
    rw [DTree.line]
    exact debugStr_nl D s
  · intro n fs ih h
    simp only [DTree.Clean] at h
    rw [DTree.line]
    exact couple (couple (couple (clean_no_nl h.1) (by decide)) (ih h.2).1) (by decide)
  · intro n fs ih h
    simp only [DTree.Clean] at h
    rw [DTree.line]
    exact couple (couple (couple (clean_no_nl h.1) (by decide)) (ih h.2).1) (by decide)
  · intro ts ih h
    simp only [DTree.Clean] at h
    rw [DTree.line]
    exact couple (couple (by decide) (ih h).1) (by decide)
  · intro ts ih h
    simp only [DTree.Clean] at h
    rw [DTree.line]
    exact couple (couple (by decide) (ih h).1) (by decide)
  · intro _
    rw [DTree.lineItems, DTree.lineMore]
    decide
  · intro t ts h1 h2 h
    rw [CleanItems] at h
    rw [DTree.lineItems, DTree.lineMore]
    exact ⟨couple (h1 h.1) (h2 h.2).2, couple (couple (by decide) (h1 h.1)) (h2 h.2).2⟩
  · intro _
    rw [DTree.lineEntries, DTree.lineMoreEntries]
    decide
  · rintro ⟨a, b⟩ ts h1 h2 h
    rw [CleanEntries] at h
    rw [DTree.lineEntries, DTree.lineMoreEntries]
    exact ⟨couple (couple (couple (h1.1 h.1) (by decide)) (h1.2 h.2.1)) (h2 h.2.2).2,
      couple (couple (couple (couple (by decide) (h1.1 h.1)) (by decide)) (h1.2 h.2.1)) (h2 h.2.2).2⟩
  · intro a b ha hb
    exact ⟨ha, hb⟩

/-- the two forms tell the same trees apart -/
theorem line_iff_pretty (t u : DTree) (ht : t.Clean) (hu : u.Clean) : t.line D = u.line D ↔ t.pretty D = u.pretty D :=
  ⟨fun h => by rw [line_inj D t u ht hu h], fun h => by rw [pretty_inj D t u ht hu h]⟩

namespace Props

/-- C102: the `{:?}` text of a body is the body as a Rust term on one line. -/
theorem c102_body_text (b : Body) : lineBody D b = bodyLine (texts D) b := line_body D b

/-- C102: the same for expressions. -/
theorem c102_expression_text (e : Expr) : lineExpr D e = exprLine (texts D) e := line_expr D e

/-- C102: the same for numbers. -/
theorem c102_number_text (n : Number) : lineNumber D n = numberLine (texts D) n := line_number D n

/-- C102: the same for indexed blocks. -/
theorem c102_blocks_text (b : Blocks) : lineBlocks D b = blocksLine (texts D) b := line_blocks D b

/-- C102: the same for legacy values. -/
theorem c102_value_text (v : Value) : lineValue D v = valueLine (texts D) v := line_value D v

/-- C102: the same for legacy maps. -/
theorem c102_map_text (m : MapValues) : lineMap D m = mapValuesLine (texts D) m := line_mapValues D m

/-- C102: strings are written as string literals for them, integers as literals for them. -/
theorem c102_literals (s : Str) (i : Int) : StringTerm ((texts D).str s) s ∧ IntLit ((texts D).int i) i := by
  refine ⟨?_, decimalInt_spec i⟩
  obtain ⟨t, h, ht⟩ := c77_strings_are_literals D s
  show StringTerm (debugStr D s) s
  rw [h]
  exact .mk t s ht

/-- C102: two bodies have the same text exactly if they are the same up to the ownership of their strings; so do the two forms of the
text tell the same bodies apart. -/
theorem c102_same_body_iff (a b : Body) : (lineBody D a = lineBody D b ↔ forgetBody a = forgetBody b) ∧
    (lineBody D a = lineBody D b ↔ shownBody D a = shownBody D b) :=
  have h := line_iff_pretty D _ _ (body_clean a) (body_clean b)
  ⟨h.trans (body_shown D a b), h⟩

/-- C102: the same for expressions. -/
theorem c102_same_expression_iff (a b : Expr) : lineExpr D a = lineExpr D b ↔ forgetExpr a = forgetExpr b :=
  (line_iff_pretty D _ _ (expr_clean a) (expr_clean b)).trans (expr_shown D a b)

/-- C102: the same for numbers. -/
theorem c102_same_number_iff (a b : Number) : lineNumber D a = lineNumber D b ↔ forgetNumber a = forgetNumber b :=
  (line_iff_pretty D _ _ (number_clean a) (number_clean b)).trans (number_shown D a b)

/-- C102: the same for indexed blocks. -/
theorem c102_same_blocks_iff (a b : Blocks) : lineBlocks D a = lineBlocks D b ↔ forgetBlocks a = forgetBlocks b :=
  (line_iff_pretty D _ _ (blocks_clean a) (blocks_clean b)).trans (blocks_shown D a b)

/-- C102: the same for legacy maps without NaN, up to the ownership of keys. -/
theorem c102_same_map_iff (ok : F64 → Prop) (hD : ShowsF64 D ok) (m n : MapValues) (hm : ∀ x, Value.float x ∈ mapLeaves m → ok x)
    (hn : ∀ x, Value.float x ∈ mapLeaves n → ok x) : lineMap D m = lineMap D n ↔ ownMap m = ownMap n := by
  refine (line_iff_pretty D _ _ (debugMap_clean hD m hm) (debugMap_clean hD n hn)).trans ?_
  rw [← c77_same_text_iff D ok hD m n hm hn]
  unfold printedValue
  exact ⟨fun h => by rw [h], List.append_cancel_right⟩

/-- C102: the text has no line break, whatever the strings contain. -/
theorem c102_one_line (b : Body) (x : Blocks) : '\n' ∉ lineBody D b ∧ '\n' ∉ lineBlocks D x :=
  ⟨line_no_nl D _ (body_clean b), line_no_nl D _ (blocks_clean x)⟩

/-- C102: the same for legacy maps. -/
theorem c102_map_one_line (ok : F64 → Prop) (hD : ShowsF64 D ok) (m : MapValues) (hm : ∀ x, Value.float x ∈ mapLeaves m → ok x) :
    '\n' ∉ lineMap D m :=
  line_no_nl D _ (debugMap_clean hD m hm)

/-- C102: an owned copy has the same text. -/
theorem c102_owned_copy (b : Body) : lineBody D b.asOwned = lineBody D b :=
  (c102_same_body_iff D _ _).1.2 (forget_asOwned_body b)

end Props
end

namespace Props

/-- Non-vacuity: the text of the tree of a document with a number, a heredoc and a block with labels. -/
example : lineBody plainStyle shownTree = "[Attribute((\"a\", Tuple([Number(Number { input: \"-1.5e2\", positive: false, \
whole: Some(\"1\"), fraction: Some(\"5\"), exponent: Some(Exponent { positive: true, exponent: \"2\" }) }), String(\"\\\"\")]))), \
Block(Block { type: \"b\", labels: [StringLiteral(\"c\"), Identifier(\"d\")], body: [] })]".toList := by
  rw [c102_body_text]
  decide +kernel

/-- Non-vacuity: indexed blocks. -/
example : lineBlocks plainStyle [(.borrowed ['t'], .labels [[]] [(.identifier (.borrowed ['x']), .body [])])] =
    "Blocks { blocks: {\"t\": Labels { empty: [[]], labels: {Identifier(\"x\"): Body([])} }} }".toList := by
  rw [c102_blocks_text]
  decide +kernel

/-- Non-vacuity: a legacy map, merged, and one that is not. -/
example : lineMap plainStyle (.merged [(.identifier (.ownedS ['b']), .block (.merged [([['x'], ['\n']], .unmerged [
      (.string (.borrowed ['k']), .list [.integer (-1), .null, .boolean true]), (.identifier (.borrowed ['o']), .object [])])]))]) =
    "Merged({Identifier(\"b\"): Block(Merged({[\"x\", \"\\n\"]: Unmerged([(String(\"k\"), List([Integer(-1), Null, Boolean(true)])), \
(Identifier(\"o\"), Object([]))])}))})".toList := by
  rw [c102_map_text]
  decide +kernel

/-- Non-vacuity: two documents with different trees have different texts. -/
example : lineBody plainStyle [.attribute (.borrowed ['a']) (.string (.ownedS ", ".toList))] ≠
    lineBody plainStyle [.attribute (.borrowed ['a']) (.string (.ownedS ",\", \"".toList))] := by
  rw [Ne, (c102_same_body_iff plainStyle _ _).1]
  decide +kernel

/-- Non-vacuity: no floats, so nothing is assumed of them. -/
example (D : DebugStyle) (hD : ShowsF64 D fun _ => False) : lineMap D (.unmerged [(.identifier (.borrowed ['a']), .null)]) =
    lineMap D (.unmerged [(.identifier (.ownedS ['a']), .null)]) ∧ '\n' ∉ lineMap D (.unmerged [(.identifier (.borrowed ['a']), .null)]) :=
  ⟨(c102_same_map_iff D _ hD _ _ (fun x h => by simp [mapLeaves, entriesLeaves, leaves] at h)
      (fun x h => by simp [mapLeaves, entriesLeaves, leaves] at h)).2 rfl,
    c102_map_one_line D _ hD _ (fun x h => by simp [mapLeaves, entriesLeaves, leaves] at h)⟩

end Props
end Verif
