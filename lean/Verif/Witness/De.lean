import Verif.Witness.Blocks
import Verif.Props.Alike
import Verif.Props.Schema
import Verif.Props.ObjectTypes
import Verif.Props.Failure
import Verif.Props.Write
/-! # Concrete cases: deserialization -/
set_option autoImplicit false

namespace Verif.Witness
open Verif Spec Verif.Props

variable (P : F64Parse) (I : F64OfInt) (ord : HashOrder)

/-- evaluation of `deserialize` -/
theorem de_eval {P : F64Parse} {I : F64OfInt} {ord : HashOrder} {t : Ty} {n : Node} {r : Res DeErr DVal}
    (hb : sizeOf t + n.measure < 100000) (h : deN P I ord 100000 t n = r) : deserialize P I ord t n = r := by
  rw [deserialize, deN_fuel P I ord _ t n _ 100000 (Nat.lt_succ_self _) (Nat.lt_succ_self _) hb]; exact h

/-! ## The protocol -/

/-- attributes and blocks, interleaved -/
abbrev mixedBody : Body := [bel "a" "1", att "x" "2", bel "b" "3", att "y" "4"]

/-- no names in common -/
theorem mixedBody_ok : Distinct (attrs mixedBody) ∧ ¬ NameClash mixedBody := by
  refine ⟨by unfold Distinct; decide, ?_⟩
  rintro ⟨p, hp, q, hq, h⟩
  simp only [attrs, blocks, att, bel, List.filterMap_cons, List.filterMap_nil, List.mem_cons, List.not_mem_nil, or_false] at hp hq
  rcases hp with rfl | rfl <;> rcases hq with rfl | rfl <;> revert h <;> decide

example := c44_attributes_then_block_types ord mixedBody mixedBody_ok.1 mixedBody_ok.2
example := c46_entries [(idt "a", .null), (idt "b", .boolean true)] (by unfold Distinct; decide)
example := c46_expression_key [(idt "a", .null), (idt "b", .boolean true)] (idt "k") .null [(.ident (idt "c"), .null)] (by unfold Distinct; decide)

/-- the literal of `one` -/
theorem oneLit : IntLit ['1'] 1 := by
  obtain ⟨h, -⟩ := (c11_conversion_exact ⟨true, 64⟩ ['1'] one isOne 1).1 (by decide +kernel)
  exact h

example : (Expr.number one).deserialize P .forward = .ok (.i64 1) :=
  (c47_integer_visit P ['1'] one isOne 1 oneLit .forward (by decide) (by decide)).1 (by decide)
example (x : F64) (hx : P negFloat.text = some x) := c47_float_visit P negFloat (by decide) x hx
example := c47_float_visit (fun _ => some ⟨7⟩) negFloat (by decide) ⟨7⟩ rfl
example := (c50_unlabelled ord [bodyOf "1", bodyOf "2"] .any (by decide) (by decide)).2 (by decide)
example := (c50_unlabelled ord [bodyOf "1"] .any (by decide) (by decide)).1 _ rfl
example : stored.deserialize ord .seq = .panic := (c50_labelled stored_built ord .seq (by decide)).2 ⟨_, .head _, by decide⟩
example : stored.deserialize ord .option = .ok (.some (.block stored)) := by rw [c50_option stored_built]; rfl

/-! ## Types -/

/-- no panic in `sampleBody` -/
theorem sampleBody_plain : PlainBody sampleBody := by
  have hb : ∀ v, PlainBody [att "v" v] := fun v =>
    .mk _ (by simp [attrs]; exact .string _) (by simp [blocks]) (by simp [blocks]) (by
      rintro ⟨p, hp, q, hq, -⟩; simp [blocks] at hq)
  refine .mk _ ?_ (by simp [blocks]) ?_ ?_
  · intro p hp
    simp only [attrs, List.filterMap_cons, List.filterMap_nil, List.mem_cons, List.not_mem_nil, or_false] at hp
    rcases hp with rfl | rfl <;> exact .string _
  · intro q hq
    simp only [blocks, List.filterMap_cons, List.filterMap_nil, List.mem_cons, List.not_mem_nil, or_false] at hq
    rcases hq with rfl | rfl <;> exact hb _
  · rintro ⟨p, hp, q, hq, h⟩
    simp only [attrs, blocks, List.filterMap_cons, List.filterMap_nil, List.mem_cons, List.not_mem_nil, or_false] at hp hq
    rcases hp with rfl | rfl <;> rcases hq with rfl | rfl <;> revert h <;> decide

/-- the value of `sampleBody` -/
abbrev sampleVal : DVal := .entries [("a".toList, .string "x".toList), ("b".toList, .none),
  ("c".toList, .seq [.entries [("v".toList, .string "1".toList)], .entries [("v".toList, .string "2".toList)]])]

example := c57_plain_never_panics P I ord sampleTy sampleBody sampleBody_plain
example := c57_plain_expression_never_panics P I ord (.seq .bool) (.tuple [.string (idt "a"), .null])
  (.tuple _ (by simp; exact ⟨.string _, .null⟩))

/-- a document whose block has a label -/
abbrev labelledDoc : Str := "a \"l\" {}".toList

/-- its tree -/
theorem labelledDoc_ok : parseStr asciiClass labelledDoc = .ok [.block (.borrowed ['a']) [.stringLiteral ['l']] []] := by decide +kernel

/-- it panics -/
theorem labelledDoc_panics : deFromStr asciiClass P I ord0 (.map .ignored) labelledDoc = .panic := by
  rw [deFromStr, labelledDoc_ok]; exact de_eval (by decide +kernel) rfl

example := c57_from_str P I ord0 asciiClass _ _ (labelledDoc_panics P I)

example : deserialize P I ord (.int ⟨false, 8⟩) (.expr (.number one)) = .ok (.int 1) :=
  (c47_into_integer P I ord ⟨false, 8⟩ ['1'] one isOne _).2 ⟨1, oneLit, by decide, by decide, rfl⟩
example := c47_only_numbers P I ord ⟨false, 8⟩ (.number one) _
  ((c47_into_integer P I ord ⟨false, 8⟩ ['1'] one isOne _).2 ⟨1, oneLit, by decide, by decide, rfl⟩)
example := c50_single_into_struct_or_map P I ord sampleBody sampleTy (.inl ⟨_, rfl⟩)
example := c50_failures P I ord (.map .string) (bodyOf "1") (bodyOf "2") [] [] [(sl "x", .body [])] (by simp) (by simp)
example := (c58_struct P I ord0 _ (by decide) sampleBody _).1 (sample_result P I)

/-- as a map -/
theorem sample_map : deserialize P I ord0 (.map .string) (.body [att "a" "x", att "b" "y"]) =
    .ok (.entries [(['a'], .string ['x']), (['b'], .string ['y'])]) := de_eval (by decide +kernel) rfl

example := c59_map P I ord0 .string _ _ (sample_map P I)
example := c60_hash_order_irrelevant P I ord0 ord1 _ _ _ (sample_result P I)

/-- the sample as a document -/
abbrev sampleDoc : Str := "a = \"x\"\nc { v = \"1\" }\nz = \"y\"\nc { v = \"2\" }\n".toList

/-- what is read -/
theorem sampleDoc_result : deFromStr asciiClass P I ord0 sampleTy sampleDoc = .ok sampleVal := by
  have h : parseStr asciiClass sampleDoc = .ok [.attribute (.borrowed ['a']) (.string (.ownedS ['x'])),
      .block (.borrowed ['c']) [] [.attribute (.borrowed ['v']) (.string (.ownedS ['1']))],
      .attribute (.borrowed ['z']) (.string (.ownedS ['y'])),
      .block (.borrowed ['c']) [] [.attribute (.borrowed ['v']) (.string (.ownedS ['2']))]] := by decide +kernel
  rw [deFromStr, h]; exact de_eval (by decide +kernel) rfl

example := c60_from_str P I ord0 asciiClass ord1 _ _ _ (sampleDoc_result P I)

/-! ## The rules -/

/-- what the rules say about the sample -/
theorem sample_reads : Reads P I sampleTy (.body sampleBody) sampleVal :=
  c68_deserialized_is_read P I ord0 _ sampleTy_proper _ _ (sample_result P I)

example := c68_read_is_deserialized P I ord _ sampleTy_proper _ _ (sample_reads P I)
example := c68_read_unique P I ord _ sampleTy_proper _ _ _ (sample_reads P I) (sample_reads P I)
example := (c68_succeeds_iff P I ord _ sampleTy_proper _).2 ⟨_, sample_reads P I⟩
example := (c68_from_str_succeeds_iff P I ord0 asciiClass _ sampleTy_proper _).1 ⟨_, sampleDoc_result P I⟩
example := c68_from_str_value P I ord0 asciiClass _ sampleTy_proper _ _ (sampleDoc_result P I)
example := c68_from_str_parse_error P I ord asciiClass sampleTy "a = [1, }".toList .parse (by decide +kernel)
example := c68_leaf_not_body_or_block P I ord .string trivial (.body sampleBody) (.inl ⟨_, rfl⟩) (.string [])
example := (c68_unit P I ord .unit (.inl rfl) (.expr .null) .unit).2 ⟨rfl, rfl⟩
example := c68_document_types P I ord0 asciiClass _ sampleTy_proper _ _ (sampleDoc_result P I)

/-! ## Failures -/

/-- the number is too large -/
theorem bad_fails : deserialize P I ord0 abcTy (.body badBody) = (Failure.error .parseInt).res := de_eval (by decide +kernel) rfl

example := c88_outcomes P I ord abcTy abcTy_proper (.body badBody)
example := (c88_no_blocks P I ord0 abcTy abcTy_proper badBody rfl (.error .parseInt)).1 (bad_fails P I)
example := (c88_reads_xor_fails P I abcTy abcTy_proper (.body badBody)).1
  ⟨_, (c88_no_blocks P I ord0 abcTy abcTy_proper badBody rfl (.error .parseInt)).1 (bad_fails P I)⟩
example := (c88_expression P I ord .bool .bool (.number bigNumber) (.error .parseInt)).1 (big_fails P I ord _ .bool (by simp [Wrapper]))
example := (c88_from_str P I asciiClass (.map .ignored) (.map _ .ignored) labelledDoc .panic).1 ⟨ord0, labelledDoc_panics P I⟩

/-! ## Objects and changes of the schema -/

/-- a struct from an object -/
theorem object_result : deserialize P I ord (.struct [(['a'], .string), (['b'], .option .bool)])
    (.expr (.object [(.ident (idt "c"), .null), (.ident (idt "a"), .string (idt "x"))])) =
    .ok (.entries [(['a'], .string ['x']), (['b'], .none)]) := de_eval (by decide +kernel) rfl

example := (c58_struct_from_object P I ord _ (by decide) _ _).1 (object_result P I ord)

/-- an entry not declared can be added -/
abbrev extraBody : Body := att "n" "q" :: sampleBody

/-- entries of `b` from its attributes and blocks, by name -/
theorem entry_names {b : Body} {k : Str} {n : Node} (h : EntryOf b k n) :
    k ∈ (attrs b).map (fun p => p.1.str) ∨ k ∈ (blocks b).map fun q => q.type.str := by
  rcases h with ⟨c, x, hm, rfl, -⟩ | ⟨run, hr, -⟩
  · exact .inl (List.mem_map_of_mem (f := fun p : CowStr × Expr => p.1.str) hm)
  · obtain ⟨q, hq, hqt⟩ := (lastRun_sub hr).1
    exact .inr (hqt ▸ List.mem_map_of_mem (f := fun q : Block => q.type.str) hq)

/-- no entry of this name -/
theorem no_entry {b : Body} {k : Str} (h : k ∉ (attrs b).map (fun p => p.1.str)) (h' : k ∉ (blocks b).map fun q => q.type.str) (n : Node) :
    ¬ EntryOf b k n := fun e => (entry_names e).elim h h'

example : deserialize P I ord0 sampleTy (.body extraBody) = .ok sampleVal := by
  refine c80_only_declared_entries P I ord0 _ (by decide) sampleBody extraBody _ (sample_result P I) (by unfold Distinct; decide) ?_ ?_ ?_
  · rintro ⟨p, hp, q, hq, h⟩
    simp only [attrs, blocks, List.filterMap_cons, List.filterMap_nil, List.mem_cons, List.not_mem_nil, or_false] at hp hq
    rcases hp with rfl | rfl | rfl <;> rcases hq with rfl | rfl <;> revert h <;> decide
  · intro k hk n
    refine or_congr ⟨?_, ?_⟩ .rfl
    · rintro ⟨c, x, hm, h⟩; exact ⟨c, x, .tail _ hm, h⟩
    · rintro ⟨c, x, hm, h, h'⟩
      rcases List.mem_cons.1 hm with e | hm
      · cases e; subst h; exact absurd hk (by decide)
      · exact ⟨c, x, hm, h, h'⟩
  · intro k n h hk
    rcases h with ⟨c, x, hm, rfl, rfl⟩ | ⟨run, hr, -⟩
    · simp only [attrs, List.filterMap_cons, List.filterMap_nil, List.mem_cons, List.not_mem_nil, or_false] at hm
      rcases hm with hm | hm | hm <;> cases hm <;> exact ⟨.ignored, de_eval (by decide +kernel) rfl⟩
    · obtain ⟨q, hq, rfl⟩ := (lastRun_sub hr).1
      simp only [blocks, List.filterMap_cons, List.filterMap_nil, List.mem_cons, List.not_mem_nil, or_false] at hq
      rcases hq with rfl | rfl <;> exact absurd (by decide) hk

example : deserialize P I ord0 sampleTy (.body (sampleBody ++ [.block (idt "n") [] [att "v" "q"]])) = .ok sampleVal :=
  (c80_undeclared_block_at_end P I ord0 _ (by decide) sampleBody (idt "n") [] [att "v" "q"] (by decide)
    (no_entry (by decide) (by decide)) _).2 ⟨sample_result P I, .ignored, de_eval (by decide +kernel) rfl⟩
example := c80_labelled_block_panics P I ord [sl "x"] (bodyOf "1") (by simp)
example : deserialize P I ord0 (.struct [("a".toList, .string), ("c".toList, .seq (.struct [("v".toList, .string)]))]) (.body sampleBody) =
    .ok (.entries [("a".toList, .string "x".toList),
      ("c".toList, .seq [.entries [("v".toList, .string "1".toList)], .entries [("v".toList, .string "2".toList)]])]) :=
  (c80_new_optional_field P I ord0 [("a".toList, .string)] [("c".toList, .seq (.struct [("v".toList, .string)]))] "b".toList .bool
    (by decide) sampleBody (no_entry (by decide) (by decide)) [("a".toList, .string "x".toList)]
    [("c".toList, .seq [.entries [("v".toList, .string "1".toList)], .entries [("v".toList, .string "2".toList)]])] rfl).1 (sample_result P I)
example := c80_required_field P I ord0 _ (by decide) _ _ (sample_result P I) "a".toList .string (.head _) (by simp)
example := c80_removed_field P I ord0 [] [("b".toList, .option .bool), ("c".toList, .seq (.struct [("v".toList, .string)]))] "a".toList .string
  (by decide) sampleBody _ (sample_result P I) (by
    rintro n (⟨c, x, hm, h, rfl⟩ | ⟨run, hr, -⟩)
    · simp only [attrs, List.filterMap_cons, List.filterMap_nil, List.mem_cons, List.not_mem_nil, or_false] at hm
      rcases hm with hm | hm <;> cases hm <;> exact ⟨.ignored, de_eval (by decide +kernel) rfl⟩
    · obtain ⟨q, hq, h⟩ := (lastRun_sub hr).1
      simp only [blocks, List.filterMap_cons, List.filterMap_nil, List.mem_cons, List.not_mem_nil, or_false] at hq
      rcases hq with rfl | rfl <;> exact absurd h (by decide))

/-! ## Writing -/

/-- only owned strings -/
theorem sampleTy_free : StrFree sampleTy := by
  refine .struct _ ?_
  intro f hf
  simp only [List.mem_cons, List.not_mem_nil, or_false] at hf
  rcases hf with rfl | rfl | rfl
  · exact .string
  · exact .option _ .bool
  · refine .seq _ (.struct _ ?_)
    intro f hf
    simp only [List.mem_cons, List.not_mem_nil, or_false] at hf
    subst hf; exact .string

/-- the names are identifiers -/
theorem sampleTy_named : NamedTy asciiClass sampleTy := by
  have id (c : Char) (h : asciiClass.idStart c = true) : IsIdent asciiClass [c] := .mk c [] (.inl h) (by simp)
  refine .struct _ ?_ ?_
  · intro f hf
    simp only [List.mem_cons, List.not_mem_nil, or_false] at hf
    rcases hf with rfl | rfl | rfl <;> exact id _ (by decide)
  · intro f hf
    simp only [List.mem_cons, List.not_mem_nil, or_false] at hf
    rcases hf with rfl | rfl | rfl
    · exact .leaf _ trivial
    · exact .option _ (.leaf _ trivial)
    · refine .seq _ (.struct _ ?_ ?_)
      · intro f hf
        simp only [List.mem_cons, List.not_mem_nil, or_false] at hf
        subst hf; exact id _ (by decide)
      · intro f hf
        simp only [List.mem_cons, List.not_mem_nil, or_false] at hf
        subst hf; exact .leaf _ trivial

example := c78_read_is_expressible asciiClass P I ord0 _ sampleTy_proper sampleTy_free sampleTy_named _ _ (sampleDoc_result P I)
example := c78_read_is_document asciiClass P I ord0 _ sampleTy_proper _ _ (sampleDoc_result P I)
example := (c78_values asciiClass P I ord0 _ sampleTy_proper sampleTy_free sampleTy_named).2 _ _ (sampleDoc_result P I)
example (F : FloatWriter) (hF : WritesFloats P I F) := c78_load_save_load asciiClass P I ord0 ord1 F hF _ sampleTy_proper sampleTy_free sampleTy_named _ _ (sampleDoc_result P I)
example := c78_no_large_integer asciiClass P I ord ⟨false, 64⟩ ['a'] idA (2 ^ 63) (.inr (by decide)) "a = 9223372036854775808".toList
example := c78_no_some_none asciiClass P I ord (.option .bool) ['a'] idA (.option _ .bool) (.option _ .bool) (.option _ (.leaf _ trivial))
  "a = null".toList .none (.inr rfl)

end Verif.Witness
