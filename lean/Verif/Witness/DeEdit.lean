import Verif.Witness.De
import Verif.Props.Spelling
import Verif.Props.EditRead
import Verif.Props.AnyValue
import Verif.Props.Slices
/-! # Concrete cases: documents read alike, changes of a document -/
set_option autoImplicit false

namespace Verif.Witness
open Verif Spec Verif.Props

variable (P : F64Parse) (I : F64OfInt) (ord : HashOrder)

/-! ## Alike -/

/-- the number `+01` -/
abbrev oneLong : Number := ⟨.borrowed ['+', '0', '1'], true, some (.borrowed ['0', '1']), none, none⟩

/-- `+01` is a number -/
theorem isOneLong : IsNumber ['+', '0', '1'] oneLong := by
  obtain ⟨t, e, h⟩ := number_sound (show number ['+', '0', '1'] = .ok [] oneLong by decide +kernel)
  rw [List.append_nil] at e; subst e; exact h

/-- and the same as `1` -/
theorem sameOne : SameNumber P one oneLong :=
  c69_same_integer P _ _ _ _ isOne isOneLong 1 oneLit ((c11_conversion_exact ⟨true, 64⟩ _ _ isOneLong 1).1 (by decide +kernel)).1

/-- read as an integer -/
theorem one_result : deserialize P I ord0 (.int ⟨false, 8⟩) (.expr (.number one)) = .ok (.int 1) :=
  (c47_into_integer P I ord0 ⟨false, 8⟩ ['1'] one isOne _).2 ⟨1, oneLit, by decide, by decide, rfl⟩

example := c69_alike P I ord0 ord1 true (.int ⟨false, 8⟩) (.int _) (.inl rfl) _ _ (.number one oneLong (sameOne P)) _ (one_result P I)

/-- blocks of two types -/
abbrev typesBefore : Body := [bel "c" "1", bel "c" "2", bel "d" "3"]
/-- in the other order -/
abbrev typesAfter : Body := [bel "d" "3", bel "c" "1", bel "c" "2"]

/-- each type at one place -/
theorem typesBefore_adjacent : TypesAdjacent (blocks typesBefore) := by
  intro pre a mid c post h he b hb
  have hlen := congrArg List.length h
  simp [blocks] at hlen
  match pre, mid with
  | [], [] => cases hb
  | [], [m] =>
    simp only [blocks, List.filterMap_cons, List.filterMap_nil, List.nil_append, List.cons_append, List.cons.injEq] at h
    obtain ⟨rfl, rfl, rfl, -⟩ := h
    exact absurd he (by decide)
  | [p], [] => cases hb
  | [], _ :: _ :: _ => simp at hlen; omega
  | [_], _ :: _ => simp at hlen; omega
  | _ :: _ :: _, _ => simp at hlen; omega

/-- and after -/
theorem typesAfter_adjacent : TypesAdjacent (blocks typesAfter) := by
  intro pre a mid c post h he b hb
  have hlen := congrArg List.length h
  simp [blocks] at hlen
  match pre, mid with
  | [], [] => cases hb
  | [], [m] =>
    simp only [blocks, List.filterMap_cons, List.filterMap_nil, List.nil_append, List.cons_append, List.cons.injEq] at h
    obtain ⟨rfl, rfl, rfl, -⟩ := h
    exact absurd he (by decide)
  | [p], [] => cases hb
  | [], _ :: _ :: _ => simp at hlen; omega
  | [_], _ :: _ => simp at hlen; omega
  | _ :: _ :: _, _ => simp at hlen; omega

/-- the same blocks of each type -/
theorem types_same (k : Str) : (blocks typesBefore).filter (fun q => decide (q.type.str = k)) =
    (blocks typesAfter).filter fun q => decide (q.type.str = k) := by
  simp only [blocks, List.filterMap_cons, List.filterMap_nil]
  by_cases h1 : "c".toList = k
  · subst h1; rfl
  · by_cases h2 : "d".toList = k
    · subst h2; rfl
    · simp [show ¬ (['c'] : Str) = k from h1, show ¬ (['d'] : Str) = k from h2, CowStr.borrowed]

/-- `struct { d: struct { v: String }, c: Vec<struct { v: String }> }` -/
abbrev typesTy : Ty := .struct [(['d'], .struct [(['v'], .string)]), (['c'], .seq (.struct [(['v'], .string)]))]

/-- a type without repeated fields -/
theorem typesTy_proper : ProperTy typesTy := by
  have hv : ProperTy (.struct [(['v'], .string)]) := .struct _ (by decide) (by simp; exact .string)
  exact .struct _ (by decide) (by simp; exact ⟨hv, .seq _ hv⟩)

/-- it can be read -/
theorem types_result : deserialize P I ord0 typesTy (.body typesBefore) = .ok (.entries [(['d'], .entries [(['v'], .string ['3'])]),
    (['c'], .seq [.entries [(['v'], .string ['1'])], .entries [(['v'], .string ['2'])]])]) := de_eval (by decide +kernel) rfl

example := c69_regrouped P I ord0 ord1 typesTy typesTy_proper typesBefore typesAfter .nil
  (regrouped_adjacent typesBefore_adjacent typesAfter_adjacent types_same) _ (types_result P I)
example := c69_block_types_order P I ord0 ord1 typesTy typesTy_proper typesBefore typesAfter .nil typesBefore_adjacent typesAfter_adjacent
  types_same _ (types_result P I)
example := c69_object_order P I ord ord1 (.struct [(['a'], .string), (['b'], .option .bool)])
  (.struct _ (by decide) (by simp; exact ⟨.string, .option _ .bool⟩)) _
  [(.ident (idt "a"), .string (idt "x")), (.ident (idt "c"), .null)] (.swap _ _ _) _ (object_result P I ord)
example := c69_ownership P I ord0 ord1 _ sampleTy_proper sampleTy_free sampleBody (Body.asOwned sampleBody) rfl _ (sample_result P I)
example := (c69_as_owned P I ord0 ord1 _ sampleTy_proper sampleTy_free sampleBody).1 _ (sample_result P I)
example := c69_str_needs_borrowed P I ord [att "a" "x"] ['a'] (.expr (.string (.ownedS ['x'])))
  (.inl ⟨.ownedS ['a'], .string (.ownedS ['x']), .head _, rfl, rfl⟩) (.string ['x'])
example := c69_reader P I ord ord1 asciiClass (.map .string) (.map _ .string) (.map _ .string)
  [.data [97, 61, 34, 0xC3], .interrupted, .data [0xB6, 34], .data []] [.attribute (.ownedS ['a']) (.string (.ownedS ['ö']))] (by decide +kernel)

/-- a place for a number -/
abbrev numberPlace : ValuePlace := ⟨[.attribute (.borrowed ['p']) .null], .attribute (.borrowed ['a']) .here, []⟩

/-- `p` and `a` -/
abbrev numberTy : Ty := .struct [(['a'], .int ⟨false, 8⟩)]

/-- a type without repeated fields -/
theorem numberTy_proper : ProperTy numberTy := .struct _ (by decide) (by simp; exact .int _)

/-- it can be read -/
theorem number_result : deserialize P I ord0 numberTy (.body (numberPlace.fill (.number one))) = .ok (.entries [(['a'], .int 1)]) :=
  de_eval (by decide +kernel) rfl

/-- the document is read -/
theorem numberDoc_ok : parseStr asciiClass "p = null\na = 1".toList = .ok (numberPlace.fill (.number one)) := by decide +kernel

/-- and deserialized -/
theorem numberDoc_result : deFromStr asciiClass P I ord0 numberTy "p = null\na = 1".toList = .ok (.entries [(['a'], .int 1)]) := by
  rw [deFromStr, numberDoc_ok]; exact number_result P I

example := c69_from_str P I ord0 ord1 asciiClass true numberTy numberTy_proper (.inl rfl) "p = null\na = 1".toList "p = null\na = +01".toList _
  (numberPlace.fill (.number oneLong)) numberDoc_ok (by decide +kernel) (alike_fill (.number _ _ (sameOne P)) numberPlace) _ (numberDoc_result P I)
example := (c69_join_commutes P I ord0 ord1 asciiClass numberTy numberTy_proper "p = null".toList "a = 1".toList [.attribute (.borrowed ['p']) .null]
  [.attribute (.borrowed ['a']) (.number one)] (by decide +kernel) (by decide +kernel) rfl _).1 (numberDoc_result P I)

example := c69_same_float (fun _ => some ⟨7⟩) negFloat ⟨.borrowed "-15e2".toList, false, some (.borrowed "15".toList), none, some ⟨true, .borrowed ['2']⟩⟩
  (by decide) (by decide) rfl
example := c69_replace P I ord0 ord1 true numberTy numberTy_proper (.inl rfl) numberPlace _ _ (.number _ _ (sameOne P)) _ (number_result P I)
example := c69_number_spelling P I ord0 ord1 numberTy numberTy_proper numberPlace _ _ (sameOne P) _ (number_result P I)
example := c69_replace_text P I ord0 ord1 asciiClass true numberTy numberTy_proper (.inl rfl) numberPlace _ _ numberDoc_ok

/-- as a string -/
theorem string_result : deserialize P I ord0 (.struct [(['a'], .string)]) (.body (numberPlace.fill (.string (idt "x")))) =
    .ok (.entries [(['a'], .string ['x'])]) := de_eval (by decide +kernel) rfl

example := c69_string_spelling P I ord0 ord1 (.struct [(['a'], .string)]) (.struct _ (by decide) (by simp; exact .string))
  (.struct _ (by simp; exact .string)) numberPlace (idt "x") (.ownedS ['x']) rfl _ (string_result P I)

/-! ## Changes of a value -/

/-- the type of `readBefore` -/
abbrev readTy : Ty := .struct [(['b'], .map .bool), (['a'], .unit)]

/-- a type without repeated fields -/
theorem readTy_proper : ProperTy readTy := .struct _ (by decide) (by simp; exact ⟨.map _ .bool, .unit⟩)

/-- the value under `b` is read -/
theorem read_result (b : Bool) : deserialize P I ord0 readTy (.body (readPlace.fill (.boolean b))) =
    .ok (.entries [(['b'], .entries [(['r'], .bool b)]), (['a'], .unit)]) := by rfl

/-- the document is read -/
theorem readBefore_ok : parseStr asciiClass readBefore = .ok (readPlace.fill (.boolean false)) := by decide +kernel

/-- and deserialized -/
theorem readBefore_result : deFromStr asciiClass P I ord0 readTy readBefore =
    .ok (.entries [(['b'], .entries [(['r'], .bool false)]), (['a'], .unit)]) := by
  rw [deFromStr, readBefore_ok]; exact read_result P I false

example := c90_struct P I ord0 _ (by decide) readPlace _ _ _ _ (read_result P I false) (read_result P I true)
example := c90_struct_succeeds_iff P I ord0 _ (by decide) readPlace _ (.boolean true) _ (read_result P I false)
example := c90_anywhere P I ord0 _ readTy_proper readPlace _ _ (read_result P I false)
example := c90_text_anywhere P I ord0 asciiClass _ readTy_proper readPlace _ _ _ readBefore_ok (readBefore_result P I)
example := c90_text_struct P I ord0 asciiClass _ (by decide) readPlace _ _ _ readBefore_ok (readBefore_result P I)

/-- as maps -/
theorem maps_result (e : Expr) (b : Bool) (he : e = .boolean b) : deserialize P I ord0 (.map .any) (.body (readPlace.fill e)) =
    .ok (.entries [(['a'], .unit), (['b'], .entries [(['r'], .bool b)])]) := by subst he; rfl

/-- and the document -/
theorem maps_text : deFromStr asciiClass P I ord0 (.map .any) readBefore =
    .ok (.entries [(['a'], .unit), (['b'], .entries [(['r'], .bool false)])]) := by
  rw [deFromStr, readBefore_ok]; exact maps_result P I _ false rfl

example := c90_map P I ord0 .any readPlace _ _ _ _ (maps_result P I _ false rfl) (maps_result P I _ true rfl)
example := c90_map_succeeds_iff P I ord0 .any readPlace _ (.boolean true) _ (maps_result P I _ false rfl)
example := c90_text_map P I ord0 asciiClass .any readPlace _ _ _ readBefore_ok (maps_text P I)

/-- a struct without `b` -/
theorem undeclared_result (b : Bool) : deserialize P I ord0 (.struct [(['a'], .unit)]) (.body (readPlace.fill (.boolean b))) =
    .ok (.entries [(['a'], .unit)]) := by rfl

example := c90_undeclared P I ord0 [(['a'], .unit)] (by decide) readPlace _ _ _ _ (by decide) (undeclared_result P I false) (undeclared_result P I true)

/-- the attributes of `sample_map` -/
example := (c90_map_attribute P I ord0 .string [att "a" "x"] [] (idt "b") (.string (idt "y")) .null _ (sample_map P I)).1
example := c90_struct_attribute P I ord0 _ (by decide) [] [bel "c" "1", att "z" "y", bel "c" "2"] (idt "a") .string (.head _) (.string (idt "x")) _
  (sample_result P I)

/-- a list -/
theorem list_result : deserialize P I ord (.seq .string) (.expr (.tuple [.string (idt "x"), .string (idt "y"), .string (idt "z")])) =
    .ok (.seq [.string ['x'], .string ['y'], .string ['z']]) := de_eval (by decide +kernel) rfl

example := c90_vec_item P I ord .string [.string (idt "x")] [.string (idt "z")] (.string (idt "y")) _ (list_result P I ord)

/-- an object as a map -/
theorem objectMap_result : deserialize P I ord (.map .string)
    (.expr (.object [(.ident (idt "c"), .string (idt "y")), (.ident (idt "a"), .string (idt "x"))])) =
    .ok (.entries [(['c'], .string ['y']), (['a'], .string ['x'])]) := de_eval (by decide +kernel) rfl

example := c90_object_map P I ord .string [(.ident (idt "c"), .string (idt "y"))] [] (idt "a") (.string (idt "x")) _ (objectMap_result P I ord)
example := c90_object_struct P I ord _ (by decide) [(.ident (idt "c"), .null)] [] (idt "a") .string (.head _) (.string (idt "x")) _
  (object_result P I ord)
example := c90_anywhere_in_expression P I ord (.seq .string) (.seq _ .string) (.item [.string (idt "x")] .here [.string (idt "z")])
  (.string (idt "y")) _ (list_result P I ord)
example := c90_text_struct_attribute P I ord0 asciiClass [(['a'], .int ⟨false, 8⟩)] (by decide) [.attribute (.borrowed ['p']) .null] []
  (.borrowed ['a']) (.int ⟨false, 8⟩) (.head _) (.number one) _ _ numberDoc_ok (numberDoc_result P I)

/-! ## Self-describing values -/

/-- the sample read as what it is -/
theorem plain_result : deserialize P I ord .any (.expr plainSample) =
    .ok (.entries [("k".toList, .seq [.unit, .bool true]), ("m".toList, .string "x".toList)]) :=
  (c91_expression_value P I ord _ _).2 (plainSample_value P)

/-- two spellings of a string -/
theorem any_string (s : CowStr) : deserialize P I ord .any (.expr (.string s)) = .ok (.string s.str) :=
  (c91_expression_value P I ord _ _).2 (.string _)

example := c91_determined P I ord plainSample (.string (idt "x")) _ _ (plain_result P I ord) (any_string P I ord _)
example := c91_replace P I ord0 ord1 _ _ _ _ (any_string P I ord0 (idt "x")) (any_string P I ord0 (.ownedS ['x'])) (.refl _) numberPlace
  (.struct [(['a'], .string)]) (.struct _ (by decide) (by simp; exact .string)) (.struct _ (by simp; exact .string)) _ (string_result P I)
example (F : FloatWriter) (hF : WritesFloats P I F) := c91_there_and_back P I ord0 ord1 asciiClass F hF "\"x\"".toList (.string (.ownedS ['x']))
  (by decide +kernel) _ (any_string P I ord0 (.ownedS ['x'])) .string .string .string (.string ['x'])

/-! ## Slices -/

/-- a document with a text kept as written -/
abbrev heredocDoc : Str := "a = <<E\nq\nE\n".toList

/-- its string is borrowed -/
theorem heredocDoc_ok : parseStr asciiClass heredocDoc = .ok [.attribute (.borrowed ['a']) (.string (.borrowed ['q']))] := by decide +kernel

/-- it can be read as `&str` -/
theorem heredocDoc_result : deFromStr asciiClass P I ord0 (.struct [(['a'], .str)]) heredocDoc = .ok (.entries [(['a'], .string ['q'])]) := by
  rw [deFromStr, heredocDoc_ok]; exact de_eval (by decide +kernel) rfl

example : ['q'] <:+: heredocDoc := c84_deserialized_borrowed asciiClass P I ord0 _ (.struct _ (by decide) (by simp; exact .str)) _ _
  (heredocDoc_result P I) ['q'] (.field _ _ 0 _ _ _ _ _ _ rfl rfl (.str _))
example := c84_deserialized_texts asciiClass P I ord0 _ (.struct _ (by decide) (by simp; exact .str)) _ _
  (heredocDoc_result P I) true ['q'] (.field _ _ 0 _ _ _ _ _ _ rfl rfl (.str _))

end Verif.Witness
