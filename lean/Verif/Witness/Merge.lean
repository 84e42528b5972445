import Verif.Witness.Legacy
import Verif.Props.Merge
import Verif.Proofs.IntParse
/-! # Concrete cases: merging, containers, both parsers -/
set_option autoImplicit false

namespace Verif.Witness
open Verif Spec Verif.Props

/-- two attributes with the same key -/
def twice : List (Key × Value) := [(idKey "a", .integer 1), (idKey "b", .null), (idKey "a", .integer 2)]

/-- a block type and a map under the same key -/
def mixed : List (Key × Value) := [(idKey "a", .object []), (idKey "a", .block (.unmerged []))]

/-- two integers under one key -/
theorem twice_error : MapValues.merge (.unmerged twice) = .error (.illegalMultipleEntries ['a'] .integer) := rfl

example := c23_map_error (.unmerged [(idKey "o", .object [.unmerged twice])]) (.illegalMultipleEntries ['a'] .integer) rfl
example := c23_value_error (.list [.null, .object [.unmerged mixed]]) (.errorMergingKeys ['a'] .object .block) rfl

/-- the two integers -/
theorem twice_clash : Clash twice (.illegalMultipleEntries ['a'] .integer) :=
  ⟨[], _, [(idKey "b", .null)], (idKey "a", .integer 2), [], rfl, rfl, by simp, .illegal _ _ (by decide) (by decide)⟩

example := c23_clash_is_illegal twice _ twice_clash

/-- a value with maps and blocks in it -/
def docValue : Value := .list [.object [.unmerged doc], .block (.unmerged [([['l']], .unmerged doc)])]

/-- its merged form -/
def docValueMerged : Value := .list [.object [.merged docMerged], .block (.merged [([['l']], .merged docMerged)])]

/-- it merges -/
theorem docValue_merges : docValue.merge = .ok docValueMerged := rfl

/-- a set of blocks with two blocks with the same labels -/
def blocks : VBlock := .unmerged [([['l']], .unmerged doc), ([['m']], .unmerged []), ([['l']], .unmerged [(idKey "x", .null)])]

/-- it merges -/
theorem blocks_merge : blocks.merge = .ok (.merged [([['l']], .merged [(idKey "x", .null)]), ([['m']], .merged [])]) := rfl

example := c24_value _ _ docValue_merges
example := c24_keys doc docMerged doc_merges (idKey "tags").norm
example := c24_single doc docMerged doc_merges (idKey "list").norm (.list [.integer 1, .integer 2]) rfl
example := c24_objects doc docMerged doc_merges (idKey "tags").norm
  [[.unmerged [(idKey "k", .boolean true)]], [.unmerged [(idKey "k", .boolean false)]]] (by simp) rfl
example := c24_block _ _ blocks_merge
example := c25_value_idempotent _ _ docValue_merges
example := c25_block_idempotent _ _ blocks_merge

/-- nothing in the document is merged -/
theorem doc_complete : MergedMapsComplete (.map (.unmerged doc)) := fun m hm =>
  absurd (Or.inl ⟨m, hm⟩) ((c26_is_unmerged (.unmerged doc)).1.mp rfl).2

/-- the same for the value -/
theorem docValue_complete : MergedMapsComplete (.val docValue) := fun m hm =>
  absurd (Or.inl ⟨m, hm⟩) ((c26_value_is_unmerged docValue).1.mp rfl).2

example := c26_merge_leaves_nothing_unmerged (.unmerged doc) _ doc_complete doc_merges
example := c26_value_merge_leaves_nothing_unmerged docValue _ docValue_complete docValue_merges
example := c26_is_merged_after_merge (.unmerged doc) _ doc_complete ((c26_is_unmerged (.unmerged doc)).1.mp rfl).1 doc_merges

/-- the merged value, merged again -/
theorem docValueMerged_parts : ¬ HasUnmerged (.val docValueMerged) ∧
    ∀ m, Inside (.val docValueMerged) (.blk (.merged m)) → (m.map Prod.fst).Nodup :=
  ⟨c26_value_merge_leaves_nothing_unmerged docValue _ docValue_complete docValue_merges,
    (merge_unique.1 docValue _ ⟨fun m hm => absurd (.inl ⟨m, hm⟩) ((c26_value_is_unmerged docValue).1.mp rfl).2,
      fun m hm => absurd (.inr ⟨m, hm⟩) ((c26_value_is_unmerged docValue).1.mp rfl).2⟩ docValue_merges).2⟩

example := c25_merged_unchanged docValueMerged docValueMerged_parts.1 docValueMerged_parts.2

/-- two blocks of a type with different labels -/
def distinct : List (Key × Value) := [(idKey "r", .block (.unmerged [(["a".toList], .unmerged [(idKey "n", .integer 1)])])),
    (idKey "r", .block (.unmerged [(["b".toList], .unmerged [(idKey "n", .integer 2)])]))]

/-- their labels are distinct -/
theorem distinct_ok : LabelsDistinctMap (.unmerged distinct) := by
  have hmap : ∀ i, LabelsDistinctMap (.unmerged [(idKey "n", .integer i)]) := fun i =>
    .unmerged _ (by simp only [List.forall_mem_cons]; exact ⟨.scalar _ (by simp [Value.variant]) (by simp [Value.variant]) (by simp [Value.variant]), by simp⟩)
      (by intro k; by_cases h : (idKey "n").norm = k <;> simp [valuesUnder, h, blockEntries])
  refine .unmerged _ ?_ ?_
  · simp only [distinct, List.forall_mem_cons]
    exact ⟨.block _ (by simp [KVP.entries]) (by simp only [KVP.entries, List.forall_mem_cons]; exact ⟨hmap 1, by simp⟩),
      .block _ (by simp [KVP.entries]) (by simp only [KVP.entries, List.forall_mem_cons]; exact ⟨hmap 2, by simp⟩), by simp⟩
  · intro k
    by_cases h : (idKey "r").norm = k
    · simp [distinct, valuesUnder, h, blockEntries, KVP.entries]
    · simp [distinct, valuesUnder, h, blockEntries]

/-- their merged form -/
def distinctMerged : List (Key × Value) := [(idKey "r", .block (.merged [(["a".toList], .merged [(idKey "n", .integer 1)]),
  (["b".toList], .merged [(idKey "n", .integer 2)])]))]

/-- they merge -/
theorem distinct_merges : MapValues.merge (.unmerged distinct) = .ok (.merged distinctMerged) := rfl

example := c27_merge_keeps_leaves _ _ distinct_ok distinct_merges
example := c27_value_merge_keeps_leaves (.object [.unmerged distinct]) (.object [.merged distinctMerged])
  (.object _ (by simpa using distinct_ok)) rfl
example := c27_merge_keeps_len_scalar _ _ distinct_ok distinct_merges
example := c27_merge_invents_nothing _ _ doc_merges
example := c28_same_labels_overwritten (idKey "k") [['l']] (.unmerged doc) (.unmerged distinct) _ _ doc_merges distinct_merges
example := c28_last_block_wins doc docMerged doc_merges (idKey "resource").norm
  [.unmerged [(["a".toList, "x".toList], .unmerged [(idKey "n", .integer 1)])],
   .unmerged [(["a".toList, "y".toList], .unmerged [(idKey "n", .integer 2)])]] (by simp) rfl
example := c29_keys_unique doc docMerged doc_merges
example := c29_texts_unique doc docMerged doc_merges (by decide)
example := c30_order_of_keys [(idKey "a", .integer 1), (idKey "b", .null), (idKey "c", .null)] [(idKey "c", .null), (idKey "b", .null), (idKey "a", .integer 1)]
  (by
    intro k
    by_cases h1 : (idKey "a").norm = k
    · subst h1; rfl
    · by_cases h2 : (idKey "b").norm = k
      · subst h2; rfl
      · simp [valuesUnder, h1, h2])
example := c30_swap doc doc (idKey "a", .integer 1) (idKey "b", .null) (by decide)
example := c31_block_unmerge_merge _ _ blocks_merge [([['m']], .merged []), ([['l']], .merged [(idKey "x", .null)])] (.swap _ _ _)

/-! ## Containers -/

/-- unmerged pairs -/
def pairs : KVP Nat Char := .unmerged [(1, 'a'), (2, 'b'), (1, 'c')]

example := c34_get id 1 pairs _ (kvpIter_unmerged _) (by intro m h; cases h)
example := c34_get id 1 (.merged [(1, 'a'), (2, 'b')]) _ (kvpIter_merged _) (by intro m _; decide)
example := c34_get_single id 1 pairs _ (kvpIter_unmerged _)
example := c34_get_variant id 1 pairs (.many ['a', 'c']) rfl
example := c34_len pairs _ (kvpIter_unmerged _)

/-! ## Both parsers -/

/-- the tree of a document -/
def bothTree : Body := match parseStr asciiClass bothDoc with | .ok b => b | _ => []
/-- the entries of a document -/
def bothEntries : List (Key × Value) :=
  [(.identifier (.borrowed ['a']), .list [.integer 1, .string ['x']]),
   (.identifier (.borrowed ['b']), .block (.unmerged [([['l']], .unmerged [(.identifier (.borrowed ['c']),
     .object [.unmerged [(.string (.ownedS ['k']), .null)]])])])), (.identifier (.borrowed ['d']), .object [.unmerged []])]

/-- both parsers read it -/
theorem both_ok : parseStr asciiClass bothDoc = .ok bothTree := by decide +kernel
/-- both parsers read it -/
theorem both_ok' : fromStr asciiClass zeroFloats bothDoc none = .ok (.unmerged bothEntries) := by decide +kernel

example := c66_parsers_agree asciiClass zeroFloats bothDoc _ _ both_ok both_ok'
example := c66_tree_determines_entries zeroFloats _ _ _ (c66_parsers_agree asciiClass zeroFloats bothDoc _ _ both_ok both_ok')
  (c66_parsers_agree asciiClass zeroFloats bothDoc _ _ both_ok both_ok')
example := c66_same_tree_same_entries asciiClass zeroFloats bothDoc bothDoc _ _ _ both_ok both_ok both_ok' both_ok'
example := c66_merged asciiClass zeroFloats "a = 1\nb {\n c = 2\n}\n".toList
  (match parseStr asciiClass "a = 1\nb {\n c = 2\n}\n".toList with | .ok b => b | _ => [])
  (.merged [(.identifier (.borrowed ['a']), .integer 1), (.identifier (.borrowed ['b']), .object [.merged [(.identifier (.borrowed ['c']), .integer 2)]])])
  (by decide +kernel) (by decide +kernel)

/-- a form for floats: there is only one -/
def floatForm : F64 → Str := fun _ => "0.0".toList
/-- `0.0` is a number -/
theorem isZero : ∃ n, IsNumber "0.0".toList n := by
  obtain ⟨t, e, h⟩ := number_sound (show number "0.0".toList = .ok [] ⟨.borrowed "0.0".toList, true, some (.borrowed ['0']), some (.borrowed ['0']), none⟩ by decide +kernel)
  rw [List.append_nil] at e; subst e; exact ⟨_, h⟩
/-- `0.0` is not an integer -/
theorem zero_float : NumberValue zeroFloats "0.0".toList (.float ⟨0⟩) := by
  obtain ⟨n, h⟩ := isZero
  refine .float _ _ ?_ rfl
  rintro ⟨k, h'⟩
  have := (c32_integer asciiClass zeroFloats ['a'] _ _ k idA h).2 h'
  rw [show fromStr asciiClass zeroFloats (['a'] ++ '=' :: "0.0".toList) none =
    .ok (.unmerged [(.identifier (.borrowed ['a']), .float ⟨0⟩)]) by decide +kernel] at this
  cases this
/-- decimal integers and the form of floats are read back -/
theorem forms_ok : (∀ k, InI64 k → IntLit (decimalInt k) k) ∧ ∀ t n f, IsNumber t n → NumberValue zeroFloats t (.float f) →
    (∃ m, IsNumber (floatForm f) m) ∧ NumberValue zeroFloats (floatForm f) (.float f) := by
  refine ⟨fun k _ => decimalInt_spec k, fun t n f _ h => ⟨isZero, ?_⟩⟩
  cases h with
  | float _ _ hp => cases hp; exact zero_float

/-- the entries can be written -/
theorem both_writable : WritableEntries asciiClass zeroFloats decimalInt floatForm bothEntries :=
  c67_parsed_is_writable asciiClass zeroFloats decimalInt floatForm forms_ok.1 forms_ok.2 bothDoc _ both_ok'

/-- and are common to both parsers -/
theorem both_common : CommonEntries bothEntries :=
  .value _ _ _ (.list _ (.cons _ _ (.integer _) (.cons _ _ (.string _) .nil)))
    (.block _ _ _ _ (.value _ _ _ (.map _ (.cons _ _ _ .null .nil)) .nil) (.value _ _ _ (.map _ .nil) .nil))

example := c66_common_documents asciiClass zeroFloats decimalInt floatForm bothEntries both_writable both_common
example := c67_print_then_read asciiClass zeroFloats decimalInt floatForm bothEntries both_writable
example := c67_reformat asciiClass zeroFloats decimalInt floatForm forms_ok.1 forms_ok.2 oldDoc _ parse_oldDoc
example := c67_print_injective asciiClass zeroFloats decimalInt floatForm bothEntries bothEntries both_writable both_writable rfl
example := c65_new_single_map_is_read asciiClass zeroFloats decimalInt floatForm ['a'] bothEntries idA both_writable

end Verif.Witness
