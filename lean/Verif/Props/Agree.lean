import Verif.Props.Construct
import Verif.Proofs.OldPrint
import Verif.Props.OldValues
import Verif.Props.Print
/-! # The two parsers agree (C66); legacy values can be written and read back (C67) -/
set_option autoImplicit false

namespace Verif.Props
open Verif Spec

variable (U : CharClass) (P : F64Parse)

/-! ## C66 -/

/-- C66: wherever both `parse_str` and `value::from_str` (without merging) accept a text, they describe the same data:
the same elements in the same order, with the same names, labels and values. -/
theorem c66_parsers_agree (s : Str) (b : Body) (es : List (Key × Value)) (h : parseStr U s = .ok b)
    (h' : fromStr U P s none = .ok (.unmerged es)) : AgreeBody P b es := by
  obtain ⟨es', e, hd⟩ := (c21_from_str_accepts_exactly_the_grammar _ _ _ _).1 h'
  injection e with e; subst e
  exact document_agree (parseStr_iff.1 h) hd

/-- C66: the entries that a tree agrees with are determined by it, up to ownership of keys; so on texts that both accept
the legacy result is a function of the syntax tree. -/
theorem c66_tree_determines_entries (b : Body) (es es' : List (Key × Value)) (h : AgreeBody P b es)
    (h' : AgreeBody P b es') : ownEntries es = ownEntries es' := agreeBody_own h h'

/-- C66: so two texts with the same tree (for example, differing in layout), both accepted by both parsers, have the same
legacy entries. -/
theorem c66_same_tree_same_entries (s t : Str) (b : Body) (es es' : List (Key × Value)) (hs : parseStr U s = .ok b)
    (ht : parseStr U t = .ok b) (hs' : fromStr U P s none = .ok (.unmerged es))
    (ht' : fromStr U P t none = .ok (.unmerged es')) : ownEntries es = ownEntries es' :=
  c66_tree_determines_entries P b es es' (c66_parsers_agree U P s b es hs hs') (c66_parsers_agree U P t b es' ht ht')

/-- C66: the merged result, too, describes the data of the tree: it is the merge of entries that agree with it. -/
theorem c66_merged (s : Str) (b : Body) (m : MapValues) (h : parseStr U s = .ok b)
    (h' : fromStr U P s (some .error) = .ok m) : ∃ es, AgreeBody P b es ∧ MapValues.merge (.unmerged es) = .ok m := by
  unfold fromStr at h'
  cases hb : oldBody U P s with
  | ok r x =>
    rw [hb] at h'
    obtain ⟨rfl, es, rfl, hd⟩ := oldBody_iff.1 hb
    simp only [finishFromStr, List.isEmpty_nil, if_true] at h'
    refine ⟨es, document_agree (parseStr_iff.1 h) hd, ?_⟩
    unfold MapValues.merge
    revert h'
    cases Value.mergeMap (.unmerged es) with
    | ok m' => intro h'; simp only at h'; injection h' with h'; rw [h']
    | error e => intro h'; simp only at h'; cases h'
  | _ => rw [hb] at h'; cases h'

/-- C66: every document of identifier keys whose blocks are not inside values can be written so that both parsers accept it. -/
theorem c66_common_documents (I : Int → Str) (F : F64 → Str) (es : List (Key × Value)) (hw : WritableEntries U P I F es)
    (hc : CommonEntries es) : ∃ s b es', parseStr U s = .ok b ∧ fromStr U P s none = .ok (.unmerged es') ∧
      ownEntries es' = ownEntries es ∧ AgreeBody P b es' := by
  obtain ⟨b, hb⟩ := printEntries_body hw hc [] (.inl rfl)
  obtain ⟨es', he, ho⟩ := printEntries_read hw [] (.inl rfl)
  have h1 : parseStr U (printEntries I F es ++ []) = .ok b := parseStr_iff.2 hb
  have h2 : fromStr U P (printEntries I F es ++ []) none = .ok (.unmerged es') :=
    (c21_from_str_accepts_exactly_the_grammar _ _ _ _).2 ⟨_, rfl, he⟩
  exact ⟨_, b, es', h1, h2, ho, c66_parsers_agree U P _ b es' h1 h2⟩

/-- A document that both parsers accept. -/
def bothDoc : Str := "a = [1, \"x\"]\nb \"l\" {\n c = {\n \"k\" = null\n}\n}\nd {\n}\n".toList

/-- Non-vacuity: both accept it. -/
example : (match parseStr asciiClass bothDoc with | .ok b => b.length | _ => 0) = 3 ∧
    (match fromStr asciiClass zeroFloats bothDoc none with | .ok (.unmerged es) => es.length | _ => 0) = 3 := by
  decide +kernel

/-- Each parser accepts texts that the other rejects: identifier labels and one-line blocks; string keys and commas. -/
example : (match parseStr asciiClass "a b {c = 1}\n".toList with | .ok _ => true | _ => false) = true ∧
    (match fromStr asciiClass zeroFloats "a b {c = 1}\n".toList none with | .ok _ => true | _ => false) = false ∧
    (match parseStr asciiClass "\"a\" = 1, b = 2\n".toList with | .ok _ => true | _ => false) = false ∧
    (match fromStr asciiClass zeroFloats "\"a\" = 1, b = 2\n".toList none with | .ok _ => true | _ => false) = true := by
  decide +kernel

/-! ## C67 -/

/-- C67: entries that can be written (`I` and `F` write integers and floats as literals denoting them) are read back by
`from_str` without merging, up to ownership of keys. -/
theorem c67_print_then_read (I : Int → Str) (F : F64 → Str) (es : List (Key × Value)) (hw : WritableEntries U P I F es) :
    ∃ es', fromStr U P (printEntries I F es) none = .ok (.unmerged es') ∧ ownEntries es' = ownEntries es := by
  obtain ⟨es', he, ho⟩ := printEntries_read hw [] (.inl rfl)
  rw [List.append_nil] at he
  exact ⟨es', (c21_from_str_accepts_exactly_the_grammar _ _ _ _).2 ⟨_, rfl, he⟩, ho⟩

/-- C67: all that `from_str` returns without merging can be written, given writers for the integers in range and for the
floats that literals denote. -/
theorem c67_parsed_is_writable (I : Int → Str) (F : F64 → Str) (hI : ∀ k, InI64 k → IntLit (I k) k)
    (hF : ∀ t n f, IsNumber t n → NumberValue P t (.float f) → (∃ m, IsNumber (F f) m) ∧ NumberValue P (F f) (.float f))
    (s : Str) (es : List (Key × Value)) (h : fromStr U P s none = .ok (.unmerged es)) : WritableEntries U P I F es := by
  obtain ⟨es', e, hd⟩ := (c21_from_str_accepts_exactly_the_grammar _ _ _ _).1 h
  injection e with e; subst e
  exact isEntries_writable hI hF hd

/-- C67: reformatting a legacy document (reading it and writing the result) keeps its meaning. -/
theorem c67_reformat (I : Int → Str) (F : F64 → Str) (hI : ∀ k, InI64 k → IntLit (I k) k)
    (hF : ∀ t n f, IsNumber t n → NumberValue P t (.float f) → (∃ m, IsNumber (F f) m) ∧ NumberValue P (F f) (.float f))
    (s : Str) (es : List (Key × Value)) (h : fromStr U P s none = .ok (.unmerged es)) :
    ∃ es', fromStr U P (printEntries I F es) none = .ok (.unmerged es') ∧ ownEntries es' = ownEntries es :=
  c67_print_then_read U P I F es (c67_parsed_is_writable U P I F hI hF s es h)

/-- C67: entries with different meanings are written differently. -/
theorem c67_print_injective (I : Int → Str) (F : F64 → Str) (a b : List (Key × Value)) (ha : WritableEntries U P I F a)
    (hb : WritableEntries U P I F b) (h : printEntries I F a = printEntries I F b) : ownEntries a = ownEntries b := by
  obtain ⟨a', h1, h2⟩ := c67_print_then_read U P I F a ha
  obtain ⟨b', h3, h4⟩ := c67_print_then_read U P I F b hb
  rw [h, h3] at h1
  injection h1 with h1; injection h1 with h1
  rw [← h2, ← h4, h1]

/-! ## C65: values made by `new_block` and `new_single_map`, in terms of the text that describes them -/

/-- C65: `Value::new_block(labels, entries)` under an identifier is what `from_str` reads from a block with these labels, in
this order, and these entries (up to ownership). -/
theorem c65_new_block_is_read (I : Int → Str) (F : F64 → Str) (i : Str) (ls : List Str) (es : List (Key × Value)) (hi : IsIdent U i)
    (hl : ls ≠ []) (hw : WritableEntries U P I F es) :
    ∃ es', fromStr U P (i ++ ls.flatMap (fun t => ' ' :: quoteLine t) ++ ' ' :: '{' :: '\n' :: printEntries I F es ++ ['}', '\n']) none =
      .ok (.unmerged es') ∧ ownEntries es' = ownEntries [(.newIdentifier i, .newBlock ls es)] := by
  have h := c67_print_then_read U P I F _ (.block (.borrowed i) ls es [] hi hl hw .nil)
  simpa [printEntries, printOldKey, CowStr.borrowed, Key.newIdentifier, Value.newBlock, VBlock.newUnmerged,
    MapValues.newUnmerged] using h

/-- C65: `Value::new_single_map(entries)` under an identifier is what `from_str` reads from an attribute whose value is a
map with these entries (up to ownership). -/
theorem c65_new_single_map_is_read (I : Int → Str) (F : F64 → Str) (i : Str) (es : List (Key × Value)) (hi : IsIdent U i)
    (hw : WritableEntries U P I F es) :
    ∃ es', fromStr U P (i ++ " = {\n".toList ++ printEntries I F es ++ ['}', '\n']) none =
      .ok (.unmerged es') ∧ ownEntries es' = ownEntries [(.newIdentifier i, .newSingleMap es)] := by
  have h := c67_print_then_read U P I F _ (.value (.identifier (.borrowed i)) _ [] hi (.map es hw) .nil)
  simpa [printEntries, printValue, printOldKey, CowStr.borrowed, Key.newIdentifier, Value.newSingleMap, Value.newBlock,
    MapValues.newUnmerged] using h

/-- `a "x" "y" {` … `}` and `new_block(["x", "y"], [("b", true)])` -/
example (I : Int → Str) (F : F64 → Str) : ∃ es', fromStr asciiClass zeroFloats "a \"x\" \"y\" {\nb = true\n}\n".toList none = .ok (.unmerged es') ∧
    ownEntries es' = ownEntries [(.newIdentifier ['a'], .newBlock [['x'], ['y']] [(.newIdentifier ['b'], .boolean true)])] := by
  have hid : ∀ c : Char, c ∈ ['a', 'b'] → IsIdent asciiClass [c] := by
    intro c hc
    simp only [List.mem_cons, List.not_mem_nil, or_false] at hc
    rcases hc with rfl | rfl
    · exact ((c14_longest_identifier asciiClass ['a'] ['a'] []).1 (by decide +kernel)).2.1
    · exact ((c14_longest_identifier asciiClass ['b'] ['b'] []).1 (by decide +kernel)).2.1
  have h := c65_new_block_is_read asciiClass zeroFloats I F ['a'] [['x'], ['y']] [(.newIdentifier ['b'], .boolean true)]
    (hid 'a' (by simp)) (by simp) (.value _ _ _ (hid 'b' (by simp)) (.boolean true) .nil)
  have e : (['a'] ++ [['x'], ['y']].flatMap (fun t => ' ' :: quoteLine t) ++ ' ' :: '{' :: '\n' ::
      printEntries I F [(.newIdentifier ['b'], .boolean true)] ++ ['}', '\n'] : Str) = "a \"x\" \"y\" {\nb = true\n}\n".toList := by
    simp only [printEntries, printValue, printOldKey, Key.newIdentifier]
    decide +kernel
  rw [e] at h
  exact h

/-- Non-vacuity: writers as required exist: the decimal text, and for each float a literal that denotes it. -/
theorem c67_writers_exist : ∃ (I : Int → Str) (F : F64 → Str), (∀ k, InI64 k → IntLit (I k) k) ∧
    ∀ t n f, IsNumber t n → NumberValue P t (.float f) → (∃ m, IsNumber (F f) m) ∧ NumberValue P (F f) (.float f) := by
  classical
  refine ⟨decimalInt, fun f => if h : ∃ t n, IsNumber t n ∧ NumberValue P t (.float f) then h.choose else [],
    fun k _ => decimalInt_spec k, fun t n f hn hv => ?_⟩
  have h : ∃ t n, IsNumber t n ∧ NumberValue P t (.float f) := ⟨t, n, hn, hv⟩
  simp only [dif_pos h]
  obtain ⟨m, hm, hv'⟩ := h.choose_spec
  exact ⟨⟨m, hm⟩, hv'⟩

example : printEntries decimalInt (fun _ => []) [(.identifier (.borrowed ['a']), .list [.integer (-12), .null]),
    (.string (.ownedS ['b', '\n']), .object [.unmerged [(.identifier (.borrowed ['c']), .string ['x', '"'])]]),
    (.identifier (.borrowed ['d']), .block (.unmerged [([['l']], .unmerged [])]))] =
    "a = [-12, null]\n\"b\\n\" = {\nc = \"x\\\"\"\n}\nd \"l\" {\n}\n".toList := by decide +kernel

end Verif.Props
