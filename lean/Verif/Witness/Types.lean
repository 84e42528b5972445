import Verif.Witness.Merge
import Verif.Props.RustTerm
import Verif.Props.Traits
import Verif.Props.ValueEq
import Verif.Props.Hash
import Verif.Props.Floats
/-! # Concrete cases: equality, hashing, printing, traits -/
set_option autoImplicit false

namespace Verif.Witness
open Verif Spec Verif.Props

/-! ## Printing -/

/-- `plainStyle` tells floats apart -/
theorem plain_shows : ShowsF64 plainStyle (fun _ => True) where
  nonempty x _ := (digits_iff.1 (decimal_spec x.bits).1.1).1
  chars x _ c hc := .inl (by simp [Char.isAlphanum, (numeral10_iff.1 (decimal_spec x.bits).2).1 c hc])
  injective := fun ⟨a⟩ ⟨b⟩ _ _ h => by have h : a = b := decimal_inj h; rw [h]

/-- and writes them on one line -/
theorem plain_line (x : F64) : '\n' ∉ plainStyle.f64 x := fun h => absurd ((numeral10_iff.1 (decimal_spec x.bits).2).1 _ h) (by decide)

/-- a run of the program on a file -/
theorem run_ok (D : DebugStyle) : ∃ w', runParse asciiClass zeroFloats calm (fun m => utf8 (printedValue D m)) oneFile ['i'] ['o'] false = (.ok (), w') ∧
    OutputIs oneFile w' ['o'] (utf8 (printedValue D (.merged [(.identifier (.ownedS ['a']), .integer 1)]))) := by
  have h : Parsed asciiClass zeroFloats calm oneFile ['i'] false (.merged [(.identifier (.ownedS ['a']), .integer 1)]) := by
    refine ⟨['a', '=', '1'], .merged [(.identifier (.borrowed ['a']), .integer 1)], ?_, .inr ⟨rfl, by decide +kernel⟩, rfl⟩
    refine .file _ [97, 61, 49] _ (by decide) rfl rfl ?_
    rw [show utf8 ['a', '=', '1'] = [97, 61, 49] by decide, delivers_iff]
    rfl
  let out := utf8 (printedValue D (.merged [(.identifier (.ownedS ['a']), .integer 1)]))
  have o : OutputIs oneFile ⟨fun p => if p = ['o'] then some out else oneFile.files p, [], []⟩ ['o'] out :=
    ⟨rfl, .inr ⟨by decide, by simp, fun p hp => by simp [hp], rfl⟩⟩
  exact ⟨_, (c53_success_iff asciiClass zeroFloats calm _ oneFile ['i'] ['o'] false _).2 ⟨_, h, .inr rfl, rfl, o⟩, o⟩

example := c77_same_text_iff plainStyle _ plain_shows (.unmerged bothEntries) (.merged docMerged) (fun _ _ => trivial) (fun _ _ => trivial)
example := c77_output_determines_value plainStyle _ plain_shows asciiClass zeroFloats calm calm oneFile oneFile _ _ ['i'] ['o'] ['i'] ['o'] false false
  (run_ok plainStyle).choose_spec.1 (run_ok plainStyle).choose_spec.1 (fun _ _ _ _ _ => trivial) _ (run_ok plainStyle).choose_spec.2
  (run_ok plainStyle).choose_spec.2

/-- the content of a literal with an escape -/
theorem content : RustContent ['a', '\\', 'n'] ['a', '\n'] := .char _ _ _ (by decide) (by decide) (.escape 'n' '\n' _ _ (by decide) .nil)

example := c77_literal_unique content content
example := c77_prints_a_term plainStyle (.unmerged oldDocEntries) (fun x _ => plain_line x)
example := c77_output_is_a_term plainStyle plain_line asciiClass zeroFloats calm oneFile _ ['i'] ['o'] false (run_ok plainStyle).choose_spec.1

/-! ## Messages -/

example := c76_message_identifies_error (.errorMergingKeys (lit "a b") (lit "Object") (lit "List"))
  (.errorMergingKeys (lit "a b") (lit "Object") (lit "List")) (by unfold Named OneWord; decide) (by unfold Named OneWord; decide) rfl
example := c76_message_quotes (.errorMergingKeys (lit "a b") (lit "Object") (lit "List")) (lit "a b") (by decide)
example := c76_de_message_identifies_error (.invalidTupleLength 12 3) (.invalidTupleLength 12 3) trivial trivial
  (by intro m h; cases h) (by intro m h; cases h) rfl
example := c76_cli_message_identifies_error (.parser (.parseError (lit "x"))) (.parser (.parseError (lit "x")))
  (by rintro p ⟨⟩; trivial) (by rintro p ⟨⟩; trivial) rfl

/-! ## Equality -/

/-- the numbers in these trees are integers -/
theorem toy_integers : (∀ n ∈ bodyNumbers (toyBody true toyOne), IsInteger n) ∧ (∀ n ∈ bodyNumbers (toyBody false toyPlusOne), IsInteger n) ∧
    ∀ n ∈ bodyNumbers (toyBody false toyOne), IsInteger n := by
  refine ⟨?_, ?_, ?_⟩
  all_goals
    simp only [bodyNumbers, toyBody, bodyLeaves, elementLeaves, exprLeaves, tupleLeaves, leafNumbers, List.map, List.append_nil,
      List.nil_append, List.cons_append, List.mem_singleton, forall_eq]
  · exact ⟨_, _, toyOne_is, toyOne_int⟩
  · exact ⟨_, _, toyPlusOne_is, toyPlusOne_int⟩
  · exact ⟨_, _, toyOne_is, toyOne_int⟩

example := c61_symmetric toyFloats (fun x y => BEq.comm (α := Str) (a := x) (b := y)) (toyBody true toyOne) (toyBody false toyFloatOne)
example := c61_transitive toyFloats (toyBody true toyOne) (toyBody false toyPlusOne) (toyBody false toyOne) toy_integers.1 toy_integers.2.1
  toy_integers.2.2 (by decide +kernel) (by decide +kernel)
example := c63_integral toyHalves (some (true, 2, false)) (-2) (by
  have : toyHalves.toStr (some (true, 2, false)) = decimalInt (-2) := by decide +kernel
  rw [this]; exact decimalInt_spec (-2)) ⟨true, 8⟩ rfl
example := c62_object_key_contract (.expr (.borrowed ['a'])) (.expr (.ownedS ['a'])) (by decide)
example := c62_number_hash "-1.5e3".toList "-1.5e3".toList _ _ isNegFloat isNegFloat

/-- a number for a list of numbers -/
def codeList : List Nat → Nat
  | [] => 0
  | n :: l => 2 ^ n * (2 * codeList l + 1)

/-- powers of two -/
theorem pow_odd (n m a b : Nat) (h : 2 ^ n * (2 * a + 1) = 2 ^ m * (2 * b + 1)) : n = m ∧ a = b := by
  induction n generalizing m with
  | zero =>
    cases m with
    | zero => exact ⟨rfl, by simp at h; omega⟩
    | succ m => rw [Nat.pow_succ, Nat.mul_comm (2 ^ m) 2, Nat.mul_assoc] at h; omega
  | succ n ih =>
    cases m with
    | zero => rw [Nat.pow_succ, Nat.mul_comm (2 ^ n) 2, Nat.mul_assoc] at h; omega
    | succ m =>
      rw [Nat.pow_succ, Nat.pow_succ, Nat.mul_comm (2 ^ n) 2, Nat.mul_comm (2 ^ m) 2, Nat.mul_assoc, Nat.mul_assoc] at h
      obtain ⟨h1, h2⟩ := ih m (Nat.eq_of_mul_eq_mul_left (by decide) h)
      exact ⟨by rw [h1], h2⟩

/-- different lists have different numbers -/
theorem codeList_inj : ∀ a b, codeList a = codeList b → a = b
  | [], [], _ => rfl
  | [], m :: b, h => by
    have : 0 < 2 ^ m * (2 * codeList b + 1) := Nat.mul_pos (Nat.pow_pos (by decide)) (by omega)
    simp only [codeList] at h; omega
  | n :: a, [], h => by
    have : 0 < 2 ^ n * (2 * codeList a + 1) := Nat.mul_pos (Nat.pow_pos (by decide)) (by omega)
    simp only [codeList] at h; omega
  | n :: a, m :: b, h => by
    obtain ⟨h1, h2⟩ := pow_odd _ _ _ _ h
    rw [h1, codeList_inj a b h2]

/-- a number for what is written to a hasher -/
def codeWrite : HashWrite → Nat
  | .str s => 3 * codeList (s.map Char.toNat)
  | .bool b => 3 * b.toNat + 1
  | .disc n => 3 * n + 2

/-- different writes have different numbers -/
theorem codeWrite_inj (a b : HashWrite) (h : codeWrite a = codeWrite b) : a = b := by
  cases a <;> cases b <;> simp only [codeWrite] at h <;> try omega
  · have := codeList_inj _ _ (Nat.eq_of_mul_eq_mul_left (by decide) h)
    rw [(List.map_inj_right fun _ _ h => Char.toNat_inj.1 h).1 this]
  · rename_i a b; cases a <;> cases b <;> simp at h ⊢
  · rename_i a b; rw [show a = b by omega]

/-- a hasher without collisions -/
def perfectHash (ws : List HashWrite) : Nat := codeList (ws.map codeWrite)

example := c62_object_key_not_found Nat perfectHash (fun _ _ h => (List.map_inj_right codeWrite_inj).1 (codeList_inj _ _ h))
  [.insert (.ident (.borrowed ['a'])) 1, .insert (.expr (.ownedS ['a'])) 2] ['a']

/-! ## Equality of values -/

/-- keys are unique -/
theorem doc_unique : UniqueKeys (.map (.unmerged doc)) := by
  have : ¬ HasMerged (.map (.unmerged doc)) := ((c26_is_unmerged (.unmerged doc)).1.mp rfl).2
  exact ⟨fun x hx => absurd (.inl ⟨x, hx⟩) this, fun x hx => absurd (.inr ⟨x, hx⟩) this⟩

/-- keys are unique -/
theorem docMerged_unique : UniqueKeys (.map (.merged docMerged)) := merge_unique.2 _ _ doc_unique doc_merges

/-- in a value -/
theorem value_unique : UniqueKeys (.val (.object [.merged docMerged])) := by
  refine ⟨fun m h => ?_, fun m h => ?_⟩ <;> (
    cases h with | step _ y _ hc hi => ?_
    cases hc with | object _ m' hm => ?_
    simp only [List.mem_singleton] at hm
    subst hm)
  · exact docMerged_unique.1 m hi
  · exact docMerged_unique.2 m hi

/-- there are no floats in it -/
theorem value_floats (x : F64) : Value.float x ∉ mapLeaves (.merged docMerged) := by
  simp [docMerged, mapLeaves, leaves, entriesLeaves, listLeaves, mapsLeaves, blockLeaves, bodiesLeaves]

example := c70_values toyFeq _ _ value_unique value_unique
example := c70_maps toyFeq _ _ docMerged_unique doc_unique
example := c70_documents asciiClass zeroFloats toyFeq oldLaid₁ oldLaid₂ none none _ _ laid₁_ok laid₂_ok
example := c70_refl_iff toyFeq _ value_unique
example := c70_map_refl_iff toyFeq _ docMerged_unique
example := c70_symm toyFeq (by intro x y h; simp [toyFeq] at h ⊢; exact ⟨h.1.symm, by rw [← h.1]; exact h.2⟩) _ _ value_unique value_unique
example := c70_trans toyFeq (by intro x y z h h'; simp [toyFeq] at h h' ⊢; exact ⟨h.1.trans h'.1, h.2⟩) _ _ _ value_unique value_unique value_unique
  (by decide +kernel) (by decide +kernel)
example := c70_hash_order toyFeq docMerged docMerged.reverse docMerged_unique (List.reverse_perm _).symm (fun x hx => absurd hx (value_floats x))
example := c70_as_owned toyFeq _ _ value_unique value_unique
example := c70_map_as_owned toyFeq _ _ docMerged_unique docMerged_unique
example := c70_merge toyFeq _ _ value_unique value_unique (by decide +kernel)
example := c70_merge_map toyFeq (.unmerged doc) _ doc_unique doc_unique (by decide +kernel)
example := c70_reformat asciiClass zeroFloats toyFeq decimalInt floatForm forms_ok.1 forms_ok.2 bothDoc _ both_ok' (by
  intro x hx; simp [bothEntries, mapLeaves, leaves, entriesLeaves, listLeaves, mapsLeaves, blockLeaves, bodiesLeaves] at hx)

/-! ## Traits -/

example := c79_len_scalar_order (K := Char) (α := Nat) some (.vec [.leaf 1, .map [('k', .leaf 2)]]) (.vec [.map [('j', .leaf 2)], .leaf 1])
  (by simp [LenTree.leaves]; exact .swap _ _ _)
example := c79_as_owned (id : Char → Char) id (· + 1) (OwnTree.vec [.ref (.map [('k', .some (.leaf 2)), ('l', .leaf 3)]), .none])
  (.vec _ (by
    intro t ht
    simp only [List.mem_cons, List.not_mem_nil, or_false] at ht
    rcases ht with rfl | rfl
    · refine .ref _ (.map _ (by decide) ?_)
      intro p hp
      simp only [List.mem_cons, List.not_mem_nil, or_false] at hp
      rcases hp with rfl | rfl
      · exact .some _ (.leaf _)
      · exact .leaf _
    · exact .none))
example := c79_default_merge_behaviour asciiClass zeroFloats oldDoc _ parse_oldDoc

end Verif.Witness
