import Verif.Proofs.Reads
import Verif.Props.DeTypes
/-!
# Deserialization is the relation `Reads`: C68

`Spec/Reads.lean` says what it means to read a node as a Rust type, without visitors, calls, fuel or hash order.
-/
set_option autoImplicit false

namespace Verif.Props
open Verif Spec

section
variable (P : F64Parse) (I : F64OfInt) (ord : HashOrder)

/-- C68: a deserialized value is the one that the rules give. -/
theorem c68_deserialized_is_read (t : Ty) (ht : ProperTy t) (n : Node) (v : DVal) (h : deserialize P I ord t n = .ok v) :
    Reads P I t n v :=
  deserialize_reads ord _ t n v (Nat.lt_succ_self _) ht h

/-- C68: whatever the rules give is deserialized, up to the order of map entries. -/
theorem c68_read_is_deserialized (t : Ty) (ht : ProperTy t) (n : Node) (v : DVal) (h : Reads P I t n v) :
    ∃ v', deserialize P I ord t n = .ok v' ∧ SameVal v v' :=
  reads_ok ord h ht

/-- C68: the rules give one value, up to the order of map entries. -/
theorem c68_read_unique (t : Ty) (ht : ProperTy t) (n : Node) (v v' : DVal) (h : Reads P I t n v) (h' : Reads P I t n v') :
    ∃ w, deserialize P I ord t n = .ok w ∧ SameVal v w ∧ SameVal v' w := by
  obtain ⟨w, h1, h2⟩ := c68_read_is_deserialized P I ord t ht n v h
  obtain ⟨w', h1', h2'⟩ := c68_read_is_deserialized P I ord t ht n v' h'
  rw [h1] at h1'; cases h1'
  exact ⟨w, h1, h2, h2'⟩

/-- C68: deserialization succeeds exactly if the rules give some value. -/
theorem c68_succeeds_iff (t : Ty) (ht : ProperTy t) (n : Node) :
    (∃ v, deserialize P I ord t n = .ok v) ↔ ∃ v, Reads P I t n v :=
  ⟨fun ⟨v, h⟩ => ⟨v, c68_deserialized_is_read P I ord t ht n v h⟩,
    fun ⟨v, h⟩ => let ⟨v', h', _⟩ := c68_read_is_deserialized P I ord t ht n v h; ⟨v', h'⟩⟩

/-- C68: `from_str` succeeds exactly if the text parses and its body can be read as the type. -/
theorem c68_from_str_succeeds_iff (U : CharClass) (t : Ty) (ht : ProperTy t) (s : Str) :
    (∃ v, deFromStr U P I ord t s = .ok v) ↔ ∃ b, parseStr U s = .ok b ∧ ∃ v, Reads P I t (.body b) v := by
  unfold deFromStr
  constructor
  · rintro ⟨v, h⟩
    split at h
    · rename_i b hb; exact ⟨b, hb, v, c68_deserialized_is_read P I ord t ht _ v h⟩
    · cases h
    · cases h
    · cases h
  · rintro ⟨b, hb, hv⟩
    rw [hb]; exact (c68_succeeds_iff P I ord t ht _).2 hv

/-- C68: the value `from_str` gives is the one read from the parsed body. -/
theorem c68_from_str_value (U : CharClass) (t : Ty) (ht : ProperTy t) (s : Str) (v : DVal)
    (h : deFromStr U P I ord t s = .ok v) : ∃ b, parseStr U s = .ok b ∧ Reads P I t (.body b) v := by
  unfold deFromStr at h
  split at h
  · rename_i b hb; exact ⟨b, hb, c68_deserialized_is_read P I ord t ht _ v h⟩
  · cases h
  · cases h
  · cases h

/-- C68: a text that does not parse gives exactly the parser's error, whatever the type. -/
theorem c68_from_str_parse_error (U : CharClass) (t : Ty) (s : Str) (e : Err) (h : parseStr U s = .error e) :
    deFromStr U P I ord t s = .error (.parse e) := by
  unfold deFromStr; rw [h]

/-- C68: all outcomes of `from_str`: an error that is not the parser's, and a panic, come from reading the parsed body, or the
parser panicked. -/
theorem c68_from_str_outcomes (U : CharClass) (t : Ty) (s : Str) :
    (deFromStr U P I ord t s = .panic ↔ parseStr U s = .panic ∨ ∃ b, parseStr U s = .ok b ∧ deserialize P I ord t (.body b) = .panic) ∧
      ∀ e, deFromStr U P I ord t s = .error e ↔
        (∃ e', e = .parse e' ∧ parseStr U s = .error e') ∨ ∃ b, parseStr U s = .ok b ∧ deserialize P I ord t (.body b) = .error e := by
  unfold deFromStr
  cases h : parseStr U s with
  | ok b => simp
  | error e => simp [eq_comm]
  | panic => simp
  | diverge => simp

/-! ## the consequences for each kind of type -/

theorem leaf_noMap {t : Ty} (ht : LeafTy t) {ns : List (Str × Node)} {v : DVal} (h : ReadsMap P I t ns v) : False := by
  cases h <;> exact ht

theorem leaf_noSeq {t : Ty} (ht : LeafTy t) {ns : List Node} {v : DVal} (h : ReadsSeq P I t ns v) : False := by
  cases h <;> exact ht

theorem leaf_noBody {t : Ty} (ht : LeafTy t) {b : Body} {v : DVal} (h : Reads P I t (.body b) v) : False := by
  cases h with
  | body => exact leaf_noMap P I ht ‹_›

/-- C68: a body or block cannot be read as a type without parts. -/
theorem c68_leaf_not_body_or_block (t : Ty) (ht : LeafTy t) (n : Node) (hn : (∃ b, n = .body b) ∨ ∃ c, n = .block c) (v : DVal) :
    deserialize P I ord t n ≠ .ok v := by
  intro h
  have hp : ProperTy t := by
    cases t <;> first | exact False.elim ht | constructor
  have hr := c68_deserialized_is_read P I ord t hp n v h
  rcases hn with ⟨b, rfl⟩ | ⟨c, rfl⟩
  · exact leaf_noBody P I ht hr
  · cases hr with
    | block => exact leaf_noBody P I ht ‹_›
    | blocks => exact leaf_noSeq P I ht ‹_›
    | someBlock => exact ht
    | noBlock => exact ht

/-- what a leaf type reads -/
theorem leaf_reads {t : Ty} (ht : LeafTy t) {n : Node} {v : DVal} (h : Reads P I t n v) :
    (∃ s, n = .key s) ∨ n = .expr .null ∨ (∃ b, n = .expr (.boolean b)) ∨ (∃ x, n = .expr (.number x)) ∨
      ∃ s, n = .expr (.string s) := by
  cases h with
  | tuple => exact (leaf_noSeq P I ht ‹_›).elim
  | object => exact (leaf_noMap P I ht ‹_›).elim
  | body => exact (leaf_noMap P I ht ‹_›).elim
  | block => exact (leaf_noBody P I ht ‹_›).elim
  | blocks => exact (leaf_noSeq P I ht ‹_›).elim
  | none => exact ht.elim
  | some => exact ht.elim
  | newtype => exact ht.elim
  | someBlock => exact ht.elim
  | noBlock => exact ht.elim
  | _ => simp

theorem same_leaf {v v' : DVal} (h : SameVal v v') (h1 : ∀ w, v ≠ .some w) (h2 : ∀ w, v ≠ .seq w) (h3 : ∀ w, v ≠ .entries w) :
    v' = v := by
  cases h with
  | refl => rfl
  | some => exact absurd rfl (h1 _)
  | seq => exact absurd rfl (h2 _)
  | entries => exact absurd rfl (h3 _)

/-- C68: `()` and unit structs are `null` and nothing else. -/
theorem c68_unit (t : Ty) (ht : t = .unit ∨ t = .unitStruct) (n : Node) (v : DVal) :
    deserialize P I ord t n = .ok v ↔ n = .expr .null ∧ v = .unit := by
  constructor
  · intro h
    rcases ht with rfl | rfl
    · have hr := c68_deserialized_is_read P I ord _ .unit n v h
      rcases leaf_reads P I (t := .unit) trivial hr with ⟨s, rfl⟩ | rfl | ⟨b, rfl⟩ | ⟨x, rfl⟩ | ⟨s, rfl⟩ <;> cases hr
      exact ⟨rfl, rfl⟩
    · have hr := c68_deserialized_is_read P I ord _ .unitStruct n v h
      rcases leaf_reads P I (t := .unitStruct) trivial hr with ⟨s, rfl⟩ | rfl | ⟨b, rfl⟩ | ⟨x, rfl⟩ | ⟨s, rfl⟩ <;> cases hr
      exact ⟨rfl, rfl⟩
  · rintro ⟨rfl, rfl⟩
    rcases ht with rfl | rfl
    · obtain ⟨v', h, hs⟩ := c68_read_is_deserialized P I ord _ .unit _ _ .unit
      rwa [same_leaf hs (by simp) (by simp) (by simp)] at h
    · obtain ⟨v', h, hs⟩ := c68_read_is_deserialized P I ord _ .unitStruct _ _ .unitStruct
      rwa [same_leaf hs (by simp) (by simp) (by simp)] at h

/-- C68: `bool` is a boolean literal and nothing else. -/
theorem c68_bool (n : Node) (v : DVal) :
    deserialize P I ord .bool n = .ok v ↔ ∃ b, n = .expr (.boolean b) ∧ v = .bool b := by
  constructor
  · intro h
    have hr := c68_deserialized_is_read P I ord _ .bool n v h
    rcases leaf_reads P I (t := .bool) trivial hr with ⟨s, rfl⟩ | rfl | ⟨b, rfl⟩ | ⟨x, rfl⟩ | ⟨s, rfl⟩ <;> cases hr
    exact ⟨_, rfl, rfl⟩
  · rintro ⟨b, rfl, rfl⟩
    obtain ⟨v', h, hs⟩ := c68_read_is_deserialized P I ord _ .bool _ _ (.bool b)
    rwa [same_leaf hs (by simp) (by simp) (by simp)] at h

/-- C68: integer types are integer literals in the range of the type and of `i64`, and nothing else. -/
theorem c68_integer (T : IntTy) (n : Node) (v : DVal) :
    deserialize P I ord (.int T) n = .ok v ↔
      ∃ x k, n = .expr (.number x) ∧ IsInteger x k ∧ T.min ≤ k ∧ k ≤ T.max ∧ v = .int k := by
  constructor
  · intro h
    have hr := c68_deserialized_is_read P I ord _ (.int T) n v h
    rcases leaf_reads P I (t := .int T) trivial hr with ⟨s, rfl⟩ | rfl | ⟨b, rfl⟩ | ⟨x, rfl⟩ | ⟨s, rfl⟩ <;> cases hr
    exact ⟨_, _, rfl, ‹_›, ‹_›, ‹_›, rfl⟩
  · rintro ⟨x, k, rfl, h1, h2, h3, rfl⟩
    obtain ⟨v', h, hs⟩ := c68_read_is_deserialized P I ord _ (.int T) _ _ (.int T x k h1 h2 h3)
    rwa [same_leaf hs (by simp) (by simp) (by simp)] at h

/-- C68: `f64` is a float literal that the standard library accepts, or an integer literal in the range of `i64`, and
nothing else. -/
theorem c68_float (n : Node) (v : DVal) :
    deserialize P I ord .f64 n = .ok v ↔
      ∃ x, n = .expr (.number x) ∧ ((∃ y, IsFloat P x y ∧ v = .f64 y) ∨ ∃ k, IsInteger x k ∧ v = .f64 (I k)) := by
  constructor
  · intro h
    have hr := c68_deserialized_is_read P I ord _ .f64 n v h
    rcases leaf_reads P I (t := .f64) trivial hr with ⟨s, rfl⟩ | rfl | ⟨b, rfl⟩ | ⟨x, rfl⟩ | ⟨s, rfl⟩ <;> cases hr
    · exact ⟨_, rfl, .inl ⟨_, ‹_›, rfl⟩⟩
    · exact ⟨_, rfl, .inr ⟨_, ‹_›, rfl⟩⟩
  · rintro ⟨x, rfl, ⟨y, h1, rfl⟩ | ⟨k, h1, rfl⟩⟩
    · obtain ⟨v', h, hs⟩ := c68_read_is_deserialized P I ord _ .f64 _ _ (.float x y h1)
      rwa [same_leaf hs (by simp) (by simp) (by simp)] at h
    · obtain ⟨v', h, hs⟩ := c68_read_is_deserialized P I ord _ .f64 _ _ (.floatOfInt x k h1)
      rwa [same_leaf hs (by simp) (by simp) (by simp)] at h

/-- C68: `f32` is the same, narrowed from `f64` or (in one step) from the integer. -/
theorem c68_float32 (n : Node) (v : DVal) :
    deserialize P I ord .f32 n = .ok v ↔
      ∃ x, n = .expr (.number x) ∧ ((∃ y, IsFloat P x y ∧ v = .f32 (I.narrow y)) ∨ ∃ k, IsInteger x k ∧ v = .f32 (I.f32 k)) := by
  constructor
  · intro h
    have hr := c68_deserialized_is_read P I ord _ .f32 n v h
    rcases leaf_reads P I (t := .f32) trivial hr with ⟨s, rfl⟩ | rfl | ⟨b, rfl⟩ | ⟨x, rfl⟩ | ⟨s, rfl⟩ <;> cases hr
    · exact ⟨_, rfl, .inl ⟨_, ‹_›, rfl⟩⟩
    · exact ⟨_, rfl, .inr ⟨_, ‹_›, rfl⟩⟩
  · rintro ⟨x, rfl, ⟨y, h1, rfl⟩ | ⟨k, h1, rfl⟩⟩
    · obtain ⟨v', h, hs⟩ := c68_read_is_deserialized P I ord _ .f32 _ _ (.float32 x y h1)
      rwa [same_leaf hs (by simp) (by simp) (by simp)] at h
    · obtain ⟨v', h, hs⟩ := c68_read_is_deserialized P I ord _ .f32 _ _ (.float32OfInt x k h1)
      rwa [same_leaf hs (by simp) (by simp) (by simp)] at h

/-- C68: `String` is a string literal, borrowed or not, or a map key, and nothing else. -/
theorem c68_string (n : Node) (v : DVal) :
    deserialize P I ord .string n = .ok v ↔
      ∃ s : CowStr, (n = .expr (.string s) ∨ n = .key s) ∧ v = .string s.str := by
  constructor
  · intro h
    have hr := c68_deserialized_is_read P I ord _ .string n v h
    rcases leaf_reads P I (t := .string) trivial hr with ⟨s, rfl⟩ | rfl | ⟨b, rfl⟩ | ⟨x, rfl⟩ | ⟨s, rfl⟩ <;> cases hr
    · exact ⟨_, .inr rfl, rfl⟩
    · exact ⟨_, .inl rfl, rfl⟩
  · rintro ⟨s, rfl | rfl, rfl⟩
    · obtain ⟨v', h, hs⟩ := c68_read_is_deserialized P I ord _ .string _ _ (.string s)
      rwa [same_leaf hs (by simp) (by simp) (by simp)] at h
    · obtain ⟨v', h, hs⟩ := c68_read_is_deserialized P I ord _ .string _ _ (.keyString s)
      rwa [same_leaf hs (by simp) (by simp) (by simp)] at h

/-- C68: `&str` is a string whose text is borrowed from the document (a heredoc kept as written; quoted strings are always copies, C05), and nothing else: never a map key. -/
theorem c68_str (n : Node) (v : DVal) :
    deserialize P I ord .str n = .ok v ↔ ∃ s, n = .expr (.string (.borrowed s)) ∧ v = .string s := by
  constructor
  · intro h
    have hr := c68_deserialized_is_read P I ord _ .str n v h
    rcases leaf_reads P I (t := .str) trivial hr with ⟨s, rfl⟩ | rfl | ⟨b, rfl⟩ | ⟨x, rfl⟩ | ⟨s, rfl⟩ <;> cases hr
    exact ⟨_, rfl, rfl⟩
  · rintro ⟨s, rfl, rfl⟩
    obtain ⟨v', h, hs⟩ := c68_read_is_deserialized P I ord _ .str _ _ (.str s)
    rwa [same_leaf hs (by simp) (by simp) (by simp)] at h

/-- C68: `char` is a string literal or map key of exactly one character, and nothing else. -/
theorem c68_char (n : Node) (v : DVal) :
    deserialize P I ord .char n = .ok v ↔
      ∃ (s : CowStr) (c : Char), (n = .expr (.string s) ∨ n = .key s) ∧ s.str = [c] ∧ v = .char c := by
  constructor
  · intro h
    have hr := c68_deserialized_is_read P I ord _ .char n v h
    rcases leaf_reads P I (t := .char) trivial hr with ⟨s, rfl⟩ | rfl | ⟨b, rfl⟩ | ⟨x, rfl⟩ | ⟨s, rfl⟩ <;> cases hr
    · exact ⟨_, _, .inr rfl, ‹_›, rfl⟩
    · exact ⟨_, _, .inl rfl, ‹_›, rfl⟩
  · rintro ⟨s, c, rfl | rfl, h1, rfl⟩
    · obtain ⟨v', h, hs⟩ := c68_read_is_deserialized P I ord _ .char _ _ (.char s c h1)
      rwa [same_leaf hs (by simp) (by simp) (by simp)] at h
    · obtain ⟨v', h, hs⟩ := c68_read_is_deserialized P I ord _ .char _ _ (.keyChar s c h1)
      rwa [same_leaf hs (by simp) (by simp) (by simp)] at h

/-- C68: an enum is never the value of an attribute, a body or a block; it can only be a map key, and then exactly the
name of a variant without fields. -/
theorem c68_enum (vs : List (Str × Bool)) (n : Node) (v : DVal) :
    deserialize P I ord (.enum vs) n = .ok v ↔
      ∃ s : CowStr, n = .key s ∧ field? s.str vs = some true ∧ v = .variant s.str := by
  constructor
  · intro h
    have hr := c68_deserialized_is_read P I ord _ (.enum vs) n v h
    rcases leaf_reads P I (t := .enum vs) trivial hr with ⟨s, rfl⟩ | rfl | ⟨b, rfl⟩ | ⟨x, rfl⟩ | ⟨s, rfl⟩ <;> cases hr
    exact ⟨_, rfl, ‹_›, rfl⟩
  · rintro ⟨s, rfl, h1, rfl⟩
    obtain ⟨v', h, hs⟩ := c68_read_is_deserialized P I ord _ (.enum vs) _ _ (.keyEnum s vs h1)
    rwa [same_leaf hs (by simp) (by simp) (by simp)] at h

/-- C68: a top-level document is a struct, a map, `IgnoredAny` or a self-describing value: no other type can be read from a body. -/
theorem c68_document_types (U : CharClass) (t : Ty) (ht : ProperTy t) (s : Str) (v : DVal)
    (h : deFromStr U P I ord t s = .ok v) : (∃ fs, t = .struct fs) ∨ (∃ t', t = .map t') ∨ t = .ignored ∨ t = .any := by
  obtain ⟨b, -, hr⟩ := c68_from_str_value P I ord U t ht s v h
  cases hr with
  | body =>
    rename_i hm
    cases hm with
    | map => exact .inr (.inl ⟨_, rfl⟩)
    | struct => exact .inl ⟨_, rfl⟩
    | ignored => exact .inr (.inr (.inl rfl))
    | any => exact .inr (.inr (.inr rfl))

end

/-! ## samples -/

/-- a proper type -/
theorem sampleTy_proper : ProperTy sampleTy := by
  refine .struct _ (by decide) ?_
  intro f hf
  simp only [List.mem_cons, List.not_mem_nil, or_false] at hf
  rcases hf with rfl | rfl | rfl
  · exact .string
  · exact .option _ .bool
  · refine .seq _ (.struct _ (by decide) ?_)
    intro f hf
    simp only [List.mem_cons, List.not_mem_nil, or_false] at hf
    subst hf; exact .string

/-- C68 applies to it -/
example (P : F64Parse) (I : F64OfInt) : Reads P I sampleTy (.body sampleBody)
    (.entries [("a".toList, .string "x".toList), ("b".toList, .none),
      ("c".toList, .seq [.entries [("v".toList, .string "1".toList)], .entries [("v".toList, .string "2".toList)]])]) :=
  c68_deserialized_is_read P I ord0 _ sampleTy_proper _ _ (sample_result P I)

/-- a variant without fields is read from a key, one with fields is not -/
example (P : F64Parse) (I : F64OfInt) (ord : HashOrder) :
    deserialize P I ord (.enum [("a".toList, true), ("b".toList, false)]) (.key (.borrowed "a".toList)) =
      .ok (.variant "a".toList) ∧
    ∀ v, deserialize P I ord (.enum [("a".toList, true), ("b".toList, false)]) (.key (.borrowed "b".toList)) ≠ .ok v := by
  refine ⟨(c68_enum P I ord _ _ _).2 ⟨_, rfl, by decide, rfl⟩, fun v h => ?_⟩
  obtain ⟨s, hs, h1, -⟩ := (c68_enum P I ord _ _ _).1 h
  cases hs
  revert h1; decide

end Verif.Props
