import Verif.Proofs.DebugValue
import Verif.Props.Cli
/-!
# C77: what the command line program prints determines the parsed value
-/
set_option autoImplicit false

namespace Verif.Props
open Verif Spec

section
variable (D : DebugStyle)

mutual
/-- Owned or borrowed keys print the same. -/
theorem debug_own : ∀ v : Value, (ownValue v).debug D = v.debug D
  | .null => rfl
  | .integer _ => rfl
  | .float _ => rfl
  | .boolean _ => rfl
  | .string _ => rfl
  | .list l => by simp only [ownValue, Value.debug, debugList_own l]
  | .object l => by simp only [ownValue, Value.debug, debugMaps_own l]
  | .block (.merged l) => by simp only [ownValue, Value.debug, debugBodies_own l]
  | .block (.unmerged l) => by simp only [ownValue, Value.debug, debugBodyPairs_own l]
/-- lists -/
theorem debugList_own : ∀ l : List Value, Value.debugList D (ownList l) = Value.debugList D l
  | [] => rfl
  | v :: l => by simp only [ownList, Value.debugList, debug_own v, debugList_own l]
/-- objects -/
theorem debugMaps_own : ∀ l : List (KVP Key Value), Value.debugMaps D (ownMaps l) = Value.debugMaps D l
  | [] => rfl
  | m :: l => by simp only [ownMaps, Value.debugMaps, debugMap_own m, debugMaps_own l]
/-- maps -/
theorem debugMap_own : ∀ m : KVP Key Value, Value.debugMap D (ownMap m) = Value.debugMap D m
  | .merged l => by simp only [ownMap, Value.debugMap, debugEntries_own l]
  | .unmerged l => by simp only [ownMap, Value.debugMap, debugPairs_own l]
/-- entries of merged maps -/
theorem debugEntries_own : ∀ l : List (Key × Value), Value.debugEntries D (ownEntries l) = Value.debugEntries D l
  | [] => rfl
  | (k, v) :: l => by cases k <;> simp only [ownEntries, Value.debugEntries, debug_own v, debugEntries_own l, ownKey, Key.debug] <;> rfl
/-- entries of unmerged maps -/
theorem debugPairs_own : ∀ l : List (Key × Value), Value.debugPairs D (ownEntries l) = Value.debugPairs D l
  | [] => rfl
  | (k, v) :: l => by cases k <;> simp only [ownEntries, Value.debugPairs, debug_own v, debugPairs_own l, ownKey, Key.debug] <;> rfl
/-- bodies of merged blocks -/
theorem debugBodies_own : ∀ l : List (List Str × KVP Key Value), Value.debugBodies D (ownBodies l) = Value.debugBodies D l
  | [] => rfl
  | (ls, m) :: l => by simp only [ownBodies, Value.debugBodies, debugMap_own m, debugBodies_own l]
/-- bodies of unmerged blocks -/
theorem debugBodyPairs_own : ∀ l : List (List Str × KVP Key Value), Value.debugBodyPairs D (ownBodies l) = Value.debugBodyPairs D l
  | [] => rfl
  | (ls, m) :: l => by simp only [ownBodies, Value.debugBodyPairs, debugMap_own m, debugBodyPairs_own l]
end
end

mutual
/-- Owning keys twice is owning them once. -/
theorem own_own : ∀ v : Value, ownValue (ownValue v) = ownValue v
  | .null => rfl
  | .integer _ => rfl
  | .float _ => rfl
  | .boolean _ => rfl
  | .string _ => rfl
  | .list l => by simp only [ownValue, ownList_own l]
  | .object l => by simp only [ownValue, ownMaps_own l]
  | .block (.merged l) => by simp only [ownValue, ownBodies_own l]
  | .block (.unmerged l) => by simp only [ownValue, ownBodies_own l]
/-- lists -/
theorem ownList_own : ∀ l : List Value, ownList (ownList l) = ownList l
  | [] => rfl
  | v :: l => by simp only [ownList, own_own v, ownList_own l]
/-- objects -/
theorem ownMaps_own : ∀ l : List (KVP Key Value), ownMaps (ownMaps l) = ownMaps l
  | [] => rfl
  | m :: l => by simp only [ownMaps, ownMap_own m, ownMaps_own l]
/-- maps -/
theorem ownMap_own : ∀ m : KVP Key Value, ownMap (ownMap m) = ownMap m
  | .merged l => by simp only [ownMap, ownEntries_own l]
  | .unmerged l => by simp only [ownMap, ownEntries_own l]
/-- entries -/
theorem ownEntries_own : ∀ l : List (Key × Value), ownEntries (ownEntries l) = ownEntries l
  | [] => rfl
  | (k, v) :: l => by cases k <;> simp only [ownEntries, own_own v, ownEntries_own l, ownKey] <;> rfl
/-- bodies -/
theorem ownBodies_own : ∀ l : List (List Str × KVP Key Value), ownBodies (ownBodies l) = ownBodies l
  | [] => rfl
  | (ls, m) :: l => by simp only [ownBodies, ownMap_own m, ownBodies_own l]
end

mutual
/-- Keys are not leaves. -/
theorem leaves_own : ∀ v : Value, leaves (ownValue v) = leaves v
  | .null => rfl
  | .integer _ => rfl
  | .float _ => rfl
  | .boolean _ => rfl
  | .string _ => rfl
  | .list l => by simp only [ownValue, leaves, listLeaves_own l]
  | .object l => by simp only [ownValue, leaves, mapsLeaves_own l]
  | .block (.merged l) => by simp only [ownValue, leaves, blockLeaves, bodiesLeaves_own l]
  | .block (.unmerged l) => by simp only [ownValue, leaves, blockLeaves, bodiesLeaves_own l]
/-- lists -/
theorem listLeaves_own : ∀ l : List Value, listLeaves (ownList l) = listLeaves l
  | [] => rfl
  | v :: l => by simp only [ownList, listLeaves, leaves_own v, listLeaves_own l]
/-- objects -/
theorem mapsLeaves_own : ∀ l : List (KVP Key Value), mapsLeaves (ownMaps l) = mapsLeaves l
  | [] => rfl
  | m :: l => by simp only [ownMaps, mapsLeaves, mapLeaves_own m, mapsLeaves_own l]
/-- maps -/
theorem mapLeaves_own : ∀ m : KVP Key Value, mapLeaves (ownMap m) = mapLeaves m
  | .merged l => by simp only [ownMap, mapLeaves, entriesLeaves_own l]
  | .unmerged l => by simp only [ownMap, mapLeaves, entriesLeaves_own l]
/-- entries -/
theorem entriesLeaves_own : ∀ l : List (Key × Value), entriesLeaves (ownEntries l) = entriesLeaves l
  | [] => rfl
  | (k, v) :: l => by simp only [ownEntries, entriesLeaves, leaves_own v, entriesLeaves_own l]
/-- bodies -/
theorem bodiesLeaves_own : ∀ l : List (List Str × KVP Key Value), bodiesLeaves (ownBodies l) = bodiesLeaves l
  | [] => rfl
  | (ls, m) :: l => by simp only [ownBodies, bodiesLeaves, mapLeaves_own m, bodiesLeaves_own l]
end

section
variable (D : DebugStyle) (ok : F64 → Prop)

/-- C77: two values have the same printed text exactly if they are the same up to the ownership of keys: nothing else is
lost or confused, whatever characters strings and labels contain, however deep the values are, and in whatever order their
hash maps are iterated. -/
theorem c77_same_text_iff (hD : ShowsF64 D ok) (m n : MapValues) (hm : ∀ x, Value.float x ∈ mapLeaves m → ok x)
    (hn : ∀ x, Value.float x ∈ mapLeaves n → ok x) : printedValue D m = printedValue D n ↔ ownMap m = ownMap n := by
  refine ⟨printedValue_inj hD m n hm hn, fun h => ?_⟩
  unfold printedValue
  rw [← debugMap_own D m, ← debugMap_own D n, h]

/-- The floats of a parsed document are ones the standard library read. -/
private theorem floatsOk_of_parsed {ok : F64 → Prop} {U : CharClass} {P : F64Parse} {os : Os} {w : World} {input : Str}
    {noMerge : Bool} {m : MapValues} (hP : ∀ t n x, IsNumber t n → P t = some x → ok x)
    (h : Parsed U P os w input noMerge m) : ∀ x, Value.float x ∈ mapLeaves m → ok x := by
  obtain ⟨s, m', _, h, rfl⟩ := h
  intro x hx
  have hx := mapLeaves_own m' ▸ hx
  have key : ∀ m, fromStr U P s none = .ok m → Value.float x ∈ mapLeaves m → ok x := by
    intro m hm hx
    obtain ⟨t, n, h1, -, h2⟩ := c32_floats_are_read U P s m hm x hx
    exact hP t n x h1 h2
  rcases h with ⟨_, h⟩ | ⟨_, h⟩
  · exact key m' h hx
  · by_cases hd : ∃ es, OldDocument U P s es
    · obtain ⟨es, hd⟩ := hd
      rcases (c21_from_str_merging U P s es hd _).1 h with ⟨m, hm, e⟩ | ⟨e, _, h⟩
      · injection e with e
        subst e
        obtain ⟨lost, hp⟩ := c27_merge_invents_nothing _ m' hm
        exact key _ ((c21_from_str_accepts_exactly_the_grammar _ _ _ _).2 ⟨es, rfl, hd⟩) (hp.subset (List.mem_append.2 (.inl hx)))
      · cases h
    · rcases c21_rejects_everything_else U P s (some .error) hd with h' | ⟨t, h'⟩ | h' <;> (rw [h'] at h; cases h)

/-- C77: if two runs of the program, on any inputs, with or without merging, by any systems, end with success and leave the
same bytes in their (fresh) outputs, then the inputs were parsed to the same value. -/
theorem c77_output_determines_value (hD : ShowsF64 D ok) (U : CharClass) (P : F64Parse) (os₁ os₂ : Os)
    (w₁ w₂ w₁' w₂' : World) (input₁ output₁ input₂ output₂ : Str) (noMerge₁ noMerge₂ : Bool)
    (h₁ : runParse U P os₁ (fun m => utf8 (printedValue D m)) w₁ input₁ output₁ noMerge₁ = (.ok (), w₁'))
    (h₂ : runParse U P os₂ (fun m => utf8 (printedValue D m)) w₂ input₂ output₂ noMerge₂ = (.ok (), w₂'))
    (hP : ∀ t n x, IsNumber t n → P t = some x → ok x)
    (bytes : List Nat) (o₁ : OutputIs w₁ w₁' output₁ bytes) (o₂ : OutputIs w₂ w₂' output₂ bytes) :
    ∃ m, Parsed U P os₁ w₁ input₁ noMerge₁ m ∧ Parsed U P os₂ w₂ input₂ noMerge₂ m := by
  have key : ∀ (w w' : World) output a b, OutputIs w w' output a → OutputIs w w' output b → a = b := by
    rintro w w' output a b ⟨_, ha⟩ ⟨_, hb⟩
    rcases ha with ⟨e, _, ha⟩ | ⟨e, ha, _⟩ <;> rcases hb with ⟨e', _, hb⟩ | ⟨e', hb, _⟩
    · exact List.append_cancel_left (ha.symm.trans hb)
    · exact absurd e e'
    · exact absurd e' e
    · exact Option.some.inj (ha.symm.trans hb)
  obtain ⟨m, pm, _, _, om⟩ := (c53_success_iff U P os₁ _ w₁ input₁ output₁ noMerge₁ w₁').1 h₁
  obtain ⟨n, pn, _, _, on⟩ := (c53_success_iff U P os₂ _ w₂ input₂ output₂ noMerge₂ w₂').1 h₂
  have e : utf8 (printedValue D m) = utf8 (printedValue D n) :=
    (key _ _ _ _ _ om o₁).trans (key _ _ _ _ _ on o₂).symm
  have e : printedValue D m = printedValue D n := by
    have := congrArg fromUtf8 e
    rw [fromUtf8_utf8, fromUtf8_utf8] at this
    exact Option.some.inj this
  have e := (c77_same_text_iff D ok hD m n (floatsOk_of_parsed hP pm) (floatsOk_of_parsed hP pn)).1 e
  have own : ∀ {os w input noMerge m}, Parsed U P os w input noMerge m → ownMap m = m := by
    rintro os w input noMerge m ⟨s, m', _, _, rfl⟩
    exact ownMap_own m'
  rw [own pm, own pn] at e
  subst e
  exact ⟨m, pm, pn⟩

end

/-! a style like Rust's, a value with awkward strings, and its text -/

/-- ASCII graphic characters and the space are shown as they are; a float by its bits in decimal -/
abbrev plainStyle : DebugStyle := ⟨fun c => 32 ≤ c.toNat && c.toNat < 127, true, true, fun x => decimal x.bits⟩

example : ShowsF64 plainStyle (fun _ => True) where
  nonempty x _ := (digits_iff.1 (decimal_spec x.bits).1.1).1
  chars x _ c hc := .inl (by simp [Char.isAlphanum, (numeral10_iff.1 (decimal_spec x.bits).2).1 c hc])
  injective := fun ⟨a⟩ ⟨b⟩ _ _ h => by have h : a = b := decimal_inj h; rw [h]

example : printedValue plainStyle (.unmerged [
      (.identifier (.borrowed ['a']), .string ['"', ')', ',', '\n', 'é']),
      (.string (.ownedS ['c']), .list [.integer (-1), .null])]) =
    lit "Unmerged(
    [
        (
            Identifier(
                \"a\",
            ),
            String(
                \"\\\"),\\n\\u{e9}\",
            ),
        ),
        (
            String(
                \"c\",
            ),
            List(
                [
                    Integer(
                        -1,
                    ),
                    Null,
                ],
            ),
        ),
    ],
)
" := by decide +kernel

example : printedValue plainStyle (.merged [(.identifier (.ownedS ['b']), .block (.merged [([['x']], .unmerged [])]))]) =
    lit "Merged(
    {
        Identifier(
            \"b\",
        ): Block(
            Merged(
                {
                    [
                        \"x\",
                    ]: Unmerged(
                        [],
                    ),
                },
            ),
        ),
    },
)
" := by decide +kernel

end Verif.Props
