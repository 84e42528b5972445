import Verif.Spec.Debug
import Verif.Proofs.Debug
import Verif.Proofs.ValueEqMerge
/-! # The trees given to `Debug` determine the values -/
set_option autoImplicit false

namespace Verif
open Spec

variable {D : DebugStyle} {ok : F64 → Prop} (hD : ShowsF64 D ok)

/-! ## words -/

private theorem cleanWord_of {s : Str} (h : ∀ c ∈ s, c.isAlphanum = true ∨ c = '+' ∨ c = '-' ∨ c = '.') : CleanWord s := by
  intro c hc
  unfold wordChar
  rcases h c hc with h | rfl | rfl | rfl
  · rw [Bool.not_eq_true']
    cases hb : (['"', '(', ')', '[', ']', '{', '}', ',', ':', '\n', ' '].contains c) with
    | false => rfl
    | true =>
      exfalso
      have hm : c ∈ ['"', '(', ')', '[', ']', '{', '}', ',', ':', '\n', ' '] := List.contains_iff_mem.1 hb
      revert h
      revert hm
      generalize c = d
      simp only [List.mem_cons, List.not_mem_nil, or_false]
      rintro (rfl | rfl | rfl | rfl | rfl | rfl | rfl | rfl | rfl | rfl | rfl) <;> decide
  · decide
  · decide
  · decide

private theorem decimalInt_clean (k : Int) : decimalInt k ≠ [] ∧ CleanWord (decimalInt k) := by
  have hd : ∀ n : Nat, decimal n ≠ [] ∧ ∀ c ∈ decimal n, c.isAlphanum = true ∨ c = '+' ∨ c = '-' ∨ c = '.' := by
    intro n
    refine ⟨(digits_iff.1 (decimal_spec n).1.1).1, fun c hc => .inl ?_⟩
    have := (numeral10_iff.1 (decimal_spec n).2).1 c hc
    simp [Char.isAlphanum, this]
  unfold decimalInt
  split
  · refine ⟨by simp, cleanWord_of ?_⟩
    intro c hc
    rcases List.mem_cons.1 hc with rfl | hc
    · exact .inr (.inr (.inl rfl))
    · exact (hd _).2 c hc
  · exact ⟨(hd _).1, cleanWord_of (hd _).2⟩

private theorem decimalInt_inj {a b : Int} (h : decimalInt a = decimalInt b) : a = b := by
  have nd : ∀ n : Nat, ¬ ∃ s, decimal n = '-' :: s := by
    rintro n ⟨s, hs⟩
    have := (numeral10_iff.1 (decimal_spec n).2).1 '-' (by rw [hs]; exact .head _)
    exact absurd this (by decide)
  unfold decimalInt at h
  split at h <;> split at h
  · injection h with _ h
    have := Props.decimal_inj h
    omega
  · exact absurd ⟨_, h.symm⟩ (nd _)
  · exact absurd ⟨_, h⟩ (nd _)
  · have := Props.decimal_inj h
    omega

private theorem names_clean : CleanWord (lit "Null") ∧ CleanWord (lit "Integer") ∧ CleanWord (lit "Float") ∧
    CleanWord (lit "Boolean") ∧ CleanWord (lit "String") ∧ CleanWord (lit "List") ∧ CleanWord (lit "Object") ∧
    CleanWord (lit "Block") ∧ CleanWord (lit "Merged") ∧ CleanWord (lit "Unmerged") ∧ CleanWord (lit "Identifier") ∧
    CleanWord (lit "true") ∧ CleanWord (lit "false") := by
  unfold CleanWord
  decide +kernel

private theorem nil_clean : CleanWord [] := fun c h => (by cases h)

private theorem key_clean (k : Key) : k.debug.Clean := by
  have := names_clean
  cases k <;> simp [Key.debug, DTree.Clean, CleanItems, this]

private theorem labels_clean (ls : List Str) : (debugLabels ls).Clean := by
  unfold debugLabels
  simp only [DTree.Clean]
  induction ls with
  | nil => simp [CleanItems]
  | cons l ls ih => simp [CleanItems, DTree.Clean, ih]

/-- all floats among these leaves are fine -/
def FloatsOk (ok : F64 → Prop) (l : List Value) : Prop := ∀ x, Value.float x ∈ l → ok x

private theorem floatsOk_append {a b : List Value} (h : FloatsOk ok (a ++ b)) : FloatsOk ok a ∧ FloatsOk ok b :=
  ⟨fun x hx => h x (List.mem_append_left _ hx), fun x hx => h x (List.mem_append_right _ hx)⟩

include hD

mutual
private theorem debug_clean : ∀ v : Value, FloatsOk ok (leaves v) → (v.debug D).Clean
  | .null, _ => by
    simp only [Value.debug, DTree.Clean]
    exact ⟨by decide +kernel, names_clean.1⟩
  | .integer i, _ => by
    have := decimalInt_clean i
    simp only [Value.debug, DTree.Clean, CleanItems]
    exact ⟨names_clean.2.1, this, trivial⟩
  | .float f, h => by
    have hf : ok f := h f (by simp [leaves])
    simp only [Value.debug, DTree.Clean, CleanItems]
    exact ⟨names_clean.2.2.1, ⟨hD.nonempty f hf, cleanWord_of (hD.chars f hf)⟩, trivial⟩
  | .boolean b, _ => by
    simp only [Value.debug, DTree.Clean, CleanItems]
    refine ⟨names_clean.2.2.2.1, ?_, trivial⟩
    cases b
    · exact ⟨by decide +kernel, names_clean.2.2.2.2.2.2.2.2.2.2.2.2⟩
    · exact ⟨by decide +kernel, names_clean.2.2.2.2.2.2.2.2.2.2.2.1⟩
  | .string s, _ => by
    simp only [Value.debug, DTree.Clean, CleanItems]
    exact ⟨names_clean.2.2.2.2.1, trivial, trivial⟩
  | .list l, h => by
    simp only [Value.debug, DTree.Clean, CleanItems]
    exact ⟨names_clean.2.2.2.2.2.1, debugList_clean l (by simpa [leaves] using h), trivial⟩
  | .object l, h => by
    simp only [Value.debug, DTree.Clean, CleanItems]
    exact ⟨names_clean.2.2.2.2.2.2.1, debugMaps_clean l (by simpa [leaves] using h), trivial⟩
  | .block (.merged l), h => by
    simp only [Value.debug, DTree.Clean, CleanItems]
    exact ⟨names_clean.2.2.2.2.2.2.2.1, ⟨names_clean.2.2.2.2.2.2.2.2.1,
      debugBodies_clean l (by simpa [leaves, blockLeaves] using h), trivial⟩, trivial⟩
  | .block (.unmerged l), h => by
    simp only [Value.debug, DTree.Clean, CleanItems]
    exact ⟨names_clean.2.2.2.2.2.2.2.1, ⟨names_clean.2.2.2.2.2.2.2.2.2.1,
      debugBodyPairs_clean l (by simpa [leaves, blockLeaves] using h), trivial⟩, trivial⟩
private theorem debugList_clean : ∀ l : List Value, FloatsOk ok (listLeaves l) → CleanItems (Value.debugList D l)
  | [], _ => by simp only [Value.debugList, CleanItems]
  | v :: l, h => by
    have h := floatsOk_append (by simpa [listLeaves] using h)
    simp only [Value.debugList, CleanItems]
    exact ⟨debug_clean v h.1, debugList_clean l h.2⟩
private theorem debugMaps_clean : ∀ l : List (KVP Key Value), FloatsOk ok (mapsLeaves l) → CleanItems (Value.debugMaps D l)
  | [], _ => by simp only [Value.debugMaps, CleanItems]
  | m :: l, h => by
    have h := floatsOk_append (by simpa [mapsLeaves] using h)
    simp only [Value.debugMaps, CleanItems]
    exact ⟨debugMap_clean m h.1, debugMaps_clean l h.2⟩
theorem debugMap_clean : ∀ m : KVP Key Value, FloatsOk ok (mapLeaves m) → (Value.debugMap D m).Clean
  | .merged l, h => by
    simp only [Value.debugMap, DTree.Clean, CleanItems]
    exact ⟨names_clean.2.2.2.2.2.2.2.2.1, debugEntries_clean l (by simpa [mapLeaves] using h), trivial⟩
  | .unmerged l, h => by
    simp only [Value.debugMap, DTree.Clean, CleanItems]
    exact ⟨names_clean.2.2.2.2.2.2.2.2.2.1, debugPairs_clean l (by simpa [mapLeaves] using h), trivial⟩
private theorem debugEntries_clean : ∀ l : List (Key × Value), FloatsOk ok (entriesLeaves l) →
    CleanEntries (Value.debugEntries D l)
  | [], _ => by simp only [Value.debugEntries, CleanEntries]
  | (k, v) :: l, h => by
    have h := floatsOk_append (by simpa [entriesLeaves] using h)
    simp only [Value.debugEntries, CleanEntries]
    exact ⟨key_clean k, debug_clean v h.1, debugEntries_clean l h.2⟩
private theorem debugPairs_clean : ∀ l : List (Key × Value), FloatsOk ok (entriesLeaves l) →
    CleanItems (Value.debugPairs D l)
  | [], _ => by simp only [Value.debugPairs, CleanItems]
  | (k, v) :: l, h => by
    have h := floatsOk_append (by simpa [entriesLeaves] using h)
    simp only [Value.debugPairs, CleanItems, DTree.Clean]
    exact ⟨⟨nil_clean, key_clean k, debug_clean v h.1, trivial⟩, debugPairs_clean l h.2⟩
private theorem debugBodies_clean : ∀ l : List (List Str × KVP Key Value), FloatsOk ok (bodiesLeaves l) →
    CleanEntries (Value.debugBodies D l)
  | [], _ => by simp only [Value.debugBodies, CleanEntries]
  | (ls, m) :: l, h => by
    have h := floatsOk_append (by simpa [bodiesLeaves] using h)
    simp only [Value.debugBodies, CleanEntries]
    exact ⟨labels_clean ls, debugMap_clean m h.1, debugBodies_clean l h.2⟩
private theorem debugBodyPairs_clean : ∀ l : List (List Str × KVP Key Value), FloatsOk ok (bodiesLeaves l) →
    CleanItems (Value.debugBodyPairs D l)
  | [], _ => by simp only [Value.debugBodyPairs, CleanItems]
  | (ls, m) :: l, h => by
    have h := floatsOk_append (by simpa [bodiesLeaves] using h)
    simp only [Value.debugBodyPairs, CleanItems, DTree.Clean]
    exact ⟨⟨nil_clean, labels_clean ls, debugMap_clean m h.1, trivial⟩, debugBodyPairs_clean l h.2⟩
end

/-! ## injectivity -/

omit hD in
private theorem key_inj {k l : Key} (h : k.debug = l.debug) : ownKey k = ownKey l := by
  cases k <;> cases l <;> simp only [Key.debug, DTree.tuple.injEq, List.cons.injEq, DTree.str.injEq, and_true] at h
  · rename_i a b; simp only [ownKey, h]
  · exact absurd h.1 (by decide +kernel)
  · exact absurd h.1 (by decide +kernel)
  · rename_i a b; simp only [ownKey, h]

omit hD in
private theorem labels_inj {a b : List Str} (h : debugLabels a = debugLabels b) : a = b := by
  unfold debugLabels at h
  injection h with h
  induction a generalizing b with
  | nil => cases b with
    | nil => rfl
    | cons y b => cases h
  | cons x a ih => cases b with
    | nil => cases h
    | cons y b =>
      simp only [List.map_cons, List.cons.injEq, DTree.str.injEq] at h
      rw [h.1, ih h.2]

mutual
private theorem debug_inj : ∀ v w : Value, FloatsOk ok (leaves v) → FloatsOk ok (leaves w) → v.debug D = w.debug D →
    ownValue v = ownValue w
  | .null, w, _, _, h => by
    cases w with
    | null => rfl
    | block b => cases b <;> simp [Value.debug] at h
    | _ => simp [Value.debug] at h
  | .integer i, w, _, _, h => by
    cases w with
    | integer j =>
      simp only [Value.debug, DTree.tuple.injEq, List.cons.injEq, DTree.word.injEq, and_true, true_and] at h
      rw [decimalInt_inj h]
    | block b => cases b <;> simp [Value.debug] at h <;> exact absurd h.1 (by decide +kernel)
    | _ => simp only [Value.debug, DTree.tuple.injEq, reduceCtorEq] at h <;> exact absurd h.1 (by decide +kernel)
  | .float x, w, hv, hw, h => by
    cases w with
    | float y =>
      simp only [Value.debug, DTree.tuple.injEq, List.cons.injEq, DTree.word.injEq, and_true, true_and] at h
      rw [hD.injective x y (hv x (by simp [leaves])) (hw y (by simp [leaves])) h]
    | block b => cases b <;> simp [Value.debug] at h <;> exact absurd h.1 (by decide +kernel)
    | _ => simp only [Value.debug, DTree.tuple.injEq, reduceCtorEq] at h <;> exact absurd h.1 (by decide +kernel)
  | .boolean x, w, hv, hw, h => by
    cases w with
    | boolean y =>
      simp only [Value.debug, DTree.tuple.injEq, List.cons.injEq, DTree.word.injEq, and_true, true_and] at h
      cases x <;> cases y <;> first | rfl | exact absurd h (by decide +kernel)
    | block b => cases b <;> simp [Value.debug] at h <;> exact absurd h.1 (by decide +kernel)
    | _ => simp only [Value.debug, DTree.tuple.injEq, reduceCtorEq] at h <;> exact absurd h.1 (by decide +kernel)
  | .string x, w, hv, hw, h => by
    cases w with
    | string y =>
      simp only [Value.debug, DTree.tuple.injEq, List.cons.injEq, DTree.str.injEq, and_true, true_and] at h
      rw [h]
    | block b => cases b <;> simp [Value.debug] at h <;> exact absurd h.1 (by decide +kernel)
    | _ => simp only [Value.debug, DTree.tuple.injEq, reduceCtorEq] at h <;> exact absurd h.1 (by decide +kernel)
  | .list x, w, hv, hw, h => by
    cases w with
    | list y =>
      simp only [Value.debug, DTree.tuple.injEq, List.cons.injEq, DTree.list.injEq, and_true, true_and] at h
      simp only [ownValue]
      rw [debugList_inj x y (by simpa [leaves] using hv) (by simpa [leaves] using hw) h]
    | block b => cases b <;> simp [Value.debug] at h <;> exact absurd h.1 (by decide +kernel)
    | _ => simp only [Value.debug, DTree.tuple.injEq, reduceCtorEq] at h <;> exact absurd h.1 (by decide +kernel)
  | .object x, w, hv, hw, h => by
    cases w with
    | object y =>
      simp only [Value.debug, DTree.tuple.injEq, List.cons.injEq, DTree.list.injEq, and_true, true_and] at h
      simp only [ownValue]
      rw [debugMaps_inj x y (by simpa [leaves] using hv) (by simpa [leaves] using hw) h]
    | block b => cases b <;> simp [Value.debug] at h <;> exact absurd h.1 (by decide +kernel)
    | _ => simp only [Value.debug, DTree.tuple.injEq, reduceCtorEq] at h <;> exact absurd h.1 (by decide +kernel)
  | .block (.merged x), w, hv, hw, h => by
    cases w with
    | block b =>
      cases b with
      | merged y =>
        simp only [Value.debug, DTree.tuple.injEq, List.cons.injEq, DTree.map.injEq, and_true, true_and] at h
        simp only [ownValue]
        rw [debugBodies_inj x y (by simpa [leaves, blockLeaves] using hv) (by simpa [leaves, blockLeaves] using hw) h]
      | unmerged y =>
        simp only [Value.debug, DTree.tuple.injEq, List.cons.injEq, and_true, true_and] at h
        exact absurd h.1 (by decide +kernel)
    | _ => simp only [Value.debug, DTree.tuple.injEq, reduceCtorEq] at h <;> exact absurd h.1 (by decide +kernel)
  | .block (.unmerged x), w, hv, hw, h => by
    cases w with
    | block b =>
      cases b with
      | unmerged y =>
        simp only [Value.debug, DTree.tuple.injEq, List.cons.injEq, DTree.list.injEq, and_true, true_and] at h
        simp only [ownValue]
        rw [debugBodyPairs_inj x y (by simpa [leaves, blockLeaves] using hv) (by simpa [leaves, blockLeaves] using hw) h]
      | merged y =>
        simp only [Value.debug, DTree.tuple.injEq, List.cons.injEq, and_true, true_and] at h
        exact absurd h.1 (by decide +kernel)
    | _ => simp only [Value.debug, DTree.tuple.injEq, reduceCtorEq] at h <;> exact absurd h.1 (by decide +kernel)
private theorem debugList_inj : ∀ a b : List Value, FloatsOk ok (listLeaves a) → FloatsOk ok (listLeaves b) →
    Value.debugList D a = Value.debugList D b → ownList a = ownList b
  | [], b, _, _, h => by cases b with
    | nil => rfl
    | cons w b => simp [Value.debugList] at h
  | v :: a, b, ha, hb, h => by cases b with
    | nil => simp [Value.debugList] at h
    | cons w b =>
      have ha := floatsOk_append (by simpa [listLeaves] using ha)
      have hb := floatsOk_append (by simpa [listLeaves] using hb)
      simp only [Value.debugList, List.cons.injEq] at h
      simp only [ownList]
      rw [debug_inj v w ha.1 hb.1 h.1, debugList_inj a b ha.2 hb.2 h.2]
private theorem debugMaps_inj : ∀ a b : List (KVP Key Value), FloatsOk ok (mapsLeaves a) → FloatsOk ok (mapsLeaves b) →
    Value.debugMaps D a = Value.debugMaps D b → ownMaps a = ownMaps b
  | [], b, _, _, h => by cases b with
    | nil => rfl
    | cons w b => simp [Value.debugMaps] at h
  | v :: a, b, ha, hb, h => by cases b with
    | nil => simp [Value.debugMaps] at h
    | cons w b =>
      have ha := floatsOk_append (by simpa [mapsLeaves] using ha)
      have hb := floatsOk_append (by simpa [mapsLeaves] using hb)
      simp only [Value.debugMaps, List.cons.injEq] at h
      simp only [ownMaps]
      rw [debugMap_inj v w ha.1 hb.1 h.1, debugMaps_inj a b ha.2 hb.2 h.2]
private theorem debugMap_inj : ∀ a b : KVP Key Value, FloatsOk ok (mapLeaves a) → FloatsOk ok (mapLeaves b) →
    Value.debugMap D a = Value.debugMap D b → ownMap a = ownMap b
  | .merged x, b, ha, hb, h => by cases b with
    | merged y =>
      simp only [Value.debugMap, DTree.tuple.injEq, List.cons.injEq, DTree.map.injEq, and_true, true_and] at h
      simp only [ownMap]
      rw [debugEntries_inj x y (by simpa [mapLeaves] using ha) (by simpa [mapLeaves] using hb) h]
    | unmerged y =>
      simp only [Value.debugMap, DTree.tuple.injEq] at h
      exact absurd h.1 (by decide +kernel)
  | .unmerged x, b, ha, hb, h => by cases b with
    | unmerged y =>
      simp only [Value.debugMap, DTree.tuple.injEq, List.cons.injEq, DTree.list.injEq, and_true, true_and] at h
      simp only [ownMap]
      rw [debugPairs_inj x y (by simpa [mapLeaves] using ha) (by simpa [mapLeaves] using hb) h]
    | merged y =>
      simp only [Value.debugMap, DTree.tuple.injEq] at h
      exact absurd h.1 (by decide +kernel)
private theorem debugEntries_inj : ∀ a b : List (Key × Value), FloatsOk ok (entriesLeaves a) → FloatsOk ok (entriesLeaves b) →
    Value.debugEntries D a = Value.debugEntries D b → ownEntries a = ownEntries b
  | [], b, _, _, h => by cases b with
    | nil => rfl
    | cons w b => simp [Value.debugEntries] at h
  | (k, v) :: a, b, ha, hb, h => by cases b with
    | nil => simp [Value.debugEntries] at h
    | cons w b =>
      obtain ⟨l, w⟩ := w
      have ha := floatsOk_append (by simpa [entriesLeaves] using ha)
      have hb := floatsOk_append (by simpa [entriesLeaves] using hb)
      simp only [Value.debugEntries, List.cons.injEq, Prod.mk.injEq] at h
      simp only [ownEntries]
      rw [key_inj h.1.1, debug_inj v w ha.1 hb.1 h.1.2, debugEntries_inj a b ha.2 hb.2 h.2]
private theorem debugPairs_inj : ∀ a b : List (Key × Value), FloatsOk ok (entriesLeaves a) → FloatsOk ok (entriesLeaves b) →
    Value.debugPairs D a = Value.debugPairs D b → ownEntries a = ownEntries b
  | [], b, _, _, h => by cases b with
    | nil => rfl
    | cons w b => simp [Value.debugPairs] at h
  | (k, v) :: a, b, ha, hb, h => by cases b with
    | nil => simp [Value.debugPairs] at h
    | cons w b =>
      obtain ⟨l, w⟩ := w
      have ha := floatsOk_append (by simpa [entriesLeaves] using ha)
      have hb := floatsOk_append (by simpa [entriesLeaves] using hb)
      simp only [Value.debugPairs, List.cons.injEq, DTree.tuple.injEq, and_true, true_and] at h
      simp only [ownEntries]
      rw [key_inj h.1.1, debug_inj v w ha.1 hb.1 h.1.2, debugPairs_inj a b ha.2 hb.2 h.2]
private theorem debugBodies_inj : ∀ a b : List (List Str × KVP Key Value), FloatsOk ok (bodiesLeaves a) →
    FloatsOk ok (bodiesLeaves b) → Value.debugBodies D a = Value.debugBodies D b → ownBodies a = ownBodies b
  | [], b, _, _, h => by cases b with
    | nil => rfl
    | cons w b => simp [Value.debugBodies] at h
  | (k, v) :: a, b, ha, hb, h => by cases b with
    | nil => simp [Value.debugBodies] at h
    | cons w b =>
      obtain ⟨l, w⟩ := w
      have ha := floatsOk_append (by simpa [bodiesLeaves] using ha)
      have hb := floatsOk_append (by simpa [bodiesLeaves] using hb)
      simp only [Value.debugBodies, List.cons.injEq, Prod.mk.injEq] at h
      simp only [ownBodies]
      rw [labels_inj h.1.1, debugMap_inj v w ha.1 hb.1 h.1.2, debugBodies_inj a b ha.2 hb.2 h.2]
private theorem debugBodyPairs_inj : ∀ a b : List (List Str × KVP Key Value), FloatsOk ok (bodiesLeaves a) →
    FloatsOk ok (bodiesLeaves b) → Value.debugBodyPairs D a = Value.debugBodyPairs D b → ownBodies a = ownBodies b
  | [], b, _, _, h => by cases b with
    | nil => rfl
    | cons w b => simp [Value.debugBodyPairs] at h
  | (k, v) :: a, b, ha, hb, h => by cases b with
    | nil => simp [Value.debugBodyPairs] at h
    | cons w b =>
      obtain ⟨l, w⟩ := w
      have ha := floatsOk_append (by simpa [bodiesLeaves] using ha)
      have hb := floatsOk_append (by simpa [bodiesLeaves] using hb)
      simp only [Value.debugBodyPairs, List.cons.injEq, DTree.tuple.injEq, and_true, true_and] at h
      simp only [ownBodies]
      rw [labels_inj h.1.1, debugMap_inj v w ha.1 hb.1 h.1.2, debugBodyPairs_inj a b ha.2 hb.2 h.2]
end

/-- the printed text determines the value -/
theorem printedValue_inj (m n : MapValues) (hm : FloatsOk ok (mapLeaves m)) (hn : FloatsOk ok (mapLeaves n))
    (h : printedValue D m = printedValue D n) : ownMap m = ownMap n := by
  unfold printedValue at h
  have h := List.append_cancel_right h
  exact debugMap_inj hD m n hm hn (pretty_inj D _ _ (debugMap_clean hD m hm) (debugMap_clean hD n hn) h)

end Verif
