import Verif.Model.Value
/-! # Decidable equality of values (only used to check concrete examples) -/
set_option autoImplicit false

namespace Verif

mutual
/-- Equality test of values. -/
def Value.eqb : Value → Value → Bool
  | .null, .null => true
  | .integer a, .integer b => decide (a = b)
  | .float a, .float b => decide (a = b)
  | .boolean a, .boolean b => decide (a = b)
  | .string a, .string b => decide (a = b)
  | .list a, .list b => Value.eqbList a b
  | .object a, .object b => Value.eqbMaps a b
  | .block (.merged a), .block (.merged b) => Value.eqbBodies a b
  | .block (.unmerged a), .block (.unmerged b) => Value.eqbBodies a b
  | _, _ => false
/-- Equality test of lists. -/
def Value.eqbList : List Value → List Value → Bool
  | [], [] => true
  | a :: as, b :: bs => Value.eqb a b && Value.eqbList as bs
  | _, _ => false
/-- Equality test of lists of maps. -/
def Value.eqbMaps : List (KVP Key Value) → List (KVP Key Value) → Bool
  | [], [] => true
  | a :: as, b :: bs => Value.eqbMap a b && Value.eqbMaps as bs
  | _, _ => false
/-- Equality test of maps. -/
def Value.eqbMap : KVP Key Value → KVP Key Value → Bool
  | .merged a, .merged b => Value.eqbEntries a b
  | .unmerged a, .unmerged b => Value.eqbEntries a b
  | _, _ => false
/-- Equality test of entries. -/
def Value.eqbEntries : List (Key × Value) → List (Key × Value) → Bool
  | [], [] => true
  | (k, a) :: as, (l, b) :: bs => decide (k = l) && Value.eqb a b && Value.eqbEntries as bs
  | _, _ => false
/-- Equality test of bodies. -/
def Value.eqbBodies : List (List Str × KVP Key Value) → List (List Str × KVP Key Value) → Bool
  | [], [] => true
  | (k, a) :: as, (l, b) :: bs => decide (k = l) && Value.eqbMap a b && Value.eqbBodies as bs
  | _, _ => false
end

mutual
theorem Value.eqb_iff : ∀ (a b : Value), Value.eqb a b = true ↔ a = b
  | .null, b => by cases b <;> simp [Value.eqb]
  | .integer a, b => by cases b <;> simp [Value.eqb]
  | .float a, b => by cases b <;> simp [Value.eqb]
  | .boolean a, b => by cases b <;> simp [Value.eqb]
  | .string a, b => by cases b <;> simp [Value.eqb]
  | .list a, b => by cases b <;> simp [Value.eqb, Value.eqbList_iff a]
  | .object a, b => by cases b <;> simp [Value.eqb, Value.eqbMaps_iff a]
  | .block (.merged a), b => by
    cases b with
    | block b => cases b <;> simp [Value.eqb, Value.eqbBodies_iff a]
    | _ => simp [Value.eqb]
  | .block (.unmerged a), b => by
    cases b with
    | block b => cases b <;> simp [Value.eqb, Value.eqbBodies_iff a]
    | _ => simp [Value.eqb]
theorem Value.eqbList_iff : ∀ (a b : List Value), Value.eqbList a b = true ↔ a = b
  | [], b => by cases b <;> simp [Value.eqbList]
  | a :: as, b => by cases b <;> simp [Value.eqbList, Value.eqb_iff a, Value.eqbList_iff as]
theorem Value.eqbMaps_iff : ∀ (a b : List (KVP Key Value)), Value.eqbMaps a b = true ↔ a = b
  | [], b => by cases b <;> simp [Value.eqbMaps]
  | a :: as, b => by cases b <;> simp [Value.eqbMaps, Value.eqbMap_iff a, Value.eqbMaps_iff as]
theorem Value.eqbMap_iff : ∀ (a b : KVP Key Value), Value.eqbMap a b = true ↔ a = b
  | .merged a, b => by cases b <;> simp [Value.eqbMap, Value.eqbEntries_iff a]
  | .unmerged a, b => by cases b <;> simp [Value.eqbMap, Value.eqbEntries_iff a]
theorem Value.eqbEntries_iff : ∀ (a b : List (Key × Value)), Value.eqbEntries a b = true ↔ a = b
  | [], b => by cases b <;> simp [Value.eqbEntries]
  | (k, a) :: as, b => by
    cases b with
    | nil => simp [Value.eqbEntries]
    | cons p bs => obtain ⟨l, b⟩ := p; simp [Value.eqbEntries, Value.eqb_iff a, Value.eqbEntries_iff as]
theorem Value.eqbBodies_iff : ∀ (a b : List (List Str × KVP Key Value)), Value.eqbBodies a b = true ↔ a = b
  | [], b => by cases b <;> simp [Value.eqbBodies]
  | (k, a) :: as, b => by
    cases b with
    | nil => simp [Value.eqbBodies]
    | cons p bs => obtain ⟨l, b⟩ := p; simp [Value.eqbBodies, Value.eqbMap_iff a, Value.eqbBodies_iff as]
end

instance : DecidableEq Value := fun a b => decidable_of_iff _ (Value.eqb_iff a b)

end Verif
