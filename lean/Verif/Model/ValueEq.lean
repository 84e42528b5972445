import Verif.Model.Value
/-!
# Equality of legacy values

value.rs:12 and lib.rs:149 derive `PartialEq`; literals/key.rs:12 derives it for keys. `std`'s `PartialEq for HashMap`:
the lengths are equal, and every key of the first map is in the second with an equal value. `f64`'s `==` is a parameter.
-/
set_option autoImplicit false

namespace Verif

/-- literals/key.rs:12 derived `PartialEq` (`Cow<str>` compares the texts) -/
def Key.eq : Key → Key → Bool
  | .identifier a, .identifier b => a.str == b.str
  | .string a, .string b => a.str == b.str
  | _, _ => false

mutual
/-- value.rs:12 derived `PartialEq` -/
def Value.eq (F : F64 → F64 → Bool) : Value → Value → Bool
  | .null, .null => true
  | .integer a, .integer b => a == b
  | .float a, .float b => F a b
  | .boolean a, .boolean b => a == b
  | .string a, .string b => a == b
  | .list a, .list b => Value.eqList F a b
  | .object a, .object b => Value.eqMaps F a b
  | .block a, .block b => Value.eqBlock F a b
  | _, _ => false
/-- `PartialEq for Vec`, of values (value.rs:38) -/
def Value.eqList (F : F64 → F64 → Bool) : List Value → List Value → Bool
  | [], [] => true
  | v :: a, w :: b => v.eq F w && Value.eqList F a b
  | _, _ => false
/-- `PartialEq for Vec`, of maps (value.rs:34) -/
def Value.eqMaps (F : F64 → F64 → Bool) : List (KVP Key Value) → List (KVP Key Value) → Bool
  | [], [] => true
  | v :: a, w :: b => Value.eqMap F v w && Value.eqMaps F a b
  | _, _ => false
/-- lib.rs:149 derived `PartialEq` for `KeyValuePairs<Key, Value>` (value.rs:36) -/
def Value.eqMap (F : F64 → F64 → Bool) : KVP Key Value → KVP Key Value → Bool
  | .merged a, .merged b => a.length == b.length && Value.allEntries F a b
  | .unmerged a, .unmerged b => Value.eqEntries F a b
  | _, _ => false
/-- `PartialEq for Vec` of pairs (lib.rs:155) -/
def Value.eqEntries (F : F64 → F64 → Bool) : List (Key × Value) → List (Key × Value) → Bool
  | [], [] => true
  | (k, v) :: a, (l, w) :: b => k.eq l && v.eq F w && Value.eqEntries F a b
  | _, _ => false
/-- `self.iter().all(|(key, value)| other.get(key).map_or(false, |v| *value == *v))` of std's `PartialEq for HashMap`
(lib.rs:154) -/
def Value.allEntries (F : F64 → F64 → Bool) : List (Key × Value) → List (Key × Value) → Bool
  | [], _ => true
  | (k, v) :: a, b => (match HashMap.get Key.norm k.norm b with
    | some w => v.eq F w
    | none => false) && Value.allEntries F a b
/-- lib.rs:149 derived `PartialEq` for `KeyValuePairs<Vec<String>, MapValues>` (value.rs:32) -/
def Value.eqBlock (F : F64 → F64 → Bool) : KVP (List Str) (KVP Key Value) → KVP (List Str) (KVP Key Value) → Bool
  | .merged a, .merged b => a.length == b.length && Value.allBodies F a b
  | .unmerged a, .unmerged b => Value.eqBodies F a b
  | _, _ => false
/-- `PartialEq for Vec` of pairs (lib.rs:155) -/
def Value.eqBodies (F : F64 → F64 → Bool) : List (List Str × KVP Key Value) → List (List Str × KVP Key Value) → Bool
  | [], [] => true
  | (k, v) :: a, (l, w) :: b => k == l && Value.eqMap F v w && Value.eqBodies F a b
  | _, _ => false
/-- std's `PartialEq for HashMap` (lib.rs:154) -/
def Value.allBodies (F : F64 → F64 → Bool) : List (List Str × KVP Key Value) → List (List Str × KVP Key Value) → Bool
  | [], _ => true
  | (k, v) :: a, b => (match HashMap.get id k b with
    | some w => Value.eqMap F v w
    | none => false) && Value.allBodies F a b
end

end Verif
