import Verif.Spec.Value
/-! # Value trees with owned keys, and hash-map validity -/
set_option autoImplicit false

namespace Verif.Spec

/-- The hash maps occurring in `x` have no key twice: true of every Rust `HashMap`. -/
def UniqueKeys (x : Node) : Prop :=
  (∀ m, Inside x (.map (.merged m)) → (m.map fun p => p.1.norm).Nodup) ∧
  (∀ m, Inside x (.blk (.merged m)) → (m.map Prod.fst).Nodup)

/-- The key with the same text, owned. -/
def ownKey : Key → Key
  | .identifier s => .identifier (.ownedS s.str)
  | .string s => .string (.ownedS s.str)

mutual
/-- The same value with every key owned. -/
def ownValue : Value → Value
  | .null => .null
  | .integer i => .integer i
  | .float f => .float f
  | .boolean b => .boolean b
  | .string s => .string s
  | .list l => .list (ownList l)
  | .object l => .object (ownMaps l)
  | .block (.merged l) => .block (.merged (ownBodies l))
  | .block (.unmerged l) => .block (.unmerged (ownBodies l))
/-- Lists element by element. -/
def ownList : List Value → List Value
  | [] => []
  | v :: l => ownValue v :: ownList l
/-- Maps one by one. -/
def ownMaps : List (KVP Key Value) → List (KVP Key Value)
  | [] => []
  | m :: l => ownMap m :: ownMaps l
/-- A map: same entries, same order. -/
def ownMap : KVP Key Value → KVP Key Value
  | .merged l => .merged (ownEntries l)
  | .unmerged l => .unmerged (ownEntries l)
/-- Entries one by one. -/
def ownEntries : List (Key × Value) → List (Key × Value)
  | [] => []
  | (k, v) :: l => (ownKey k, ownValue v) :: ownEntries l
/-- Bodies of blocks one by one. -/
def ownBodies : List (List Str × KVP Key Value) → List (List Str × KVP Key Value)
  | [] => []
  | (ls, m) :: l => (ls, ownMap m) :: ownBodies l
end

end Verif.Spec
