import Verif.Model.Parser
/-!
# Containers: hash maps, OneOrMany, KeyValuePairs, their iterators (lib/src/lib.rs, lib/src/iter.rs)

A `std::collections::HashMap` is the list of its entries in iteration order. The order is unspecified in Rust: an
operation that only reads the map is stated for the list as it is (so for every order), and the order after an
insertion is one of the possible ones (theorems about the result are stated through lookups or up to permutation).
-/
set_option autoImplicit false

namespace Verif

/-- The entries of a `HashMap<K, V>`, in iteration order. -/
abbrev HashMap (K V : Type) := List (K × V)

/-- std `HashMap::get::<Q>`: an entry whose key borrows as `q`. -/
def HashMap.get {K V Q : Type} [DecidableEq Q] (borrow : K → Q) (q : Q) : HashMap K V → Option V
  | [] => none
  | (k, v) :: m => if borrow k = q then some v else HashMap.get borrow q m

/-- std `HashMap::insert`: an equal key keeps its place (and its old key value), its value is replaced. `norm` is what
equality of keys compares. -/
def HashMap.insert {K V N : Type} [DecidableEq N] (norm : K → N) (k : K) (v : V) : HashMap K V → HashMap K V
  | [] => [(k, v)]
  | (k', v') :: m => if norm k' = norm k then (k', v) :: m else (k', v') :: HashMap.insert norm k v m

/-- std `HashMap::extend` -/
def HashMap.extend {K V N : Type} [DecidableEq N] (norm : K → N) (m : HashMap K V) : List (K × V) → HashMap K V
  | [] => m
  | (k, v) :: es => HashMap.extend norm (HashMap.insert norm k v m) es

/-- std `iter.collect::<HashMap<K, V>>()` -/
def HashMap.collect {K V N : Type} [DecidableEq N] (norm : K → N) (es : List (K × V)) : HashMap K V :=
  HashMap.extend norm [] es

/-! ## OneOrMany -/

/-- lib.rs:75-78 `OneOrMany` -/
inductive OneOrMany (T : Type) where
  | one (v : T)
  | many (vs : List T)
  deriving Repr, DecidableEq

namespace OneOrMany
variable {T : Type}
/-- lib.rs:99-104 -/
def len : OneOrMany T → Nat
  | one _ => 1
  | many vs => vs.length
/-- lib.rs:106-108 -/
def isEmpty (o : OneOrMany T) : Bool := o.len == 0
/-- lib.rs:110-116 -/
def isOne : OneOrMany T → Bool
  | one _ => true
  | many _ => false
/-- lib.rs:118-120 -/
def isMany (o : OneOrMany T) : Bool := !o.isOne
/-- lib.rs:129-135 (`none` = panic) -/
def unwrapOne : OneOrMany T → Option T
  | one v => some v
  | many _ => none
/-- lib.rs:137-143 (`none` = panic) -/
def unwrapMany : OneOrMany T → Option (List T)
  | one _ => none
  | many vs => some vs
end OneOrMany

/-- iter.rs:10-13 `OneOrManyIterator` and iter.rs:44-47 `OneOrManyIntoIterator`: `std::iter::Once` (an option) or a
slice / vector iterator (the remaining items). -/
inductive OneOrManyIter (T : Type) where
  | one (v : Option T)
  | many (vs : List T)
  deriving Repr, DecidableEq

/-- lib.rs:122-127 `iter`, iter.rs:49-59 `into_iter` -/
def OneOrMany.iter {T : Type} : OneOrMany T → OneOrManyIter T
  | one v => .one (some v)
  | many vs => .many vs

/-- iter.rs:27-32, 64-69 `next` -/
def OneOrManyIter.next {T : Type} : OneOrManyIter T → Option T × OneOrManyIter T
  | .one v => (v, .one none)
  | .many [] => (none, .many [])
  | .many (v :: vs) => (some v, .many vs)

/-- iter.rs:34-39, 71-76 `size_hint` -/
def OneOrManyIter.sizeHint {T : Type} : OneOrManyIter T → Nat × Option Nat
  | .one none => (0, some 0)
  | .one (some _) => (1, some 1)
  | .many vs => (vs.length, some vs.length)

/-! ## KeyValuePairs -/

/-- lib.rs:150-156 `KeyValuePairs` -/
inductive KVP (K V : Type) where
  | merged (m : List (K × V))
  | unmerged (l : List (K × V))
  deriving Repr, DecidableEq

namespace KVP
variable {K V : Type}

/-- The pairs, in iteration order. -/
def entries : KVP K V → List (K × V)
  | merged m => m
  | unmerged l => l
/-- lib.rs:162-167 -/
def len : KVP K V → Nat
  | merged m => m.length
  | unmerged l => l.length
/-- lib.rs:169-171 -/
def isEmpty (p : KVP K V) : Bool := p.len == 0
/-- lib.rs:173-178 (`none` = panic) -/
def unwrapMerged : KVP K V → Option (HashMap K V)
  | merged m => some m
  | unmerged _ => none
/-- lib.rs:180-185 (`none` = panic) -/
def unwrapUnmerged : KVP K V → Option (List (K × V))
  | merged _ => none
  | unmerged l => some l
/-- lib.rs:217-228 `get_single` -/
def getSingle {Q : Type} [DecidableEq Q] (borrow : K → Q) (q : Q) : KVP K V → Option V
  | merged m => HashMap.get borrow q m
  | unmerged l => (l.find? fun p => decide (q = borrow p.1)).map Prod.snd
/-- lib.rs:230-251 `get` -/
def get {Q : Type} [DecidableEq Q] (borrow : K → Q) (q : Q) : KVP K V → Option (OneOrMany V)
  | merged m => (HashMap.get borrow q m).map .one
  | unmerged l =>
    let values := (l.filter fun p => decide (q = borrow p.1)).map Prod.snd
    if values.isEmpty then none else some (.many values)
/-- iter.rs:125-138 `Index` (`none` = panic) -/
def index {Q : Type} [DecidableEq Q] (borrow : K → Q) (q : Q) (p : KVP K V) : Option V := p.getSingle borrow q
/-- iter.rs:81-94 `Extend` -/
def extend {N : Type} [DecidableEq N] (norm : K → N) : KVP K V → List (K × V) → KVP K V
  | unmerged l, es => unmerged (l ++ es)
  | merged m, es => merged (HashMap.extend norm m es)
end KVP

/-- iter.rs:140-143 `KeyValuePairsIterator`, 168-171 `KeyValuePairsIntoIterator`, 196-202 `KeyIterator`, 222-226
`ValueIterator`: a hash map iterator or a vector iterator; the state is the list of remaining items. -/
inductive KVPIter (T : Type) where
  | merged (rest : List T)
  | unmerged (rest : List T)
  deriving Repr, DecidableEq

/-- lib.rs:187-192 `iter`, iter.rs:108-123 `into_iter` -/
def KVP.iter {K V : Type} : KVP K V → KVPIter (K × V)
  | merged m => .merged m
  | unmerged l => .unmerged l
/-- lib.rs:194-201 `keys` -/
def KVP.keys {K V : Type} : KVP K V → KVPIter K
  | merged m => .merged (m.map fun p => p.1)
  | unmerged l => .unmerged (l.map fun p => p.1)
/-- lib.rs:203-210 `values` -/
def KVP.values {K V : Type} : KVP K V → KVPIter V
  | merged m => .merged (m.map fun p => p.2)
  | unmerged l => .unmerged (l.map fun p => p.2)
/-- iter.rs:148-156, 176-184, 207-212, 231-236 `next` -/
def KVPIter.next {T : Type} : KVPIter T → Option T × KVPIter T
  | .merged [] => (none, .merged [])
  | .merged (v :: r) => (some v, .merged r)
  | .unmerged [] => (none, .unmerged [])
  | .unmerged (v :: r) => (some v, .unmerged r)
/-- iter.rs:158-163, 186-191, 214-219, 238-243 `size_hint` -/
def KVPIter.sizeHint {T : Type} : KVPIter T → Nat × Option Nat
  | .merged r => (r.length, some r.length)
  | .unmerged r => (r.length, some r.length)

end Verif
