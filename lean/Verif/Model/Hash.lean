import Verif.Model.Value
import Verif.Model.Blocks
import Verif.Model.De
/-!
# Hashing, comparing with strings, and hash tables (key.rs, block.rs, object.rs, number.rs)

`Hash::hash` feeds a hasher with a sequence of writes; the hasher (`H` below) may be any function of that sequence.
-/
set_option autoImplicit false

namespace Verif

/-- What `Hash::hash` gives to the hasher: std `Hash for str` (bytes and a terminator), `bool`, and the discriminant which
`#[derive(Hash)]` writes first for an enum (std `Hash for Option` is derived). -/
inductive HashWrite where
  | str (s : Str)
  | bool (b : Bool)
  | disc (n : Nat)
  deriving Repr, DecidableEq

/-- std `Hash for str`, `String` and `Cow<str>`: the text -/
def strHash (s : Str) : List HashWrite := [.str s]

/-- literals/key.rs:91-95 `Hash for Key`: `self.deref().hash(state)` -/
def Key.hash (k : Key) : List HashWrite := strHash k.text

/-- block.rs:79-83 `Hash for BlockLabel`: `self.as_str().hash(state)` -/
def BlockLabel.hash (l : BlockLabel) : List HashWrite := strHash l.text

/-- object.rs:23 derived `Hash for ObjectElementIdentifier` -/
def ObjKey.hash : ObjKey → List HashWrite
  | .ident s => .disc 0 :: strHash s.str
  | .expr s => .disc 1 :: strHash s.str

/-- std derived `Hash for Option<T>` -/
def optHash {α : Type} (h : α → List HashWrite) : Option α → List HashWrite
  | none => [.disc 0]
  | some a => .disc 1 :: h a

/-- number.rs:205 derived `Hash for Exponent` -/
def Exponent.hash (e : Exponent) : List HashWrite := .bool e.positive :: strHash e.exponent.str

/-- number.rs:13 derived `Hash for Number`: all the fields, in order -/
def Number.hash (n : Number) : List HashWrite :=
  strHash n.input.str ++ [.bool n.positive] ++ optHash (fun s => strHash s.str) n.whole ++
    optHash (fun s => strHash s.str) n.fraction ++ optHash Exponent.hash n.exponent

/-- block.rs:85-95 `PartialEq<S: AsRef<str>> for BlockLabel` -/
def BlockLabel.eqStr (l : BlockLabel) (s : Str) : Bool :=
  match l with
  | .stringLiteral t => t == s
  | .identifier t => t.str == s

/-- object.rs:53-63 `PartialEq<S: AsRef<str>> for ObjectElementIdentifier` -/
def ObjKey.eqStr (k : ObjKey) (s : Str) : Bool :=
  match k with
  | .ident t => t.str == s
  | .expr _ => false

/-- object.rs:65-72 `Borrow<str> for ObjectElementIdentifier` -/
def ObjKey.borrow : ObjKey → Str
  | .ident t => t.str
  | .expr t => t.str

/-- object.rs:23 derived `Eq`: what equality of keys compares -/
def ObjKey.norm : ObjKey → Bool × Str
  | .ident t => (false, t.str)
  | .expr t => (true, t.str)

/-- A hash table: the entries of every bucket. Simplification: std's open addressing is modelled by separate buckets, of
which there is one for every value of the hasher. -/
abbrev Table (K V : Type) := Nat → List (K × V)

/-- the empty table -/
def Table.empty {K V : Type} : Table K V := fun _ => []

/-- std `HashMap::insert`: hash the key, then replace the value of an equal key of that bucket, or add an entry. -/
def Table.insert {K V N : Type} [DecidableEq N] (H : List HashWrite → Nat) (hash : K → List HashWrite) (norm : K → N)
    (t : Table K V) (k : K) (v : V) : Table K V :=
  fun i => if i = H (hash k) then HashMap.insert norm k v (t i) else t i

/-- std `HashMap::entry(k)` with `Vacant → insert new`, `Occupied → update in place`. -/
def Table.upsert {K V N : Type} [DecidableEq N] (H : List HashWrite → Nat) (hash : K → List HashWrite) (norm : K → N)
    (t : Table K V) (k : K) (new : V) (upd : V → V) : Table K V :=
  fun i => if i = H (hash k) then HashMap.upsert norm k new upd (t i) else t i

/-- std `HashMap::get::<Q>`: hash what is looked for, then search that bucket for a key which borrows as it. -/
def Table.get {K V Q : Type} [DecidableEq Q] (H : List HashWrite → Nat) (borrow : K → Q) (qhash : Q → List HashWrite)
    (t : Table K V) (q : Q) : Option V :=
  HashMap.get borrow q (t (H (qhash q)))

/-- A program that fills a map. -/
inductive TableOp (K V : Type) where
  | insert (k : K) (v : V)
  | upsert (k : K) (new : V) (upd : V → V)

/-- The operations on a hash table. -/
def Table.run {K V N : Type} [DecidableEq N] (H : List HashWrite → Nat) (hash : K → List HashWrite) (norm : K → N)
    (t : Table K V) : List (TableOp K V) → Table K V
  | [] => t
  | .insert k v :: ops => Table.run H hash norm (t.insert H hash norm k v) ops
  | .upsert k new upd :: ops => Table.run H hash norm (t.upsert H hash norm k new upd) ops

/-- The same operations on the list of entries, the model of `HashMap` used everywhere else. -/
def HashMap.run {K V N : Type} [DecidableEq N] (norm : K → N) (m : HashMap K V) : List (TableOp K V) → HashMap K V
  | [] => m
  | .insert k v :: ops => HashMap.run norm (HashMap.insert norm k v m) ops
  | .upsert k new upd :: ops => HashMap.run norm (HashMap.upsert norm k new upd m) ops

end Verif
