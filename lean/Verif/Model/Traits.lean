import Verif.Model.Value
import Verif.Model.OldParser
/-!
# The blanket implementations of `ScalarLength`, `Mergeable` and `AsOwned` (lib.rs:32-69, 254-536)

For each trait, the types that have it are built from types that implement it themselves (the leaves, whose methods are
parameters here) by the blanket implementations. A value of such a type is a tree; the trees below have one node for each
implementation. They are more general than Rust's (elements of one container may be of different types). A hash map is its
entries in iteration order. `none` = the method of a leaf panicked.
-/
set_option autoImplicit false

namespace Verif

/-! ## ScalarLength -/

/-- A value of a type with `ScalarLength` -/
inductive LenTree (K α : Type) where
  | leaf (a : α)
  | ref (t : LenTree K α)
  | vec (ts : List (LenTree K α))
  | array (ts : List (LenTree K α))
  | map (m : List (K × LenTree K α))
  | merged (m : List (K × LenTree K α))
  | unmerged (l : List (K × LenTree K α))

section
variable {K α : Type} (len : α → Option Nat)

mutual
/-- `len_scalar` -/
def LenTree.lenScalar : LenTree K α → Option Nat
  | .leaf a => len a
  /- lib.rs:271-278 `&T` -/
  | .ref t => t.lenScalar
  /- lib.rs:280-287 `Vec` -/
  | .vec ts => LenTree.lenScalarVec 0 ts
  /- lib.rs:312-331 arrays -/
  | .array ts => LenTree.lenScalarVec 0 ts
  /- lib.rs:301-310 `HashMap` -/
  | .map m => LenTree.lenScalarMap 0 m
  /- lib.rs:254-269 `KeyValuePairs` -/
  | .merged m => LenTree.lenScalarMap 0 m
  | .unmerged l => LenTree.lenScalarMap 0 l
/-- lib.rs:285, 319: `fold(acc, |acc, v| acc + v.len_scalar())` (`usize` overflow is not modelled) -/
def LenTree.lenScalarVec (acc : Nat) : List (LenTree K α) → Option Nat
  | [] => some acc
  | t :: ts => match t.lenScalar with
    | none => none
    | some n => LenTree.lenScalarVec (acc + n) ts
/-- lib.rs:262, 265, 308: `fold(acc, |acc, (_, v)| acc + v.len_scalar())` -/
def LenTree.lenScalarMap (acc : Nat) : List (K × LenTree K α) → Option Nat
  | [] => some acc
  | (_, t) :: ts => match t.lenScalar with
    | none => none
    | some n => LenTree.lenScalarMap (acc + n) ts
end

/-- lib.rs:37-39 `is_empty_scalar` -/
def LenTree.isEmptyScalar (t : LenTree K α) : Option Bool := (t.lenScalar len).map (· == 0)

end

/-! ## Mergeable -/

/-- A value of a type with `Mergeable` -/
inductive MergeTree (K α : Type) where
  | leaf (a : α)
  | ref (t : MergeTree K α)
  | vec (ts : List (MergeTree K α))
  | one (t : MergeTree K α)
  | many (ts : List (MergeTree K α))
  | map (m : List (K × MergeTree K α))
  | pair (k : K) (t : MergeTree K α)
  | merged (m : List (K × MergeTree K α))
  | unmerged (l : List (K × MergeTree K α))

section
variable {K α : Type} (f : α → Option Bool)

mutual
/-- `is_merged`, with that of the leaves -/
def MergeTree.isMerged : MergeTree K α → Option Bool
  | .leaf a => f a
  /- lib.rs:413-424 `&T` -/
  | .ref t => t.isMerged
  /- lib.rs:372-383 `Vec` -/
  | .vec ts => MergeTree.allMerged ts
  /- lib.rs:333-350 `OneOrMany` -/
  | .one t => t.isMerged
  | .many ts => MergeTree.allMerged ts
  /- lib.rs:385-398 `HashMap` -/
  | .map m => MergeTree.allMergedMap m
  /- lib.rs:400-411 pairs -/
  | .pair _ t => t.isMerged
  /- lib.rs:352-370 `KeyValuePairs` -/
  | .merged m => MergeTree.allMergedMap m
  | .unmerged _ => some false
/-- lib.rs:340, 377: `iter().all(T::is_merged)`, which stops at the first `false` -/
def MergeTree.allMerged : List (MergeTree K α) → Option Bool
  | [] => some true
  | t :: ts => andPanic t.isMerged (MergeTree.allMerged ts)
/-- lib.rs:392: `iter().all(|(_, v)| v.is_merged())` -/
def MergeTree.allMergedMap : List (K × MergeTree K α) → Option Bool
  | [] => some true
  | (_, t) :: ts => andPanic t.isMerged (MergeTree.allMergedMap ts)
end

mutual
/-- `is_unmerged`, with that of the leaves -/
def MergeTree.isUnmerged : MergeTree K α → Option Bool
  | .leaf a => f a
  /- lib.rs:413-424 `&T` -/
  | .ref t => t.isUnmerged
  /- lib.rs:372-383 `Vec` -/
  | .vec ts => MergeTree.allUnmerged ts
  /- lib.rs:333-350 `OneOrMany` -/
  | .one t => t.isUnmerged
  | .many ts => MergeTree.allUnmerged ts
  /- lib.rs:385-398 `HashMap` -/
  | .map m => MergeTree.allUnmergedMap m
  /- lib.rs:400-411 pairs -/
  | .pair _ t => t.isUnmerged
  /- lib.rs:352-370 `KeyValuePairs` -/
  | .merged _ => some false
  | .unmerged l => MergeTree.allUnmergedMap l
/-- lib.rs:347, 381: `iter().all(T::is_unmerged)` -/
def MergeTree.allUnmerged : List (MergeTree K α) → Option Bool
  | [] => some true
  | t :: ts => andPanic t.isUnmerged (MergeTree.allUnmerged ts)
/-- lib.rs:396, and 381 with 408-410: the pairs -/
def MergeTree.allUnmergedMap : List (K × MergeTree K α) → Option Bool
  | [] => some true
  | (_, t) :: ts => andPanic t.isUnmerged (MergeTree.allUnmergedMap ts)
end

end

/-- lib.rs:51-58 the default `is_unmerged` of a type that only defines `is_merged` -/
def defaultIsUnmerged {α : Type} (isMerged : α → Option Bool) (a : α) : Option Bool := (isMerged a).map (! ·)

/-! ## AsOwned -/

/-- A value of a type with `AsOwned`: the leaves are `String`, `str`, `Cow` and types with their own implementation. -/
inductive OwnTree (K α : Type) where
  | leaf (a : α)
  | ref (t : OwnTree K α)
  | vec (ts : List (OwnTree K α))
  | map (m : List (K × OwnTree K α))
  | pair (k : K) (t : OwnTree K α)
  | none
  | some (t : OwnTree K α)
  | merged (m : List (K × OwnTree K α))
  | unmerged (l : List (K × OwnTree K α))

section
variable {K K' N α β : Type} [DecidableEq N] (norm : K' → N) (key : K → K') (own : α → β)

mutual
/-- `as_owned`, with that of the leaves and of the keys; `norm`: two output keys are `==` iff their norms are equal -/
def OwnTree.asOwned : OwnTree K α → OwnTree K' β
  | .leaf a => .leaf (own a)
  /- lib.rs:443-453 `&T` -/
  | .ref t => t.asOwned
  /- lib.rs:469-479 `Vec` -/
  | .vec ts => .vec (OwnTree.asOwnedVec ts)
  /- lib.rs:481-494 `HashMap`: the owned pairs are collected into a new map -/
  | .map m => .map (HashMap.collect norm (OwnTree.asOwnedPairs m))
  /- lib.rs:455-467 pairs -/
  | .pair k t => .pair (key k) t.asOwned
  /- lib.rs:523-536 `Option` -/
  | .none => .none
  | .some t => .some t.asOwned
  /- lib.rs:426-441 `KeyValuePairs` -/
  | .merged m => .merged (HashMap.collect norm (OwnTree.asOwnedPairs m))
  | .unmerged l => .unmerged (OwnTree.asOwnedPairs l)
/-- lib.rs:477 `iter().map(AsOwned::as_owned).collect()` -/
def OwnTree.asOwnedVec : List (OwnTree K α) → List (OwnTree K' β)
  | [] => []
  | t :: ts => t.asOwned :: OwnTree.asOwnedVec ts
/-- lib.rs:492 `iter().map(|pair| pair.as_owned())`, and a `Vec` of pairs -/
def OwnTree.asOwnedPairs : List (K × OwnTree K α) → List (K' × OwnTree K' β)
  | [] => []
  | (k, t) :: ts => (key k, t.asOwned) :: OwnTree.asOwnedPairs ts
end

end

/-- lib.rs:538-542 `MergeBehaviour::default` -/
def MergeBehaviour.default : MergeBehaviour := .error

end Verif
