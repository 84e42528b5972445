import Verif.Model.Traits
import Verif.Spec.De
/-! # What the blanket implementations mean -/
set_option autoImplicit false

namespace Verif.Spec

section
variable {K α : Type}

mutual
/-- The leaves, from left to right. -/
def LenTree.leaves : LenTree K α → List α
  | .leaf a => [a]
  | .ref t => LenTree.leaves t
  | .vec ts => LenTree.leavesVec ts
  | .array ts => LenTree.leavesVec ts
  | .map m => LenTree.leavesMap m
  | .merged m => LenTree.leavesMap m
  | .unmerged l => LenTree.leavesMap l
/-- of elements -/
def LenTree.leavesVec : List (LenTree K α) → List α
  | [] => []
  | t :: ts => LenTree.leaves t ++ LenTree.leavesVec ts
/-- of entries -/
def LenTree.leavesMap : List (K × LenTree K α) → List α
  | [] => []
  | (_, t) :: ts => LenTree.leaves t ++ LenTree.leavesMap ts
end

/-- `Part t s`: `s` is `t` or inside it. -/
inductive Part : MergeTree K α → MergeTree K α → Prop
  | refl (t : MergeTree K α) : Part t t
  | ref (t s : MergeTree K α) : Part t s → Part (.ref t) s
  | vec (ts : List (MergeTree K α)) (t s : MergeTree K α) : t ∈ ts → Part t s → Part (.vec ts) s
  | one (t s : MergeTree K α) : Part t s → Part (.one t) s
  | many (ts : List (MergeTree K α)) (t s : MergeTree K α) : t ∈ ts → Part t s → Part (.many ts) s
  | map (m : List (K × MergeTree K α)) (k : K) (t s : MergeTree K α) : (k, t) ∈ m → Part t s → Part (.map m) s
  | pair (k : K) (t s : MergeTree K α) : Part t s → Part (.pair k t) s
  | merged (m : List (K × MergeTree K α)) (k : K) (t s : MergeTree K α) : (k, t) ∈ m → Part t s → Part (.merged m) s
  | unmerged (l : List (K × MergeTree K α)) (k : K) (t s : MergeTree K α) : (k, t) ∈ l → Part t s → Part (.unmerged l) s

/-- Every `KeyValuePairs` inside is merged, and so is every leaf. -/
def AllMerged (f : α → Option Bool) (t : MergeTree K α) : Prop :=
  (∀ l, ¬ Part t (.unmerged l)) ∧ ∀ a, Part t (.leaf a) → f a = some true

/-- Every `KeyValuePairs` inside is unmerged, and so is every leaf. -/
def AllUnmerged (f : α → Option Bool) (t : MergeTree K α) : Prop :=
  (∀ m, ¬ Part t (.merged m)) ∧ ∀ a, Part t (.leaf a) → f a = some true

end

/-- The owned form: the same tree without references, with owned keys and leaves. -/
inductive OwnedForm {K K' α β : Type} (key : K → K') (own : α → β) : OwnTree K α → OwnTree K' β → Prop
  | leaf (a : α) : OwnedForm key own (.leaf a) (.leaf (own a))
  | ref (t : OwnTree K α) (t' : OwnTree K' β) : OwnedForm key own t t' → OwnedForm key own (.ref t) t'
  | vec (ts : List (OwnTree K α)) (ts' : List (OwnTree K' β)) : AllRel (OwnedForm key own) ts ts' →
      OwnedForm key own (.vec ts) (.vec ts')
  | map (m : List (K × OwnTree K α)) (m' : List (K' × OwnTree K' β)) :
      AllRel (fun p p' => p'.1 = key p.1) m m' → AllRel (fun p p' => OwnedForm key own p.2 p'.2) m m' →
      OwnedForm key own (.map m) (.map m')
  | pair (k : K) (t : OwnTree K α) (t' : OwnTree K' β) : OwnedForm key own t t' →
      OwnedForm key own (.pair k t) (.pair (key k) t')
  | none : OwnedForm key own .none .none
  | some (t : OwnTree K α) (t' : OwnTree K' β) : OwnedForm key own t t' → OwnedForm key own (.some t) (.some t')
  | merged (m : List (K × OwnTree K α)) (m' : List (K' × OwnTree K' β)) :
      AllRel (fun p p' => p'.1 = key p.1) m m' → AllRel (fun p p' => OwnedForm key own p.2 p'.2) m m' →
      OwnedForm key own (.merged m) (.merged m')
  | unmerged (m : List (K × OwnTree K α)) (m' : List (K' × OwnTree K' β)) :
      AllRel (fun p p' => p'.1 = key p.1) m m' → AllRel (fun p p' => OwnedForm key own p.2 p'.2) m m' →
      OwnedForm key own (.unmerged m) (.unmerged m')

/-- The keys of every hash map inside are different, and stay different when made owned (`norm`: two owned keys are equal
iff their norms are). -/
inductive KeysApart {K K' N α : Type} (norm : K' → N) (key : K → K') : OwnTree K α → Prop
  | leaf (a : α) : KeysApart norm key (.leaf a)
  | ref (t : OwnTree K α) : KeysApart norm key t → KeysApart norm key (.ref t)
  | vec (ts : List (OwnTree K α)) : (∀ t ∈ ts, KeysApart norm key t) → KeysApart norm key (.vec ts)
  | map (m : List (K × OwnTree K α)) : (m.map fun p => norm (key p.1)).Nodup → (∀ p ∈ m, KeysApart norm key p.2) →
      KeysApart norm key (.map m)
  | pair (k : K) (t : OwnTree K α) : KeysApart norm key t → KeysApart norm key (.pair k t)
  | none : KeysApart norm key .none
  | some (t : OwnTree K α) : KeysApart norm key t → KeysApart norm key (.some t)
  | merged (m : List (K × OwnTree K α)) : (m.map fun p => norm (key p.1)).Nodup → (∀ p ∈ m, KeysApart norm key p.2) →
      KeysApart norm key (.merged m)
  | unmerged (m : List (K × OwnTree K α)) : (∀ p ∈ m, KeysApart norm key p.2) → KeysApart norm key (.unmerged m)

/-! ## a `Value` as a tree of the blanket implementations -/

mutual
/-- the tree of a value: lists are vectors, objects vectors of pairs, blocks pairs of pairs; scalars and null are leaves -/
def lenTree : Value → LenTree Unit Value
  | .list l => .vec (lenTrees l)
  | .object l => .vec (lenTreeMaps l)
  | .block (.merged m) => .merged (lenTreeBodies m)
  | .block (.unmerged m) => .unmerged (lenTreeBodies m)
  | .null => .leaf .null
  | .integer i => .leaf (.integer i)
  | .float x => .leaf (.float x)
  | .boolean b => .leaf (.boolean b)
  | .string s => .leaf (.string s)
/-- lists -/
def lenTrees : List Value → List (LenTree Unit Value)
  | [] => []
  | v :: l => lenTree v :: lenTrees l
/-- maps -/
def lenTreeMaps : List (KVP Key Value) → List (LenTree Unit Value)
  | [] => []
  | .merged m :: l => .merged (lenTreeEntries m) :: lenTreeMaps l
  | .unmerged m :: l => .unmerged (lenTreeEntries m) :: lenTreeMaps l
/-- entries of maps -/
def lenTreeEntries : List (Key × Value) → List (Unit × LenTree Unit Value)
  | [] => []
  | (_, v) :: l => ((), lenTree v) :: lenTreeEntries l
/-- entries of blocks -/
def lenTreeBodies : List (List Str × KVP Key Value) → List (Unit × LenTree Unit Value)
  | [] => []
  | (_, .merged m) :: l => ((), .merged (lenTreeEntries m)) :: lenTreeBodies l
  | (_, .unmerged m) :: l => ((), .unmerged (lenTreeEntries m)) :: lenTreeBodies l
end

mutual
/-- the same for `Mergeable` -/
def mergeTree : Value → MergeTree Unit Value
  | .list l => .vec (mergeTrees l)
  | .object l => .vec (mergeTreeMaps l)
  | .block (.merged m) => .merged (mergeTreeBodies m)
  | .block (.unmerged m) => .unmerged (mergeTreeBodies m)
  | .null => .leaf .null
  | .integer i => .leaf (.integer i)
  | .float x => .leaf (.float x)
  | .boolean b => .leaf (.boolean b)
  | .string s => .leaf (.string s)
/-- lists -/
def mergeTrees : List Value → List (MergeTree Unit Value)
  | [] => []
  | v :: l => mergeTree v :: mergeTrees l
/-- maps -/
def mergeTreeMaps : List (KVP Key Value) → List (MergeTree Unit Value)
  | [] => []
  | .merged m :: l => .merged (mergeTreeEntries m) :: mergeTreeMaps l
  | .unmerged m :: l => .unmerged (mergeTreeEntries m) :: mergeTreeMaps l
/-- entries of maps -/
def mergeTreeEntries : List (Key × Value) → List (Unit × MergeTree Unit Value)
  | [] => []
  | (_, v) :: l => ((), mergeTree v) :: mergeTreeEntries l
/-- entries of blocks -/
def mergeTreeBodies : List (List Str × KVP Key Value) → List (Unit × MergeTree Unit Value)
  | [] => []
  | (_, .merged m) :: l => ((), .merged (mergeTreeEntries m)) :: mergeTreeBodies l
  | (_, .unmerged m) :: l => ((), .unmerged (mergeTreeEntries m)) :: mergeTreeBodies l
end

/-- `len_scalar` of the values without parts -/
def leafLen : Value → Option Nat
  | .null => none
  | _ => some 1

/-- `is_merged` and `is_unmerged` of the values without parts -/
def leafMerged : Value → Option Bool
  | .null => none
  | _ => some true

end Verif.Spec
