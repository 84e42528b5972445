import Verif.Proofs.Traits
/-! # C79: the blanket implementations of `ScalarLength`, `Mergeable` and `AsOwned` -/
set_option autoImplicit false

namespace Verif.Props
open Verif.Spec

section
variable {K α : Type} (len : α → Option Nat)

/-- C79: `len_scalar` of any nesting of references, vectors, arrays, hash maps and key-value pairs panics exactly if that of some
leaf does, and is otherwise the sum over the leaves. -/
theorem c79_len_scalar (t : LenTree K α) :
    (t.lenScalar len = none ↔ ∃ a ∈ LenTree.leaves t, len a = none) ∧
    ∀ f : α → Nat, (∀ a ∈ LenTree.leaves t, len a = some (f a)) → t.lenScalar len = some ((LenTree.leaves t).map f).sum := by
  rw [lenScalar_total]
  exact ⟨total_none, fun f h => total_some h⟩

/-- C79: so the order of leaves, in particular that of hash maps, does not matter. -/
theorem c79_len_scalar_order (t t' : LenTree K α) (h : (LenTree.leaves t).Perm (LenTree.leaves t')) :
    t.lenScalar len = t'.lenScalar len := by
  rw [lenScalar_total, lenScalar_total, total_perm h]

/-- C79: `is_empty_scalar` is true exactly if all leaves are empty. -/
theorem c79_is_empty_scalar (t : LenTree K α) :
    (t.isEmptyScalar len = none ↔ t.lenScalar len = none) ∧
    (t.isEmptyScalar len = some true ↔ ∀ a ∈ LenTree.leaves t, len a = some 0) := by
  unfold LenTree.isEmptyScalar
  rw [← total_zero, ← lenScalar_total]
  cases t.lenScalar len <;> simp

end

section
variable {K α : Type}

/-- C79: `is_merged` is true exactly if every `KeyValuePairs` inside, at any depth, is merged, and every leaf is; it panics only
if a leaf does. -/
theorem c79_is_merged (f : α → Option Bool) (t : MergeTree K α) :
    (t.isMerged f = some true ↔ AllMerged f t) ∧
    ((∀ a, Part t (.leaf a) → f a ≠ none) → t.isMerged f ≠ none) :=
  ⟨by rw [isMerged_iff, allMerged_iff], fun h => isMerged_calm t (calm_iff.2 h)⟩

/-- C79: `is_unmerged` is true exactly if every `KeyValuePairs` inside, at any depth, is unmerged, and every leaf is; it panics
only if a leaf does. -/
theorem c79_is_unmerged (f : α → Option Bool) (t : MergeTree K α) :
    (t.isUnmerged f = some true ↔ AllUnmerged f t) ∧
    ((∀ a, Part t (.leaf a) → f a ≠ none) → t.isUnmerged f ≠ none) :=
  ⟨by rw [isUnmerged_iff, allUnmerged_iff], fun h => isUnmerged_calm t (calm_iff.2 h)⟩

/-- C79: with leaves that use the default `is_unmerged`, a value is both merged and unmerged exactly if it has no leaf and no
`KeyValuePairs` inside (for example an empty vector). -/
theorem c79_both (f : α → Option Bool) (t : MergeTree K α) :
    (t.isMerged f = some true ∧ t.isUnmerged (defaultIsUnmerged f) = some true) ↔
      (∀ a, ¬ Part t (.leaf a)) ∧ (∀ m, ¬ Part t (.merged m)) ∧ ∀ l, ¬ Part t (.unmerged l) := by
  rw [(c79_is_merged f t).1, (c79_is_unmerged _ t).1]
  constructor
  · rintro ⟨⟨h1, h2⟩, h3, h4⟩
    refine ⟨fun a ha => ?_, h3, h1⟩
    have h5 := h4 a ha
    unfold defaultIsUnmerged at h5
    rw [h2 a ha] at h5
    cases h5
  · rintro ⟨h1, h2, h3⟩
    exact ⟨⟨h3, fun a ha => absurd ha (h1 a)⟩, h2, fun a ha => absurd ha (h1 a)⟩

end

/-- C79: `as_owned` keeps the tree, without references, with owned leaves and keys, provided that different keys of a hash map
stay different when made owned. -/
theorem c79_as_owned {K K' N α β : Type} [DecidableEq N] (norm : K' → N) (key : K → K') (own : α → β) (t : OwnTree K α)
    (h : KeysApart norm key t) : OwnedForm key own t (t.asOwned norm key own) := ownedForm t h

/-- Without the proviso entries are lost: keys that become equal leave the last entry. -/
example : ∃ t : OwnTree Bool Nat, t.asOwned (fun u : Unit => u) (fun _ => ()) id = .map [((), .leaf 2)] :=
  ⟨.map [(false, .leaf 1), (true, .leaf 2)], rfl⟩

/-! ## the values of the crate -/

mutual
theorem lenTree_value : ∀ v : Value, total leafLen (LenTree.leaves (lenTree v)) = v.lenScalar
  | .list l => by simp only [lenTree, LenTree.leaves, Value.lenScalar]; exact lenTrees_value l
  | .object l => by simp only [lenTree, LenTree.leaves, Value.lenScalar]; exact lenTreeMaps_value l
  | .block (.merged m) => by
    simp only [lenTree, LenTree.leaves, Value.lenScalar, Value.lenScalarBlock]; exact lenTreeBodies_value m
  | .block (.unmerged m) => by
    simp only [lenTree, LenTree.leaves, Value.lenScalar, Value.lenScalarBlock]; exact lenTreeBodies_value m
  | .null => by simp [lenTree, LenTree.leaves, Value.lenScalar, total, leafLen, addPanic]
  | .integer i => by simp [lenTree, LenTree.leaves, Value.lenScalar, total, leafLen, addPanic]
  | .float i => by simp [lenTree, LenTree.leaves, Value.lenScalar, total, leafLen, addPanic]
  | .boolean i => by simp [lenTree, LenTree.leaves, Value.lenScalar, total, leafLen, addPanic]
  | .string i => by simp [lenTree, LenTree.leaves, Value.lenScalar, total, leafLen, addPanic]
theorem lenTrees_value : ∀ l : List Value, total leafLen (LenTree.leavesVec (lenTrees l)) = Value.lenScalarList l
  | [] => rfl
  | v :: l => by
    simp only [lenTrees, LenTree.leavesVec, total_append, Value.lenScalarList]; rw [lenTree_value v, lenTrees_value l]
theorem lenTreeMaps_value : ∀ l : List (KVP Key Value),
    total leafLen (LenTree.leavesVec (lenTreeMaps l)) = Value.lenScalarMaps l
  | [] => rfl
  | .merged m :: l => by
    simp only [lenTreeMaps, LenTree.leavesVec, LenTree.leaves, total_append, Value.lenScalarMaps, Value.lenScalarMap]
    rw [lenTreeEntries_value m, lenTreeMaps_value l]
  | .unmerged m :: l => by
    simp only [lenTreeMaps, LenTree.leavesVec, LenTree.leaves, total_append, Value.lenScalarMaps, Value.lenScalarMap]
    rw [lenTreeEntries_value m, lenTreeMaps_value l]
theorem lenTreeEntries_value : ∀ l : List (Key × Value),
    total leafLen (LenTree.leavesMap (lenTreeEntries l)) = Value.lenScalarEntries l
  | [] => rfl
  | (k, v) :: l => by
    simp only [lenTreeEntries, LenTree.leavesMap, total_append, Value.lenScalarEntries]
    rw [lenTree_value v, lenTreeEntries_value l]
theorem lenTreeBodies_value : ∀ l : List (List Str × KVP Key Value),
    total leafLen (LenTree.leavesMap (lenTreeBodies l)) = Value.lenScalarBodies l
  | [] => rfl
  | (_, .merged m) :: l => by
    simp only [lenTreeBodies, LenTree.leavesMap, LenTree.leaves, total_append, Value.lenScalarBodies, Value.lenScalarMap]
    rw [lenTreeEntries_value m, lenTreeBodies_value l]
  | (_, .unmerged m) :: l => by
    simp only [lenTreeBodies, LenTree.leavesMap, LenTree.leaves, total_append, Value.lenScalarBodies, Value.lenScalarMap]
    rw [lenTreeEntries_value m, lenTreeBodies_value l]
end

mutual
theorem mergeTree_merged : ∀ v : Value, (mergeTree v).isMerged leafMerged = v.isMerged
  | .list l => by simp only [mergeTree, MergeTree.isMerged, Value.isMerged]; exact mergeTrees_merged l
  | .object l => by simp only [mergeTree, MergeTree.isMerged, Value.isMerged]; exact mergeTreeMaps_merged l
  | .block (.merged m) => by
    simp only [mergeTree, MergeTree.isMerged, Value.isMerged, Value.isMergedBlock]; exact mergeTreeBodies_merged m
  | .block (.unmerged m) => by simp only [mergeTree, MergeTree.isMerged, Value.isMerged, Value.isMergedBlock]
  | .null => rfl
  | .integer i => rfl
  | .float i => rfl
  | .boolean i => rfl
  | .string i => rfl
theorem mergeTrees_merged : ∀ l : List Value, MergeTree.allMerged leafMerged (mergeTrees l) = Value.isMergedList l
  | [] => rfl
  | v :: l => by simp only [mergeTrees, MergeTree.allMerged, Value.isMergedList]; rw [mergeTree_merged v, mergeTrees_merged l]
theorem mergeTreeMaps_merged : ∀ l : List (KVP Key Value),
    MergeTree.allMerged leafMerged (mergeTreeMaps l) = Value.isMergedMaps l
  | [] => rfl
  | .merged m :: l => by
    simp only [mergeTreeMaps, MergeTree.allMerged, MergeTree.isMerged, Value.isMergedMaps, Value.isMergedMap]
    rw [mergeTreeEntries_merged m, mergeTreeMaps_merged l]
  | .unmerged m :: l => by
    simp only [mergeTreeMaps, MergeTree.allMerged, MergeTree.isMerged, Value.isMergedMaps, Value.isMergedMap]
    rw [mergeTreeMaps_merged l]
theorem mergeTreeEntries_merged : ∀ l : List (Key × Value),
    MergeTree.allMergedMap leafMerged (mergeTreeEntries l) = Value.isMergedEntries l
  | [] => rfl
  | (k, v) :: l => by
    simp only [mergeTreeEntries, MergeTree.allMergedMap, Value.isMergedEntries]
    rw [mergeTree_merged v, mergeTreeEntries_merged l]
theorem mergeTreeBodies_merged : ∀ l : List (List Str × KVP Key Value),
    MergeTree.allMergedMap leafMerged (mergeTreeBodies l) = Value.isMergedBodies l
  | [] => rfl
  | (_, .merged m) :: l => by
    simp only [mergeTreeBodies, MergeTree.allMergedMap, MergeTree.isMerged, Value.isMergedBodies, Value.isMergedMap]
    rw [mergeTreeEntries_merged m, mergeTreeBodies_merged l]
  | (_, .unmerged m) :: l => by
    simp only [mergeTreeBodies, MergeTree.allMergedMap, MergeTree.isMerged, Value.isMergedBodies, Value.isMergedMap]
    rw [mergeTreeBodies_merged l]
end

mutual
theorem mergeTree_unmerged : ∀ v : Value, (mergeTree v).isUnmerged leafMerged = v.isUnmerged
  | .list l => by simp only [mergeTree, MergeTree.isUnmerged, Value.isUnmerged]; exact mergeTrees_unmerged l
  | .object l => by simp only [mergeTree, MergeTree.isUnmerged, Value.isUnmerged]; exact mergeTreeMaps_unmerged l
  | .block (.merged m) => by simp only [mergeTree, MergeTree.isUnmerged, Value.isUnmerged, Value.isUnmergedBlock]
  | .block (.unmerged m) => by
    simp only [mergeTree, MergeTree.isUnmerged, Value.isUnmerged, Value.isUnmergedBlock]; exact mergeTreeBodies_unmerged m
  | .null => rfl
  | .integer i => rfl
  | .float i => rfl
  | .boolean i => rfl
  | .string i => rfl
theorem mergeTrees_unmerged : ∀ l : List Value, MergeTree.allUnmerged leafMerged (mergeTrees l) = Value.isUnmergedList l
  | [] => rfl
  | v :: l => by
    simp only [mergeTrees, MergeTree.allUnmerged, Value.isUnmergedList]; rw [mergeTree_unmerged v, mergeTrees_unmerged l]
theorem mergeTreeMaps_unmerged : ∀ l : List (KVP Key Value),
    MergeTree.allUnmerged leafMerged (mergeTreeMaps l) = Value.isUnmergedMaps l
  | [] => rfl
  | .merged m :: l => by
    simp only [mergeTreeMaps, MergeTree.allUnmerged, MergeTree.isUnmerged, Value.isUnmergedMaps, Value.isUnmergedMap]
    rw [mergeTreeMaps_unmerged l]
  | .unmerged m :: l => by
    simp only [mergeTreeMaps, MergeTree.allUnmerged, MergeTree.isUnmerged, Value.isUnmergedMaps, Value.isUnmergedMap]
    rw [mergeTreeEntries_unmerged m, mergeTreeMaps_unmerged l]
theorem mergeTreeEntries_unmerged : ∀ l : List (Key × Value),
    MergeTree.allUnmergedMap leafMerged (mergeTreeEntries l) = Value.isUnmergedEntries l
  | [] => rfl
  | (k, v) :: l => by
    simp only [mergeTreeEntries, MergeTree.allUnmergedMap, Value.isUnmergedEntries]
    rw [mergeTree_unmerged v, mergeTreeEntries_unmerged l]
theorem mergeTreeBodies_unmerged : ∀ l : List (List Str × KVP Key Value),
    MergeTree.allUnmergedMap leafMerged (mergeTreeBodies l) = Value.isUnmergedBodies l
  | [] => rfl
  | (_, .merged m) :: l => by
    simp only [mergeTreeBodies, MergeTree.allUnmergedMap, MergeTree.isUnmerged, Value.isUnmergedBodies, Value.isUnmergedMap]
    rw [mergeTreeBodies_unmerged l]
  | (_, .unmerged m) :: l => by
    simp only [mergeTreeBodies, MergeTree.allUnmergedMap, MergeTree.isUnmerged, Value.isUnmergedBodies, Value.isUnmergedMap]
    rw [mergeTreeEntries_unmerged m, mergeTreeBodies_unmerged l]
end

/-- C79: on a `Value` the methods are what these implementations give for the tree of its lists, maps and blocks. -/
theorem c79_values (v : Value) :
    v.lenScalar = (lenTree v).lenScalar leafLen ∧ v.isMerged = (mergeTree v).isMerged leafMerged ∧
      v.isUnmerged = (mergeTree v).isUnmerged leafMerged :=
  ⟨by rw [lenScalar_total, lenTree_value], (mergeTree_merged v).symm, (mergeTree_unmerged v).symm⟩

/-- C79: the default `MergeBehaviour` refuses duplicates: parsing with it merges, or fails with the error of merging. -/
theorem c79_default_merge_behaviour (U : CharClass) (P : F64Parse) (s : Str) (m : MapValues) (h : fromStr U P s none = .ok m) :
    (∀ n, m.merge = .ok n → fromStr U P s (some MergeBehaviour.default) = .ok n) ∧
    ∀ e, m.merge = .error e → fromStr U P s (some MergeBehaviour.default) = .error (.value e) := by
  unfold fromStr at h
  cases hb : oldBody U P s with
  | ok r m' =>
    rw [hb] at h
    simp only [finishFromStr] at h
    split at h
    · rename_i hr
      cases h
      constructor
      · intro n hn
        unfold fromStr; rw [hb]
        simp only [finishFromStr, hr, if_true, MergeBehaviour.default]
        show (match MapValues.merge m with | .ok m' => _ | .error e => _) = _
        rw [hn]
      · intro n hn
        unfold fromStr; rw [hb]
        simp only [finishFromStr, hr, if_true, MergeBehaviour.default]
        show (match MapValues.merge m with | .ok m' => _ | .error e => _) = _
        rw [hn]
    · cases h
  | _ => rw [hb] at h; cases h

/-- Non-vacuity: a vector of references to arrays and a map of leaves of lengths 2, 0, 3. -/
example : (LenTree.vec [.ref (.array [.leaf 2, .leaf 0]), .map [('k', .leaf 3)]]).lenScalar (K := Char) some = some 5 ∧
    (LenTree.vec [.leaf 2, .unmerged [('k', .leaf 0)]]).lenScalar (K := Char) (fun n => if n = 0 then none else some n) = none :=
  ⟨rfl, rfl⟩

example : (MergeTree.vec [.merged [('k', .leaf true)], .one (.pair 'l' (.merged []))]).isMerged (K := Char) some = some true ∧
    (MergeTree.vec [.merged [('k', .leaf true)], .many [.unmerged []]]).isMerged (K := Char) some = some false ∧
    (MergeTree.vec [.merged [('k', .leaf true)], .many [.unmerged []]]).isUnmerged (K := Char) some = some false ∧
    (MergeTree.vec [.many []] : MergeTree Char Bool).isMerged some = some true ∧
    (MergeTree.vec [.many []] : MergeTree Char Bool).isUnmerged (defaultIsUnmerged some) = some true := ⟨rfl, rfl, rfl, rfl, rfl⟩

example : (OwnTree.vec [.ref (.map [('k', .some (.leaf 2))]), .none]).asOwned (id : Char → Char) id (· + 1) =
      .vec [.map [('k', .some (.leaf 3))], .none] ∧
    KeysApart (id : Char → Char) id (OwnTree.vec [.ref (.map [('k', .some (.leaf 2))]), .none]) := by
  refine ⟨rfl, .vec _ ?_⟩
  simp
  exact ⟨.ref _ (.map _ (by simp) (by simp; exact .some _ (.leaf _))), .none⟩

end Verif.Props
