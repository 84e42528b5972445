import Verif.Spec.Traits
import Verif.Proofs.MergeSound
/-! # Proofs about the blanket implementations -/
set_option autoImplicit false

namespace Verif
open Spec

section
variable {K α : Type} {len : α → Option Nat}

/-- The sum of the lengths, if all are defined. -/
def total (len : α → Option Nat) : List α → Option Nat
  | [] => some 0
  | a :: as => addPanic (len a) (total len as)

theorem addPanic_assoc (a b c : Option Nat) : addPanic (addPanic a b) c = addPanic a (addPanic b c) := by
  cases a <;> cases b <;> cases c <;> simp [addPanic, Nat.add_assoc]

theorem total_append (as bs : List α) : total len (as ++ bs) = addPanic (total len as) (total len bs) := by
  induction as with
  | nil => simp only [List.nil_append, total]; cases total len bs <;> simp [addPanic]
  | cons a as ih => rw [List.cons_append, total, ih, total, addPanic_assoc]

mutual
theorem lenScalar_total : ∀ t : LenTree K α, t.lenScalar len = total len (LenTree.leaves t)
  | .leaf a => by
    simp only [LenTree.lenScalar, LenTree.leaves, total]
    cases len a <;> simp [addPanic]
  | .ref t => by simp only [LenTree.lenScalar, LenTree.leaves]; exact lenScalar_total t
  | .vec ts => by
    simp only [LenTree.lenScalar, LenTree.leaves]; rw [lenVec_total ts 0]; cases total len (LenTree.leavesVec ts) <;> simp
  | .array ts => by
    simp only [LenTree.lenScalar, LenTree.leaves]; rw [lenVec_total ts 0]; cases total len (LenTree.leavesVec ts) <;> simp
  | .map ts => by
    simp only [LenTree.lenScalar, LenTree.leaves]; rw [lenMap_total ts 0]; cases total len (LenTree.leavesMap ts) <;> simp
  | .merged ts => by
    simp only [LenTree.lenScalar, LenTree.leaves]; rw [lenMap_total ts 0]; cases total len (LenTree.leavesMap ts) <;> simp
  | .unmerged ts => by
    simp only [LenTree.lenScalar, LenTree.leaves]; rw [lenMap_total ts 0]; cases total len (LenTree.leavesMap ts) <;> simp
theorem lenVec_total : ∀ (ts : List (LenTree K α)) (acc : Nat),
    LenTree.lenScalarVec len acc ts = (total len (LenTree.leavesVec ts)).map (acc + ·)
  | [], acc => by simp [LenTree.lenScalarVec, LenTree.leavesVec, total]
  | t :: ts, acc => by
    simp only [LenTree.lenScalarVec, LenTree.leavesVec, total_append]
    rw [lenScalar_total t]
    cases h : total len (LenTree.leaves t) with
    | none => simp [addPanic]
    | some n =>
      simp only [lenVec_total ts]
      cases total len (LenTree.leavesVec ts) <;> simp [addPanic, Nat.add_assoc]
theorem lenMap_total : ∀ (ts : List (K × LenTree K α)) (acc : Nat),
    LenTree.lenScalarMap len acc ts = (total len (LenTree.leavesMap ts)).map (acc + ·)
  | [], acc => by simp [LenTree.lenScalarMap, LenTree.leavesMap, total]
  | (k, t) :: ts, acc => by
    simp only [LenTree.lenScalarMap, LenTree.leavesMap, total_append]
    rw [lenScalar_total t]
    cases h : total len (LenTree.leaves t) with
    | none => simp [addPanic]
    | some n =>
      simp only [lenMap_total ts]
      cases total len (LenTree.leavesMap ts) <;> simp [addPanic, Nat.add_assoc]
end

theorem total_none {as : List α} : total len as = none ↔ ∃ a ∈ as, len a = none := by
  induction as with
  | nil => simp [total]
  | cons a as ih =>
    simp only [total, List.mem_cons, exists_eq_or_imp]
    rw [← ih]
    cases len a <;> cases total len as <;> simp [addPanic]

theorem total_some {as : List α} {f : α → Nat} (h : ∀ a ∈ as, len a = some (f a)) : total len as = some (as.map f).sum := by
  induction as with
  | nil => rfl
  | cons a as ih =>
    rw [total, h a (by simp), ih fun b hb => h b (List.mem_cons_of_mem _ hb)]
    simp [addPanic]

theorem total_perm {as bs : List α} (h : as.Perm bs) : total len as = total len bs := by
  induction h with
  | nil => rfl
  | cons a _ ih => simp only [total, ih]
  | swap a b l =>
    simp only [total]
    cases len a <;> cases len b <;> cases total len l <;> simp [addPanic, Nat.add_left_comm]
  | trans _ _ ih1 ih2 => rw [ih1, ih2]

theorem total_zero {as : List α} : total len as = some 0 ↔ ∀ a ∈ as, len a = some 0 := by
  induction as with
  | nil => simp [total]
  | cons a as ih =>
    simp only [List.forall_mem_cons, ← ih, total]
    cases len a <;> cases total len as <;> simp [addPanic]

end

section
variable {K α : Type} {f : α → Option Bool}

theorem andPanic_true {a b : Option Bool} : andPanic a b = some true ↔ a = some true ∧ b = some true := by
  cases a with
  | none => simp [andPanic]
  | some x => cases x <;> simp [andPanic]

theorem andPanic_none {a b : Option Bool} (ha : a ≠ none) (hb : b ≠ none) : andPanic a b ≠ none := by
  cases a with
  | none => exact absurd rfl ha
  | some x => cases x <;> simp [andPanic, hb]

/-- `b` of all parts -/
def Both (p : (MergeTree K α) → Prop) (t : MergeTree K α) : Prop := ∀ s, Part t s → p s

theorem both_ref {p : MergeTree K α → Prop} {t : MergeTree K α} : Both p (.ref t) ↔ p (.ref t) ∧ Both p t := by
  constructor
  · intro h; exact ⟨h _ (.refl _), fun s hs => h s (.ref _ _ hs)⟩
  · rintro ⟨h1, h2⟩ s hs
    cases hs with
    | refl => exact h1
    | ref _ _ hs => exact h2 s hs

theorem both_one {p : MergeTree K α → Prop} {t : MergeTree K α} : Both p (.one t) ↔ p (.one t) ∧ Both p t := by
  constructor
  · intro h; exact ⟨h _ (.refl _), fun s hs => h s (.one _ _ hs)⟩
  · rintro ⟨h1, h2⟩ s hs
    cases hs with
    | refl => exact h1
    | one _ _ hs => exact h2 s hs

theorem both_pair {p : MergeTree K α → Prop} {k : K} {t : MergeTree K α} : Both p (.pair k t) ↔ p (.pair k t) ∧ Both p t := by
  constructor
  · intro h; exact ⟨h _ (.refl _), fun s hs => h s (.pair _ _ _ hs)⟩
  · rintro ⟨h1, h2⟩ s hs
    cases hs with
    | refl => exact h1
    | pair _ _ _ hs => exact h2 s hs

theorem both_leaf {p : MergeTree K α → Prop} {a : α} : Both p (.leaf a) ↔ p (.leaf a) := by
  constructor
  · intro h; exact h _ (.refl _)
  · intro h s hs; cases hs; exact h

theorem both_vec {p : MergeTree K α → Prop} {ts : List (MergeTree K α)} :
    Both p (.vec ts) ↔ p (.vec ts) ∧ ∀ t ∈ ts, Both p t := by
  constructor
  · intro h; exact ⟨h _ (.refl _), fun t ht s hs => h s (.vec _ _ _ ht hs)⟩
  · rintro ⟨h1, h2⟩ s hs
    cases hs with
    | refl => exact h1
    | vec _ _ _ ht hs => exact h2 _ ht s hs

theorem both_many {p : MergeTree K α → Prop} {ts : List (MergeTree K α)} :
    Both p (.many ts) ↔ p (.many ts) ∧ ∀ t ∈ ts, Both p t := by
  constructor
  · intro h; exact ⟨h _ (.refl _), fun t ht s hs => h s (.many _ _ _ ht hs)⟩
  · rintro ⟨h1, h2⟩ s hs
    cases hs with
    | refl => exact h1
    | many _ _ _ ht hs => exact h2 _ ht s hs

theorem both_map {p : MergeTree K α → Prop} {ts : List (K × MergeTree K α)} :
    Both p (.map ts) ↔ p (.map ts) ∧ ∀ q ∈ ts, Both p q.2 := by
  constructor
  · intro h; exact ⟨h _ (.refl _), fun q ht s hs => h s (.map _ q.1 q.2 _ ht hs)⟩
  · rintro ⟨h1, h2⟩ s hs
    cases hs with
    | refl => exact h1
    | map _ _ _ _ ht hs => exact h2 _ ht s hs

theorem both_merged {p : MergeTree K α → Prop} {ts : List (K × MergeTree K α)} :
    Both p (.merged ts) ↔ p (.merged ts) ∧ ∀ q ∈ ts, Both p q.2 := by
  constructor
  · intro h; exact ⟨h _ (.refl _), fun q ht s hs => h s (.merged _ q.1 q.2 _ ht hs)⟩
  · rintro ⟨h1, h2⟩ s hs
    cases hs with
    | refl => exact h1
    | merged _ _ _ _ ht hs => exact h2 _ ht s hs

theorem both_unmerged {p : MergeTree K α → Prop} {ts : List (K × MergeTree K α)} :
    Both p (.unmerged ts) ↔ p (.unmerged ts) ∧ ∀ q ∈ ts, Both p q.2 := by
  constructor
  · intro h; exact ⟨h _ (.refl _), fun q ht s hs => h s (.unmerged _ q.1 q.2 _ ht hs)⟩
  · rintro ⟨h1, h2⟩ s hs
    cases hs with
    | refl => exact h1
    | unmerged _ _ _ _ ht hs => exact h2 _ ht s hs

/-- what `is_merged` asks of each part -/
def OkMerged (f : α → Option Bool) : MergeTree K α → Prop
  | .leaf a => f a = some true
  | .unmerged _ => False
  | _ => True

/-- what `is_unmerged` asks of each part -/
def OkUnmerged (f : α → Option Bool) : MergeTree K α → Prop
  | .leaf a => f a = some true
  | .merged _ => False
  | _ => True

theorem allMerged_iff {t : MergeTree K α} : AllMerged f t ↔ Both (OkMerged f) t := by
  constructor
  · rintro ⟨h1, h2⟩ s hs
    cases s with
    | leaf a => exact h2 a hs
    | unmerged l => exact h1 l hs
    | _ => trivial
  · intro h
    exact ⟨fun l hl => h _ hl, fun a ha => h _ ha⟩

theorem allUnmerged_iff {t : MergeTree K α} : AllUnmerged f t ↔ Both (OkUnmerged f) t := by
  constructor
  · rintro ⟨h1, h2⟩ s hs
    cases s with
    | leaf a => exact h2 a hs
    | merged l => exact h1 l hs
    | _ => trivial
  · intro h
    exact ⟨fun l hl => h _ hl, fun a ha => h _ ha⟩

mutual
theorem isMerged_iff : ∀ t : MergeTree K α, t.isMerged f = some true ↔ Both (OkMerged f) t
  | .leaf a => by rw [both_leaf]; simp [MergeTree.isMerged, OkMerged]
  | .ref t => by rw [both_ref, ← isMerged_iff t]; simp [MergeTree.isMerged, OkMerged]
  | .vec ts => by rw [both_vec]; simp only [MergeTree.isMerged, OkMerged, true_and]; exact allMergedVec_iff ts
  | .one t => by rw [both_one, ← isMerged_iff t]; simp [MergeTree.isMerged, OkMerged]
  | .many ts => by rw [both_many]; simp only [MergeTree.isMerged, OkMerged, true_and]; exact allMergedVec_iff ts
  | .map ts => by rw [both_map]; simp only [MergeTree.isMerged, OkMerged, true_and]; exact allMergedMap_iff ts
  | .pair k t => by rw [both_pair, ← isMerged_iff t]; simp [MergeTree.isMerged, OkMerged]
  | .merged ts => by rw [both_merged]; simp only [MergeTree.isMerged, OkMerged, true_and]; exact allMergedMap_iff ts
  | .unmerged ts => by rw [both_unmerged]; simp [MergeTree.isMerged, OkMerged]
theorem allMergedVec_iff : ∀ ts : List (MergeTree K α), MergeTree.allMerged f ts = some true ↔ ∀ t ∈ ts, Both (OkMerged f) t
  | [] => by simp [MergeTree.allMerged]
  | t :: ts => by rw [MergeTree.allMerged, andPanic_true, List.forall_mem_cons, isMerged_iff t, allMergedVec_iff ts]
theorem allMergedMap_iff : ∀ ts : List (K × MergeTree K α),
    MergeTree.allMergedMap f ts = some true ↔ ∀ q ∈ ts, Both (OkMerged f) q.2
  | [] => by simp [MergeTree.allMergedMap]
  | (k, t) :: ts => by
    rw [MergeTree.allMergedMap, andPanic_true, List.forall_mem_cons, isMerged_iff t, allMergedMap_iff ts]
end

mutual
theorem isUnmerged_iff : ∀ t : MergeTree K α, t.isUnmerged f = some true ↔ Both (OkUnmerged f) t
  | .leaf a => by rw [both_leaf]; simp [MergeTree.isUnmerged, OkUnmerged]
  | .ref t => by rw [both_ref, ← isUnmerged_iff t]; simp [MergeTree.isUnmerged, OkUnmerged]
  | .vec ts => by rw [both_vec]; simp only [MergeTree.isUnmerged, OkUnmerged, true_and]; exact allUnmergedVec_iff ts
  | .one t => by rw [both_one, ← isUnmerged_iff t]; simp [MergeTree.isUnmerged, OkUnmerged]
  | .many ts => by rw [both_many]; simp only [MergeTree.isUnmerged, OkUnmerged, true_and]; exact allUnmergedVec_iff ts
  | .map ts => by rw [both_map]; simp only [MergeTree.isUnmerged, OkUnmerged, true_and]; exact allUnmergedMap_iff ts
  | .pair k t => by rw [both_pair, ← isUnmerged_iff t]; simp [MergeTree.isUnmerged, OkUnmerged]
  | .merged ts => by rw [both_merged]; simp [MergeTree.isUnmerged, OkUnmerged]
  | .unmerged ts => by rw [both_unmerged]; simp only [MergeTree.isUnmerged, OkUnmerged, true_and]; exact allUnmergedMap_iff ts
theorem allUnmergedVec_iff : ∀ ts : List (MergeTree K α),
    MergeTree.allUnmerged f ts = some true ↔ ∀ t ∈ ts, Both (OkUnmerged f) t
  | [] => by simp [MergeTree.allUnmerged]
  | t :: ts => by rw [MergeTree.allUnmerged, andPanic_true, List.forall_mem_cons, isUnmerged_iff t, allUnmergedVec_iff ts]
theorem allUnmergedMap_iff : ∀ ts : List (K × MergeTree K α),
    MergeTree.allUnmergedMap f ts = some true ↔ ∀ q ∈ ts, Both (OkUnmerged f) q.2
  | [] => by simp [MergeTree.allUnmergedMap]
  | (k, t) :: ts => by
    rw [MergeTree.allUnmergedMap, andPanic_true, List.forall_mem_cons, isUnmerged_iff t, allUnmergedMap_iff ts]
end

/-- the leaves do not panic -/
def Calm (f : α → Option Bool) : MergeTree K α → Prop
  | .leaf a => f a ≠ none
  | _ => True

mutual
theorem isMerged_calm : ∀ t : MergeTree K α, Both (Calm f) t → t.isMerged f ≠ none
  | .leaf a, h => h _ (.refl _)
  | .ref t, h => by simpa [MergeTree.isMerged] using isMerged_calm t (both_ref.1 h).2
  | .vec ts, h => by simpa [MergeTree.isMerged] using allMerged_calm ts (both_vec.1 h).2
  | .one t, h => by simpa [MergeTree.isMerged] using isMerged_calm t (both_one.1 h).2
  | .many ts, h => by simpa [MergeTree.isMerged] using allMerged_calm ts (both_many.1 h).2
  | .map ts, h => by simpa [MergeTree.isMerged] using allMergedMap_calm ts (both_map.1 h).2
  | .pair k t, h => by simpa [MergeTree.isMerged] using isMerged_calm t (both_pair.1 h).2
  | .merged ts, h => by simpa [MergeTree.isMerged] using allMergedMap_calm ts (both_merged.1 h).2
  | .unmerged ts, h => by simp [MergeTree.isMerged]
theorem allMerged_calm : ∀ ts : List (MergeTree K α), (∀ t ∈ ts, Both (Calm f) t) → MergeTree.allMerged f ts ≠ none
  | [], _ => by simp [MergeTree.allMerged]
  | t :: ts, h => by
    rw [MergeTree.allMerged]
    exact andPanic_none (isMerged_calm t (h t (by simp))) (allMerged_calm ts fun s hs => h s (List.mem_cons_of_mem _ hs))
theorem allMergedMap_calm : ∀ ts : List (K × MergeTree K α), (∀ q ∈ ts, Both (Calm f) q.2) → MergeTree.allMergedMap f ts ≠ none
  | [], _ => by simp [MergeTree.allMergedMap]
  | (k, t) :: ts, h => by
    rw [MergeTree.allMergedMap]
    exact andPanic_none (isMerged_calm t (h (k, t) (by simp))) (allMergedMap_calm ts fun s hs => h s (List.mem_cons_of_mem _ hs))
end

mutual
theorem isUnmerged_calm : ∀ t : MergeTree K α, Both (Calm f) t → t.isUnmerged f ≠ none
  | .leaf a, h => h _ (.refl _)
  | .ref t, h => by simpa [MergeTree.isUnmerged] using isUnmerged_calm t (both_ref.1 h).2
  | .vec ts, h => by simpa [MergeTree.isUnmerged] using allUnmerged_calm ts (both_vec.1 h).2
  | .one t, h => by simpa [MergeTree.isUnmerged] using isUnmerged_calm t (both_one.1 h).2
  | .many ts, h => by simpa [MergeTree.isUnmerged] using allUnmerged_calm ts (both_many.1 h).2
  | .map ts, h => by simpa [MergeTree.isUnmerged] using allUnmergedMap_calm ts (both_map.1 h).2
  | .pair k t, h => by simpa [MergeTree.isUnmerged] using isUnmerged_calm t (both_pair.1 h).2
  | .merged ts, h => by simp [MergeTree.isUnmerged]
  | .unmerged ts, h => by simpa [MergeTree.isUnmerged] using allUnmergedMap_calm ts (both_unmerged.1 h).2
theorem allUnmerged_calm : ∀ ts : List (MergeTree K α), (∀ t ∈ ts, Both (Calm f) t) → MergeTree.allUnmerged f ts ≠ none
  | [], _ => by simp [MergeTree.allUnmerged]
  | t :: ts, h => by
    rw [MergeTree.allUnmerged]
    exact andPanic_none (isUnmerged_calm t (h t (by simp))) (allUnmerged_calm ts fun s hs => h s (List.mem_cons_of_mem _ hs))
theorem allUnmergedMap_calm : ∀ ts : List (K × MergeTree K α), (∀ q ∈ ts, Both (Calm f) q.2) →
    MergeTree.allUnmergedMap f ts ≠ none
  | [], _ => by simp [MergeTree.allUnmergedMap]
  | (k, t) :: ts, h => by
    rw [MergeTree.allUnmergedMap]
    exact andPanic_none (isUnmerged_calm t (h (k, t) (by simp))) (allUnmergedMap_calm ts fun s hs => h s (List.mem_cons_of_mem _ hs))
end

theorem calm_iff {t : MergeTree K α} : Both (Calm f) t ↔ ∀ a, Part t (.leaf a) → f a ≠ none := by
  constructor
  · intro h a ha; exact h _ ha
  · intro h s hs
    cases s with
    | leaf a => exact h a hs
    | _ => trivial

end

section
variable {K K' N α β : Type} [DecidableEq N] {norm : K' → N} {key : K → K'} {own : α → β}

theorem asOwnedPairs_keys (m : List (K × OwnTree K α)) :
    (OwnTree.asOwnedPairs norm key own m).map Prod.fst = m.map fun p => key p.1 := by
  induction m with
  | nil => rfl
  | cons p m ih => obtain ⟨k, t⟩ := p; simp [OwnTree.asOwnedPairs, ih]

theorem asOwnedPairs_norms (m : List (K × OwnTree K α)) :
    (OwnTree.asOwnedPairs norm key own m).map (fun p => norm p.1) = m.map fun p => norm (key p.1) := by
  have := congrArg (List.map norm) (asOwnedPairs_keys (norm := norm) (key := key) (own := own) m)
  simpa [List.map_map, Function.comp_def] using this

theorem asOwnedPairs_rel (m : List (K × OwnTree K α)) :
    AllRel (fun p p' => p'.1 = key p.1) m (OwnTree.asOwnedPairs norm key own m) := by
  induction m with
  | nil => exact .nil
  | cons p m ih => obtain ⟨k, t⟩ := p; exact .cons _ _ _ _ rfl ih

mutual
theorem ownedForm : ∀ t : OwnTree K α, KeysApart norm key t → OwnedForm key own t (t.asOwned norm key own)
  | .leaf a, _ => .leaf a
  | .ref t, h => by
    simp only [OwnTree.asOwned]
    exact .ref _ _ (ownedForm t (by cases h; assumption))
  | .vec ts, h => by
    simp only [OwnTree.asOwned]
    exact .vec _ _ (ownedVec ts (by cases h; assumption))
  | .map m, h => by
    simp only [OwnTree.asOwned]
    cases h with
    | map _ hn hp =>
      rw [collect_distinct norm _ (by rw [asOwnedPairs_norms]; exact hn)]
      exact .map _ _ (asOwnedPairs_rel m) (ownedPairs m hp)
  | .pair k t, h => by
    simp only [OwnTree.asOwned]
    exact .pair _ _ _ (ownedForm t (by cases h; assumption))
  | .none, _ => .none
  | .some t, h => by
    simp only [OwnTree.asOwned]
    exact .some _ _ (ownedForm t (by cases h; assumption))
  | .merged m, h => by
    simp only [OwnTree.asOwned]
    cases h with
    | merged _ hn hp =>
      rw [collect_distinct norm _ (by rw [asOwnedPairs_norms]; exact hn)]
      exact .merged _ _ (asOwnedPairs_rel m) (ownedPairs m hp)
  | .unmerged m, h => by
    simp only [OwnTree.asOwned]
    cases h with
    | unmerged _ hp => exact .unmerged _ _ (asOwnedPairs_rel m) (ownedPairs m hp)
theorem ownedVec : ∀ ts : List (OwnTree K α), (∀ t ∈ ts, KeysApart norm key t) →
    AllRel (OwnedForm key own) ts (OwnTree.asOwnedVec norm key own ts)
  | [], _ => .nil
  | t :: ts, h => .cons _ _ _ _ (ownedForm t (h t (by simp))) (ownedVec ts fun s hs => h s (List.mem_cons_of_mem _ hs))
theorem ownedPairs : ∀ m : List (K × OwnTree K α), (∀ p ∈ m, KeysApart norm key p.2) →
    AllRel (fun p p' => OwnedForm key own p.2 p'.2) m (OwnTree.asOwnedPairs norm key own m)
  | [], _ => .nil
  | (k, t) :: m, h => .cons _ _ _ _ (ownedForm t (h (k, t) (by simp))) (ownedPairs m fun s hs => h s (List.mem_cons_of_mem _ hs))
end

end

end Verif
