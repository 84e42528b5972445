import Verif.Proofs.MergeSound
/-! # Null, merged and unmerged parts; leaves; what merging does to them -/
set_option autoImplicit false

namespace Verif
open Spec Props

/-! ## what is inside a node -/

theorem inside_iff {x z : Node} : Inside x z ↔ x = z ∨ ∃ y, Child x y ∧ Inside y z := by
  constructor
  · intro h
    cases h with
    | refl => exact .inl rfl
    | step _ y _ h1 h2 => exact .inr ⟨y, h1, h2⟩
  · rintro (rfl | ⟨y, h1, h2⟩)
    · exact .refl _
    · exact .step _ y _ h1 h2

theorem inside_scalar {v : Value} (h1 : v.variant ≠ .list) (h2 : v.variant ≠ .object) (h3 : v.variant ≠ .block) {z : Node} :
    Inside (.val v) z ↔ z = .val v := by
  rw [inside_iff]
  constructor
  · rintro (h | ⟨y, h, -⟩)
    · exact h.symm
    · cases h <;> simp [Value.variant] at h1 h2 h3
  · rintro rfl; exact .inl rfl

theorem inside_list {l : List Value} {z : Node} :
    Inside (.val (.list l)) z ↔ z = .val (.list l) ∨ ∃ v ∈ l, Inside (.val v) z := by
  rw [inside_iff]
  constructor
  · rintro (h | ⟨y, h, h'⟩)
    · exact .inl h.symm
    · cases h with | list _ v hv => exact .inr ⟨v, hv, h'⟩
  · rintro (rfl | ⟨v, hv, h⟩)
    · exact .inl rfl
    · exact .inr ⟨_, .list l v hv, h⟩

theorem inside_object {l : List MapValues} {z : Node} :
    Inside (.val (.object l)) z ↔ z = .val (.object l) ∨ ∃ v ∈ l, Inside (.map v) z := by
  rw [inside_iff]
  constructor
  · rintro (h | ⟨y, h, h'⟩)
    · exact .inl h.symm
    · cases h with | object _ v hv => exact .inr ⟨v, hv, h'⟩
  · rintro (rfl | ⟨v, hv, h⟩)
    · exact .inl rfl
    · exact .inr ⟨_, .object l v hv, h⟩

theorem inside_blk {b : VBlock} {z : Node} :
    Inside (.blk b) z ↔ z = .blk b ∨ ∃ p ∈ b.entries, Inside (.map p.2) z := by
  rw [inside_iff]
  constructor
  · rintro (h | ⟨y, h, h'⟩)
    · exact .inl h.symm
    · cases h with | body _ v hv => exact .inr ⟨v, hv, h'⟩
  · rintro (rfl | ⟨v, hv, h⟩)
    · exact .inl rfl
    · exact .inr ⟨_, .body b v hv, h⟩

theorem inside_block {b : VBlock} {z : Node} :
    Inside (.val (.block b)) z ↔ z = .val (.block b) ∨ Inside (.blk b) z := by
  rw [inside_iff]
  constructor
  · rintro (h | ⟨y, h, h'⟩)
    · exact .inl h.symm
    · cases h with | block _ => exact .inr h'
  · rintro (rfl | h)
    · exact .inl rfl
    · exact .inr ⟨_, .block b, h⟩

theorem inside_map {m : MapValues} {z : Node} :
    Inside (.map m) z ↔ z = .map m ∨ ∃ p ∈ m.entries, Inside (.val p.2) z := by
  rw [inside_iff]
  constructor
  · rintro (h | ⟨y, h, h'⟩)
    · exact .inl h.symm
    · cases h with | entry _ v hv => exact .inr ⟨v, hv, h'⟩
  · rintro (rfl | ⟨v, hv, h⟩)
    · exact .inl rfl
    · exact .inr ⟨_, .entry m v hv, h⟩

/-! ### Null -/

theorem hasNull_list {l : List Value} : HasNull (.val (.list l)) ↔ ∃ v ∈ l, HasNull (.val v) := by
  simp [HasNull, inside_list]
theorem hasNull_object {l : List MapValues} : HasNull (.val (.object l)) ↔ ∃ v ∈ l, HasNull (.map v) := by
  simp [HasNull, inside_object]
theorem hasNull_block {b : VBlock} : HasNull (.val (.block b)) ↔ ∃ p ∈ b.entries, HasNull (.map p.2) := by
  simp [HasNull, inside_block, inside_blk]
theorem hasNull_map {m : MapValues} : HasNull (.map m) ↔ ∃ p ∈ m.entries, HasNull (.val p.2) := by
  simp [HasNull, inside_map]
theorem hasNull_scalar {v : Value} (h1 : v.variant ≠ .list) (h2 : v.variant ≠ .object) (h3 : v.variant ≠ .block) :
    HasNull (.val v) ↔ v = .null := by
  rw [HasNull, inside_scalar h1 h2 h3]
  simp [eq_comm]

/-! ### unmerged and merged parts -/

theorem hasUnmerged_scalar {v : Value} (h1 : v.variant ≠ .list) (h2 : v.variant ≠ .object) (h3 : v.variant ≠ .block) :
    ¬ HasUnmerged (.val v) := by
  simp [HasUnmerged, inside_scalar h1 h2 h3]
theorem hasUnmerged_list {l : List Value} : HasUnmerged (.val (.list l)) ↔ ∃ v ∈ l, HasUnmerged (.val v) := by
  simp only [HasUnmerged, inside_list, reduceCtorEq, false_or]
  constructor
  · rintro (⟨es, v, hv, h⟩ | ⟨es, v, hv, h⟩)
    · exact ⟨v, hv, .inl ⟨es, h⟩⟩
    · exact ⟨v, hv, .inr ⟨es, h⟩⟩
  · rintro ⟨v, hv, ⟨es, h⟩ | ⟨es, h⟩⟩
    · exact .inl ⟨es, v, hv, h⟩
    · exact .inr ⟨es, v, hv, h⟩
theorem hasUnmerged_object {l : List MapValues} : HasUnmerged (.val (.object l)) ↔ ∃ v ∈ l, HasUnmerged (.map v) := by
  simp only [HasUnmerged, inside_object, reduceCtorEq, false_or]
  constructor
  · rintro (⟨es, v, hv, h⟩ | ⟨es, v, hv, h⟩)
    · exact ⟨v, hv, .inl ⟨es, h⟩⟩
    · exact ⟨v, hv, .inr ⟨es, h⟩⟩
  · rintro ⟨v, hv, ⟨es, h⟩ | ⟨es, h⟩⟩
    · exact .inl ⟨es, v, hv, h⟩
    · exact .inr ⟨es, v, hv, h⟩
theorem hasUnmerged_blk_unmerged {l : List (List Str × MapValues)} : HasUnmerged (.blk (.unmerged l)) :=
  .inr ⟨l, .refl _⟩
theorem hasUnmerged_block_unmerged {l : List (List Str × MapValues)} : HasUnmerged (.val (.block (.unmerged l))) :=
  .inr ⟨l, .step _ _ _ (.block _) (.refl _)⟩
theorem hasUnmerged_map_unmerged {l : List (Key × Value)} : HasUnmerged (.map (.unmerged l)) := .inl ⟨l, .refl _⟩
theorem hasUnmerged_blk_merged {l : List (List Str × MapValues)} :
    HasUnmerged (.blk (.merged l)) ↔ ∃ p ∈ l, HasUnmerged (.map p.2) := by
  simp only [HasUnmerged, inside_blk, reduceCtorEq, false_or, Node.blk.injEq, KVP.entries]
  constructor
  · rintro (⟨es, v, hv, h⟩ | ⟨es, v, hv, h⟩)
    · exact ⟨v, hv, .inl ⟨es, h⟩⟩
    · exact ⟨v, hv, .inr ⟨es, h⟩⟩
  · rintro ⟨v, hv, ⟨es, h⟩ | ⟨es, h⟩⟩
    · exact .inl ⟨es, v, hv, h⟩
    · exact .inr ⟨es, v, hv, h⟩
theorem hasUnmerged_block {b : VBlock} : HasUnmerged (.val (.block b)) ↔ HasUnmerged (.blk b) := by
  simp only [HasUnmerged, inside_block, reduceCtorEq, false_or]
theorem hasUnmerged_map_merged {l : List (Key × Value)} :
    HasUnmerged (.map (.merged l)) ↔ ∃ p ∈ l, HasUnmerged (.val p.2) := by
  simp only [HasUnmerged, inside_map, reduceCtorEq, false_or, Node.map.injEq, KVP.entries]
  constructor
  · rintro (⟨es, v, hv, h⟩ | ⟨es, v, hv, h⟩)
    · exact ⟨v, hv, .inl ⟨es, h⟩⟩
    · exact ⟨v, hv, .inr ⟨es, h⟩⟩
  · rintro ⟨v, hv, ⟨es, h⟩ | ⟨es, h⟩⟩
    · exact .inl ⟨es, v, hv, h⟩
    · exact .inr ⟨es, v, hv, h⟩

theorem hasMerged_scalar {v : Value} (h1 : v.variant ≠ .list) (h2 : v.variant ≠ .object) (h3 : v.variant ≠ .block) :
    ¬ HasMerged (.val v) := by
  simp [HasMerged, inside_scalar h1 h2 h3]
theorem hasMerged_list {l : List Value} : HasMerged (.val (.list l)) ↔ ∃ v ∈ l, HasMerged (.val v) := by
  simp only [HasMerged, inside_list, reduceCtorEq, false_or]
  constructor
  · rintro (⟨es, v, hv, h⟩ | ⟨es, v, hv, h⟩)
    · exact ⟨v, hv, .inl ⟨es, h⟩⟩
    · exact ⟨v, hv, .inr ⟨es, h⟩⟩
  · rintro ⟨v, hv, ⟨es, h⟩ | ⟨es, h⟩⟩
    · exact .inl ⟨es, v, hv, h⟩
    · exact .inr ⟨es, v, hv, h⟩
theorem hasMerged_object {l : List MapValues} : HasMerged (.val (.object l)) ↔ ∃ v ∈ l, HasMerged (.map v) := by
  simp only [HasMerged, inside_object, reduceCtorEq, false_or]
  constructor
  · rintro (⟨es, v, hv, h⟩ | ⟨es, v, hv, h⟩)
    · exact ⟨v, hv, .inl ⟨es, h⟩⟩
    · exact ⟨v, hv, .inr ⟨es, h⟩⟩
  · rintro ⟨v, hv, ⟨es, h⟩ | ⟨es, h⟩⟩
    · exact .inl ⟨es, v, hv, h⟩
    · exact .inr ⟨es, v, hv, h⟩
theorem hasMerged_blk_merged {l : List (List Str × MapValues)} : HasMerged (.blk (.merged l)) := .inr ⟨l, .refl _⟩
theorem hasMerged_map_merged {l : List (Key × Value)} : HasMerged (.map (.merged l)) := .inl ⟨l, .refl _⟩
theorem hasMerged_blk_unmerged {l : List (List Str × MapValues)} :
    HasMerged (.blk (.unmerged l)) ↔ ∃ p ∈ l, HasMerged (.map p.2) := by
  simp only [HasMerged, inside_blk, reduceCtorEq, false_or, Node.blk.injEq, KVP.entries]
  constructor
  · rintro (⟨es, v, hv, h⟩ | ⟨es, v, hv, h⟩)
    · exact ⟨v, hv, .inl ⟨es, h⟩⟩
    · exact ⟨v, hv, .inr ⟨es, h⟩⟩
  · rintro ⟨v, hv, ⟨es, h⟩ | ⟨es, h⟩⟩
    · exact .inl ⟨es, v, hv, h⟩
    · exact .inr ⟨es, v, hv, h⟩
theorem hasMerged_block {b : VBlock} : HasMerged (.val (.block b)) ↔ HasMerged (.blk b) := by
  simp only [HasMerged, inside_block, reduceCtorEq, false_or]
theorem hasMerged_map_unmerged {l : List (Key × Value)} :
    HasMerged (.map (.unmerged l)) ↔ ∃ p ∈ l, HasMerged (.val p.2) := by
  simp only [HasMerged, inside_map, reduceCtorEq, false_or, Node.map.injEq, KVP.entries]
  constructor
  · rintro (⟨es, v, hv, h⟩ | ⟨es, v, hv, h⟩)
    · exact ⟨v, hv, .inl ⟨es, h⟩⟩
    · exact ⟨v, hv, .inr ⟨es, h⟩⟩
  · rintro ⟨v, hv, ⟨es, h⟩ | ⟨es, h⟩⟩
    · exact .inl ⟨es, v, hv, h⟩
    · exact .inr ⟨es, v, hv, h⟩

/-! ## is_merged, is_unmerged, len_scalar -/

/-- The answer of `iter().all(..)` over a list with per-item answers `f`. -/
def allAnswer {α : Type} (f : α → Option Bool) : List α → Option Bool
  | [] => some true
  | a :: l => andPanic (f a) (allAnswer f l)

/-- `r` is the answer of a check that panics on `N` and looks for `U`. -/
structure Answer (r : Option Bool) (N U : Prop) : Prop where
  yes : r = some true ↔ ¬ N ∧ ¬ U
  no : r = some false → U
  panic : r = none → N

theorem Answer.all {α : Type} {f : α → Option Bool} {N U : α → Prop} {l : List α} (h : ∀ a ∈ l, Answer (f a) (N a) (U a)) :
    Answer (allAnswer f l) (∃ a ∈ l, N a) (∃ a ∈ l, U a) := by
  induction l with
  | nil => exact ⟨by simp [allAnswer], by simp [allAnswer], by simp [allAnswer]⟩
  | cons a l ih =>
    rw [List.forall_mem_cons] at h
    have h1 := h.1
    have h2 := ih h.2
    simp only [allAnswer]
    match hf : f a with
    | none =>
      have hn := h1.panic hf
      refine ⟨?_, by simp [andPanic], fun _ => ⟨a, by simp, hn⟩⟩
      simp only [andPanic, Option.bind_none, reduceCtorEq, false_iff, not_and]
      exact fun h => absurd ⟨a, by simp, hn⟩ h
    | some false =>
      have hn := h1.no hf
      refine ⟨?_, fun _ => ⟨a, by simp, hn⟩, by simp [andPanic]⟩
      simp only [andPanic, Option.bind_some, Bool.false_eq_true, if_false, Option.some.injEq, Bool.false_eq_true, false_iff, not_and]
      exact fun _ h => absurd ⟨a, by simp, hn⟩ h
    | some true =>
      have hn := h1.yes.mp hf
      have e1 : (∃ x ∈ a :: l, N x) ↔ ∃ x ∈ l, N x := by simp [hn.1]
      have e2 : (∃ x ∈ a :: l, U x) ↔ ∃ x ∈ l, U x := by simp [hn.2]
      simp only [andPanic, Option.bind_some, if_true]
      exact ⟨by rw [h2.yes, e1, e2], fun h => e2.mpr (h2.no h), fun h => e1.mpr (h2.panic h)⟩

theorem Answer.congr {r : Option Bool} {N N' U U' : Prop} (h : Answer r N U) (hN : N ↔ N') (hU : U ↔ U') : Answer r N' U' := by
  rw [propext hN, propext hU] at h; exact h

theorem isMergedList_eq (l : List Value) : Value.isMergedList l = allAnswer Value.isMerged l := by
  induction l with
  | nil => rfl
  | cons v l ih => simp only [Value.isMergedList, allAnswer, ih]
theorem isMergedMaps_eq (l : List MapValues) : Value.isMergedMaps l = allAnswer Value.isMergedMap l := by
  induction l with
  | nil => rfl
  | cons v l ih => simp only [Value.isMergedMaps, allAnswer, ih]
theorem isMergedEntries_eq (l : List (Key × Value)) : Value.isMergedEntries l = allAnswer (fun p => p.2.isMerged) l := by
  induction l with
  | nil => rfl
  | cons v l ih => obtain ⟨k, v⟩ := v; simp only [Value.isMergedEntries, allAnswer, ih]
theorem isMergedBodies_eq (l : List (List Str × MapValues)) :
    Value.isMergedBodies l = allAnswer (fun p => Value.isMergedMap p.2) l := by
  induction l with
  | nil => rfl
  | cons v l ih => obtain ⟨k, v⟩ := v; simp only [Value.isMergedBodies, allAnswer, ih]
theorem isUnmergedList_eq (l : List Value) : Value.isUnmergedList l = allAnswer Value.isUnmerged l := by
  induction l with
  | nil => rfl
  | cons v l ih => simp only [Value.isUnmergedList, allAnswer, ih]
theorem isUnmergedMaps_eq (l : List MapValues) : Value.isUnmergedMaps l = allAnswer Value.isUnmergedMap l := by
  induction l with
  | nil => rfl
  | cons v l ih => simp only [Value.isUnmergedMaps, allAnswer, ih]
theorem isUnmergedEntries_eq (l : List (Key × Value)) : Value.isUnmergedEntries l = allAnswer (fun p => p.2.isUnmerged) l := by
  induction l with
  | nil => rfl
  | cons v l ih => obtain ⟨k, v⟩ := v; simp only [Value.isUnmergedEntries, allAnswer, ih]
theorem isUnmergedBodies_eq (l : List (List Str × MapValues)) :
    Value.isUnmergedBodies l = allAnswer (fun p => Value.isUnmergedMap p.2) l := by
  induction l with
  | nil => rfl
  | cons v l ih => obtain ⟨k, v⟩ := v; simp only [Value.isUnmergedBodies, allAnswer, ih]

theorem Answer.found {N U : Prop} (h : U) : Answer (some false) N U :=
  ⟨by simp [h], fun _ => h, by simp⟩

theorem isMerged_answer : (∀ v : Value, Answer v.isMerged (HasNull (.val v)) (HasUnmerged (.val v))) ∧
    ∀ m : MapValues, Answer (Value.isMergedMap m) (HasNull (.map m)) (HasUnmerged (.map m)) := by
  apply Value.inductBoth
  · intro v h1 h2 h3
    have hn := hasNull_scalar h1 h2 h3
    have hu := hasUnmerged_scalar h1 h2 h3
    cases v with
    | null => exact ⟨by simp [Value.isMerged, hn], by simp [Value.isMerged], fun _ => hn.mpr rfl⟩
    | list l => simp [Value.variant] at h1
    | object l => simp [Value.variant] at h2
    | block l => simp [Value.variant] at h3
    | _ => exact ⟨by simp [Value.isMerged, hn, hu], by simp [Value.isMerged], by simp [Value.isMerged]⟩
  · intro l ih
    rw [Value.isMerged, isMergedList_eq]
    exact (Answer.all ih).congr hasNull_list.symm hasUnmerged_list.symm
  · intro l ih
    rw [Value.isMerged, isMergedMaps_eq]
    exact (Answer.all ih).congr hasNull_object.symm hasUnmerged_object.symm
  · intro b ih
    rw [Value.isMerged]
    cases b with
    | unmerged l => exact .found hasUnmerged_block_unmerged
    | merged l =>
      rw [Value.isMergedBlock, isMergedBodies_eq]
      exact (Answer.all (l := l) (N := fun p : List Str × MapValues => HasNull (.map p.2)) (U := fun p => HasUnmerged (.map p.2)) ih).congr
        (hasNull_block (b := .merged l)).symm (hasUnmerged_block.trans hasUnmerged_blk_merged).symm
  · intro m ih
    cases m with
    | unmerged l => exact .found hasUnmerged_map_unmerged
    | merged l =>
      rw [Value.isMergedMap, isMergedEntries_eq]
      exact (Answer.all (l := l) (N := fun p : Key × Value => HasNull (.val p.2)) (U := fun p => HasUnmerged (.val p.2)) ih).congr
        (hasNull_map (m := .merged l)).symm hasUnmerged_map_merged.symm

theorem isUnmerged_answer : (∀ v : Value, Answer v.isUnmerged (HasNull (.val v)) (HasMerged (.val v))) ∧
    ∀ m : MapValues, Answer (Value.isUnmergedMap m) (HasNull (.map m)) (HasMerged (.map m)) := by
  apply Value.inductBoth
  · intro v h1 h2 h3
    have hn := hasNull_scalar h1 h2 h3
    have hu := hasMerged_scalar h1 h2 h3
    cases v with
    | null => exact ⟨by simp [Value.isUnmerged, hn], by simp [Value.isUnmerged], fun _ => hn.mpr rfl⟩
    | list l => simp [Value.variant] at h1
    | object l => simp [Value.variant] at h2
    | block l => simp [Value.variant] at h3
    | _ => exact ⟨by simp [Value.isUnmerged, hn, hu], by simp [Value.isUnmerged], by simp [Value.isUnmerged]⟩
  · intro l ih
    rw [Value.isUnmerged, isUnmergedList_eq]
    exact (Answer.all ih).congr hasNull_list.symm hasMerged_list.symm
  · intro l ih
    rw [Value.isUnmerged, isUnmergedMaps_eq]
    exact (Answer.all ih).congr hasNull_object.symm hasMerged_object.symm
  · intro b ih
    rw [Value.isUnmerged]
    cases b with
    | merged l => exact .found (hasMerged_block.mpr hasMerged_blk_merged)
    | unmerged l =>
      rw [Value.isUnmergedBlock, isUnmergedBodies_eq]
      exact (Answer.all (l := l) (N := fun p : List Str × MapValues => HasNull (.map p.2)) (U := fun p => HasMerged (.map p.2)) ih).congr
        (hasNull_block (b := .unmerged l)).symm (hasMerged_block.trans hasMerged_blk_unmerged).symm
  · intro m ih
    cases m with
    | merged l => exact .found hasMerged_map_merged
    | unmerged l =>
      rw [Value.isUnmergedMap, isUnmergedEntries_eq]
      exact (Answer.all (l := l) (N := fun p : Key × Value => HasNull (.val p.2)) (U := fun p => HasMerged (.val p.2)) ih).congr
        (hasNull_map (m := .unmerged l)).symm hasMerged_map_unmerged.symm

/-! ### leaves as concatenations -/

theorem listLeaves_eq (l : List Value) : listLeaves l = l.flatMap leaves := by
  induction l with
  | nil => rfl
  | cons v l ih => simp only [listLeaves, List.flatMap_cons, ih]
theorem mapsLeaves_eq (l : List MapValues) : mapsLeaves l = l.flatMap mapLeaves := by
  induction l with
  | nil => rfl
  | cons v l ih => simp only [mapsLeaves, List.flatMap_cons, ih]
theorem entriesLeaves_eq (l : List (Key × Value)) : entriesLeaves l = l.flatMap fun p => leaves p.2 := by
  induction l with
  | nil => rfl
  | cons v l ih => obtain ⟨k, v⟩ := v; simp only [entriesLeaves, List.flatMap_cons, ih]
theorem bodiesLeaves_eq (l : List (List Str × MapValues)) : bodiesLeaves l = l.flatMap fun p => mapLeaves p.2 := by
  induction l with
  | nil => rfl
  | cons v l ih => obtain ⟨k, v⟩ := v; simp only [bodiesLeaves, List.flatMap_cons, ih]
theorem mapLeaves_eq (m : MapValues) : mapLeaves m = entriesLeaves m.entries := by cases m <;> rfl
theorem blockLeaves_eq (b : VBlock) : blockLeaves b = bodiesLeaves b.entries := by cases b <;> rfl

theorem null_mem_leaves : (∀ v : Value, Value.null ∈ leaves v ↔ HasNull (.val v)) ∧
    ∀ m : MapValues, Value.null ∈ mapLeaves m ↔ HasNull (.map m) := by
  apply Value.inductBoth
  · intro v h1 h2 h3
    rw [hasNull_scalar h1 h2 h3]
    cases v <;> simp [Value.variant] at h1 h2 h3 <;> simp [leaves]
  · intro l ih
    rw [hasNull_list, leaves, listLeaves_eq]
    simp only [List.mem_flatMap]
    exact ⟨fun ⟨v, hv, h⟩ => ⟨v, hv, (ih v hv).mp h⟩, fun ⟨v, hv, h⟩ => ⟨v, hv, (ih v hv).mpr h⟩⟩
  · intro l ih
    rw [hasNull_object, leaves, mapsLeaves_eq]
    simp only [List.mem_flatMap]
    exact ⟨fun ⟨v, hv, h⟩ => ⟨v, hv, (ih v hv).mp h⟩, fun ⟨v, hv, h⟩ => ⟨v, hv, (ih v hv).mpr h⟩⟩
  · intro b ih
    rw [hasNull_block, leaves, blockLeaves_eq, bodiesLeaves_eq]
    simp only [List.mem_flatMap]
    exact ⟨fun ⟨v, hv, h⟩ => ⟨v, hv, (ih v hv).mp h⟩, fun ⟨v, hv, h⟩ => ⟨v, hv, (ih v hv).mpr h⟩⟩
  · intro m ih
    rw [hasNull_map, mapLeaves_eq, entriesLeaves_eq]
    simp only [List.mem_flatMap]
    exact ⟨fun ⟨v, hv, h⟩ => ⟨v, hv, (ih v hv).mp h⟩, fun ⟨v, hv, h⟩ => ⟨v, hv, (ih v hv).mpr h⟩⟩

/-- The sum of a fold that panics when an item panics. -/
def sumAnswer {α : Type} (f : α → Option Nat) : List α → Option Nat
  | [] => some 0
  | a :: l => addPanic (f a) (sumAnswer f l)

open Classical in
theorem sumAnswer_eq {α : Type} {f : α → Option Nat} {g : α → List Value} {l : List α}
    (h : ∀ a ∈ l, f a = if Value.null ∈ g a then none else some (g a).length) :
    sumAnswer f l = if Value.null ∈ l.flatMap g then none else some (l.flatMap g).length := by
  induction l with
  | nil => simp [sumAnswer]
  | cons a l ih =>
    rw [List.forall_mem_cons] at h
    simp only [sumAnswer]
    rw [h.1, ih h.2]
    by_cases h1 : Value.null ∈ g a
    · simp [h1, addPanic]
    · by_cases h2 : Value.null ∈ l.flatMap g
      · rw [if_neg h1, if_pos h2, if_pos (by simp only [List.flatMap_cons, List.mem_append]; exact .inr h2)]
        rfl
      · rw [if_neg h1, if_neg h2, if_neg (by simp only [List.flatMap_cons, List.mem_append]; exact not_or.mpr ⟨h1, h2⟩)]
        simp [addPanic]

open Classical in
theorem lenScalar_eq : (∀ v : Value, v.lenScalar = if Value.null ∈ leaves v then none else some (leaves v).length) ∧
    ∀ m : MapValues, Value.lenScalarMap m = if Value.null ∈ mapLeaves m then none else some (mapLeaves m).length := by
  apply Value.inductBoth
  · intro v h1 h2 h3
    cases v <;> simp [Value.variant] at h1 h2 h3 <;> simp [leaves, Value.lenScalar]
  · intro l ih
    have e : Value.lenScalarList l = sumAnswer Value.lenScalar l := by
      clear ih
      induction l with
      | nil => rfl
      | cons v l ih => simp only [Value.lenScalarList, sumAnswer, ih]
    rw [Value.lenScalar, e, leaves, listLeaves_eq]
    exact sumAnswer_eq ih
  · intro l ih
    have e : Value.lenScalarMaps l = sumAnswer Value.lenScalarMap l := by
      clear ih
      induction l with
      | nil => rfl
      | cons v l ih => simp only [Value.lenScalarMaps, sumAnswer, ih]
    rw [Value.lenScalar, e, leaves, mapsLeaves_eq]
    exact sumAnswer_eq ih
  · intro b ih
    have e : Value.lenScalarBlock b = sumAnswer (fun p => Value.lenScalarMap p.2) b.entries := by
      have : ∀ l, Value.lenScalarBodies l = sumAnswer (fun p => Value.lenScalarMap p.2) l := by
        intro l
        induction l with
        | nil => rfl
        | cons v l ih => obtain ⟨k, v⟩ := v; simp only [Value.lenScalarBodies, sumAnswer, ih]
      cases b <;> simp only [Value.lenScalarBlock, KVP.entries, this]
    rw [Value.lenScalar, e, leaves, blockLeaves_eq, bodiesLeaves_eq]
    exact sumAnswer_eq ih
  · intro b ih
    have e : Value.lenScalarMap b = sumAnswer (fun p => p.2.lenScalar) b.entries := by
      have : ∀ l, Value.lenScalarEntries l = sumAnswer (fun p => p.2.lenScalar) l := by
        intro l
        induction l with
        | nil => rfl
        | cons v l ih => obtain ⟨k, v⟩ := v; simp only [Value.lenScalarEntries, sumAnswer, ih]
      cases b <;> simp only [Value.lenScalarMap, KVP.entries, this]
    rw [e, mapLeaves_eq, entriesLeaves_eq]
    exact sumAnswer_eq ih

/-! ## merging keeps the leaves -/

theorem perm_of_eq {α : Type} {a b : List α} (h : a = b) : a.Perm b := h ▸ List.Perm.refl _

/-- `a` is `b` up to order, minus `lost`. -/
theorem insert_leaves (k : List Str) (v : MapValues) (m : List (List Str × MapValues)) :
    ∃ lost, (bodiesLeaves (HashMap.insert id k v m) ++ lost).Perm (bodiesLeaves m ++ mapLeaves v) := by
  induction m with
  | nil => exact ⟨[], by simp [HashMap.insert, bodiesLeaves]⟩
  | cons p m ih =>
    obtain ⟨k', v'⟩ := p
    simp only [HashMap.insert]
    split
    · refine ⟨mapLeaves v', ?_⟩
      simp only [bodiesLeaves]
      rw [List.append_assoc]
      refine (List.perm_append_comm).trans ?_
      rw [List.append_assoc, List.append_assoc]
      exact (List.perm_append_comm_assoc _ _ _)
    · obtain ⟨lost, h⟩ := ih
      refine ⟨lost, ?_⟩
      simp only [bodiesLeaves, List.append_assoc]
      exact List.Perm.append_left _ h

theorem extend_leaves (m es : List (List Str × MapValues)) :
    ∃ lost, (bodiesLeaves (HashMap.extend id m es) ++ lost).Perm (bodiesLeaves m ++ bodiesLeaves es) := by
  induction es generalizing m with
  | nil => exact ⟨[], by simp [HashMap.extend, bodiesLeaves]⟩
  | cons e es ih =>
    obtain ⟨k, v⟩ := e
    obtain ⟨l1, h1⟩ := insert_leaves k v m
    obtain ⟨l2, h2⟩ := ih (HashMap.insert id k v m)
    refine ⟨l2 ++ l1, ?_⟩
    simp only [HashMap.extend, bodiesLeaves]
    rw [← List.append_assoc]
    refine (List.Perm.append_right l1 h2).trans ?_
    rw [List.append_assoc]
    refine (List.Perm.append_left _ List.perm_append_comm).trans ?_
    rw [← List.append_assoc, ← List.append_assoc]
    exact List.Perm.append_right _ h1

/-- The label paths of a block value. -/
def labelsOf : Value → List (List Str)
  | .block b => b.entries.map Prod.fst
  | _ => []

theorem blockEntries_labels (vs : List Value) : (blockEntries vs).map Prod.fst = vs.flatMap labelsOf := by
  induction vs with
  | nil => rfl
  | cons v vs ih => cases v <;> simp [blockEntries, labelsOf, ih]

theorem combined_leaves {old v : Value} (hs : MayShare old v) (ho : BlockMerged old) :
    (∃ lost, (leaves (combined (some old) v) ++ lost).Perm (leaves old ++ leaves v)) ∧
    ((labelsOf old ++ labelsOf v).Nodup →
      leaves (combined (some old) v) = leaves old ++ leaves v ∧
      labelsOf (combined (some old) v) = labelsOf old ++ labelsOf v) := by
  cases hs with
  | objects a b =>
    have e : leaves (combined (some (.object a)) (.object b)) = leaves (.object a) ++ leaves (.object b) := by
      simp [combined, leaves, mapsLeaves_eq]
    exact ⟨⟨[], by simp [e]⟩, fun _ => ⟨e, rfl⟩⟩
  | blocks a b =>
    obtain ⟨m, rfl, -⟩ := ho a rfl
    simp only [combined, KVP.extend, leaves, blockLeaves_eq, labelsOf, show ∀ m : List (List Str × MapValues), (KVP.merged m).entries = m from fun _ => rfl]
    refine ⟨extend_leaves m b.entries, ?_⟩
    intro hn
    rw [extend_distinct id m b.entries (by simpa using hn)]
    simp [bodiesLeaves_eq]

theorem combined_blockMerged {old v : Value} (hs : MayShare old v) (ho : BlockMerged old) :
    BlockMerged (combined (some old) v) := by
  cases hs with
  | objects a b => intro b' h; simp [combined] at h
  | blocks a b =>
    obtain ⟨m, rfl, hm⟩ := ho a rfl
    intro b' h
    simp only [combined, KVP.extend, Value.block.injEq] at h
    exact ⟨_, h.symm, (lastWins_extend m b.entries hm).1⟩

theorem addEntry_leaves {m m' : HashMap Key Value} {k : Key} {v : Value} (h : addEntry m k v = .ok m')
    (hb : ∀ p ∈ m, BlockMerged p.2) :
    (∃ lost, (entriesLeaves m' ++ lost).Perm (entriesLeaves m ++ leaves v)) ∧
    ((∀ old, HashMap.get Key.norm k.norm m = some old → (labelsOf old ++ labelsOf v).Nodup) →
      (entriesLeaves m').Perm (entriesLeaves m ++ leaves v)) := by
  induction m generalizing m' with
  | nil =>
    simp only [addEntry, Except.ok.injEq] at h
    subst h
    exact ⟨⟨[], by simp [entriesLeaves]⟩, fun _ => by simp [entriesLeaves]⟩
  | cons p m ih =>
    obtain ⟨k', v'⟩ := p
    rw [List.forall_mem_cons] at hb
    simp only [addEntry] at h
    split at h
    · rename_i hk
      obtain ⟨w, hw, rfl⟩ := except_map_eq h
      obtain ⟨hs, rfl⟩ := combineValues_ok.mp hw
      obtain ⟨⟨lost, h1⟩, h2⟩ := combined_leaves hs hb.1
      simp only [entriesLeaves]
      constructor
      · refine ⟨lost, ?_⟩
        rw [List.append_assoc]
        refine (List.Perm.append_left _ List.perm_append_comm).trans ?_
        rw [← List.append_assoc]
        refine (List.Perm.append_right _ h1).trans ?_
        rw [List.append_assoc, List.append_assoc]
        exact List.Perm.append_left _ List.perm_append_comm
      · intro hn
        rw [(h2 (hn v' (by simp [HashMap.get, hk]))).1, List.append_assoc, List.append_assoc]
        exact List.Perm.append_left _ List.perm_append_comm
    · rename_i hk
      obtain ⟨r, hr, rfl⟩ := except_map_eq h
      obtain ⟨⟨lost, h1⟩, h2⟩ := ih hr hb.2
      simp only [entriesLeaves]
      constructor
      · refine ⟨lost, ?_⟩
        rw [List.append_assoc, List.append_assoc]
        exact List.Perm.append_left _ h1
      · intro hn
        rw [List.append_assoc]
        exact List.Perm.append_left _ (h2 fun old ho => hn old (by simpa [HashMap.get, hk] using ho))

theorem get_mem {K V Q : Type} [DecidableEq Q] {borrow : K → Q} {q : Q} {m : HashMap K V} {v : V}
    (h : HashMap.get borrow q m = some v) : ∃ p ∈ m, borrow p.1 = q ∧ p.2 = v := by
  rw [hashMap_get_values] at h
  have := List.mem_of_mem_head? (Option.mem_def.mpr h)
  exact mem_valuesUnder.mp this

theorem addEntry_forall {F : Value → Prop} (hc : ∀ old v, F old → F v → MayShare old v → F (combined (some old) v))
    {m m' : List (Key × Value)} {k : Key} {v : Value} (hm : ∀ p ∈ m, F p.2) (hv : F v) (h : addEntry m k v = .ok m') :
    ∀ p ∈ m', F p.2 := by
  refine addAll_forall hc (es := [(k, v)]) hm (by simpa using hv) ?_
  simp [addAll, h]

theorem addAll_leaves {m m' : HashMap Key Value} {es : List (Key × Value)} (h : addAll m es = .ok m')
    (hm : ∀ p ∈ m, BlockMerged p.2) (hes : ∀ p ∈ es, BlockMerged p.2) :
    (∃ lost, (entriesLeaves m' ++ lost).Perm (entriesLeaves m ++ entriesLeaves es)) ∧
    ((∀ q, ((HashMap.get Key.norm q m).toList.flatMap labelsOf ++ (valuesUnder Key.norm q es).flatMap labelsOf).Nodup) →
      (entriesLeaves m').Perm (entriesLeaves m ++ entriesLeaves es)) := by
  induction es generalizing m with
  | nil =>
    simp only [addAll, Except.ok.injEq] at h
    subst h
    exact ⟨⟨[], by simp [entriesLeaves]⟩, fun _ => by simp [entriesLeaves]⟩
  | cons p es ih =>
    obtain ⟨k, v⟩ := p
    rw [List.forall_mem_cons] at hes
    simp only [addAll] at h
    cases ha : addEntry m k v with
    | error e => simp [ha] at h
    | ok m1 =>
      simp only [ha] at h
      have hm1 : ∀ p ∈ m1, BlockMerged p.2 :=
        addEntry_forall (fun old v h1 _ h3 => combined_blockMerged h3 h1) hm hes.1 ha
      obtain ⟨⟨l1, h1⟩, g1⟩ := addEntry_leaves ha hm
      obtain ⟨⟨l2, h2⟩, g2⟩ := ih h hm1 hes.2
      constructor
      · refine ⟨l2 ++ l1, ?_⟩
        simp only [entriesLeaves]
        rw [← List.append_assoc]
        refine (List.Perm.append_right l1 h2).trans ?_
        rw [List.append_assoc]
        refine (List.Perm.append_left _ List.perm_append_comm).trans ?_
        rw [← List.append_assoc, ← List.append_assoc]
        exact List.Perm.append_right _ h1
      · intro hn
        have hold : ∀ old, HashMap.get Key.norm k.norm m = some old → (labelsOf old ++ labelsOf v).Nodup := by
          intro old ho
          have := hn k.norm
          simp only [ho, Option.toList_some, List.flatMap_cons, List.flatMap_nil, List.append_nil, valuesUnder, if_true] at this
          rw [← List.append_assoc] at this
          exact (List.nodup_append.mp this).1
        refine (g2 ?_).trans ?_
        · intro q
          rw [(addEntry_ok ha).2.1 q]
          by_cases hk : k.norm = q
          · have h3 := hn q
            simp only [valuesUnder, if_pos hk, List.flatMap_cons] at h3
            rw [if_pos hk]
            simp only [Option.toList_some, List.flatMap_cons, List.flatMap_nil, List.append_nil]
            cases hg : HashMap.get Key.norm q m with
            | none => simpa [hg, combined] using h3
            | some old =>
              have hs := (addEntry_ok ha).1 old (hk ▸ hg)
              obtain ⟨p, hp, -, rfl⟩ := get_mem hg
              rw [((combined_leaves hs (hm p hp)).2 (hold p.2 (hk ▸ hg))).2]
              simpa [hg] using h3
          · have h3 := hn q
            simp only [valuesUnder, if_neg hk] at h3
            rw [if_neg hk]
            exact h3
        · simp only [entriesLeaves]
          rw [← List.append_assoc]
          exact List.Perm.append_right _ (g1 hold)

theorem flatMap_perm_pairs {α β : Type} {R : α → β → Prop} {f : α → List Value} {g : β → List Value} {l : List α} {l' : List β}
    (h : AllPairs R l l') (hp : ∀ a ∈ l, ∀ b, R a b → (g b).Perm (f a)) : (l'.flatMap g).Perm (l.flatMap f) := by
  induction h with
  | nil => exact .refl _
  | cons a b as bs h1 h2 ih =>
    simp only [List.flatMap_cons]
    exact List.Perm.append (hp a (by simp) b h1) (ih fun x hx => hp x (by simp [hx]))

theorem flatMap_lost_pairs {α β : Type} {R : α → β → Prop} {f : α → List Value} {g : β → List Value} {l : List α} {l' : List β}
    (h : AllPairs R l l') (hp : ∀ a ∈ l, ∀ b, R a b → ∃ lost, (g b ++ lost).Perm (f a)) :
    ∃ lost, (l'.flatMap g ++ lost).Perm (l.flatMap f) := by
  induction h with
  | nil => exact ⟨[], .refl _⟩
  | cons a b as bs h1 h2 ih =>
    obtain ⟨l1, g1⟩ := hp a (by simp) b h1
    obtain ⟨l2, g2⟩ := ih fun x hx => hp x (by simp [hx])
    refine ⟨l1 ++ l2, ?_⟩
    simp only [List.flatMap_cons]
    refine List.Perm.trans ?_ (List.Perm.append g1 g2)
    simp only [List.append_assoc]
    exact List.Perm.append_left _ (List.perm_append_comm_assoc _ _ _)

theorem allPairs_map_eq {α β γ : Type} {R : α → β → Prop} {f : α → γ} {g : β → γ} {l : List α} {l' : List β}
    (h : AllPairs R l l') (hp : ∀ a ∈ l, ∀ b, R a b → g b = f a) : l'.map g = l.map f := by
  induction h with
  | nil => rfl
  | cons a b as bs h1 h2 ih =>
    simp only [List.map_cons]
    rw [hp a (by simp) b h1, ih fun x hx => hp x (by simp [hx])]

theorem valuesUnder_pairs {R : Value → Value → Prop} {es es' : List (Key × Value)}
    (h : AllPairs (fun a b => a.1 = b.1 ∧ R a.2 b.2) es es') (q : Bool × Str) :
    AllPairs R (valuesUnder Key.norm q es) (valuesUnder Key.norm q es') := by
  induction h with
  | nil => exact .nil
  | cons a b as bs h1 h2 ih =>
    obtain ⟨k, v⟩ := a
    obtain ⟨k', w⟩ := b
    obtain ⟨rfl, h1⟩ := h1
    simp only [valuesUnder]
    split
    · exact .cons _ _ _ _ h1 ih
    · exact ih

theorem merge_leaves :
    (∀ v : Value, ∀ w, v.merge = .ok w → (∃ lost, (leaves w ++ lost).Perm (leaves v)) ∧
      (LabelsDistinct v → (leaves w).Perm (leaves v) ∧ labelsOf w = labelsOf v)) ∧
    ∀ m : MapValues, ∀ n, Value.mergeMap m = .ok n → (∃ lost, (mapLeaves n ++ lost).Perm (mapLeaves m)) ∧
      (LabelsDistinctMap m → (mapLeaves n).Perm (mapLeaves m)) := by
  apply Value.inductBoth
  · intro v h1 h2 h3 w h
    have : w = v := by
      cases v <;> simp [Value.variant] at h1 h2 h3 <;> (simp only [Value.merge, Except.ok.injEq] at h; exact h.symm)
    subst this
    exact ⟨⟨[], by simp⟩, fun _ => ⟨.refl _, rfl⟩⟩
  · intro l ih w h
    simp only [Value.merge] at h
    obtain ⟨l', h', rfl⟩ := except_map_eq h
    have hp := mergeList_ok.mp h'
    simp only [leaves, listLeaves_eq]
    refine ⟨flatMap_lost_pairs hp fun a ha b hb => (ih a ha b hb).1, ?_⟩
    intro hd
    cases hd with
    | scalar => rename_i h _ _; simp [Value.variant] at h
    | list => rename_i hd; exact ⟨flatMap_perm_pairs hp fun a ha b hb => ((ih a ha b hb).2 (hd a ha)).1, rfl⟩
  · intro l ih w h
    simp only [Value.merge] at h
    obtain ⟨l', h', rfl⟩ := except_map_eq h
    have hp := mergeMaps_ok.mp h'
    simp only [leaves, mapsLeaves_eq]
    refine ⟨flatMap_lost_pairs hp fun a ha b hb => (ih a ha b hb).1, ?_⟩
    intro hd
    cases hd with
    | scalar => rename_i _ h _; simp [Value.variant] at h
    | object => rename_i hd; exact ⟨flatMap_perm_pairs hp fun a ha b hb => (ih a ha b hb).2 (hd a ha), rfl⟩
  · intro b ih w h
    simp only [Value.merge, mergeBlock_eq] at h
    obtain ⟨es, h', rfl⟩ := except_map_eq h
    have hp := mergeBodies_ok.mp h'
    simp only [leaves, blockLeaves_eq, KVP.entries]
    constructor
    · obtain ⟨l1, h1⟩ := extend_leaves [] es
      obtain ⟨l2, h2⟩ := flatMap_lost_pairs (f := fun p => mapLeaves p.2) (g := fun p => mapLeaves p.2) hp
        fun a ha b hb => (ih a ha b.2 hb.2).1
      simp only [bodiesLeaves, List.nil_append] at h1
      rw [← bodiesLeaves_eq, ← bodiesLeaves_eq] at h2
      refine ⟨l1 ++ l2, ?_⟩
      rw [← List.append_assoc]
      exact (List.Perm.append_right l2 h1).trans h2
    · intro hd
      cases hd with
      | scalar => rename_i _ _ h; simp [Value.variant] at h
      | block =>
        rename_i hn hd
        have hl : es.map Prod.fst = b.entries.map Prod.fst := allPairs_map_eq hp fun a _ b hb => hb.1.symm
        have hc : HashMap.collect id es = es := collect_distinct id es (by simpa using hl ▸ hn)
        rw [hc]
        refine ⟨?_, by simpa [labelsOf, KVP.entries] using hl⟩
        rw [bodiesLeaves_eq, bodiesLeaves_eq]
        exact flatMap_perm_pairs hp fun a ha b hb => (ih a ha b.2 hb.2).2 (hd a ha)
  · intro m ih n h
    cases m with
    | merged m =>
      simp only [Value.mergeMap, Except.ok.injEq] at h
      subst h
      exact ⟨⟨[], by simp⟩, fun _ => .refl _⟩
    | unmerged es =>
      simp only [Value.mergeMap] at h
      obtain ⟨m, h', rfl⟩ := except_map_eq h
      obtain ⟨es', hp, ha⟩ := mergeEntries_ok.mp h'
      have hbm : ∀ p ∈ es', BlockMerged p.2 := by
        intro p hp'
        obtain ⟨a, -, ha⟩ := allPairs_right hp p hp'
        exact merge_blockMerged ha.2
      obtain ⟨⟨l1, h1⟩, g1⟩ := addAll_leaves ha (by simp) hbm
      simp only [KVP.entries] at ih
      simp only [entriesLeaves, List.nil_append] at h1 g1
      simp only [mapLeaves]
      constructor
      · obtain ⟨l2, h2⟩ := flatMap_lost_pairs (f := fun p => leaves p.2) (g := fun p => leaves p.2) hp
          fun a ha b hb => (ih a ha b.2 hb.2).1
        rw [← entriesLeaves_eq, ← entriesLeaves_eq] at h2
        refine ⟨l1 ++ l2, ?_⟩
        rw [← List.append_assoc]
        exact (List.Perm.append_right l2 h1).trans h2
      · intro hd
        cases hd with
        | unmerged =>
          rename_i hd hn
          refine (g1 ?_).trans ?_
          · intro q
            have hq : AllPairs (fun v w => v.merge = .ok w) (valuesUnder Key.norm q es) (valuesUnder Key.norm q es') :=
              valuesUnder_pairs hp q
            have hl : (valuesUnder Key.norm q es').map labelsOf = (valuesUnder Key.norm q es).map labelsOf := by
              refine allPairs_map_eq hq fun a ha b hb => ?_
              obtain ⟨p, hp, -, rfl⟩ := mem_valuesUnder.mp ha
              exact ((ih p hp b hb).2 (hd p hp)).2
            have := hn q
            rw [blockEntries_labels] at this
            simp only [HashMap.get, Option.toList_none, List.flatMap_nil, List.nil_append]
            rw [List.flatMap_def, hl, ← List.flatMap_def]
            exact this
          · rw [entriesLeaves_eq, entriesLeaves_eq]
            exact flatMap_perm_pairs hp fun a ha b hb => ((ih a ha b.2 hb.2).2 (hd a ha)).1

/-! ## after merging nothing is unmerged -/

theorem combined_noUnmerged (old v : Value) (h1 : BlockMerged old ∧ ¬ HasUnmerged (.val old))
    (h2 : BlockMerged v ∧ ¬ HasUnmerged (.val v)) (hs : MayShare old v) :
    BlockMerged (combined (some old) v) ∧ ¬ HasUnmerged (.val (combined (some old) v)) := by
  refine ⟨combined_blockMerged hs h1.1, ?_⟩
  cases hs with
  | objects a b =>
    simp only [combined, hasUnmerged_object]
    rintro ⟨m, hm, h⟩
    rcases List.mem_append.mp hm with hm | hm
    · exact h1.2 (hasUnmerged_object.mpr ⟨m, hm, h⟩)
    · exact h2.2 (hasUnmerged_object.mpr ⟨m, hm, h⟩)
  | blocks a b =>
    obtain ⟨ma, rfl, -⟩ := h1.1 a rfl
    obtain ⟨mb, rfl, -⟩ := h2.1 b rfl
    simp only [combined, KVP.extend, KVP.entries, hasUnmerged_block, hasUnmerged_blk_merged]
    rintro ⟨p, hp, h⟩
    rcases mem_extend id ma mb p hp with ⟨e, he, hpe⟩ | ⟨e, he, hpe⟩
    · exact h2.2 (hasUnmerged_block.mpr (hasUnmerged_blk_merged.mpr ⟨e, he, hpe ▸ h⟩))
    · exact h1.2 (hasUnmerged_block.mpr (hasUnmerged_blk_merged.mpr ⟨e, he, hpe ▸ h⟩))

theorem complete_child {x y : Node} (h : MergedMapsComplete x) (hc : Child x y) : MergedMapsComplete y :=
  fun m hm => h m (.step _ _ _ hc hm)

theorem merge_noUnmerged :
    (∀ v : Value, ∀ w, MergedMapsComplete (.val v) → v.merge = .ok w → ¬ HasUnmerged (.val w)) ∧
    ∀ m : MapValues, ∀ n, MergedMapsComplete (.map m) → Value.mergeMap m = .ok n → ¬ HasUnmerged (.map n) := by
  apply Value.inductBoth
  · intro v h1 h2 h3 w _ h
    have : w = v := by
      cases v <;> simp [Value.variant] at h1 h2 h3 <;> (simp only [Value.merge, Except.ok.injEq] at h; exact h.symm)
    subst this
    exact hasUnmerged_scalar h1 h2 h3
  · intro l ih w hc h
    simp only [Value.merge] at h
    obtain ⟨l', h', rfl⟩ := except_map_eq h
    rw [hasUnmerged_list]
    rintro ⟨b, hb, hu⟩
    obtain ⟨a, ha, hab⟩ := allPairs_right (mergeList_ok.mp h') b hb
    exact ih a ha b (complete_child hc (.list l a ha)) hab hu
  · intro l ih w hc h
    simp only [Value.merge] at h
    obtain ⟨l', h', rfl⟩ := except_map_eq h
    rw [hasUnmerged_object]
    rintro ⟨b, hb, hu⟩
    obtain ⟨a, ha, hab⟩ := allPairs_right (mergeMaps_ok.mp h') b hb
    exact ih a ha b (complete_child hc (.object l a ha)) hab hu
  · intro b ih w hc h
    simp only [Value.merge, mergeBlock_eq] at h
    obtain ⟨es, h', rfl⟩ := except_map_eq h
    rw [hasUnmerged_block, hasUnmerged_blk_merged]
    rintro ⟨p, hp, hu⟩
    rcases mem_extend id [] es p hp with ⟨e, he, hpe⟩ | ⟨e, he, -⟩
    · obtain ⟨a, ha, -, hab⟩ := allPairs_right (mergeBodies_ok.mp h') e he
      exact ih a ha e.2 (complete_child (complete_child hc (.block b)) (.body b a ha)) hab (hpe ▸ hu)
    · cases he
  · intro m ih n hc h
    cases m with
    | merged m =>
      simp only [Value.mergeMap, Except.ok.injEq] at h
      subst h
      exact hc m (.refl _)
    | unmerged es =>
      simp only [Value.mergeMap] at h
      obtain ⟨m, h', rfl⟩ := except_map_eq h
      obtain ⟨es', hp, ha⟩ := mergeEntries_ok.mp h'
      rw [hasUnmerged_map_merged]
      rintro ⟨p, hpm, hu⟩
      refine (addAll_forall (F := fun v => BlockMerged v ∧ ¬ HasUnmerged (.val v)) combined_noUnmerged (by simp) ?_ ha p hpm).2 hu
      intro q hq
      obtain ⟨a, haes, -, hab⟩ := allPairs_right hp q hq
      exact ⟨merge_blockMerged hab, ih a haes q.2 (complete_child hc (.entry _ a haes)) hab⟩

/-- A tree without unmerged parts whose block sets are hash maps is a fixed point of merging. -/
theorem merge_merged :
    (∀ v : Value, ¬ HasUnmerged (.val v) → (∀ m, Inside (.val v) (.blk (.merged m)) → (m.map Prod.fst).Nodup) →
      v.merge = .ok v) ∧
    ∀ m : MapValues, ¬ HasUnmerged (.map m) → Value.mergeMap m = .ok m := by
  have hm : ∀ m : MapValues, ¬ HasUnmerged (.map m) → Value.mergeMap m = .ok m := by
    intro m h
    cases m with
    | merged m => rfl
    | unmerged l => exact absurd hasUnmerged_map_unmerged h
  refine ⟨?_, hm⟩
  apply Value.induct (P := fun v => ¬ HasUnmerged (.val v) →
    (∀ m, Inside (.val v) (.blk (.merged m)) → (m.map Prod.fst).Nodup) → v.merge = .ok v) (Q := fun _ => True)
  · intro v h1 h2 h3 _ _
    cases v <;> simp [Value.variant] at h1 h2 h3 <;> rfl
  · intro l ih hu hn
    simp only [Value.merge]
    rw [mergeList_ok.mpr (allPairs_self.mpr fun v hv => ih v hv (fun h => hu (hasUnmerged_list.mpr ⟨v, hv, h⟩))
      fun m hm => hn m (inside_list.mpr (.inr ⟨v, hv, hm⟩)))]
    rfl
  · intro l ih hu hn
    exact merge_object_fixed.mpr fun m hm' => hm m fun h => hu (hasUnmerged_object.mpr ⟨m, hm', h⟩)
  · intro b ih hu hn
    cases b with
    | unmerged l => exact absurd hasUnmerged_block_unmerged hu
    | merged m =>
      refine merge_block_fixed (hn m (.step _ _ _ (.block _) (.refl _))) fun p hp => hm p.2 fun h => ?_
      exact hu (hasUnmerged_block.mpr (hasUnmerged_blk_merged.mpr ⟨p, hp, h⟩))
  · intros; trivial

end Verif
