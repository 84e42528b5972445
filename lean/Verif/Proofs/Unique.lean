import Verif.Proofs.MergeState
import Verif.Spec.OwnedValue
/-! # Hash maps in value trees: unique keys, and `as_owned` -/
set_option autoImplicit false

namespace Verif
open Spec Props

theorem uniqueKeys_child {x y : Node} (h : UniqueKeys x) (hc : Child x y) : UniqueKeys y :=
  ⟨fun m hm => h.1 m (.step _ _ _ hc hm), fun m hm => h.2 m (.step _ _ _ hc hm)⟩

theorem uniqueKeys_list {l : List Value} (h : ∀ v ∈ l, UniqueKeys (.val v)) : UniqueKeys (.val (.list l)) := by
  constructor <;> intro m hm <;> rw [inside_list] at hm
  · rcases hm with hm | ⟨v, hv, hm⟩
    · cases hm
    · exact (h v hv).1 m hm
  · rcases hm with hm | ⟨v, hv, hm⟩
    · cases hm
    · exact (h v hv).2 m hm

theorem uniqueKeys_object {l : List MapValues} (h : ∀ v ∈ l, UniqueKeys (.map v)) : UniqueKeys (.val (.object l)) := by
  constructor <;> intro m hm <;> rw [inside_object] at hm
  · rcases hm with hm | ⟨v, hv, hm⟩
    · cases hm
    · exact (h v hv).1 m hm
  · rcases hm with hm | ⟨v, hv, hm⟩
    · cases hm
    · exact (h v hv).2 m hm

theorem uniqueKeys_block {b : VBlock} (hn : ∀ m, b = .merged m → (m.map Prod.fst).Nodup)
    (h : ∀ p ∈ b.entries, UniqueKeys (.map p.2)) : UniqueKeys (.val (.block b)) := by
  constructor <;> intro m hm <;> rw [inside_block, inside_blk] at hm
  · rcases hm with hm | hm | ⟨v, hv, hm⟩
    · cases hm
    · cases hm
    · exact (h v hv).1 m hm
  · rcases hm with hm | hm | ⟨v, hv, hm⟩
    · cases hm
    · injection hm with hm; exact hn m hm.symm
    · exact (h v hv).2 m hm

theorem uniqueKeys_map {b : MapValues} (hn : ∀ m, b = .merged m → (m.map fun p => p.1.norm).Nodup)
    (h : ∀ p ∈ b.entries, UniqueKeys (.val p.2)) : UniqueKeys (.map b) := by
  constructor <;> intro m hm <;> rw [inside_map] at hm
  · rcases hm with hm | ⟨v, hv, hm⟩
    · injection hm with hm; exact hn m hm.symm
    · exact (h v hv).1 m hm
  · rcases hm with hm | ⟨v, hv, hm⟩
    · cases hm
    · exact (h v hv).2 m hm

theorem uniqueKeys_scalar {v : Value} (h1 : v.variant ≠ .list) (h2 : v.variant ≠ .object) (h3 : v.variant ≠ .block) :
    UniqueKeys (.val v) := by
  constructor <;> intro m hm <;> rw [inside_scalar h1 h2 h3] at hm <;> cases hm

theorem combined_unique (old v : Value) (h1 : BlockMerged old ∧ UniqueKeys (.val old))
    (h2 : BlockMerged v ∧ UniqueKeys (.val v)) (hs : MayShare old v) :
    BlockMerged (combined (some old) v) ∧ UniqueKeys (.val (combined (some old) v)) := by
  have hb := combined_blockMerged hs h1.1
  refine ⟨hb, ?_⟩
  cases hs with
  | objects a b =>
    simp only [combined]
    apply uniqueKeys_object
    intro m hm
    rcases List.mem_append.mp hm with hm | hm
    · exact uniqueKeys_child h1.2 (.object _ m hm)
    · exact uniqueKeys_child h2.2 (.object _ m hm)
  | blocks a b =>
    obtain ⟨ma, rfl, -⟩ := h1.1 a rfl
    obtain ⟨mb, rfl, -⟩ := h2.1 b rfl
    simp only [combined, KVP.extend, KVP.entries] at hb ⊢
    apply uniqueKeys_block
    · intro m hm
      obtain ⟨m', e, hn⟩ := hb _ rfl
      rw [hm] at e; injection e with e; rw [e]; exact hn
    · intro p hp
      rcases mem_extend id ma mb p hp with ⟨e, he, hpe⟩ | ⟨e, he, hpe⟩
      · rw [← hpe]; exact uniqueKeys_child (uniqueKeys_child h2.2 (.block _)) (.body _ e he)
      · rw [← hpe]; exact uniqueKeys_child (uniqueKeys_child h1.2 (.block _)) (.body _ e he)

/-- Merging keeps the keys of hash maps unique, at every depth. -/
theorem merge_unique :
    (∀ v : Value, ∀ w, UniqueKeys (.val v) → v.merge = .ok w → UniqueKeys (.val w)) ∧
    ∀ m : MapValues, ∀ n, UniqueKeys (.map m) → Value.mergeMap m = .ok n → UniqueKeys (.map n) := by
  apply Value.inductBoth
  · intro v h1 h2 h3 w hc h
    have : w = v := by
      cases v <;> simp [Value.variant] at h1 h2 h3 <;> (simp only [Value.merge, Except.ok.injEq] at h; exact h.symm)
    subst this
    exact hc
  · intro l ih w hc h
    simp only [Value.merge] at h
    obtain ⟨l', h', rfl⟩ := except_map_eq h
    refine uniqueKeys_list fun b hb => ?_
    obtain ⟨a, ha, hab⟩ := allPairs_right (mergeList_ok.mp h') b hb
    exact ih a ha b (uniqueKeys_child hc (.list l a ha)) hab
  · intro l ih w hc h
    simp only [Value.merge] at h
    obtain ⟨l', h', rfl⟩ := except_map_eq h
    refine uniqueKeys_object fun b hb => ?_
    obtain ⟨a, ha, hab⟩ := allPairs_right (mergeMaps_ok.mp h') b hb
    exact ih a ha b (uniqueKeys_child hc (.object l a ha)) hab
  · intro b ih w hc h
    have hbm := merge_blockMerged h
    simp only [Value.merge, mergeBlock_eq] at h
    obtain ⟨es, h', rfl⟩ := except_map_eq h
    refine uniqueKeys_block (fun m hm => ?_) fun p hp => ?_
    · obtain ⟨m', e, hn⟩ := hbm _ rfl
      rw [hm] at e; injection e with e; rw [e]; exact hn
    · rcases mem_extend id [] es p hp with ⟨e, he, hpe⟩ | ⟨e, he, -⟩
      · obtain ⟨a, ha, -, hab⟩ := allPairs_right (mergeBodies_ok.mp h') e he
        rw [← hpe]
        exact ih a ha e.2 (uniqueKeys_child (uniqueKeys_child hc (.block b)) (.body b a ha)) hab
      · cases he
  · intro m ih n hc h
    cases m with
    | merged m =>
      simp only [Value.mergeMap, Except.ok.injEq] at h
      subst h
      exact hc
    | unmerged es =>
      simp only [Value.mergeMap] at h
      obtain ⟨m, h', rfl⟩ := except_map_eq h
      obtain ⟨es', hp, ha⟩ := mergeEntries_ok.mp h'
      refine uniqueKeys_map (fun m' hm' => ?_) fun p hpm => ?_
      · injection hm' with hm'; subst hm'; exact addAll_nodup ha (by simp)
      · refine (addAll_forall (F := fun v => BlockMerged v ∧ UniqueKeys (.val v)) combined_unique (by simp) ?_ ha p hpm).2
        intro q hq
        obtain ⟨a, haes, -, hab⟩ := allPairs_right hp q hq
        exact ⟨merge_blockMerged hab, ih a haes q.2 (uniqueKeys_child hc (.entry _ a haes)) hab⟩

theorem ownEntries_norms (l : List (Key × Value)) :
    (ownEntries l).map (fun p => p.1.norm) = l.map fun p => p.1.norm := by
  induction l with
  | nil => rfl
  | cons p l ih => obtain ⟨k, v⟩ := p; simp only [ownEntries, List.map_cons, ih]; cases k <;> rfl

theorem ownBodies_labels (l : List (List Str × MapValues)) : (ownBodies l).map Prod.fst = l.map Prod.fst := by
  induction l with
  | nil => rfl
  | cons p l ih => obtain ⟨k, v⟩ := p; simp only [ownBodies, List.map_cons, ih]

theorem asOwned_eq_aux :
    (∀ v : Value, UniqueKeys (.val v) → v.asOwned = ownValue v) ∧
    ∀ m : MapValues, UniqueKeys (.map m) → Value.asOwnedMap m = ownMap m := by
  apply Value.inductBoth
  · intro v h1 h2 h3 _
    cases v <;> simp [Value.variant] at h1 h2 h3 <;> rfl
  · intro l ih hu
    simp only [Value.asOwned, ownValue]
    congr 1
    have : ∀ l' : List Value, (∀ v ∈ l', v.asOwned = ownValue v) → Value.asOwnedList l' = ownList l' := by
      intro l'
      induction l' with
      | nil => intro _; rfl
      | cons v l' ih => intro h; simp [Value.asOwnedList, ownList, h v (by simp), ih fun w hw => h w (by simp [hw])]
    exact this l fun v hv => ih v hv (uniqueKeys_child hu (.list l v hv))
  · intro l ih hu
    simp only [Value.asOwned, ownValue]
    congr 1
    have : ∀ l' : List MapValues, (∀ v ∈ l', Value.asOwnedMap v = ownMap v) → Value.asOwnedMaps l' = ownMaps l' := by
      intro l'
      induction l' with
      | nil => intro _; rfl
      | cons v l' ih => intro h; simp [Value.asOwnedMaps, ownMaps, h v (by simp), ih fun w hw => h w (by simp [hw])]
    exact this l fun v hv => ih v hv (uniqueKeys_child hu (.object l v hv))
  · intro b ih hu
    have : ∀ l' : List (List Str × MapValues), (∀ p ∈ l', Value.asOwnedMap p.2 = ownMap p.2) →
        Value.asOwnedBodies l' = ownBodies l' := by
      intro l'
      induction l' with
      | nil => intro _; rfl
      | cons v l' ih =>
        intro h; obtain ⟨k, v⟩ := v
        simp [Value.asOwnedBodies, ownBodies, h (k, v) (by simp), ih fun w hw => h w (by simp [hw])]
    have hb := this b.entries fun p hp => ih p hp (uniqueKeys_child (uniqueKeys_child hu (.block b)) (.body b p hp))
    cases b with
    | unmerged l =>
      have hb : Value.asOwnedBodies l = ownBodies l := hb
      simp only [Value.asOwned, Value.asOwnedBlock, ownValue]; rw [hb]
    | merged l =>
      have hb : Value.asOwnedBodies l = ownBodies l := hb
      simp only [Value.asOwned, Value.asOwnedBlock, ownValue]; rw [hb, collect_distinct]
      have : (ownBodies l).map (fun p => id p.1) = (ownBodies l).map Prod.fst := rfl
      rw [this, ownBodies_labels]
      exact hu.2 l (inside_block.mpr (.inr (.refl _)))
  · intro m ih hu
    have : ∀ l' : List (Key × Value), (∀ p ∈ l', p.2.asOwned = ownValue p.2) →
        Value.asOwnedEntries l' = ownEntries l' := by
      intro l'
      induction l' with
      | nil => intro _; rfl
      | cons v l' ih =>
        intro h; obtain ⟨k, v⟩ := v
        simp [Value.asOwnedEntries, ownEntries, h (k, v) (by simp), ih fun w hw => h w (by simp [hw])]
        cases k <;> rfl
    have hb := this m.entries fun p hp => ih p hp (uniqueKeys_child hu (.entry m p hp))
    cases m with
    | unmerged l =>
      have hb : Value.asOwnedEntries l = ownEntries l := hb
      simp only [Value.asOwnedMap, ownMap]; rw [hb]
    | merged l =>
      have hb : Value.asOwnedEntries l = ownEntries l := hb
      simp only [Value.asOwnedMap, ownMap]; rw [hb, collect_distinct]
      rw [ownEntries_norms]
      exact hu.1 l (.refl _)

end Verif
