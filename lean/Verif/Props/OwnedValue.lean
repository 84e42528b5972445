import Verif.Props.ValueEq
import Verif.Props.Debug
/-! # C19 for legacy values: nothing is borrowed in the copy, and copying again changes nothing -/
set_option autoImplicit false

namespace Verif.Props
open Verif Spec

/-- C19: copying the copy of a value gives the copy. -/
theorem c19_value_idempotent (v : Value) (h : UniqueKeys (.val v)) : v.asOwned.asOwned = v.asOwned := by
  rw [c19_value_as_owned v h, c19_value_as_owned _ (own_unique.1 v h), own_own]

/-- C19: the same for maps. -/
theorem c19_map_idempotent (m : MapValues) (h : UniqueKeys (.map m)) : Value.asOwnedMap (Value.asOwnedMap m) = Value.asOwnedMap m := by
  rw [c19_map_as_owned m h, c19_map_as_owned _ (own_unique.2 m h), ownMap_own]

/-- The text of a key is owned. -/
def KeyOwned : Key → Prop
  | .identifier s => s.owned = true
  | .string s => s.owned = true

/-- Every key in `x` is owned. -/
def AllOwned (x : Spec.Node) : Prop := ∀ m, Inside x (.map m) → ∀ p ∈ m.entries, KeyOwned p.1

theorem ownKey_owned (k : Key) : KeyOwned (ownKey k) := by cases k <;> rfl

theorem allOwned_step {x : Spec.Node} (h0 : ∀ m, x = .map m → ∀ p ∈ m.entries, KeyOwned p.1) (h : ∀ y, Child x y → AllOwned y) : AllOwned x := by
  intro m hm
  generalize hz : Spec.Node.map m = z at hm
  cases hm with
  | refl => exact h0 m hz.symm
  | step _ y _ hc hi => subst hz; exact h y hc m hi

theorem own_allOwned : (∀ v : Value, AllOwned (.val (ownValue v))) ∧ ∀ m : MapValues, AllOwned (.map (ownMap m)) := by
  apply Value.inductBoth
  · intro v h1 h2 h3
    refine allOwned_step (by intro m h; cases h) fun y hy => ?_
    cases v <;> simp [Value.variant] at h1 h2 h3 <;> simp only [ownValue] at hy <;> cases hy
  · intro l ih
    refine allOwned_step (by intro m h; cases h) fun y hy => ?_
    simp only [ownValue, ownList_map] at hy
    cases hy with
    | list _ v hv => obtain ⟨w, hw, rfl⟩ := List.mem_map.mp hv; exact ih w hw
  · intro l ih
    refine allOwned_step (by intro m h; cases h) fun y hy => ?_
    simp only [ownValue, ownMaps_map] at hy
    cases hy with
    | object _ v hv => obtain ⟨w, hw, rfl⟩ := List.mem_map.mp hv; exact ih w hw
  · intro b ih
    refine allOwned_step (by intro m h; cases h) fun y hy => ?_
    cases b with
    | unmerged l =>
      simp only [ownValue] at hy
      cases hy with
      | block _ =>
        refine allOwned_step (by intro m h; cases h) fun y hy => ?_
        cases hy with
        | body _ p hp =>
          simp only [KVP.entries, ownBodies_map] at hp
          obtain ⟨w, hw, rfl⟩ := List.mem_map.mp hp
          exact ih w hw
    | merged l =>
      simp only [ownValue] at hy
      cases hy with
      | block _ =>
        refine allOwned_step (by intro m h; cases h) fun y hy => ?_
        cases hy with
        | body _ p hp =>
          simp only [KVP.entries, ownBodies_map] at hp
          obtain ⟨w, hw, rfl⟩ := List.mem_map.mp hp
          exact ih w hw
  · intro m ih
    have he : (ownMap m).entries = m.entries.map fun p => (ownKey p.1, ownValue p.2) := by
      cases m <;> simp [ownMap, KVP.entries, ownEntries_map]
    refine allOwned_step ?_ fun y hy => ?_
    · intro m' h p hp
      injection h with h
      subst h
      rw [he] at hp
      obtain ⟨w, hw, rfl⟩ := List.mem_map.mp hp
      exact ownKey_owned w.1
    · cases hy with
      | entry _ p hp =>
        rw [he] at hp
        obtain ⟨w, hw, rfl⟩ := List.mem_map.mp hp
        exact ih w hw

/-- C19: every key in the copy of a value is owned (its strings always are). -/
theorem c19_value_everything_owned (v : Value) (h : UniqueKeys (.val v)) : AllOwned (.val v.asOwned) := by
  rw [c19_value_as_owned v h]; exact own_allOwned.1 v

/-- C19: the same for maps; in particular for everything that `from_reader` returns. -/
theorem c19_map_everything_owned (m : MapValues) (h : UniqueKeys (.map m)) : AllOwned (.map (Value.asOwnedMap m)) := by
  rw [c19_map_as_owned m h]; exact own_allOwned.2 m

/-- C19: what `from_reader` returns borrows nothing. -/
theorem c19_reader_owned (U : CharClass) (P : F64Parse) (es : List ReadEvent) (merge : Option MergeBehaviour) (m : MapValues)
    (h : fromReader U P es merge = .ok m) : AllOwned (.map m) := by
  obtain ⟨s, m', -, -, rfl⟩ := (c18_from_reader U P es merge m).1 h
  exact own_allOwned.2 m'

/-- A value with a borrowed key. -/
def borrowedSample : Value := .list [.object [.merged [(.identifier (.borrowed ['a']), .integer 1)]]]

theorem borrowedSample_unique : UniqueKeys (.val borrowedSample) := by
  refine uniqueKeys_list fun v hv => ?_
  simp only [List.mem_singleton] at hv; subst hv
  refine uniqueKeys_object fun m hm => ?_
  simp only [List.mem_singleton] at hm; subst hm
  refine uniqueKeys_map (by intro m e; injection e with e; subst e; simp) fun p hp => ?_
  simp only [KVP.entries, List.mem_singleton] at hp; subst hp
  exact uniqueKeys_scalar (by decide) (by decide) (by decide)

example : borrowedSample.asOwned = .list [.object [.merged [(.identifier (.ownedS ['a']), .integer 1)]]] := by
  rw [c19_value_as_owned _ borrowedSample_unique]; rfl
example := c19_value_idempotent _ borrowedSample_unique
example := c19_value_everything_owned _ borrowedSample_unique
example : ¬ AllOwned (.val borrowedSample) := fun h => by
  have := h _ (.step _ _ _ (.list _ _ List.mem_cons_self) (.step _ _ _ (.object _ _ List.mem_cons_self) (.refl _))) _ List.mem_cons_self
  cases this

end Verif.Props
