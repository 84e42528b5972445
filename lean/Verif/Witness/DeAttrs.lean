import Verif.Props.DeAttrs
import Verif.Witness.DeKeys
/-! # Structs with serde attributes: cases that meet the hypotheses of C98 -/
set_option autoImplicit false

namespace Verif.Props
open Verif Spec

section
variable (P : F64Parse) (I : F64OfInt) (ord : HashOrder)

/-- `struct { #[serde(alias = "colour")] color: bool, #[serde(default)] size: bool, note: Option<bool> }` -/
noncomputable def paint (deny : Bool) : StructSpec :=
  ⟨[⟨lit "color", [lit "colour"], deserialize P I ord .bool, none, false⟩,
    ⟨lit "size", [], deserialize P I ord .bool, some (.bool false), false⟩,
    ⟨lit "note", [], deserialize P I ord (.option .bool), none, true⟩], deny⟩

theorem paint_proper (deny : Bool) : ProperSpec (paint P I ord deny) := by
  show (List.flatMap FieldSpec.names _).Nodup
  simp only [paint, List.flatMap_cons, List.flatMap_nil, FieldSpec.names]
  decide

/-- `colour = true` -/
def paintBody : Body := [.attribute (.borrowed (lit "colour")) (.boolean true)]

theorem paint_entries (k : Str) (n : Node) : EntryOf paintBody k n ↔ k = lit "colour" ∧ n = .expr (.boolean true) := by
  constructor
  · rintro (⟨c, e, h, rfl, rfl⟩ | ⟨run, h, -⟩)
    · simp [paintBody, attrs] at h
      obtain ⟨rfl, rfl⟩ := h
      exact ⟨rfl, rfl⟩
    · exact (lastRun_nil h).elim
  · rintro ⟨rfl, rfl⟩
    exact .inl ⟨.borrowed (lit "colour"), .boolean true, by simp [paintBody, attrs], rfl, rfl⟩

/-- it is read: the alias is found, the default is used, and so is `None` -/
theorem paint_read (deny : Bool) : deserializeAttr P I ord (paint P I ord deny) (.body paintBody) =
    .ok (.entries [(lit "color", .bool true), (lit "size", .bool false), (lit "note", .none)]) := by
  refine (c98_body P I ord _ (paint_proper P I ord deny) _ _).2 ⟨by unfold Distinct; simp [paintBody, attrs], ?_, ?_, ?_, ?_⟩
  · rintro ⟨p, -, q, hq, -⟩; simp [paintBody, blocks] at hq
  · intro f _ k n k' n' _ _ h h'
    rw [((paint_entries k n).1 h).1, ((paint_entries k' n').1 h').1]
  · refine ⟨_, rfl, .cons _ _ _ _ ⟨rfl, .inl ⟨lit "colour", .expr (.boolean true), by simp [FieldSpec.names], (paint_entries _ _).2 ⟨rfl, rfl⟩, rfl⟩⟩
      (.cons _ _ _ _ ⟨rfl, .inr ⟨?_, .inl rfl⟩⟩ (.cons _ _ _ _ ⟨rfl, .inr ⟨?_, .inr ⟨rfl, rfl, rfl⟩⟩⟩ .nil))⟩
    all_goals
      intro k n hk h
      rw [((paint_entries k n).1 h).1] at hk
      simp only [FieldSpec.names] at hk
      revert hk
      decide
  · intro k n h hd
    refine absurd ⟨_, List.mem_cons_self .., ?_⟩ hd
    rw [((paint_entries k n).1 h).1]
    simp [FieldSpec.names]

/-- every attribute of the body is declared, so it is read also if others are denied -/
example := (c98_deny_unknown_fields P I ord (paint P I ord true).fields (paint_proper P I ord true) paintBody _).1 (paint_read P I ord true)

/-- `shape = true`: undeclared, so an error if that is denied … -/
def shapeBody : Body := [.attribute (.borrowed (lit "color")) (.boolean true), .attribute (.borrowed (lit "shape")) .null]

theorem color_good (deny : Bool) : GoodSoFar (Skippable P I ord) (paint P I ord deny) [(.borrowed (lit "color"), .boolean true)] := by
  refine ⟨?_, ?_⟩
  · intro f _ p hp q hq _ _
    rw [List.mem_singleton.1 hp, List.mem_singleton.1 hq]
  · intro p hp
    rw [List.mem_singleton.1 hp]
    exact .inl ⟨_, List.mem_cons_self .., by simp [FieldSpec.names, CowStr.borrowed], .bool true, rfl⟩

theorem shape_undeclared (deny : Bool) : ¬ Declared (paint P I ord deny) (lit "shape") := by
  rintro ⟨f, hf, hk⟩
  simp only [paint, List.mem_cons, List.not_mem_nil, or_false] at hf
  rcases hf with rfl | rfl | rfl <;> simp only [FieldSpec.names] at hk <;> revert hk <;> decide

example : deserializeAttr P I ord (paint P I ord true) (.body shapeBody) = .error .custom :=
  (c98_first_failure P I ord _ (paint_proper P I ord true) shapeBody [(.borrowed (lit "color"), .boolean true)] [] (.borrowed (lit "shape")) .null rfl
    (by unfold Distinct; decide) (color_good P I ord true)).1 (shape_undeclared P I ord true) rfl

/-- `color = true`, `colour = false`: both are for the same field -/
example : deserializeAttr P I ord (paint P I ord false) (.body [.attribute (.borrowed (lit "color")) (.boolean true),
    .attribute (.borrowed (lit "colour")) (.boolean false)]) = .error .custom :=
  (c98_first_failure P I ord _ (paint_proper P I ord false) _ [(.borrowed (lit "color"), .boolean true)] [] (.borrowed (lit "colour")) (.boolean false) rfl
    (by unfold Distinct; decide) (color_good P I ord false)).2.1 _ (List.mem_cons_self ..) (by simp [FieldSpec.names, CowStr.borrowed])
    ⟨_, List.mem_singleton.2 rfl, by simp [FieldSpec.names, CowStr.borrowed]⟩

/-- the alias gives the same as the name -/
example := (c98_alias P I ord _ (paint_proper P I ord false) _ (List.mem_cons_self ..) (.borrowed (lit "colour")) (.borrowed (lit "color"))
  (by simp [FieldSpec.names, CowStr.borrowed]) (by simp [FieldSpec.names, CowStr.borrowed]) (.boolean true) [] [] _).1 (paint_read P I ord false)

/-- any order of hash maps -/
example (ord' : HashOrder) := (c98_hash_order P I ord ord' _ (paint_proper P I ord false) paintBody _).1 (paint_read P I ord false)

/-- any order of attributes -/
example (v : DVal) := c98_order P I ord _ (paint_proper P I ord false)
  [.attribute (.borrowed (lit "color")) (.boolean true), .attribute (.borrowed (lit "size")) .null]
  [.attribute (.borrowed (lit "size")) .null, .attribute (.borrowed (lit "color")) (.boolean true)] v
  (by exact List.Perm.swap _ _ _) rfl

/-- a new field with a default -/
example := (c98_new_field P I ord [⟨lit "color", [lit "colour"], deserialize P I ord .bool, none, false⟩]
  ⟨lit "size", [], deserialize P I ord .bool, some (.bool false), false⟩ false
  (by show (List.flatMap FieldSpec.names _).Nodup; simp only [List.cons_append, List.nil_append, List.flatMap_cons, List.flatMap_nil, FieldSpec.names]; decide)
  paintBody (fun k n h => by rw [((paint_entries k n).1 h).1]; simp only [FieldSpec.names]; decide)
  (.entries ([(lit "color", .bool true)] ++ [(lit "size", .bool false)]))).2 ⟨[(lit "color", .bool true)], .bool false, rfl, by
    refine (c98_body P I ord _ (by show (List.flatMap FieldSpec.names _).Nodup; simp only [List.flatMap_cons, List.flatMap_nil, FieldSpec.names]; decide) _ _).2
      ⟨by unfold Distinct; simp [paintBody, attrs], ?_, ?_, ?_, ?_⟩
    · rintro ⟨p, -, q, hq, -⟩; simp [paintBody, blocks] at hq
    · intro f _ k n k' n' _ _ h h'
      rw [((paint_entries k n).1 h).1, ((paint_entries k' n').1 h').1]
    · exact ⟨_, rfl, .cons _ _ _ _ ⟨rfl, .inl ⟨lit "colour", .expr (.boolean true), by simp [FieldSpec.names], (paint_entries _ _).2 ⟨rfl, rfl⟩, rfl⟩⟩ .nil⟩
    · exact fun k n _ _ => ⟨rfl, by rw [((paint_entries k n).1 ‹_›).2]; exact ⟨.ignored, rfl⟩⟩, .inl rfl⟩

/-- an object -/
example : deserializeAttr P I ord ⟨[⟨lit "red", [lit "rot"], deserialize P I ord .bool, none, false⟩], false⟩ (.expr (.object colourObject)) =
    .ok (.entries [(lit "red", .bool true)]) := by
  refine (c98_object P I ord _ (by show (List.flatMap FieldSpec.names _).Nodup; simp only [List.flatMap_cons, List.flatMap_nil, FieldSpec.names]; decide) _ _).2
    ⟨[(.borrowed (lit "red"), .boolean true), (.borrowed (lit "green"), .boolean false)], rfl, by unfold Distinct; decide, ?_, ?_, ?_⟩
  · rintro f hf k n k' n' hk hk' ⟨p, hp, rfl, -⟩ ⟨q, hq, rfl, -⟩
    cases List.mem_singleton.1 hf
    simp only [FieldSpec.names] at hk hk'
    simp only [List.mem_cons, List.not_mem_nil, or_false] at hp hq
    rcases hp with rfl | rfl <;> rcases hq with rfl | rfl <;> first | rfl | (revert hk; decide) | (revert hk'; decide)
  · exact ⟨_, rfl, .cons _ _ _ _ ⟨rfl, .inl ⟨lit "red", _, by simp [FieldSpec.names], ⟨_, List.mem_cons_self .., rfl, rfl⟩, rfl⟩⟩ .nil⟩
  · rintro k n ⟨p, hp, rfl, rfl⟩ -
    simp only [List.mem_cons, List.not_mem_nil, or_false] at hp
    rcases hp with rfl | rfl <;> exact ⟨rfl, .ignored, rfl⟩

/-- `[true]` by position: the default is used for the second field, but the third one, an `Option`, needs an item -/
example (v : DVal) : deserializeAttr P I ord (paint P I ord false) (.expr (.tuple [.boolean true])) ≠ .ok v := fun h => by
  obtain ⟨vs, -, hl, h⟩ := (c98_by_position P I ord _ _ _).1 h
  have := (h 2 (by simp [paint]) (by rw [hl]; simp [paint])).2.2 (by simp)
  simp [paint] at this

example := c98_other P I ord (paint P I ord false) .null nofun nofun
example := c98_terminates P I ord (paint P I ord false) (fun f hf n => by
  simp only [paint, List.mem_cons, List.not_mem_nil, or_false] at hf
  rcases hf with rfl | rfl | rfl <;> exact c56_terminates P I ord _ n) (.body paintBody)
example := c98_block P I ord (paint P I ord false) paintBody [paintBody, paintBody] (by simp)
example := c98_without_attributes P I ord [(lit "red", .bool), (lit "blue", .option .bool)] (.expr (.object colourObject))

end

end Verif.Props
