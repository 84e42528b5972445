import Verif.Props.DeKeys
/-! # Maps with any type of keys: cases that meet the hypotheses of C97 -/
set_option autoImplicit false

namespace Verif.Props
open Verif Spec

section
variable (P : F64Parse) (I : F64OfInt) (ord : HashOrder)

/-- `{ red = true, green = false }` -/
def colourObject : List (ObjKey × Expr) :=
  [(.ident (.borrowed (lit "red")), .boolean true), (.ident (.borrowed (lit "green")), .boolean false)]

/-- `enum Colour { red, green, rgb(u8, u8, u8) }` -/
def colour : Ty := .enum [(lit "red", true), (lit "green", true), (lit "rgb", false)]

theorem colours_as_strings : deserialize P I ord (.map .bool) (.expr (.object colourObject)) =
    .ok (.entries [(lit "red", .bool true), (lit "green", .bool false)]) :=
  (c59_map_from_object P I ord .bool _ _).2 ⟨[(.borrowed (lit "red"), .boolean true), (.borrowed (lit "green"), .boolean false)], _, rfl,
    by unfold Distinct; decide, rfl, .cons _ _ _ _ ⟨rfl, rfl⟩ (.cons _ _ _ _ ⟨rfl, rfl⟩ .nil)⟩

theorem colours_read : deserializeMapOf P I ord colour .bool (.expr (.object colourObject)) =
    .ok [(.variant (lit "red"), .bool true), (.variant (lit "green"), .bool false)] :=
  (c97_map P I ord colour .bool _ _).2 ⟨_, colours_as_strings P I ord, KeysRead.cons_iff.2 ⟨⟨.enum _ rfl, rfl⟩,
    KeysRead.cons_iff.2 ⟨⟨.enum _ rfl, rfl⟩, rfl, by simp⟩⟩⟩

example := c97_no_overwrite P I ord colour .bool (by simp [colour]) _ _ (colours_read P I ord)

/-- a variant with fields is no key -/
example : deserialize P I ord colour (.key (.borrowed (lit "rgb"))) = .error .custom :=
  (c97_key P I ord colour _).2 (by rintro ⟨v, h⟩; cases h with | enum _ h => revert h; decide)

/-- `HashMap<u32, bool>` reads no map with an entry -/
example (ps : List (DVal × DVal)) : deserializeMapOf P I ord (.int ⟨false, 32⟩) .bool (.expr (.object colourObject)) ≠ .ok ps := fun h => by
  have := ((c97_other_keys P I ord (.int ⟨false, 32⟩) .bool (fun s v => (c97_no_key_type s v).2.1 _) _ ps).1 h).2
  rw [colours_as_strings] at this
  cases this

/-- … nor does `HashMap<&str, bool>`, although the names are borrowed from the text -/
example : deserializeMapOf P I ord .str .bool (.expr (.object colourObject)) = .error .custom :=
  c97_key_first P I ord .str .bool (.borrowed (lit "red")) _ _ (by rintro ⟨v, h⟩; exact (c97_no_key_type _ v).2.2.2.2.1 h)

/-- the key comes first, also if the value is wrong as well: `{ red = null }` into `HashMap<u32, bool>` -/
example := c97_key_first P I ord (.int ⟨false, 32⟩) .bool (.borrowed (lit "red")) .null [] (by rintro ⟨v, h⟩; exact (c97_no_key_type _ v).2.1 _ h)

/-- byte buffers as keys -/
example := c97_same_outcome P I ord (.bytes ⟨⟨false, 8⟩, rfl⟩) .bool (fun s => ⟨_, .bytes _⟩) (.expr (.object colourObject))

/-- a name given twice is an error also for enum keys -/
example : deserializeMapOf P I ord colour .bool (.expr (.object (colourObject ++ colourObject))) =
    (Failure.error (.objectDuplicateKey (lit "red"))).res :=
  (c97_which_failure_object P I ord colour .bool _ _ _
    (.again [(.borrowed (lit "red"), .boolean true), (.borrowed (lit "green"), .boolean false)] (.borrowed (lit "red")) (.boolean true)
      [(.ident (.borrowed (lit "green")), .boolean false)] (by unfold Distinct; decide) (by decide)) _).2
    (.later _ _ _ _ _ ⟨_, .enum _ rfl⟩ ⟨_, rfl⟩ (.later _ _ _ _ _ ⟨_, .enum _ rfl⟩ ⟨_, rfl⟩ (.stop (.error _))))

/-- what is not a map is no map of any kind -/
example := (c97_failure P I ord colour .bool (.expr .null)).1 .custom (by rw [deserialize_eq]; rfl)

example := (c97_failure P I ord colour .bool (.expr (.object colourObject))).2.2 _ (colours_as_strings P I ord)

example := (c97_which_failure_body P I ord colour .bool [.attribute (.borrowed (lit "red")) .null])

end

end Verif.Props
