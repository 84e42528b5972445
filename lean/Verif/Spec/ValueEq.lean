import Verif.Spec.OwnedValue
/-! # When two legacy values are equal, given when two floats are -/
set_option autoImplicit false

namespace Verif.Spec

/-- The same kind of key with the same text. -/
inductive EqVKey : Key → Key → Prop
  | identifier (a b : CowStr) : a.str = b.str → EqVKey (.identifier a) (.identifier b)
  | string (a b : CowStr) : a.str = b.str → EqVKey (.string a) (.string b)

mutual
/-- Equal values: the same kind, equal contents. -/
inductive EqValue (F : F64 → F64 → Prop) : Value → Value → Prop
  | null : EqValue F .null .null
  | integer (i : Int) : EqValue F (.integer i) (.integer i)
  | float (x y : F64) : F x y → EqValue F (.float x) (.float y)
  | boolean (b : Bool) : EqValue F (.boolean b) (.boolean b)
  | string (s : Str) : EqValue F (.string s) (.string s)
  | list (a b : List Value) : EqValues F a b → EqValue F (.list a) (.list b)
  | object (a b : List MapValues) : EqMaps F a b → EqValue F (.object a) (.object b)
  | block (a b : VBlock) : EqVBlock F a b → EqValue F (.block a) (.block b)
/-- Equal lists: as many elements, equal one by one. -/
inductive EqValues (F : F64 → F64 → Prop) : List Value → List Value → Prop
  | nil : EqValues F [] []
  | cons (v w : Value) (a b : List Value) : EqValue F v w → EqValues F a b → EqValues F (v :: a) (w :: b)
/-- Equal lists of maps. -/
inductive EqMaps (F : F64 → F64 → Prop) : List MapValues → List MapValues → Prop
  | nil : EqMaps F [] []
  | cons (v w : MapValues) (a b : List MapValues) : EqMap F v w → EqMaps F a b → EqMaps F (v :: a) (w :: b)
/-- Equal maps: both unmerged with equal entries in the same order, or both merged with equal entries in any order. -/
inductive EqMap (F : F64 → F64 → Prop) : MapValues → MapValues → Prop
  | unmerged (a b : List (Key × Value)) : EqEntries F a b → EqMap F (.unmerged a) (.unmerged b)
  | merged (a b c : List (Key × Value)) : EqEntries F a c → c.Perm b → EqMap F (.merged a) (.merged b)
/-- Equal entries one by one. -/
inductive EqEntries (F : F64 → F64 → Prop) : List (Key × Value) → List (Key × Value) → Prop
  | nil : EqEntries F [] []
  | cons (k l : Key) (v w : Value) (a b : List (Key × Value)) : EqVKey k l → EqValue F v w → EqEntries F a b →
      EqEntries F ((k, v) :: a) ((l, w) :: b)
/-- Equal block sets: like maps, with lists of labels as keys. -/
inductive EqVBlock (F : F64 → F64 → Prop) : VBlock → VBlock → Prop
  | unmerged (a b : List (List Str × MapValues)) : EqBodies F a b → EqVBlock F (.unmerged a) (.unmerged b)
  | merged (a b c : List (List Str × MapValues)) : EqBodies F a c → c.Perm b → EqVBlock F (.merged a) (.merged b)
/-- Equal bodies one by one. -/
inductive EqBodies (F : F64 → F64 → Prop) : List (List Str × MapValues) → List (List Str × MapValues) → Prop
  | nil : EqBodies F [] []
  | cons (k : List Str) (v w : MapValues) (a b : List (List Str × MapValues)) : EqMap F v w → EqBodies F a b →
      EqBodies F ((k, v) :: a) ((k, w) :: b)
end

end Verif.Spec
