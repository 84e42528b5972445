import Verif.Spec.LineEnds
import Verif.Spec.OldLaid
/-! # Line ends in legacy values -/
set_option autoImplicit false

namespace Verif.Spec

mutual
/-- Values as the legacy parser returns them, the same but for CRs before LFs in strings. -/
inductive MoreCrValue : Value → Value → Prop
  | null : MoreCrValue .null .null
  | integer (k : Int) : MoreCrValue (.integer k) (.integer k)
  | float (f : F64) : MoreCrValue (.float f) (.float f)
  | boolean (b : Bool) : MoreCrValue (.boolean b) (.boolean b)
  | string (v v' : Str) : MoreCr v v' → MoreCrValue (.string v) (.string v')
  | list (vs vs' : List Value) : MoreCrValues vs vs' → MoreCrValue (.list vs) (.list vs')
  | map (es es' : List (Key × Value)) : MoreCrEntries es es' → MoreCrValue (.object [.unmerged es]) (.object [.unmerged es'])
  | block (ls : List Str) (es es' : List (Key × Value)) : MoreCrEntries es es' →
      MoreCrValue (.block (.unmerged [(ls, .unmerged es)])) (.block (.unmerged [(ls, .unmerged es')]))
inductive MoreCrValues : List Value → List Value → Prop
  | nil : MoreCrValues [] []
  | cons (v v' : Value) (vs vs' : List Value) : MoreCrValue v v' → MoreCrValues vs vs' → MoreCrValues (v :: vs) (v' :: vs')
/-- Entries: the same keys. -/
inductive MoreCrEntries : List (Key × Value) → List (Key × Value) → Prop
  | nil : MoreCrEntries [] []
  | cons (k : Key) (v v' : Value) (es es' : List (Key × Value)) : MoreCrValue v v' → MoreCrEntries es es' →
      MoreCrEntries ((k, v) :: es) ((k, v') :: es')
end

mutual
/-- No string in the value has an LF. -/
inductive OneLineValue : Value → Prop
  | null : OneLineValue .null
  | integer (k : Int) : OneLineValue (.integer k)
  | float (f : F64) : OneLineValue (.float f)
  | boolean (b : Bool) : OneLineValue (.boolean b)
  | string (v : Str) : '\n' ∉ v → OneLineValue (.string v)
  | list (vs : List Value) : OneLineValues vs → OneLineValue (.list vs)
  | map (es : List (Key × Value)) : OneLineEntries es → OneLineValue (.object [.unmerged es])
  | block (ls : List Str) (es : List (Key × Value)) : OneLineEntries es → OneLineValue (.block (.unmerged [(ls, .unmerged es)]))
inductive OneLineValues : List Value → Prop
  | nil : OneLineValues []
  | cons (v : Value) (vs : List Value) : OneLineValue v → OneLineValues vs → OneLineValues (v :: vs)
inductive OneLineEntries : List (Key × Value) → Prop
  | nil : OneLineEntries []
  | cons (k : Key) (v : Value) (es : List (Key × Value)) : OneLineValue v → OneLineEntries es → OneLineEntries ((k, v) :: es)
end

end Verif.Spec
