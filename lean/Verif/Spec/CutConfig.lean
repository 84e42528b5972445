import Verif.Spec.Reads
import Verif.Spec.Truncate
/-!
# What may be read from a configuration file that was cut off

The values are those read into a struct from the first elements of a document, and from the whole document.
-/
set_option autoImplicit false

namespace Verif.Spec

/-- The value that is left is the same (up to the order of map entries), or a list with the first elements. -/
inductive Fewer : DVal → DVal → Prop
  | same (v' v : DVal) : SameVal v' v → Fewer v' v
  | list (vs' vs rest : List DVal) : AllRel SameVal vs' vs → Fewer (.seq vs') (.seq (vs ++ rest))
  | some (v' v : DVal) : Fewer v' v → Fewer (.some v') (.some v)

/-- A field of a struct: its name is the same, and its value is missing (`None`), or as above. -/
def FieldLeft (x' x : Str × DVal) : Prop := x'.1 = x.1 ∧ (x'.2 = .none ∨ Fewer x'.2 x.2)

/-- Types that do not change their meaning with the number of blocks: not a struct (read by name from one block, by
position from several) and not a self-describing value (a map or a list). -/
def CountFree : Ty → Prop
  | .struct _ | .any => False
  | .option t => CountFree t
  | _ => True

/-- The field is of such a type, or the document has at most one block of this name. -/
def SafeField (b : Body) (f : Str × Ty) : Prop :=
  CountFree f.2 ∨ ((blocks b).filter fun q => decide (q.type.str = f.1)).length ≤ 1

/-- A type without parts, or an `Option` of one. -/
def OptLeaf (t : Ty) : Prop := LeafTy t ∨ ∃ t', t = .option t' ∧ LeafTy t'

/-- The name of an attribute, the type of a block. -/
def elementKey : BodyElement → Str
  | .attribute k _ => k.str
  | .block t _ _ => t.str

end Verif.Spec
