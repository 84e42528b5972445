import Verif.Spec.CutConfig
/-! # Configurations in several files -/
set_option autoImplicit false

namespace Verif.Spec

/-- No name is used (for an attribute or a type of blocks) in both. -/
def NamesApart (a b : Body) : Prop := ∀ x ∈ a, ∀ y ∈ b, elementKey x ≠ elementKey y

/-- The name is not used. -/
def NotNamed (k : Str) (b : Body) : Prop := ∀ x ∈ b, elementKey x ≠ k

/-- The blocks of a type, in source order. -/
def blocksNamed (k : Str) (b : Body) : List Block := (blocks b).filter fun q => decide (q.type.str = k)

end Verif.Spec
