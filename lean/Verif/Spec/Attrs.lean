import Verif.Model.DeAttrs
import Verif.Spec.De
/-! # What a struct with serde attributes is read from -/
set_option autoImplicit false

namespace Verif.Spec
open Verif

/-- The name is declared: it is the name or an alias of a field. -/
def Declared (S : StructSpec) (k : Str) : Prop := ∃ f ∈ S.fields, k ∈ f.names

/-- No name or alias belongs to two fields, or twice to one. -/
def ProperSpec (S : StructSpec) : Prop := (S.fields.flatMap FieldSpec.names).Nodup

/-- The value of a field that is not given. -/
def Absent (f : FieldSpec) (v : DVal) : Prop :=
  f.default = some v ∨ f.default = none ∧ f.optional = true ∧ v = .none

/-- From entries with different names (`has k n`: there is one with the name `k` and the value `n`) the struct is read as `v`: no
field is given under two names, every field has the value of the entry under one of its names, or the one for absent fields, and
all other entries are thrown away, if that is allowed and they can be (`ignore`). -/
def ReadsSpec (ignore : Node → Prop) (S : StructSpec) (has : Str → Node → Prop) (v : DVal) : Prop :=
  (∀ f ∈ S.fields, ∀ k n k' n', k ∈ f.names → k' ∈ f.names → has k n → has k' n' → k = k') ∧
  (∃ vs, v = .entries vs ∧ AllRel (fun f q => q.1 = f.name ∧
    ((∃ k n, k ∈ f.names ∧ has k n ∧ f.read n = .ok q.2) ∨
     ((∀ k n, k ∈ f.names → ¬ has k n) ∧ Absent f q.2))) S.fields vs) ∧
  ∀ k n, has k n → ¬ Declared S k → S.deny = false ∧ ignore n

/-- These attributes can be read, one after the other, without anything going wrong. -/
def GoodSoFar (ignore : Node → Prop) (S : StructSpec) (l : List (CowStr × Expr)) : Prop :=
  (∀ f ∈ S.fields, ∀ p ∈ l, ∀ q ∈ l, p.1.str ∈ f.names → q.1.str ∈ f.names → p.1.str = q.1.str) ∧
  ∀ p ∈ l, (∃ f ∈ S.fields, p.1.str ∈ f.names ∧ ∃ v, f.read (.expr p.2) = .ok v) ∨
    (¬ Declared S p.1.str ∧ S.deny = false ∧ ignore (.expr p.2))

end Verif.Spec
