import Verif.Spec.Blocks
import Verif.Spec.Equal
/-! # When two sets of indexed blocks have the same contents -/
set_option autoImplicit false

namespace Verif.Spec

/-- Whatever label path one follows (labels being the same if they are of the same kind and have the same text): it leads
somewhere in both or in neither, and where it leads there are as many bodies in both, related one by one in order. -/
def SamePlaces (E : Body → Body → Prop) (b b' : BlockBody) : Prop :=
  ∀ q, (∀ c, At b q c → ∃ c', At b' q c' ∧ AllPairs E c.getEmpty c'.getEmpty) ∧
    ∀ c', At b' q c' → ∃ c, At b q c ∧ AllPairs E c.getEmpty c'.getEmpty

/-- The same types of blocks, and for each of them the same contents. -/
def SameContents (E : Body → Body → Prop) (m m' : Blocks) : Prop :=
  ∀ t : Str, (∀ p ∈ m, p.1.str = t → ∃ p' ∈ m', p'.1.str = t ∧ SamePlaces E p.2 p'.2) ∧
    ∀ p' ∈ m', p'.1.str = t → ∃ p ∈ m, p.1.str = t ∧ SamePlaces E p.2 p'.2

/-- Equal blocks: the same type, the same labels, equal bodies. -/
inductive EqBlock (N : Number → Number → Prop) : Block → Block → Prop
  | mk (a b : Block) : a.type.str = b.type.str → AllPairs EqLabel a.labels b.labels → EqBody N a.body b.body → EqBlock N a b

/-- Whatever one gets by any sequence of `Blocks::new` and appends, hash maps being in any order at any time. -/
inductive Made : Blocks → Prop
  | new (bs : List Block) : Made (Blocks.new bs)
  | append (m : Blocks) (b : Block) : Made m → Made (m.append b)
  | reorder (m m' : Blocks) : Made m → SameTypes m m' → Made m'

/-- Every number in every body equals itself. -/
def SelfEqual (N : Number → Number → Prop) (bodies : List Body) : Prop := ∀ x ∈ bodies, ∀ n ∈ bodyNumbers x, N n n

end Verif.Spec
