import Verif.Model.Blocks
/-!
# `==` on blocks indexed by type and labels

Derived `PartialEq` of `Block`, `BlockBody` and `Blocks` (block.rs:26, 187, 395), over std's `PartialEq` for `Vec` and `HashMap`.
-/
set_option autoImplicit false

namespace Verif

/-- block.rs:26 derived `PartialEq`: type, labels, body -/
def Block.eq (O : FloatOps) (a b : Block) : Bool :=
  a.type.str == b.type.str && BlockLabel.eqList a.labels b.labels && BodyElement.eqList O a.body b.body

/-- std `PartialEq for Vec<Body>` (block.rs:397, 404) -/
def eqBodyList (O : FloatOps) : List Body → List Body → Bool
  | [], [] => true
  | a :: as, b :: bs => BodyElement.eqList O a b && eqBodyList O as bs
  | _, _ => false

mutual
/-- block.rs:395 derived `PartialEq` for `BlockBody` -/
def BlockBody.eq (O : FloatOps) : BlockBody → BlockBody → Bool
  | .body a, .body b => eqBodyList O a b
  | .labels e m, .labels e' m' => eqBodyList O e e' && (m.length == m'.length && BlockBody.allLabels O m m')
  | _, _ => false
/-- `self.iter().all(|(key, value)| other.get(key).map_or(false, |v| *value == *v))` of std's `PartialEq for HashMap`
(block.rs:405) -/
def BlockBody.allLabels (O : FloatOps) : List (BlockLabel × BlockBody) → List (BlockLabel × BlockBody) → Bool
  | [], _ => true
  | (k, b) :: m, m' => (match HashMap.get BlockLabel.norm k.norm m' with
    | some b' => b.eq O b'
    | none => false) && BlockBody.allLabels O m m'
end

/-- the same loop of std's `PartialEq for HashMap` over types (block.rs:189) -/
def Blocks.allTypes (O : FloatOps) : Blocks → Blocks → Bool
  | [], _ => true
  | (t, b) :: m, m' => (match HashMap.get CowStr.str t.str m' with
    | some b' => b.eq O b'
    | none => false) && Blocks.allTypes O m m'

/-- block.rs:187 derived `PartialEq` for `Blocks` -/
def Blocks.eq (O : FloatOps) (m m' : Blocks) : Bool := m.length == m'.length && Blocks.allTypes O m m'

end Verif
