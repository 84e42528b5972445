import Verif.Spec.Same
import Verif.Model.Blocks
/-! # Indexed blocks up to ownership of their strings -/
set_option autoImplicit false

namespace Verif.Spec
open Verif

mutual
/-- Forget ownership in blocks of one type. -/
def forgetBlockBody : BlockBody → BlockBody
  | .body bs => .body (bs.map forgetBody)
  | .labels empty m => .labels (empty.map forgetBody) (forgetLabels m)
/-- Forget ownership in blocks by label. -/
def forgetLabels : List (BlockLabel × BlockBody) → List (BlockLabel × BlockBody)
  | [] => []
  | (l, b) :: m => (forgetLabel l, forgetBlockBody b) :: forgetLabels m
end

/-- Forget ownership in indexed blocks. -/
def forgetBlocks (b : Blocks) : Blocks := b.map fun (t, x) => (forgetStr t, forgetBlockBody x)

end Verif.Spec
