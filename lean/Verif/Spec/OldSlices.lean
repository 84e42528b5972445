import Verif.Spec.Slices
import Verif.Spec.OldLaid
/-! # The texts kept in a legacy value -/
set_option autoImplicit false

namespace Verif.Spec

/-- The text of a key. -/
def oldKeyText : Key → CowStr
  | .identifier s => s
  | .string s => s

mutual
/-- The texts of a value, in order. -/
def valueTexts : Value → List CowStr
  | .null => []
  | .integer _ => []
  | .float _ => []
  | .boolean _ => []
  | .string s => [.ownedS s]
  | .list l => valuesTexts l
  | .object l => mapsTexts l
  | .block (.merged b) => blocksTexts b
  | .block (.unmerged b) => blocksTexts b
def valuesTexts : List Value → List CowStr
  | [] => []
  | v :: l => valueTexts v ++ valuesTexts l
def mapsTexts : List (KVP Key Value) → List CowStr
  | [] => []
  | .merged m :: l => entriesTexts m ++ mapsTexts l
  | .unmerged m :: l => entriesTexts m ++ mapsTexts l
/-- The texts of the entries of a map, in order. -/
def entriesTexts : List (Key × Value) → List CowStr
  | [] => []
  | (k, v) :: m => oldKeyText k :: (valueTexts v ++ entriesTexts m)
def blocksTexts : List (List Str × KVP Key Value) → List CowStr
  | [] => []
  | (ls, .merged m) :: l => ls.map .ownedS ++ (entriesTexts m ++ blocksTexts l)
  | (ls, .unmerged m) :: l => ls.map .ownedS ++ (entriesTexts m ++ blocksTexts l)
end

end Verif.Spec
