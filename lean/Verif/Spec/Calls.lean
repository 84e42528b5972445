import Verif.Model.Ast
import Verif.Model.Value
/-! # Sizes of what is parsed -/
set_option autoImplicit false

namespace Verif.Spec
open Verif

mutual
/-- the number of expressions in an expression, itself included (keys of objects are not counted) -/
def exprCount : Expr → Nat
  | .tuple es => 1 + exprsCount es
  | .object es => 1 + elemsCount es
  | _ => 1
/-- elements of tuples -/
def exprsCount : List Expr → Nat
  | [] => 0
  | e :: es => exprCount e + exprsCount es
/-- elements of objects -/
def elemsCount : List (ObjKey × Expr) → Nat
  | [] => 0
  | (_, e) :: es => exprCount e + elemsCount es
end

/-- the body of a block that cannot have been written on one line: more than one element, or a block -/
def longBody : List BodyElement → Nat
  | [] => 0
  | [.attribute _ _] => 0
  | _ => 1

mutual
/-- the number of expressions and of long bodies of blocks in an element -/
def elementCount : BodyElement → Nat
  | .attribute _ v => exprCount v
  | .block _ _ b => longBody b + elementsCount b
/-- elements of bodies -/
def elementsCount : List BodyElement → Nat
  | [] => 0
  | e :: b => elementCount e + elementsCount b
end

mutual
/-- the number of values in a value, itself included -/
def valueCount : Value → Nat
  | .list l => 1 + valuesCount l
  | .object l => 1 + mapsCount l
  | .block (.merged l) => 1 + bodiesCount l
  | .block (.unmerged l) => 1 + bodiesCount l
  | _ => 1
/-- elements of lists -/
def valuesCount : List Value → Nat
  | [] => 0
  | v :: l => valueCount v + valuesCount l
/-- maps of objects -/
def mapsCount : List (KVP Key Value) → Nat
  | [] => 0
  | m :: l => mapCount m + mapsCount l
/-- entries of a map -/
def mapCount : KVP Key Value → Nat
  | .merged l => entriesCount l
  | .unmerged l => entriesCount l
/-- entries one by one -/
def entriesCount : List (Key × Value) → Nat
  | [] => 0
  | (_, v) :: l => valueCount v + entriesCount l
/-- bodies of blocks -/
def bodiesCount : List (List Str × KVP Key Value) → Nat
  | [] => 0
  | (_, m) :: l => mapCount m + bodiesCount l
end

end Verif.Spec
