import Verif.Model.Float
import Verif.Model.Value
import Verif.Model.Blocks
/-!
# Building trees in code: constructors and conversions (expression.rs, body.rs, object.rs, key.rs, value.rs)
-/
set_option autoImplicit false

namespace Verif

/-! ## expressions -/

/-- expression.rs:83-88 `new_tuple` (and 128-135 `FromIterator`) -/
def Expr.newTuple (es : List Expr) : Expr := .tuple es
/-- object.rs:74-78 `From<&str> for ObjectElementIdentifier` -/
def ObjKey.ofStr (s : Str) : ObjKey := .ident (.borrowed s)
/-- expression.rs:92-98 `new_object`; `into` converts the keys -/
def Expr.newObject {I : Type} (into : I → ObjKey) (es : List (I × Expr)) : Expr := .object (es.map fun p => (into p.1, p.2))
/-- expression.rs:164-168 `From<()>` -/
def Expr.ofUnit : Expr := .null
/-- expression.rs:170-174 `From<&str>` -/
def Expr.ofStr (s : Str) : Expr := .string (.borrowed s)
/-- expression.rs:161 `From<Cow<str>>` -/
def Expr.ofCow (s : CowStr) : Expr := .string s
/-- expression.rs:160 `From<bool>` -/
def Expr.ofBool (b : Bool) : Expr := .boolean b
/-- expression.rs:148-157 `From<uN>`, `From<iN>` (`none` = panic) -/
def Expr.ofInt (T : IntTy) (checks : Bool) (k : Int) : Option Expr := (Number.fromInt T checks k).map .number
/-- expression.rs:158-159 `From<f32>`, `From<f64>` -/
def Expr.ofFloat (T : FloatTy) (x : T.F) : Expr := .number (Number.fromFloat T x)
/-- expression.rs:162 `From<Vec<Expression>>` -/
def Expr.ofVec (es : List Expr) : Expr := .tuple es

/-- expression.rs:101-110 `variant_name`, with constants.rs:1-10 -/
inductive ExprVariant where
  | null | number | boolean | string | tuple | object
  deriving Repr, DecidableEq
/-- expression.rs:101-110 `variant_name` -/
def Expr.variantName : Expr → ExprVariant
  | .null => .null
  | .number _ => .number
  | .boolean _ => .boolean
  | .string _ => .string
  | .tuple _ => .tuple
  | .object _ => .object

/-! ## elements of bodies -/

/-- body.rs:34-40 `is_attribute` -/
def BodyElement.isAttribute : BodyElement → Bool
  | .attribute _ _ => true
  | .block _ _ _ => false
/-- body.rs:42-48 `is_block` -/
def BodyElement.isBlock : BodyElement → Bool
  | .block _ _ _ => true
  | .attribute _ _ => false
/-- body.rs:50-56 `unwrap_attribute` (`none` = panic) -/
def BodyElement.unwrapAttribute : BodyElement → Option (CowStr × Expr)
  | .attribute k e => some (k, e)
  | .block _ _ _ => none
/-- body.rs:58-64 `unwrap_block` (`none` = panic) -/
def BodyElement.unwrapBlock : BodyElement → Option Block
  | .block t ls b => some ⟨t, ls, b⟩
  | .attribute _ _ => none
/-- body.rs:67-71 `From<Attribute>` -/
def BodyElement.ofAttribute (p : CowStr × Expr) : BodyElement := .attribute p.1 p.2
/-- body.rs:73-77 `From<Block>` -/
def BodyElement.ofBlock (b : Block) : BodyElement := .block b.type b.labels b.body
/-- block.rs:34-40 `Block::new` -/
def Block.new (t : CowStr) (ls : List BlockLabel) (b : Body) : Block := ⟨t, ls, b⟩
/-- block.rs:42-57 `Block::new_one_line` -/
def Block.newOneLine (t : CowStr) (ls : List BlockLabel) (a : Option (CowStr × Expr)) : Block :=
  ⟨t, ls, match a with | none => [] | some a => [.ofAttribute a]⟩
/-- block.rs:106-110 `From<&str> for BlockLabel` -/
def BlockLabel.ofStr (s : Str) : BlockLabel := .identifier (.borrowed s)

/-! ## values -/

/-- key.rs:19-21 `new_identifier` and 73-77 `From<&str>` -/
def Key.newIdentifier (s : Str) : Key := .identifier (.borrowed s)
/-- key.rs:23-25 `new_identifier_owned` and 79-83 `From<String>` -/
def Key.newIdentifierOwned (s : Str) : Key := .identifier (.ownedS s)
/-- key.rs:27-29 `new_string` -/
def Key.newString (s : Str) : Key := .string (.borrowed s)
/-- key.rs:31-33 `new_string_owned` -/
def Key.newStringOwned (s : Str) : Key := .string (.ownedS s)
/-- key.rs:35-40 `unwrap` -/
def Key.unwrap : Key → CowStr
  | .identifier s => s
  | .string s => s

/-- value.rs:841-846 `MapValues::new_unmerged` and 888-892 `FromIterator` -/
def MapValues.newUnmerged (es : List (Key × Value)) : MapValues := .unmerged es
/-- value.rs:630-641 `Block::new_unmerged` and 770-778 `FromIterator`; `toStr` is `to_string` of the labels -/
def VBlock.newUnmerged {S : Type} (toStr : S → Str) (es : List (List S × MapValues)) : VBlock :=
  .unmerged (es.map fun p => (p.1.map toStr, p.2))
/-- value.rs:41-46 `new_list` and 585-593 `FromIterator` -/
def Value.newList (vs : List Value) : Value := .list vs
/-- value.rs:48-59 `new_map` -/
def Value.newMap (ms : List (List (Key × Value))) : Value := .object (ms.map MapValues.newUnmerged)
/-- value.rs:61-66 `new_single_map` -/
def Value.newSingleMap (es : List (Key × Value)) : Value := .object [MapValues.newUnmerged es]
/-- value.rs:68-77 `new_block` -/
def Value.newBlock (labels : List Str) (es : List (Key × Value)) : Value :=
  .block (VBlock.newUnmerged id [(labels, MapValues.newUnmerged es)])
/-- value.rs:556 `From<i64>` (and 547-554 `From<&T>`: of a clone) -/
def Value.ofInteger (i : Int) : Value := .integer i
/-- value.rs:557 `From<f64>` -/
def Value.ofFloat (f : F64) : Value := .float f
/-- value.rs:558 `From<bool>` -/
def Value.ofBool (b : Bool) : Value := .boolean b
/-- value.rs:559 `From<String>` and 564-568 `From<&str>` -/
def Value.ofStr (s : Str) : Value := .string s
/-- value.rs:560 `From<Vec<MapValues>>` -/
def Value.ofMaps (ms : List MapValues) : Value := .object ms
/-- value.rs:561 `From<Block>` -/
def Value.ofBlock (b : VBlock) : Value := .block b
/-- value.rs:570-577 `From<Option<Vec<Value>>>` -/
def Value.ofOptionList : Option (List Value) → Value
  | none => .list []
  | some vs => .list vs
/-- value.rs:579-583 `From<MapValues>` through 560 `From<Vec<MapValues>>` -/
def Value.ofMap (m : MapValues) : Value := .ofMaps [m]
/-- lib.rs:37-39 `is_empty_scalar` of a value (`none` = panic) -/
def Value.isEmptyScalar (v : Value) : Option Bool := v.lenScalar.map (· == 0)

end Verif
