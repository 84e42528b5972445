import Verif.Spec.Laid
import Verif.Spec.Utf8
import Verif.Spec.Reads
/-! # The texts kept in a tree, and where they come from -/
set_option autoImplicit false

namespace Verif.Spec

/-- The text of a label. -/
def labelText : BlockLabel → CowStr
  | .stringLiteral s => .ownedS s
  | .identifier s => s

/-- The text of an object key. -/
def keyText : ObjKey → CowStr
  | .ident s => s
  | .expr s => s

mutual
/-- The texts of an expression, in source order. (The other texts of a number are parts of its `input`.) -/
def exprTexts : Expr → List CowStr
  | .null => []
  | .number n => [n.input]
  | .boolean _ => []
  | .string s => [s]
  | .tuple es => exprsTexts es
  | .object es => pairsTexts es
def exprsTexts : List Expr → List CowStr
  | [] => []
  | e :: es => exprTexts e ++ exprsTexts es
def pairsTexts : List (ObjKey × Expr) → List CowStr
  | [] => []
  | (k, e) :: es => keyText k :: (exprTexts e ++ pairsTexts es)
end

mutual
/-- The texts of an element, in source order. -/
def elementTexts : BodyElement → List CowStr
  | .attribute k e => k :: exprTexts e
  | .block i ls b => i :: (ls.map labelText ++ bodyTexts b)
/-- The texts of a body, in source order. -/
def bodyTexts : List BodyElement → List CowStr
  | [] => []
  | el :: b => elementTexts el ++ bodyTexts b
end

mutual
/-- The number of expressions and keys in an expression. -/
def exprNodes : Expr → Nat
  | .null => 1
  | .number _ => 1
  | .boolean _ => 1
  | .string _ => 1
  | .tuple es => 1 + exprsNodes es
  | .object es => 1 + pairsNodes es
def exprsNodes : List Expr → Nat
  | [] => 0
  | e :: es => exprNodes e + exprsNodes es
def pairsNodes : List (ObjKey × Expr) → Nat
  | [] => 0
  | (_, e) :: es => 1 + exprNodes e + pairsNodes es
end

mutual
/-- The number of elements, labels, expressions and keys in an element. -/
def elementNodes : BodyElement → Nat
  | .attribute _ e => 1 + exprNodes e
  | .block _ ls b => 1 + ls.length + bodyNodes b
/-- The number of elements, labels, expressions and keys in a body. -/
def bodyNodes : List BodyElement → Nat
  | [] => 0
  | el :: b => elementNodes el + bodyNodes b
end

/-- The texts come from parts of `s` that follow each other without overlap: a borrowed text is such a part as it stands, an
owned text is made from such a part and is no longer than it, in characters and in bytes. -/
inductive Slices : List CowStr → Str → Prop
  | nil (s : Str) : Slices [] s
  | borrowed (g t r : Str) (ts : List CowStr) : Slices ts r → Slices (.borrowed t :: ts) (g ++ t ++ r)
  | owned (g t r v : Str) (ts : List CowStr) : v.length ≤ t.length → (utf8 v).length ≤ (utf8 t).length → Slices ts r →
      Slices (.ownedS v :: ts) (g ++ t ++ r)

/-- Number of characters of texts. -/
def textChars (ts : List CowStr) : Nat := (ts.map fun t => t.str.length).sum
/-- Number of bytes of texts. -/
def textBytes (ts : List CowStr) : Nat := (ts.map fun t => (utf8 t.str).length).sum

end Verif.Spec

namespace Verif.Spec

/-- The value `v` of type `t` contains the text `x`; `true` says that it is held as a `&str`, `false` as a `String`. -/
inductive HasText : Ty → DVal → Bool → Str → Prop
  | string (x : Str) : HasText .string (.string x) false x
  | str (x : Str) : HasText .str (.string x) true x
  | some (t : Ty) (v : DVal) (b : Bool) (x : Str) : HasText t v b x → HasText (.option t) (.some v) b x
  | newtype (t : Ty) (v : DVal) (b : Bool) (x : Str) : HasText t v b x → HasText (.newtype t) v b x
  | seq (t : Ty) (vs : List DVal) (v : DVal) (b : Bool) (x : Str) : v ∈ vs → HasText t v b x → HasText (.seq t) (.seq vs) b x
  | tuple (ts : List Ty) (vs : List DVal) (i : Nat) (t : Ty) (v : DVal) (b : Bool) (x : Str) : ts[i]? = .some t →
      vs[i]? = .some v → HasText t v b x → HasText (.tuple ts) (.seq vs) b x
  | tupleStruct (ts : List Ty) (vs : List DVal) (i : Nat) (t : Ty) (v : DVal) (b : Bool) (x : Str) : ts[i]? = .some t →
      vs[i]? = .some v → HasText t v b x → HasText (.tupleStruct ts) (.seq vs) b x
  | any (x : Str) : HasText .any (.string x) false x
  | anySeq (vs : List DVal) (v : DVal) (b : Bool) (x : Str) : v ∈ vs → HasText .any v b x → HasText .any (.seq vs) b x
  | anyKey (es : List (Str × DVal)) (x : Str) (v : DVal) : (x, v) ∈ es → HasText .any (.entries es) false x
  | anyValue (es : List (Str × DVal)) (k : Str) (v : DVal) (b : Bool) (x : Str) : (k, v) ∈ es → HasText .any v b x →
      HasText .any (.entries es) b x
  | mapKey (t : Ty) (es : List (Str × DVal)) (x : Str) (v : DVal) : (x, v) ∈ es → HasText (.map t) (.entries es) false x
  | mapValue (t : Ty) (es : List (Str × DVal)) (k : Str) (v : DVal) (b : Bool) (x : Str) : (k, v) ∈ es → HasText t v b x →
      HasText (.map t) (.entries es) b x
  | field (fs : List (Str × Ty)) (es : List (Str × DVal)) (i : Nat) (k k' : Str) (t : Ty) (v : DVal) (b : Bool) (x : Str) :
      fs[i]? = .some (k, t) → es[i]? = .some (k', v) → HasText t v b x → HasText (.struct fs) (.entries es) b x

end Verif.Spec
