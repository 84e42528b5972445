import Verif.Spec.Reads
import Verif.Spec.Same
import Verif.Spec.Blocks
/-!
# Data written differently

Two nodes are alike if they differ, at any depth, only in the order of attributes, in how attributes and blocks are
mixed, in how blocks of different types are mixed as long as the last runs of each type are alike, in the order of the
elements of objects, in the spelling of numbers, and (unless `keep`) in the ownership of strings. (What stands in blocks
before the last run of their type does not matter at all: see C50.)
-/
set_option autoImplicit false

namespace Verif.Spec

/-- Labels that are equal as labels. -/
def LabelsAlike (ls ls' : List BlockLabel) : Prop := ls.map BlockLabel.norm = ls'.map BlockLabel.norm

/-- The last run of every type is the same in both lists of blocks. -/
def Regrouped (bs bs' : List Block) : Prop := ∀ t run, LastRun t bs run ↔ LastRun t bs' run

/-- Number literals that are the same integer (in the range of `i64`), or the same float for the standard library, or that
are neither. -/
def SameNumber (P : F64Parse) (n n' : Number) : Prop :=
  (∀ k, IsInteger n k ↔ IsInteger n' k) ∧ ∀ x, IsFloat P n x ↔ IsFloat P n' x

/-- Alike up to order, spelling of numbers and, unless `keep`, ownership. -/
inductive Alike (P : F64Parse) (keep : Bool) : Node → Node → Prop
  | null : Alike P keep (.expr .null) (.expr .null)
  | boolean (b : Bool) : Alike P keep (.expr (.boolean b)) (.expr (.boolean b))
  | number (n n' : Number) : SameNumber P n n' → Alike P keep (.expr (.number n)) (.expr (.number n'))
  | string (s s' : CowStr) : s.str = s'.str → (keep = true → s.owned = s'.owned) →
      Alike P keep (.expr (.string s)) (.expr (.string s'))
  | tuple (es es' : List Expr) : AllRel (fun e e' => Alike P keep (.expr e) (.expr e')) es es' →
      Alike P keep (.expr (.tuple es)) (.expr (.tuple es'))
  | object (o o' o'' : List (ObjKey × Expr)) :
      o.map (fun p => forgetKey p.1) = o'.map (fun p => forgetKey p.1) →
      AllRel (fun p p' => Alike P keep (.expr p.2) (.expr p'.2)) o o' → o'.Perm o'' →
      Alike P keep (.expr (.object o)) (.expr (.object o''))
  /-- The attributes are alike in some order, the types of blocks are the same, and for each type `t` of blocks the last run
  is alike to that of the other body, which is `run t`. -/
  | body (b b' : Body) (as : List (CowStr × Expr)) (run : Str → List Block) :
      (attrs b).map (fun p => p.1.str) = as.map (fun p => p.1.str) →
      AllRel (fun p p' => Alike P keep (.expr p.2) (.expr p'.2)) (attrs b) as → as.Perm (attrs b') →
      (∀ t r, LastRun t (blocks b) r → LastRun t (blocks b') (run t)) →
      (∀ t r', LastRun t (blocks b') r' → ∃ r, LastRun t (blocks b) r) →
      (∀ t r, LastRun t (blocks b) r → AllRel (fun q q' => LabelsAlike q.labels q'.labels) r (run t)) →
      (∀ t r, LastRun t (blocks b) r → AllRel (fun q q' => Alike P keep (.body q.body) (.body q'.body)) r (run t)) →
      Alike P keep (.body b) (.body b')
  /-- the blocks of one type, made from their labels and bodies -/
  | block (r r' : List (List BlockLabel × Body)) :
      AllRel (fun q q' => LabelsAlike q.1 q'.1) r r' → AllRel (fun q q' => Alike P keep (.body q.2) (.body q'.2)) r r' →
      Alike P keep (.block (BlockBody.fromIter r)) (.block (BlockBody.fromIter r'))
  | key (s s' : CowStr) : s.str = s'.str → Alike P keep (.key s) (.key s')

/-- The type does not contain `&str`, at any depth. -/
inductive StrFree : Ty → Prop
  | unit : StrFree .unit
  | bool : StrFree .bool
  | int (T : IntTy) : StrFree (.int T)
  | f64 : StrFree .f64
  | f32 : StrFree .f32
  | string : StrFree .string
  | char : StrFree .char
  | option (t : Ty) : StrFree t → StrFree (.option t)
  | seq (t : Ty) : StrFree t → StrFree (.seq t)
  | tuple (ts : List Ty) : (∀ t ∈ ts, StrFree t) → StrFree (.tuple ts)
  | map (t : Ty) : StrFree t → StrFree (.map t)
  | struct (fs : List (Str × Ty)) : (∀ f ∈ fs, StrFree f.2) → StrFree (.struct fs)
  | newtype (t : Ty) : StrFree t → StrFree (.newtype t)
  | unitStruct : StrFree .unitStruct
  | tupleStruct (ts : List Ty) : (∀ t ∈ ts, StrFree t) → StrFree (.tupleStruct ts)
  | enum (vs : List (Str × Bool)) : StrFree (.enum vs)
  | ignored : StrFree .ignored
  | any : StrFree .any
  | bytes (u : U8) : StrFree (.bytes u)

end Verif.Spec
