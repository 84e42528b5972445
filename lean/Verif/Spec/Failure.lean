import Verif.Spec.Reads
/-!
# Which failure is reported

`Fails O t n f`: the node `n` cannot be read as the type `t`, and the failure is `f`: an error or a panic. Values are read
one after another, and the first that cannot be read decides. `O b bs` says that the block types of the body `b` may be
visited in the order `bs` (the order of a hash map); everything else is visited in source order. The rules mention neither
visitors nor calls.
-/
set_option autoImplicit false

namespace Verif.Spec

/-- How deserialization can fail. -/
inductive Failure where
  | error (e : DeErr)
  | panic
  deriving DecidableEq

/-- The failure as a result. -/
def Failure.res {α : Type} : Failure → Res DeErr α
  | .error e => .error e
  | .panic => .panic

/-- The end of a map that is this failure. -/
def Failure.stop : Failure → Stop
  | .error e => .error e
  | .panic => .panicked

/-- The block types of a body with their blocks (the last run of each type), each once, in some order. -/
def BlockEntries (b : Body) (bs : List (Str × Node)) : Prop :=
  (bs.map Prod.fst).Nodup ∧ ∀ k n, (k, n) ∈ bs ↔
    ∃ run, LastRun k (blocks b) run ∧ n = .block (BlockBody.fromIter (run.map fun q => (q.labels, q.body)))

/-- Attributes (of a body, or with identifier keys in an object) as entries. -/
def attrEntries (l : List (CowStr × Expr)) : List (Str × Node) := l.map fun p => (p.1.str, .expr p.2)

/-- The entries of an object that are visited, in order, and how its visit ends: at the end, at a key that was there
before, or at a key that is an expression. -/
inductive ObjectVisit : List (ObjKey × Expr) → List (Str × Node) → Stop → Prop
  | all (l : List (CowStr × Expr)) : Distinct l → ObjectVisit (l.map fun p => (.ident p.1, p.2)) (attrEntries l) .done
  | again (l : List (CowStr × Expr)) (k : CowStr) (e : Expr) (rest : List (ObjKey × Expr)) : Distinct l →
      k.str ∈ (attrEntries l).map Prod.fst →
      ObjectVisit (l.map (fun p => (.ident p.1, p.2)) ++ (.ident k, e) :: rest) (attrEntries l)
        (.error (.objectDuplicateKey k.str))
  | expressionKey (l : List (CowStr × Expr)) (k : CowStr) (e : Expr) (rest : List (ObjKey × Expr)) : Distinct l →
      ObjectVisit (l.map (fun p => (.ident p.1, p.2)) ++ (.expr k, e) :: rest) (attrEntries l) .panicked

/-- The entries of a body that are visited, in order, and how its visit ends: attributes in source order up to a name that
was there before; then the block types, up to one with the name of an attribute. -/
inductive BodyVisit (O : Body → List (Str × Node) → Prop) : Body → List (Str × Node) → Stop → Prop
  | all (b : Body) (bs : List (Str × Node)) : Distinct (attrs b) → O b bs →
      (∀ p ∈ bs, p.1 ∉ (attrEntries (attrs b)).map Prod.fst) → BodyVisit O b (attrEntries (attrs b) ++ bs) .done
  | again (b : Body) (l rest : List (CowStr × Expr)) (k : CowStr) (e : Expr) : attrs b = l ++ (k, e) :: rest → Distinct l →
      k.str ∈ (attrEntries l).map Prod.fst → BodyVisit O b (attrEntries l) (.error (.bodyDuplicateKey k.str))
  | clash (b : Body) (bs rest : List (Str × Node)) (k : Str) (n : Node) : Distinct (attrs b) → O b (bs ++ (k, n) :: rest) →
      (∀ p ∈ bs, p.1 ∉ (attrEntries (attrs b)).map Prod.fst) → k ∈ (attrEntries (attrs b)).map Prod.fst →
      BodyVisit O b (attrEntries (attrs b) ++ bs) .panicked

/-- `Option<T>` and newtype structs, which ask for the expression inside. -/
def Wrapper : Ty → Prop
  | .option _ | .newtype _ => True
  | _ => False

/-- The type of the item at this place of a sequence read as `t`. -/
def itemTy : Ty → Nat → Option Ty
  | .seq t, _ => some t
  | .ignored, _ => some .ignored
  | .any, _ => some .any
  | .bytes _, _ => some (.int ⟨false, 8⟩)
  | .tuple ts, i => ts[i]?
  | .tupleStruct ts, i => ts[i]?
  | .struct fs, i => (fs.map Prod.snd)[i]?
  | .newtype t, 0 => some t
  | _, _ => none

/-- The number of items that are needed to read a sequence as `t`; `none`: it is not read as a sequence. -/
def itemsNeeded : Ty → Option Nat
  | .seq _ => some 0
  | .ignored => some 0
  | .any => some 0
  | .bytes _ => some 0
  | .tuple ts => some ts.length
  | .tupleStruct ts => some ts.length
  | .struct fs => some fs.length
  | .newtype _ => some 1
  | _ => none

/-- The type of the entry with this name in a map read as `t`; `none`: it is not read as a map. -/
def entryTy : Ty → Str → Option Ty
  | .map t, _ => some t
  | .struct fs, k => some ((field? k fs).getD .ignored)
  | .ignored, _ => some .ignored
  | .any, _ => some .any
  | _, _ => none

section
variable (P : F64Parse) (I : F64OfInt)

/-- Something that is neither tuple nor object, with a value. -/
def Scalar : Expr → Prop
  | .null | .boolean _ | .string _ => True
  | .number n => (∃ k, IsInteger n k) ∨ ∃ x, IsFloat P n x
  | _ => False

/-- These first items of a sequence can be read as `t` asks for. -/
def ItemsRead (t : Ty) (ns : List Node) : Prop :=
  ∀ i n u, ns[i]? = some n → itemTy t i = some u → ∃ v, Reads P I u n v

/-- These entries of a map can be read as `t` asks for. -/
def EntriesRead (t : Ty) (es : List (Str × Node)) : Prop :=
  ∀ p ∈ es, ∀ u, entryTy t p.1 = some u → ∃ v, Reads P I u p.2 v

variable (O : Body → List (Str × Node) → Prop)

mutual
/-- A node cannot be read as a type, and the failure is this. -/
inductive Fails : Ty → Node → Failure → Prop
  /-- an integer that is not in the range of `i64`, whatever type is asked for -/
  | integer (t : Ty) (n : Number) : ¬ Wrapper t → n.isFloat = false → (∀ k, ¬ IsInteger n k) →
      Fails t (.expr (.number n)) (.error .parseInt)
  /-- a float that the standard library does not parse -/
  | float (t : Ty) (n : Number) : ¬ Wrapper t → n.isFloat = true → (∀ x, ¬ IsFloat P n x) →
      Fails t (.expr (.number n)) (.error .parseFloat)
  /-- a value of another type, or out of the type's range -/
  | scalar (t : Ty) (e : Expr) : ¬ Wrapper t → Scalar P e → (∀ v, ¬ Reads P I t (.expr e) v) →
      Fails t (.expr e) (.error .custom)
  | some (t : Ty) (e : Expr) (f : Failure) : e ≠ .null → Fails t (.expr e) f → Fails (.option t) (.expr e) f
  | newtype (t : Ty) (e : Expr) (f : Failure) : Fails t (.expr e) f → Fails (.newtype t) (.expr e) f
  /-- a tuple of another length -/
  | length (t : Ty) (ts : List Ty) (es : List Expr) : t = .tuple ts ∨ t = .tupleStruct ts → es.length ≠ ts.length →
      Fails t (.expr (.tuple es)) (.error (.invalidTupleLength ts.length es.length))
  | tuple (t : Ty) (es : List Expr) (f : Failure) : ¬ Wrapper t →
      (∀ ts, t = .tuple ts ∨ t = .tupleStruct ts → es.length = ts.length) → FailsSeq t (es.map .expr) f →
      Fails t (.expr (.tuple es)) f
  | object (t : Ty) (o : List (ObjKey × Expr)) (es : List (Str × Node)) (s : Stop) (f : Failure) : ¬ Wrapper t →
      ObjectVisit o es s → FailsMap t es s f → Fails t (.expr (.object o)) f
  | body (t : Ty) (b : Body) (es : List (Str × Node)) (s : Stop) (f : Failure) : BodyVisit O b es s → FailsMap t es s f →
      Fails t (.body b) f
  /-- blocks with labels -/
  | labelled (t : Ty) (bs : List Body) (m : List (BlockLabel × BlockBody)) : (∀ t', t ≠ .option t') → m ≠ [] →
      Fails t (.block (.labels bs m)) .panic
  | block (t : Ty) (c : BlockBody) (b : Body) (f : Failure) : Unlabelled c [b] → (∀ t', t ≠ .option t') →
      (∀ t', t ≠ .seq t') → Fails t (.body b) f → Fails t (.block c) f
  /-- `Vec` of a single block kept among labelled ones -/
  | refused (t : Ty) (b : Body) : Fails (.seq t) (.block (.labels [b] [])) (.error .custom)
  | blocks (t : Ty) (c : BlockBody) (bs : List Body) (f : Failure) : Unlabelled c bs → (∀ t', t ≠ .option t') →
      (bs.length ≠ 1 ∨ ∃ t', t = .seq t') → ¬ SeqRefused t c → FailsSeq t (bs.map .body) f → Fails t (.block c) f
  | someBlock (t : Ty) (c : BlockBody) (f : Failure) : c.lenBlocks ≠ 0 → Fails t (.block c) f →
      Fails (.option t) (.block c) f
  | key (t : Ty) (s : CowStr) : (∀ v, ¬ Reads P I t (.key s) v) → Fails t (.key s) (.error .custom)

/-- A sequence cannot be read as a type. -/
inductive FailsSeq : Ty → List Node → Failure → Prop
  /-- the first item that cannot be read decides -/
  | item (t u : Ty) (pre rest : List Node) (n : Node) (f : Failure) : itemTy t pre.length = Option.some u →
      ItemsRead P I t pre → Fails u n f → FailsSeq t (pre ++ n :: rest) f
  /-- there are too few items -/
  | tooFew (t : Ty) (ns : List Node) (k : Nat) : itemsNeeded t = Option.some k → ns.length < k → ItemsRead P I t ns →
      FailsSeq t ns (.error .custom)
  /-- it is not the type of a sequence -/
  | other (t : Ty) (ns : List Node) : itemsNeeded t = none → FailsSeq t ns (.error .custom)

/-- Named entries, of which these are visited, and then the visit ends like this, cannot be read as a type. -/
inductive FailsMap : Ty → List (Str × Node) → Stop → Failure → Prop
  /-- the first entry that cannot be read decides -/
  | entry (t u : Ty) (pre rest : List (Str × Node)) (k : Str) (n : Node) (s : Stop) (f : Failure) :
      entryTy t k = Option.some u → EntriesRead P I t pre → Fails u n f → FailsMap t (pre ++ (k, n) :: rest) s f
  /-- all are read, and then there is a key that must not be there -/
  | stop (t : Ty) (es : List (Str × Node)) (f : Failure) : (∃ k u, entryTy t k = Option.some u) → EntriesRead P I t es →
      FailsMap t es f.stop f
  /-- all are read, and a field is missing -/
  | missing (fs : List (Str × Ty)) (es : List (Str × Node)) (k : Str) (t : Ty) : EntriesRead P I (.struct fs) es →
      (k, t) ∈ fs → k ∉ es.map Prod.fst → (∀ t', t ≠ .option t') → FailsMap (.struct fs) es .done (.error .custom)
  /-- it is not the type of a map -/
  | other (t : Ty) (es : List (Str × Node)) (s : Stop) : (∀ k, entryTy t k = none) → FailsMap t es s (.error .custom)
end
end

end Verif.Spec
