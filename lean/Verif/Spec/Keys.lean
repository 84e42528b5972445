import Verif.Model.DeTypes
import Verif.Spec.Utf8
import Verif.Spec.Failure
/-! # What a map key can be read as -/
set_option autoImplicit false

namespace Verif.Spec

/-- The name of an entry, read as the key type of a map. -/
inductive KeyReads (s : Str) : Ty → DVal → Prop
  | string : KeyReads s .string (.string s)
  /-- a name of one character -/
  | char (c : Char) : s = [c] → KeyReads s .char (.char c)
  /-- a variant without fields -/
  | enum (vs : List (Str × Bool)) : field? s vs = some true → KeyReads s (.enum vs) (.variant s)
  | any : KeyReads s .any (.string s)
  | bytes (u : U8) : KeyReads s (.bytes u) (.seq ((utf8 s).map fun b : Nat => .int b))
  | ignored : KeyReads s .ignored .ignored

/-- The entries of the one map are those of the other, with the names read as keys. -/
def KeysRead (K : Ty) (es : List (Str × DVal)) (ps : List (DVal × DVal)) : Prop :=
  ps.length = es.length ∧ ∀ p ∈ es.zip ps, KeyReads p.1.1 K p.2.1 ∧ p.2.2 = p.1.2

/-- The entries of a map are read one after another, key before value, and the first that cannot be read decides: `PairsFail K res es s f`
says that visiting the entries `es`, then ending with `s`, fails with `f`, if the values are read with `res`. -/
inductive PairsFail (K : Ty) (res : Node → Res DeErr DVal) : List (Str × Node) → Stop → Failure → Prop
  | key (k : Str) (n : Node) (es : List (Str × Node)) (s : Stop) : (¬ ∃ v, KeyReads k K v) → PairsFail K res ((k, n) :: es) s (.error .custom)
  | value (k : Str) (n : Node) (es : List (Str × Node)) (s : Stop) (f : Failure) : (∃ v, KeyReads k K v) → res n = f.res →
      PairsFail K res ((k, n) :: es) s f
  | later (k : Str) (n : Node) (es : List (Str × Node)) (s : Stop) (f : Failure) : (∃ v, KeyReads k K v) → (∃ v, res n = .ok v) →
      PairsFail K res es s f → PairsFail K res ((k, n) :: es) s f
  | stop (f : Failure) : PairsFail K res [] f.stop f

end Verif.Spec
