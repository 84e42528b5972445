import Verif.Model.Number
/-!
# Numbers made from floats (lib/src/parser/number.rs:87-103)

`f32`/`f64` arithmetic and formatting are part of std: a float type is given by what the conversion uses of it.
-/
set_option autoImplicit false

namespace Verif

/-- `f32` or `f64`, as far as `From<f32>`/`From<f64>` use it: `n >= 0.0`, `n * -1.0` and `to_string`. -/
structure FloatTy where
  F : Type
  ge0 : F → Bool
  negate : F → F
  toStr : F → Str

/-- std `str::split(".")`: the parts between points; there is always a first one. -/
def splitDots : Str → Str × List Str
  | [] => ([], [])
  | c :: s => if c = '.' then ([], (splitDots s).1 :: (splitDots s).2) else (c :: (splitDots s).1, (splitDots s).2)

/-- number.rs:87-103 `From<f32>`, `From<f64>` -/
def Number.fromFloat (T : FloatTy) (n : T.F) : Number :=
  let string := if T.ge0 n then T.toStr n else T.toStr (T.negate n)
  let parts := splitDots string
  ⟨.ownedS (T.toStr n), T.ge0 n, some (.ownedS parts.1), parts.2.head?.map .ownedS, none⟩

end Verif
