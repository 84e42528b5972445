import Verif.Model.Debug
import Verif.Spec.OwnedValue
import Verif.Spec.Lex
/-! # What is assumed of the `Debug` form of floats -/
set_option autoImplicit false

namespace Verif.Spec
open Verif

/-- Floats (those in `ok`: not NaN) are shown by texts of letters, digits, signs and points, different ones by different
texts. (Rust shows the shortest decimal that reads back as the same float.) -/
structure ShowsF64 (D : DebugStyle) (ok : F64 → Prop) : Prop where
  nonempty : ∀ x, ok x → D.f64 x ≠ []
  chars : ∀ x, ok x → ∀ c ∈ D.f64 x, c.isAlphanum = true ∨ c = '+' ∨ c = '-' ∨ c = '.'
  injective : ∀ x y, ok x → ok y → D.f64 x = D.f64 y → x = y

/-- `RustContent t v`: in Rust, `t` between double quotes is a string literal for `v`. -/
inductive RustContent : Str → Str → Prop
  | nil : RustContent [] []
  | char (c : Char) (t v : Str) : c ≠ '"' → c ≠ '\\' → RustContent t v → RustContent (c :: t) (c :: v)
  | escape (k c : Char) (t v : Str) :
      (k, c) ∈ [('t', '\t'), ('r', '\r'), ('n', '\n'), ('\\', '\\'), ('"', '"'), ('\'', '\''), ('0', '\x00')] →
      RustContent t v → RustContent ('\\' :: k :: t) (c :: v)
  | unicode (ds : Str) (c : Char) (t v : Str) : ds ≠ [] → ds.length ≤ 6 → Numeral 16 ds c.toNat → RustContent t v →
      RustContent (['\\', 'u', '{'] ++ ds ++ '}' :: t) (c :: v)

end Verif.Spec
