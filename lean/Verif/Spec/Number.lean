import Verif.Spec.Lex
/-! # Integer literals and the integers they denote -/
set_option autoImplicit false

namespace Verif.Spec

/-- `t` is an integer literal (optional sign, decimal digits) denoting `k`. -/
inductive IntLit : Str → Int → Prop
  | mk (sg ds : Str) (pos : Bool) (m : Nat) : Sign sg pos → Digits ds → Numeral 10 ds m →
      IntLit (sg ++ ds) (if pos then (m : Int) else -(m : Int))

/-- Decimal numerals without superfluous leading zeros. -/
def Canonical (ds : Str) : Prop := Digits ds ∧ (ds = ['0'] ∨ ¬ Head (· = '0') ds)

end Verif.Spec
