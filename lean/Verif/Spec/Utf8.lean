import Verif.Model.Nom
/-! # UTF-8 encoding (RFC 3629), bytes as numbers -/
set_option autoImplicit false

namespace Verif.Spec

/-- The bytes of a scalar value. -/
def utf8Nat (n : Nat) : List Nat :=
  if n < 0x80 then [n]
  else if n < 0x800 then [0xC0 + n / 64, 0x80 + n % 64]
  else if n < 0x10000 then [0xE0 + n / 4096, 0x80 + n / 64 % 64, 0x80 + n % 64]
  else [0xF0 + n / 262144, 0x80 + n / 4096 % 64, 0x80 + n / 64 % 64, 0x80 + n % 64]

/-- The bytes of a text. -/
def utf8 (s : Str) : List Nat := s.flatMap fun c => utf8Nat c.toNat

end Verif.Spec
