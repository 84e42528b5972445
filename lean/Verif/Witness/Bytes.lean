import Verif.Props.Bytes
/-! # Byte buffers: cases that meet the hypotheses of C96 -/
set_option autoImplicit false

namespace Verif.Props
open Verif Spec

/-- `u8` -/
def theU8 : U8 := ⟨⟨false, 8⟩, rfl⟩

variable (P : F64Parse) (I : F64OfInt) (ord : HashOrder)

theorem byte_literal (k : Nat) (hk : k < 256) : IsByte (.number (intNumber k)) k :=
  ⟨hk, _, rfl, intNumber_isInteger (by omega) (by omega)⟩

/-- `[104, 255]` -/
def byteTuple : List Expr := [.number (intNumber 104), .number (intNumber 255)]

theorem byteTuple_read : deserialize P I ord (.bytes theU8) (.expr (.tuple byteTuple)) = .ok (buffer [104, 255]) :=
  (c96_tuple P I ord theU8 byteTuple _).2 ⟨[104, 255], rfl, rfl, by
    simp [byteTuple]
    exact ⟨byte_literal 104 (by decide), byte_literal 255 (by decide)⟩⟩

example := (c96_tuple P I ord theU8 byteTuple _).1 (byteTuple_read P I ord)

/-- `[1, 999]` is an error, as tested in the repository. -/
example : ¬ ∃ v, deserialize P I ord (.bytes theU8) (.expr (.tuple [.number (intNumber 1), .number (intNumber 999)])) = .ok v := by
  rintro ⟨v, h⟩
  obtain ⟨ks, rfl, h1, h2⟩ := (c96_tuple P I ord theU8 _ v).1 h
  match ks, h1 with
  | [a, b], _ =>
    obtain ⟨hb, n, hn, hk⟩ := h2 (.number (intNumber 999), b) (by simp)
    cases hn
    have h3 : IsInteger (intNumber 999) 999 := intNumber_isInteger (by decide) (by decide)
    have := h3.2.symm.trans hk.2
    injection this with this
    omega

example : deserialize P I ord (.bytes theU8) (.expr (.string (.ownedS (lit "aé")))) = .ok (buffer [0x61, 0xC3, 0xA9]) :=
  (c96_text P I ord theU8 _).1

example := c96_other P I ord theU8 (.boolean false) (by simp) (by simp)
example := c96_other P I ord theU8 (.object [(.expr (.borrowed (lit "\"k\"")), .null)]) (by simp) (by simp)

example := c96_text_kept P I ord theU8 (.ownedS (lit "aé")) (.borrowed (lit "aé")) _ (c96_text P I ord theU8 _).1
  (c96_text P I ord theU8 _).1

/-- bytes that are not UTF-8 -/
example := c96_every_buffer P I ord theU8 asciiClass ['k'] (.mk 'k' [] (.inl (by decide)) (by simp)) [0xFF, 0, 0x80] (by decide)

end Verif.Props
