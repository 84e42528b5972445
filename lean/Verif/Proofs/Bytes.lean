import Verif.Model.DeTypes
import Verif.Spec.Utf8
/-! # The bytes of a text -/
set_option autoImplicit false

namespace Verif
open Spec

theorem utf8EncodeChar_eq (c : Char) : (String.utf8EncodeChar c).map UInt8.toNat = utf8Nat c.toNat := by
  have hv : c.toNat < 0x110000 := by
    have := c.valid
    rcases this with h | ⟨-, h⟩
    · exact Nat.lt_trans h (by decide)
    · exact h
  have e : c.val.toNat = c.toNat := rfl
  unfold String.utf8EncodeChar utf8Nat
  rw [e]
  dsimp only
  generalize c.toNat = n at hv ⊢
  have conv : ∀ m, (UInt8.ofNat m).toNat = m % 256 := fun m => rfl
  by_cases h1 : n ≤ 0x7f
  · rw [if_pos h1, if_pos (show n < 0x80 by omega)]
    simp only [List.map_cons, List.map_nil, conv]
    congr 1; omega
  · rw [if_neg h1, if_neg (show ¬ n < 0x80 by omega)]
    by_cases h2 : n ≤ 0x7ff
    · rw [if_pos h2, if_pos (show n < 0x800 by omega)]
      simp only [List.map_cons, List.map_nil, conv]
      congr 1; omega
      congr 1; omega
    · rw [if_neg h2, if_neg (show ¬ n < 0x800 by omega)]
      by_cases h3 : n ≤ 0xffff
      · rw [if_pos h3, if_pos (show n < 0x10000 by omega)]
        simp only [List.map_cons, List.map_nil, conv]
        congr 1; omega
        congr 1; omega
        congr 1; omega
      · rw [if_neg h3, if_neg (show ¬ n < 0x10000 by omega)]
        simp only [List.map_cons, List.map_nil, conv]
        congr 1; omega
        congr 1; omega
        congr 1; omega
        congr 1; omega

theorem strBytes_eq (s : Str) : strBytes s = utf8 s := by
  induction s with
  | nil => rfl
  | cons c s ih =>
    unfold strBytes utf8 at ih ⊢
    rw [List.flatMap_cons, List.map_append, List.flatMap_cons, ← ih, utf8EncodeChar_eq]

theorem utf8_lt {s : Str} {b : Nat} (h : b ∈ utf8 s) : b < 256 := by
  rw [← strBytes_eq] at h
  obtain ⟨x, -, rfl⟩ := List.mem_map.1 h
  exact x.toNat_lt

theorem sizeOf_u8 (u : U8) : sizeOf (Ty.int u.ty) ≤ sizeOf (Ty.bytes u) := by
  cases u; simp

theorem u8_range {k : Int} : (IntTy.min ⟨false, 8⟩ ≤ k ∧ k ≤ IntTy.max ⟨false, 8⟩) ↔ 0 ≤ k ∧ k < 256 := by
  have h1 : IntTy.min ⟨false, 8⟩ = 0 := rfl
  have h2 : IntTy.max ⟨false, 8⟩ = 255 := rfl
  rw [h1, h2]; omega

theorem utf8_bytes (s : Str) : ∀ v ∈ (utf8 s).map (fun b : Nat => DVal.int b), ∃ k : Int, v = .int k ∧ 0 ≤ k ∧ k < 256 := by
  intro v hv
  obtain ⟨b, hb, rfl⟩ := List.mem_map.1 hv
  exact ⟨b, rfl, by omega, by have := utf8_lt hb; omega⟩

end Verif
