import Verif.Model.Owned
import Verif.Spec.Utf8
/-! # `from_utf8` decodes exactly the UTF-8 encodings -/
set_option autoImplicit false

namespace Verif
open Spec

theorem char_toNat_valid (c : Char) : c.toNat < 0xD800 ∨ (0xDFFF < c.toNat ∧ c.toNat < 0x110000) := c.valid

theorem ofNat_toNat (c : Char) : Char.ofNat c.toNat = c := Char.ofNat_toNat c

theorem toNat_ofNat {n : Nat} (h : n < 0xD800 ∨ (0xDFFF < n ∧ n < 0x110000)) : (Char.ofNat n).toNat = n := by
  have hv : n.isValidChar := h
  unfold Char.ofNat
  rw [dif_pos hv]
  rfl

theorem isCont_iff {b : Nat} : isCont b = true ↔ 0x80 ≤ b ∧ b ≤ 0xBF := by simp [isCont]

theorem second3_iff {a b : Nat} : second3 a b = true ↔ (a = 0xE0 ∧ 0xA0 ≤ b ∧ b ≤ 0xBF) ∨
    (0xE1 ≤ a ∧ a ≤ 0xEC ∧ 0x80 ≤ b ∧ b ≤ 0xBF) ∨ (a = 0xED ∧ 0x80 ≤ b ∧ b ≤ 0x9F) ∨
    (0xEE ≤ a ∧ a ≤ 0xEF ∧ 0x80 ≤ b ∧ b ≤ 0xBF) := by
  simp [second3, isCont, and_assoc, or_assoc]

theorem second4_iff {a b : Nat} : second4 a b = true ↔ (a = 0xF0 ∧ 0x90 ≤ b ∧ b ≤ 0xBF) ∨
    (0xF1 ≤ a ∧ a ≤ 0xF3 ∧ 0x80 ≤ b ∧ b ≤ 0xBF) ∨ (a = 0xF4 ∧ 0x80 ≤ b ∧ b ≤ 0x8F) := by
  simp [second4, isCont, and_assoc, or_assoc]

theorem fromUtf8_cons {n : Nat} (hv : n < 0xD800 ∨ (0xDFFF < n ∧ n < 0x110000)) (bs : List Nat) :
    fromUtf8 (utf8Nat n ++ bs) = (fromUtf8 bs).map (Char.ofNat n :: ·) := by
  unfold utf8Nat
  split
  · rename_i h
    rw [List.cons_append, fromUtf8.eq_def]
    simp only [List.nil_append]
    rw [if_pos h]
  · split
    · rename_i h1 h2
      rw [List.cons_append, fromUtf8.eq_def]
      simp only [List.cons_append, List.nil_append]
      rw [if_neg (by omega), if_pos (by omega), if_pos (isCont_iff.2 (by omega))]
      have : (0xC0 + n / 64 - 0xC0) * 64 + (0x80 + n % 64 - 0x80) = n := by omega
      rw [this]
    · split
      · rename_i h1 h2 h3
        rw [List.cons_append, fromUtf8.eq_def]
        simp only [List.cons_append, List.nil_append]
        rw [if_neg (by omega), if_neg (by omega), if_pos (by omega),
          if_pos (by rw [Bool.and_eq_true, second3_iff, isCont_iff]; omega)]
        have : (0xE0 + n / 4096 - 0xE0) * 4096 + (0x80 + n / 64 % 64 - 0x80) * 64 + (0x80 + n % 64 - 0x80) = n := by
          omega
        rw [this]
      · rename_i h1 h2 h3
        rw [List.cons_append, fromUtf8.eq_def]
        simp only [List.cons_append, List.nil_append]
        rw [if_neg (by omega), if_neg (by omega), if_neg (by omega), if_pos (by omega),
          if_pos (by rw [Bool.and_eq_true, Bool.and_eq_true, second4_iff, isCont_iff, isCont_iff]; omega)]
        have : (0xF0 + n / 262144 - 0xF0) * 262144 + (0x80 + n / 4096 % 64 - 0x80) * 4096 +
            (0x80 + n / 64 % 64 - 0x80) * 64 + (0x80 + n % 64 - 0x80) = n := by omega
        rw [this]

theorem fromUtf8_utf8 (s : Str) : fromUtf8 (utf8 s) = some s := by
  induction s with
  | nil => simp [utf8, fromUtf8]
  | cons c s ih =>
    have : utf8 (c :: s) = utf8Nat c.toNat ++ utf8 s := rfl
    rw [this, fromUtf8_cons (char_toNat_valid c), ih, ofNat_toNat]
    rfl

theorem utf8_fromUtf8 : ∀ (n : Nat) (bs : List Nat) (s : Str), bs.length ≤ n → fromUtf8 bs = some s → bs = utf8 s := by
  intro n
  induction n with
  | zero =>
    intro bs s h h'
    have : bs = [] := List.length_eq_zero_iff.1 (by omega)
    subst this
    simp [fromUtf8] at h'; subst h'; rfl
  | succ n ih =>
    intro bs s h h'
    rw [fromUtf8.eq_def] at h'
    have step : ∀ (k : Nat) (bs' : List Nat), (k < 0xD800 ∨ (0xDFFF < k ∧ k < 0x110000)) → bs'.length ≤ n →
        (fromUtf8 bs').map (Char.ofNat k :: ·) = some s → utf8Nat k ++ bs' = utf8 s := by
      intro k bs' hk hl hm
      cases hf : fromUtf8 bs' with
      | none => rw [hf] at hm; cases hm
      | some s' =>
        rw [hf] at hm
        injection hm with hm; subst hm
        have := ih bs' s' hl hf
        show _ = utf8Nat (Char.ofNat k).toNat ++ utf8 s'
        rw [toNat_ofNat hk, this]
    split at h'
    · injection h' with h'; subst h'; rfl
    · rename_i a t
      simp only [List.length_cons] at h
      split at h'
      · rename_i h1
        have := step a t (by omega) (by omega) h'
        rw [← this, utf8Nat, if_pos h1]; rfl
      · split at h'
        · rename_i h1 h2
          split at h'
          · rename_i b t'
            simp only [List.length_cons] at h
            split at h'
            · rename_i hb
              rw [isCont_iff] at hb
              have := step ((a - 0xC0) * 64 + (b - 0x80)) t' (by omega) (by omega) h'
              rw [← this, utf8Nat, if_neg (by omega), if_pos (by omega)]
              have e1 : 0xC0 + ((a - 0xC0) * 64 + (b - 0x80)) / 64 = a := by omega
              have e2 : 0x80 + ((a - 0xC0) * 64 + (b - 0x80)) % 64 = b := by omega
              rw [e1, e2]; rfl
            · cases h'
          · cases h'
        · split at h'
          · rename_i h1 h2 h3
            split at h'
            · rename_i b c t'
              simp only [List.length_cons] at h
              split at h'
              · rename_i hb
                rw [Bool.and_eq_true, second3_iff, isCont_iff] at hb
                generalize hk : (a - 0xE0) * 4096 + (b - 0x80) * 64 + (c - 0x80) = k at h'
                have := step k t' (by omega) (by omega) h'
                rw [← this, utf8Nat, if_neg (by omega), if_neg (by omega), if_pos (by omega)]
                have e1 : 0xE0 + k / 4096 = a := by omega
                have e2 : 0x80 + k / 64 % 64 = b := by omega
                have e3 : 0x80 + k % 64 = c := by omega
                rw [e1, e2, e3]; rfl
              · cases h'
            · cases h'
          · split at h'
            · rename_i h1 h2 h3 h4
              split at h'
              · rename_i b c d t'
                simp only [List.length_cons] at h
                split at h'
                · rename_i hb
                  rw [Bool.and_eq_true, Bool.and_eq_true, second4_iff, isCont_iff, isCont_iff] at hb
                  generalize hk : (a - 0xF0) * 262144 + (b - 0x80) * 4096 + (c - 0x80) * 64 + (d - 0x80) = k at h'
                  have := step k t' (by omega) (by omega) h'
                  rw [← this, utf8Nat, if_neg (by omega), if_neg (by omega), if_neg (by omega)]
                  have e1 : 0xF0 + k / 262144 = a := by omega
                  have e2 : 0x80 + k / 4096 % 64 = b := by omega
                  have e3 : 0x80 + k / 64 % 64 = c := by omega
                  have e4 : 0x80 + k % 64 = d := by omega
                  rw [e1, e2, e3, e4]; rfl
                · cases h'
              · cases h'
            · cases h'

theorem fromUtf8_iff {bs : List Nat} {s : Str} : fromUtf8 bs = some s ↔ bs = utf8 s :=
  ⟨utf8_fromUtf8 bs.length bs s (Nat.le_refl _), fun h => h ▸ fromUtf8_utf8 s⟩

end Verif
