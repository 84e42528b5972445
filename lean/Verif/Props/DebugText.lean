import Verif.Props.Debug
import Verif.Props.Messages
/-! # C76, C77: names of variants and strings as printed -/
set_option autoImplicit false

namespace Verif.Props
open Verif Spec

theorem hexDigit_digit {n : Nat} (h : n < 16) : Digit 16 (hexDigit n) n := by
  have key : ∀ n : Fin 16, (n.val < 10 ∧ '0' ≤ hexDigit n.val ∧ hexDigit n.val ≤ '9' ∧ (hexDigit n.val).toNat - '0'.toNat = n.val) ∨
      ('a' ≤ hexDigit n.val ∧ hexDigit n.val ≤ 'z' ∧ (hexDigit n.val).toNat - 'a'.toNat + 10 = n.val) := by decide
  rcases key ⟨n, h⟩ with ⟨h0, h1, h2, h3⟩ | ⟨h1, h2, h3⟩
  · have := Digit.dec 16 _ h1 h2 (by rw [h3]; exact h)
    rwa [h3] at this
  · have := Digit.lower 16 _ h1 h2 (by rw [h3]; exact h)
    rwa [h3] at this

theorem digit16_functional {c : Char} {v w : Nat} (h : Digit 16 c v) (h' : Digit 16 c w) : v = w := by
  cases h <;> cases h' <;> first | rfl | (exfalso; rename_i a b _ _ a' b'; simp only [Char.le_def, UInt32.le_iff_toNat_le] at *; simp at *; omega)

theorem numeral16_functional {ds : Str} {m n : Nat} (h : Numeral 16 ds m) (h' : Numeral 16 ds n) : m = n := by
  induction h generalizing n with
  | nil =>
    generalize hz : ([] : Str) = z at h'
    cases h' with
    | nil => rfl
    | snoc ds c _ _ _ _ => cases ds <;> cases hz
  | snoc ds c a v _ hd ih =>
    generalize hz : ds ++ [c] = z at h'
    cases h' with
    | nil => cases ds <;> cases hz
    | snoc ds' c' a' v' h' hd' =>
      have e1 := List.append_inj_right' hz rfl
      have e2 := List.append_inj_left' hz rfl
      cases e1
      subst e2
      rw [ih h', digit16_functional hd hd']

theorem hexAux_numeral : ∀ (f n : Nat), n ≤ f → Numeral 16 (hexAux f n) n := by
  intro f
  induction f with
  | zero =>
    intro n hn
    have : n = 0 := by omega
    subst this
    have := Numeral.snoc (base := 16) [] (hexDigit 0) 0 0 .nil (hexDigit_digit (by omega))
    simpa [hexAux] using this
  | succ f ih =>
    intro n hn
    unfold hexAux
    split
    · rename_i h
      have := Numeral.snoc (base := 16) [] (hexDigit n) 0 n .nil (hexDigit_digit h)
      simpa using this
    · have := Numeral.snoc (base := 16) _ (hexDigit (n % 16)) (n / 16) (n % 16) (ih (n / 16) (by omega)) (hexDigit_digit (by omega))
      rwa [Nat.div_add_mod' n 16] at this

theorem hexAux_length : ∀ (f n d : Nat), n < 16 ^ (d + 1) → (hexAux f n).length ≤ d + 1 := by
  intro f
  induction f with
  | zero => intro n d _; simp [hexAux]
  | succ f ih =>
    intro n d hn
    unfold hexAux
    split
    · simp
    · rename_i h
      cases d with
      | zero => simp at hn; omega
      | succ d =>
        have := ih (n / 16) d (by rw [Nat.div_lt_iff_lt_mul (by omega)]; rwa [Nat.pow_succ] at hn)
        simp; omega

theorem hexAux_nonempty (f n : Nat) : hexAux f n ≠ [] := by
  cases f with
  | zero => simp [hexAux]
  | succ f => unfold hexAux; split <;> simp

/-- C77: a string is printed as a Rust string literal for it. -/
theorem c77_strings_are_literals (D : DebugStyle) (s : Str) : ∃ t, debugStr D s = '"' :: t ++ ['"'] ∧ RustContent t s := by
  refine ⟨_, rfl, ?_⟩
  induction s with
  | nil => exact .nil
  | cons c s ih =>
    simp only [List.map_cons, List.flatten_cons]
    generalize (List.map (escapeDebug D) s).flatten = z at ih ⊢
    unfold escapeDebug
    split
    · next h => subst h; exact .escape _ _ _ _ (by simp) ih
    split
    · next h => subst h; exact .escape _ _ _ _ (by simp) ih
    split
    · next h => subst h; exact .escape _ _ _ _ (by simp) ih
    split
    · next h => subst h; exact .escape _ _ _ _ (by simp) ih
    split
    · next h => subst h; exact .escape _ _ _ _ (by simp) ih
    split
    · next h => obtain ⟨h, -⟩ := h; subst h; exact .escape _ _ _ _ (by simp) ih
    split
    · next h => obtain ⟨h, -⟩ := h; subst h; exact .escape _ _ _ _ (by simp) ih
    split
    · exact .char _ _ _ ‹_› ‹_› ih
    · have hc : c.toNat < 16 ^ (5 + 1) := by
        have := c.valid
        simp only [Char.toNat]
        have h2 : c.val.toNat < 0x110000 := by
          rcases this with h | h
          · exact Nat.lt_trans h (by decide)
          · exact h.2
        exact Nat.lt_of_lt_of_le h2 (by decide)
      have := RustContent.unicode (hexText c.toNat) c _ s (hexAux_nonempty _ _) (hexAux_length _ _ 5 hc) (hexAux_numeral _ _ (Nat.le_refl _)) ih
      simpa using this

/-- C77: a string literal of Rust stands for one string only. -/
theorem c77_literal_unique {t v w : Str} (h : RustContent t v) (h' : RustContent t w) : v = w := by
  have num_close : ∀ {b : Nat} {ds : Str} {n : Nat}, Numeral b ds n → '}' ∉ ds := by
    intro b ds n h
    induction h with
    | nil => simp
    | snoc ds c n v _ hd ih =>
      intro h
      simp at h
      rcases h with h | rfl
      · exact ih h
      · generalize hz : '}' = z at hd
        cases hd with
        | dec h1 h2 => subst hz; revert h2; decide
        | lower h1 h2 => subst hz; revert h2; decide
        | upper h1 h2 => subst hz; revert h2; decide
  induction h generalizing w with
  | nil => cases h'; rfl
  | char c t v h1 h2 _ ih =>
    generalize hz : c :: t = z at h'
    cases h' with
    | nil => cases hz
    | char c' t' w' _ _ h' => cases hz; rw [ih h']
    | escape => cases hz; exact absurd rfl h2
    | unicode => cases hz; exact absurd rfl h2
  | escape k c t v hk _ ih =>
    generalize hz : '\\' :: k :: t = z at h'
    cases h' with
    | nil => cases hz
    | char c' t' w' _ h2 h' => cases hz; exact absurd rfl h2
    | escape k' c' t' w' hk' h' =>
      cases hz
      rw [ih h']
      have : ∀ p ∈ [('t', '\t'), ('r', '\r'), ('n', '\n'), ('\\', '\\'), ('"', '"'), ('\'', '\''), ('0', '\x00')],
        ∀ q ∈ [('t', '\t'), ('r', '\r'), ('n', '\n'), ('\\', '\\'), ('"', '"'), ('\'', '\''), ('0', '\x00')],
          p.1 = q.1 → p.2 = q.2 := by decide
      have e : c = c' := this _ hk _ hk' rfl
      rw [e]
    | unicode ds c' t' w' h1 h2 h3 h' => cases hz; revert hk; simp
  | unicode ds c t v h1 h2 h3 _ ih =>
    generalize hz : ['\\', 'u', '{'] ++ ds ++ '}' :: t = z at h'
    cases h' with
    | nil => cases hz
    | char c' t' w' _ h2 h' => injection hz with hz _; exact absurd hz.symm h2
    | escape k' c' t' w' hk' h' => injection hz with _ hz; injection hz with hz _; subst hz; revert hk'; simp
    | unicode ds' c' t' w' g1 g2 g3 h' =>
      have e : ds ++ '}' :: t = ds' ++ '}' :: t' := by simpa using hz
      obtain ⟨rfl, rfl⟩ := split_first (num_close h3) (num_close g3) e
      rw [ih h']
      have := numeral16_functional h3 g3
      have : c = c' := Char.toNat_inj.1 this
      rw [this]

/-- C76: the name of a variant in error messages is the word with which values of it are printed. -/
theorem c76_variant_is_printed_name (D : DebugStyle) (v : Value) : ∃ t, (v.debug D).pretty D = v.variant.name ++ t ∧
    (t = [] ∨ ∃ u, t = '(' :: u) := by
  cases v with
  | null => exact ⟨[], rfl, .inl rfl⟩
  | block b =>
    cases b <;> (simp only [Value.debug, DTree.pretty, List.append_assoc]; exact ⟨_, rfl, .inr ⟨_, rfl⟩⟩)
  | _ => simp only [Value.debug, DTree.pretty, List.append_assoc]; exact ⟨_, rfl, .inr ⟨_, rfl⟩⟩

/-- C77: a text of printable characters without quotes and backslashes is printed as it is, between quotes. -/
theorem c77_printable_as_written (D : DebugStyle) (s : Str) (h : ∀ c ∈ s, D.printable c = true ∧ c ∉ ['\t', '\r', '\n', '\\', '"', '\'', '\x00']) :
    debugStr D s = '"' :: s ++ ['"'] := by
  unfold debugStr
  have : (s.map (escapeDebug D)).flatten = s := by
    induction s with
    | nil => rfl
    | cons c s ih =>
      obtain ⟨h1, h2⟩ := h c List.mem_cons_self
      simp only [List.mem_cons, List.not_mem_nil, or_false, not_or] at h2
      obtain ⟨a1, a2, a3, a4, a5, a6, a7⟩ := h2
      simp [escapeDebug, h1, a1, a2, a3, a4, a5, a6, a7, ih fun c hc => h c (List.mem_cons_of_mem _ hc)]
  rw [this]

/-- C77: and what is printed for a text is all printable or plain ASCII: other characters are shown by their numbers. -/
theorem c77_printed_is_printable (D : DebugStyle) (s : Str) : ∀ c ∈ debugStr D s, D.printable c = true ∨ (0x20 ≤ c.toNat ∧ c.toNat < 0x7f) := by
  have hd : ∀ n, n < 16 → 0x20 ≤ (hexDigit n).toNat ∧ (hexDigit n).toNat < 0x7f := by decide
  have ha : ∀ f n c, c ∈ hexAux f n → 0x20 ≤ c.toNat ∧ c.toNat < 0x7f := by
    intro f
    induction f with
    | zero => intro n c h; simp only [hexAux, List.mem_singleton] at h; subst h; exact hd _ (Nat.mod_lt _ (by decide))
    | succ f ih =>
      intro n c h
      unfold hexAux at h
      split at h
      · rename_i hn; simp only [List.mem_singleton] at h; subst h; exact hd _ hn
      · rcases List.mem_append.1 h with h | h
        · exact ih _ _ h
        · simp only [List.mem_singleton] at h; subst h; exact hd _ (Nat.mod_lt _ (by decide))
  intro c h
  unfold debugStr at h
  rcases List.mem_append.1 h with h | h
  · rcases List.mem_cons.1 h with rfl | h
    · exact .inr (by decide)
    · obtain ⟨x, hx, hc⟩ := List.mem_flatten.1 h
      obtain ⟨d, -, rfl⟩ := List.mem_map.1 hx
      unfold escapeDebug at hc
      repeat' split at hc
      all_goals try (simp only [List.mem_cons, List.not_mem_nil, or_false] at hc; rcases hc with rfl | rfl <;> exact .inr (by decide))
      · simp only [List.mem_singleton] at hc; subst hc; exact .inl (by assumption)
      · simp only [List.mem_append, List.mem_cons, List.not_mem_nil, or_false] at hc
        rcases hc with (((rfl | rfl | rfl) | hc) | rfl)
        · exact .inr (by decide)
        · exact .inr (by decide)
        · exact .inr (by decide)
        · exact .inr (ha _ _ _ hc)
        · exact .inr (by decide)
  · simp only [List.mem_singleton] at h; subst h; exact .inr (by decide)

/-- Non-vacuity of C77: plain characters. -/
example := c77_printable_as_written plainStyle "a b".toList (by decide)

/-- Non-vacuity: a string with a character shown by its number. -/
example : debugStr plainStyle "a\"é".toList = "\"a\\\"\\u{e9}\"".toList ∧ RustContent "a\\\"\\u{e9}".toList "a\"é".toList := by
  obtain ⟨t, h1, h2⟩ := c77_strings_are_literals plainStyle "a\"é".toList
  have e : debugStr plainStyle "a\"é".toList = "\"a\\\"\\u{e9}\"".toList := by decide +kernel
  refine ⟨e, ?_⟩
  rw [e] at h1
  have : t = "a\\\"\\u{e9}".toList := by
    have h1 : '"' :: "a\\\"\\u{e9}".toList ++ ['"'] = '"' :: t ++ ['"'] := h1
    have := List.append_inj_left' h1 rfl
    injection this with _ this
    exact this.symm
  rwa [this] at h2

end Verif.Props
