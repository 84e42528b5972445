import Verif.Proofs.Layout
/-! # Identifiers and strings: the parsers agree with the specification -/
set_option autoImplicit false

namespace Verif
open PRes Spec

/-! ## character facts -/

theorem isDigit_iff {c : Char} : c.isDigit = true ↔ '0' ≤ c ∧ c ≤ '9' := by
  simp [Char.isDigit, Char.le_def]

theorem toNat_le_iff {c d : Char} : c ≤ d ↔ c.toNat ≤ d.toNat := by
  rw [Char.le_def, UInt32.le_iff_toNat_le]; rfl

theorem Spec.Head.not_nil {P : Char → Prop} : ¬ Head P [] := by rintro ⟨c, t, h, _⟩; cases h

theorem head_cons {P : Char → Prop} {c : Char} {t : Str} : Head P (c :: t) ↔ P c := by
  constructor
  · rintro ⟨c', t', h, hp⟩; injection h with h1 h2; subst h1; exact hp
  · intro h; exact ⟨c, t, rfl, h⟩

/-! ## identifiers -/

theorem identChar_iff {U : CharClass} {c : Char} : identChar U c = true ↔ IdentChar U c := by
  simp [identChar, IdentChar]
theorem identStart_iff {U : CharClass} {c : Char} : identStart U c = true ↔ IdentStart U c := by
  simp [identStart, IdentStart]

theorem identStart_identChar {U : CharClass} {c : Char} (h : IdentStart U c) : IdentChar U c := by
  rcases h with h | rfl
  · exact .inl (U.idStart_idContinue c h)
  · exact .inl (by rw [U.idContinue_ascii '_' (by decide)]; decide)

theorem identifier_iff {U : CharClass} {s r i : Str} : identifier U s = .ok r i ↔ Ident U s i r := by
  unfold identifier Ident
  rw [verify_eq_ok, takeWhile1_iff]
  constructor
  · rintro ⟨⟨h1, h2, h3, h4⟩, h5⟩
    refine ⟨h1, ?_, ?_⟩
    · cases i with
      | nil => exact absurd rfl h2
      | cons c cs =>
        exact .mk c cs (identStart_iff.1 h5) fun d hd => identChar_iff.1 (h3 d (List.mem_cons_of_mem _ hd))
    · rintro ⟨c, t, hr, hc⟩
      have := h4 c t hr
      rw [identChar_iff.2 hc] at this; cases this
  · rintro ⟨h1, h2, h3⟩
    cases h2 with
    | mk c cs hc hcs =>
      refine ⟨⟨h1, by simp, ?_, ?_⟩, identStart_iff.2 hc⟩
      · intro d hd
        rcases List.mem_cons.1 hd with rfl | hd
        · exact identChar_iff.2 (identStart_identChar hc)
        · exact identChar_iff.2 (hcs d hd)
      · intro d t hr
        cases hd : identChar U d with
        | false => rfl
        | true => exact absurd ⟨d, t, hr, identChar_iff.1 hd⟩ h3

theorem Tame.identifier (U : CharClass) : Tame (identifier U) := .verify (.takeWhile1 _)

theorem identifier_err {U : CharClass} {s : Str} (h : ¬ Head (IdentStart U) s) : identifier U s = .err :=
  (Tame.identifier U).not_ok fun r v h' => by
    obtain ⟨rfl, h2, -⟩ := identifier_iff.1 h'
    cases h2 with
    | mk c cs hc _ => exact h ⟨c, cs ++ r, rfl, hc⟩

theorem Spec.Ident.head {U : CharClass} {s i r : Str} (h : Ident U s i r) : Head (IdentStart U) s := by
  obtain ⟨rfl, h2, -⟩ := h
  cases h2 with
  | mk c cs hc _ => exact ⟨c, cs ++ r, rfl, hc⟩

theorem identifier_ok_of_head {U : CharClass} {s : Str} (h : Head (IdentStart U) s) :
    ∃ r i, identifier U s = .ok r i := by
  obtain ⟨c, t, rfl, hc⟩ := h
  refine ⟨(c :: t).dropWhile (identChar U), (c :: t).takeWhile (identChar U), ?_⟩
  have hc' := identChar_iff.2 (identStart_identChar hc)
  unfold identifier
  rw [verify_eq_ok, takeWhile1_eq_ok]
  simp [hc', identStart_iff.2 hc]

theorem Spec.Ident.length {U : CharClass} {s i r : Str} (h : Ident U s i r) : r.length < s.length := by
  obtain ⟨rfl, h2, -⟩ := h
  cases h2; simp; omega

/-- ASCII characters that are neither letters, digits, `_` nor `-` never occur in identifiers. -/
theorem not_identChar {U : CharClass} {c : Char} (h : c.toNat < 128)
    (h' : (c.isAlphanum || c == '_' || c == '-') = false) : ¬ IdentChar U c := by
  rintro (h1 | rfl)
  · rw [U.idContinue_ascii c h] at h1; simp at h' h1; simp_all
  · simp at h'

theorem not_identStart {U : CharClass} {c : Char} (h : c.toNat < 128)
    (h' : (c.isAlpha || c == '_') = false) : ¬ IdentStart U c := by
  rintro (h1 | rfl)
  · rw [U.idStart_ascii c h] at h1; simp at h' h1; simp_all
  · simp at h'

/-! ## numerals and escapes -/

theorem digit8_iff {c : Char} : isOctDigit c = true ↔ ∃ v, Digit 8 c v := by
  simp only [isOctDigit, Bool.and_eq_true, decide_eq_true_eq]
  constructor
  · rintro ⟨h1, h2⟩
    refine ⟨_, .dec 8 c (toNat_le_iff.2 h1) (toNat_le_iff.2 (by simp at *; omega)) (by simp at *; omega)⟩
  · rintro ⟨v, h⟩
    cases h with
    | dec h1 h2 h3 => rw [toNat_le_iff] at h1 h2; simp at *; omega
    | lower h1 h2 h3 => exact absurd h3 (by omega)
    | upper h1 h2 h3 => exact absurd h3 (by omega)

theorem digit16_iff {c : Char} : isHexDigit c = true ↔ ∃ v, Digit 16 c v := by
  simp only [isHexDigit, Bool.and_eq_true, Bool.or_eq_true, decide_eq_true_eq, isDigit_iff]
  constructor
  · rintro ((⟨h1, h2⟩ | ⟨h1, h2⟩) | ⟨h1, h2⟩)
    · exact ⟨_, .dec 16 c h1 h2 (by rw [toNat_le_iff] at h1 h2; simp at *; omega)⟩
    · exact ⟨_, .lower 16 c (toNat_le_iff.2 h1) (toNat_le_iff.2 (by simp at *; omega)) (by simp at *; omega)⟩
    · exact ⟨_, .upper 16 c (toNat_le_iff.2 h1) (toNat_le_iff.2 (by simp at *; omega)) (by simp at *; omega)⟩
  · rintro ⟨v, h⟩
    cases h with
    | dec h1 h2 h3 => exact .inl (.inl ⟨h1, h2⟩)
    | lower h1 h2 h3 => rw [toNat_le_iff] at h1 h2; left; right; simp at *; omega
    | upper h1 h2 h3 => rw [toNat_le_iff] at h1 h2; right; simp at *; omega

theorem digitVal_eq {b : Nat} {c : Char} {v : Nat} (hb : b ≤ 16) (h : Digit b c v) : digitVal c = v := by
  cases h with
  | dec h1 h2 h3 => simp [digitVal, isDigit_iff.2 ⟨h1, h2⟩]
  | lower h1 h2 h3 =>
    have hd : c.isDigit = false := by
      cases h : c.isDigit with
      | false => rfl
      | true =>
        have := isDigit_iff.1 h
        rw [toNat_le_iff] at *; rw [toNat_le_iff] at this; simp at *; omega
    rw [toNat_le_iff] at h1 h2
    unfold digitVal
    rw [if_neg (by simp [hd]), if_pos]
    simp at *; omega
  | upper h1 h2 h3 =>
    have hd : c.isDigit = false := by
      cases h : c.isDigit with
      | false => rfl
      | true =>
        have := isDigit_iff.1 h
        rw [toNat_le_iff] at *; rw [toNat_le_iff] at this; simp at *; omega
    rw [toNat_le_iff] at h1 h2
    unfold digitVal
    rw [if_neg (by simp [hd]), if_neg, if_pos]
    · simp at *; omega
    · simp at *; omega

theorem numeral_iff {b : Nat} {f : Char → Bool} (hb : b ≤ 16) (hf : ∀ c, f c = true ↔ ∃ v, Digit b c v)
    {ds : Str} {n : Nat} : Numeral b ds n ↔ (∀ c ∈ ds, f c = true) ∧ radixVal b ds = n := by
  constructor
  · intro h
    induction h with
    | nil => simp [radixVal]
    | snoc ds c n v _ hc ih =>
      refine ⟨?_, ?_⟩
      · intro d hd
        rcases List.mem_append.1 hd with hd | hd
        · exact ih.1 d hd
        · simp at hd; subst hd; exact (hf _).2 ⟨v, hc⟩
      · have := ih.2
        simp only [radixVal] at this ⊢
        rw [List.foldl_append, this]; simp [digitVal_eq hb hc]
  · rintro ⟨h1, rfl⟩
    generalize hr : ds.reverse = rs
    induction rs generalizing ds with
    | nil => simp at hr; subst hr; exact .nil
    | cons c rs ih =>
      have hds : ds = rs.reverse ++ [c] := by
        have := congrArg List.reverse hr; simpa using this
      subst hds
      obtain ⟨v, hv⟩ := (hf c).1 (h1 c (by simp))
      have := Numeral.snoc rs.reverse c _ v (ih (fun d hd => h1 d (by simp at hd ⊢; exact .inl hd)) (by simp)) hv
      have e : radixVal b (rs.reverse ++ [c]) = radixVal b rs.reverse * b + v := by
        simp only [radixVal]; rw [List.foldl_append]; simp [digitVal_eq hb hv]
      rw [e]; exact this

theorem charFromU32_iff {n : Nat} {c : Char} : charFromU32 n = some c ↔ c.toNat = n := by
  unfold charFromU32
  constructor
  · intro h
    split at h
    · rename_i hv
      injection h with h; subst h
      show (Char.ofNatAux n hv).toNat = n
      simp only [Char.toNat, Char.ofNatAux]
      simp
    · cases h
  · rintro rfl
    have hv : c.toNat.isValidChar := c.valid
    rw [dif_pos hv]
    congr 1

theorem takeWhileMN_eq_ok {n : Nat} {f : Char → Bool} {s r v : Str} :
    takeWhileMN 1 n f s = .ok r v ↔
      s = v ++ r ∧ v ≠ [] ∧ v.length ≤ n ∧ (∀ c ∈ v, f c = true) ∧
        (v.length = n ∨ ∀ c t, r = c :: t → f c = false) := by
  have key : ∀ (n : Nat) (s : Str), ∃ u, s = (s.take n).takeWhile f ++ u ∧
      u = s.drop ((s.take n).takeWhile f).length ∧
      (((s.take n).takeWhile f).length = n ∨ ∀ c t, u = c :: t → f c = false) ∧
      ((s.take n).takeWhile f).length ≤ n := by
    intro n
    induction n with
    | zero => intro s; simp
    | succ n ih =>
      intro s
      cases s with
      | nil => simp
      | cons d s =>
        by_cases hd : f d = true
        · obtain ⟨u, h1, h2, h3, h4⟩ := ih s
          refine ⟨u, ?_, ?_, ?_, ?_⟩
          · simp [hd]; exact h1
          · simp [hd]; exact h2
          · simp [hd]; exact h3
          · simp [hd]; exact h4
        · refine ⟨d :: s, ?_⟩
          simp [hd]
  unfold takeWhileMN
  obtain ⟨u, h1, h2, h3, h4⟩ := key n s
  generalize hw : (s.take n).takeWhile f = w at *
  simp only []
  constructor
  · intro h
    split at h
    · cases h
    · injection h with e1 e2
      subst e1 e2
      rw [← h2]
      refine ⟨h1, ?_, h4, ?_, h3⟩
      · intro h; subst h; simp at *
      · intro c hc; rw [← hw] at hc; exact mem_takeWhile hc
  · rintro ⟨g1, g2, g3, g4, g5⟩
    have hwv : w = v := by
      subst g1
      rw [← hw]
      rcases g5 with g5 | g5
      · rw [List.take_append_of_le_length (by omega), List.take_of_length_le (by omega)]
        have := takeWhile_append_of (f := f) (v := v) (r := []) g4 (by intro c t h; cases h)
        simpa using this.1
      · have : (v ++ r).take n = v ++ r.take (n - v.length) := by
          rw [List.take_append, List.take_of_length_le g3]
        rw [this]
        refine (takeWhile_append_of g4 ?_).1
        intro c t h
        cases r with
        | nil => simp at h
        | cons d r =>
          have : n - v.length ≠ 0 := by intro h0; rw [h0] at h; simp at h
          obtain ⟨k, hk⟩ := Nat.exists_eq_succ_of_ne_zero this
          rw [hk] at h; simp at h
          rw [← h.1]; exact g5 d r rfl
    subst hwv
    have : w.length ≠ 0 := by simpa using g2
    rw [if_neg (by omega), g1]; simp

theorem Tame.takeWhileMN (m n : Nat) (f : Char → Bool) : Tame (takeWhileMN m n f) := fun s => by
  unfold Verif.takeWhileMN; simp only []; split <;> simp

theorem Tame.mapRes {α β : Type} {p : Parser α} {g : α → Option β} (hp : Tame p) : Tame (mapRes p g) := fun s => by
  unfold Verif.mapRes
  rcases hp s with ⟨r, v, h⟩ | h
  · rw [h, bind_ok]; split <;> simp
  · simp [h]

theorem Tame.hexArm (k : Char) (n : Nat) : Tame (hexArm k n) :=
  .mapRes (.bind (.tag _) fun _ => .takeWhileMN _ _ _)

theorem hexToString_iff {ds v : Str} : hexToString ds = some v ↔ ∃ c : Char, v = [c] ∧ c.toNat = radixVal 16 ds := by
  unfold hexToString
  cases h : charFromU32 (radixVal 16 ds) with
  | none =>
    simp
    rintro c - hc
    have := charFromU32_iff.2 hc; rw [h] at this; cases this
  | some d =>
    have hd := charFromU32_iff.1 h
    simp
    constructor
    · rintro rfl; exact ⟨d, rfl, hd⟩
    · rintro ⟨c, rfl, hc⟩
      have := charFromU32_iff.2 hc; rw [h] at this; injection this with this; rw [this]

theorem octalToString_iff {ds v : Str} : octalToString ds = some v ↔ ∃ c : Char, v = [c] ∧ c.toNat = radixVal 8 ds := by
  unfold octalToString
  cases h : charFromU32 (radixVal 8 ds) with
  | none =>
    simp
    rintro c - hc
    have := charFromU32_iff.2 hc; rw [h] at this; cases this
  | some d =>
    have hd := charFromU32_iff.1 h
    simp
    constructor
    · rintro rfl; exact ⟨d, rfl, hd⟩
    · rintro ⟨c, rfl, hc⟩
      have := charFromU32_iff.2 hc; rw [h] at this; injection this with this; rw [this]

theorem not_head_iff {f : Char → Bool} {P : Char → Prop} (hf : ∀ c, f c = true ↔ P c) {r : Str} :
    (∀ c t, r = c :: t → f c = false) ↔ ¬ Head P r := by
  constructor
  · rintro h ⟨c, t, hr, hp⟩
    have := h c t hr; rw [(hf c).2 hp] at this; cases this
  · intro h c t hr
    cases hc : f c with
    | false => rfl
    | true => exact absurd ⟨c, t, hr, (hf c).1 hc⟩ h

theorem hexArm_eq_ok {k : Char} {n : Nat} {s r v : Str} :
    hexArm k n s = .ok r v ↔ ∃ ds c, v = [c] ∧ s = k :: ds ++ r ∧ ds ≠ [] ∧ ds.length ≤ n ∧
      (ds.length = n ∨ ¬ Head (fun d => ∃ v, Digit 16 d v) r) ∧ Numeral 16 ds c.toNat := by
  unfold hexArm
  rw [mapRes_eq_ok]
  simp only [bind_apply, bind_eq_ok, tag_eq_ok, takeWhileMN_eq_ok, hexToString_iff,
    numeral_iff (f := isHexDigit) (Nat.le_refl 16) (fun c => digit16_iff),
    not_head_iff (f := isHexDigit) (P := fun d => ∃ v, Digit 16 d v) (fun c => digit16_iff)]
  constructor
  · rintro ⟨ds, ⟨s', _, ⟨rfl, -⟩, rfl, h1, h2, h3, h4⟩, c, rfl, hc⟩
    exact ⟨ds, c, rfl, by simp, h1, h2, h4, h3, hc.symm⟩
  · rintro ⟨ds, c, rfl, rfl, h1, h2, h4, h3, hc⟩
    exact ⟨ds, ⟨ds ++ r, _, ⟨by simp, rfl⟩, rfl, h1, h2, h3, h4⟩, c, rfl, hc.symm⟩

theorem octArm_eq_ok {s r v : Str} :
    mapRes (takeWhileMN 1 3 isOctDigit) octalToString s = .ok r v ↔ ∃ ds c, v = [c] ∧ s = ds ++ r ∧ ds ≠ [] ∧
      ds.length ≤ 3 ∧ (ds.length = 3 ∨ ¬ Head (fun d => ∃ v, Digit 8 d v) r) ∧ Numeral 8 ds c.toNat := by
  rw [mapRes_eq_ok]
  simp only [takeWhileMN_eq_ok, octalToString_iff,
    numeral_iff (f := isOctDigit) (by omega : (8:Nat) ≤ 16) (fun c => digit8_iff),
    not_head_iff (f := isOctDigit) (P := fun d => ∃ v, Digit 8 d v) (fun c => digit8_iff)]
  constructor
  · rintro ⟨ds, ⟨rfl, h1, h2, h3, h4⟩, c, rfl, hc⟩
    exact ⟨ds, c, rfl, rfl, h1, h2, h4, h3, hc.symm⟩
  · rintro ⟨ds, c, rfl, rfl, h1, h2, h4, h3, hc⟩
    exact ⟨ds, ⟨rfl, h1, h2, h3, h4⟩, c, rfl, hc.symm⟩

theorem returnError_eq_ok {α : Type} {p : Parser α} {s r : Str} {v : α} :
    returnError p s = .ok r v ↔ p s = .ok r v := by
  unfold returnError; cases p s <;> simp

theorem hexToUnicode_eq_ok {s r v : Str} :
    hexToUnicode s = .ok r v ↔ ∃ k n, (k, n) ∈ hexEscapes ∧ hexArm k n s = .ok r v := by
  unfold hexToUnicode
  rw [returnError_eq_ok]
  simp only [orElse_eq_ok]
  constructor
  · rintro (h | ⟨-, h | ⟨-, h⟩⟩)
    · exact ⟨'x', 2, by simp [hexEscapes], h⟩
    · exact ⟨'u', 4, by simp [hexEscapes], h⟩
    · exact ⟨'U', 8, by simp [hexEscapes], h⟩
  · rintro ⟨k, n, hk, h⟩
    have hne : ∀ k' n', k' ≠ k → hexArm k' n' s = .err := by
      intro k' n' hne
      refine (Tame.hexArm k' n').not_ok fun r' v' h' => ?_
      obtain ⟨_, _, -, h1, -⟩ := hexArm_eq_ok.1 h'
      obtain ⟨_, _, -, h2, -⟩ := hexArm_eq_ok.1 h
      rw [h1] at h2; simp at h2; exact hne h2.1
    simp [hexEscapes] at hk
    rcases hk with ⟨rfl, rfl⟩ | ⟨rfl, rfl⟩ | ⟨rfl, rfl⟩
    · exact .inl h
    · exact .inr ⟨hne _ _ (by decide), .inl h⟩
    · exact .inr ⟨hne _ _ (by decide), .inr ⟨hne _ _ (by decide), h⟩⟩

theorem octArm_err {c : Char} {s : Str} (h : isOctDigit c = false) :
    mapRes (takeWhileMN 1 3 isOctDigit) octalToString (c :: s) = .err :=
  (Tame.mapRes (.takeWhileMN _ _ _)).not_ok fun r v h' => by
    obtain ⟨ds, d, rfl, h1, h2, -, -, h3⟩ := octArm_eq_ok.1 h'
    cases ds with
    | nil => exact h2 rfl
    | cons e ds =>
      simp at h1
      have := ((numeral_iff (f := isOctDigit) (by omega : (8:Nat) ≤ 16) (fun c => digit8_iff)).1 h3).1 e (by simp)
      rw [← h1.1, h] at this; cases this

theorem unescape_eq_ok {s r v : Str} :
    unescape s = .ok r v ↔ ∃ e c, v = [c] ∧ s = e ++ r ∧ Escape e c r := by
  constructor
  · intro h
    unfold unescape at h
    simp only [orElse_eq_ok, mapP_eq_ok, tag_eq_ok] at h
    rcases h with h | ⟨-, h | ⟨-, h | ⟨-, h | ⟨-, h | ⟨-, h | ⟨-, h | ⟨-, h | ⟨-, h | ⟨-, h | ⟨-, h | ⟨-, h⟩⟩⟩⟩⟩⟩⟩⟩⟩⟩⟩
    any_goals
      obtain ⟨_, ⟨rfl, -⟩, rfl⟩ := h
      exact ⟨_, _, rfl, rfl, .simple _ _ _ (by decide)⟩
    · obtain ⟨ds, c, rfl, rfl, h1, h2, h3, h4⟩ := octArm_eq_ok.1 h
      exact ⟨ds, c, rfl, rfl, .octal ds c r h1 h2 h3 h4⟩
    · obtain ⟨k, n, hk, h⟩ := hexToUnicode_eq_ok.1 h
      obtain ⟨ds, c, rfl, rfl, h1, h2, h3, h4⟩ := hexArm_eq_ok.1 h
      exact ⟨k :: ds, c, rfl, rfl, .hex k n ds c r hk h1 h2 h3 h4⟩
  · rintro ⟨e, c, rfl, rfl, h⟩
    cases h with
    | simple k _ _ hk =>
      simp [simpleEscapes] at hk
      rcases hk with ⟨rfl, rfl⟩ | ⟨rfl, rfl⟩ | ⟨rfl, rfl⟩ | ⟨rfl, rfl⟩ | ⟨rfl, rfl⟩ | ⟨rfl, rfl⟩ | ⟨rfl, rfl⟩ |
        ⟨rfl, rfl⟩ | ⟨rfl, rfl⟩ | ⟨rfl, rfl⟩ <;>
        simp [unescape, orElse, tag_cons_ne]
    | octal _ _ _ h1 h2 h3 h4 =>
      have h5 := octArm_eq_ok.2 ⟨e, c, rfl, rfl, h1, h2, h3, h4⟩
      cases e with
      | nil => exact absurd rfl h1
      | cons d e =>
        have hd := ((numeral_iff (f := isOctDigit) (by omega : (8:Nat) ≤ 16) (fun c => digit8_iff)).1 h4).1 d (by simp)
        have hne : ∀ k : Char, isOctDigit k = false → tag [k] (d :: e ++ r) = .err := by
          intro k hk
          exact tag_cons_ne (by rintro rfl; rw [hd] at hk; cases hk)
        unfold unescape
        iterate 10 rw [orElse_of_err (by rw [mapP_apply, hne _ (by decide)]; rfl)]
        exact orElse_of_ok h5
    | hex k n ds _ _ hk h1 h2 h3 h4 =>
      have h5 := hexToUnicode_eq_ok.2 ⟨k, n, hk, hexArm_eq_ok.2 ⟨ds, c, rfl, rfl, h1, h2, h3, h4⟩⟩
      have hk' : k = 'x' ∨ k = 'u' ∨ k = 'U' := by
        simp [hexEscapes] at hk; rcases hk with ⟨h, -⟩ | ⟨h, -⟩ | ⟨h, -⟩ <;> simp [h]
      have hne : ∀ j : Char, j ≠ 'x' → j ≠ 'u' → j ≠ 'U' → tag [j] (k :: ds ++ r) = .err := by
        intro j a b c
        exact tag_cons_ne (by rintro rfl; rcases hk' with h | h | h <;> contradiction)
      unfold unescape
      iterate 10 rw [orElse_of_err (by rw [mapP_apply, hne _ (by decide) (by decide) (by decide)]; rfl)]
      rw [orElse_of_err]
      · exact h5
      · rcases hk' with rfl | rfl | rfl <;> exact octArm_err (by decide)

theorem Spec.Escape.ne_nil {e : Str} {c : Char} {r : Str} (h : Escape e c r) : e ≠ [] := by
  cases h with
  | simple => simp
  | octal _ _ _ h => exact h
  | hex => simp

theorem unescape_length {s r v : Str} (h : unescape s = .ok r v) : r.length < s.length := by
  obtain ⟨e, c, -, rfl, h'⟩ := unescape_eq_ok.1 h
  have := h'.ne_nil
  have : e.length ≠ 0 := by simpa using this
  simp; omega

/-- `unescape` never reports a recoverable error: anything it does not accept aborts the parse. -/
theorem unescape_ok_or_fail (s : Str) : (∃ r v, unescape s = .ok r v) ∨ unescape s = .fail s := by
  have e' : ∀ (p q : Parser Str) (s : Str), Tame p →
      ((∃ r v, q s = .ok r v) ∨ q s = .fail s) → ((∃ r v, (p <//> q) s = .ok r v) ∨ (p <//> q) s = .fail s) := by
    intro p q s hp h
    rcases hp s with ⟨r, v, h'⟩ | h'
    · exact .inl ⟨r, v, orElse_of_ok h'⟩
    · rw [orElse_of_err h']; exact h
  unfold unescape
  iterate 10 refine e' _ _ _ (.mapP (.tag _)) ?_
  refine e' _ _ _ (.mapRes (.takeWhileMN _ _ _)) ?_
  unfold hexToUnicode returnError
  rcases (Tame.orElse (Tame.hexArm 'x' 2) (.orElse (.hexArm 'u' 4) (.hexArm 'U' 8))) s with ⟨r, v, h⟩ | h
  · rw [h]; exact .inl ⟨r, v, rfl⟩
  · rw [h]; exact .inr rfl

/-! ## escaped content, one character at a time -/

section Escaped
variable {normal : Char → Bool} {un : Parser Str}

theorem escapedAux_cons (n : Nat) (c : Char) (cs : Str) :
    escapedAux normal un (n + 1) (c :: cs) = match takeWhile1 normal (c :: cs) with
      | .ok r v => (escapedAux normal un n r).map (v ++ ·)
      | _ => if c == '\\' then
          match cs with
          | [] => .err
          | _ => (un cs).bind fun r v =>
              if r.length < cs.length then (escapedAux normal un n r).map (v ++ ·) else .err
        else .ok (c :: cs) [] := rfl

theorem escapedAux_fuel : ∀ (n m : Nat) (s : Str), s.length < n → s.length < m →
    escapedAux normal un n s = escapedAux normal un m s := by
  intro n
  induction n with
  | zero => intro m s h; omega
  | succ n ih =>
    intro m s hn hm
    cases m with
    | zero => omega
    | succ m =>
      cases s with
      | nil => rfl
      | cons c cs =>
        simp only [escapedAux]
        cases h : takeWhile1 normal (c :: cs) with
        | ok r v =>
          simp only []
          have : r.length < (c :: cs).length := by
            obtain ⟨h1, h2, -⟩ := takeWhile1_iff.1 h
            rw [h1]; have : v.length ≠ 0 := by simpa using h2
            simp; omega
          simp at this hn hm
          rw [ih m r (by omega) (by omega)]
        | _ =>
          simp only []
          split
          · cases cs with
            | nil => rfl
            | cons d ds =>
              simp only []
              cases hu : un (d :: ds) with
              | ok r v =>
                simp only [bind_ok]
                split
                · simp at *; rw [ih m r (by omega) (by omega)]
                · rfl
              | _ => rfl
          · rfl

theorem escaped_nil : escapedTransform normal un [] = .ok [] [] := rfl

theorem escaped_plain {c : Char} {s : Str} (hc : normal c = true) :
    escapedTransform normal un (c :: s) = (escapedTransform normal un s).map (c :: ·) := by
  have h1 : takeWhile1 normal (c :: s) = .ok (s.dropWhile normal) (c :: s.takeWhile normal) := by
    rw [takeWhile1_eq_ok]; simp [hc]
  unfold escapedTransform
  conv => lhs; rw [escapedAux_cons]
  rw [h1]
  simp only []
  have hl : (s.dropWhile normal).length ≤ s.length := (List.dropWhile_sublist _).length_le
  cases s with
  | nil => simp [escapedAux]
  | cons d t =>
    by_cases hd : normal d = true
    · have h2 : takeWhile1 normal (d :: t) = .ok (t.dropWhile normal) (d :: t.takeWhile normal) := by
        rw [takeWhile1_eq_ok]; simp [hd]
      conv => rhs; rw [escapedAux_cons]
      rw [h2]
      simp only [List.dropWhile_cons, List.takeWhile_cons, hd, if_true]
      have hl : (t.dropWhile normal).length ≤ t.length := (List.dropWhile_sublist _).length_le
      rw [escapedAux_fuel (List.length (c :: d :: t)) (List.length (d :: t)) _ (by simp; omega) (by simp; omega)]
      cases escapedAux normal un (List.length (d :: t)) (List.dropWhile normal t) <;> simp
    · simp only [List.dropWhile_cons, List.takeWhile_cons, hd]
      rw [escapedAux_fuel (List.length (c :: d :: t)) (List.length (d :: t) + 1) _ (by simp) (by simp)]
      simp

theorem escaped_backslash {s : Str} (hn : normal '\\' = false) (hs : s ≠ []) :
    escapedTransform normal un ('\\' :: s) = (un s).bind fun r v =>
      if r.length < s.length then (escapedTransform normal un r).map (v ++ ·) else .err := by
  have h1 : takeWhile1 normal ('\\' :: s) = .err := by rw [takeWhile1_eq_err]; simp [hn]
  unfold escapedTransform
  conv => lhs; rw [escapedAux_cons]
  rw [h1]
  simp only [beq_self_eq_true, if_true]
  cases s with
  | nil => exact absurd rfl hs
  | cons d t =>
    cases hu : un (d :: t) with
    | ok r v =>
      simp only [bind_ok]
      split
      · simp at *; rw [escapedAux_fuel (List.length t + 1 + 1) (r.length + 1) r (by omega) (by omega)]
      · rfl
    | _ => rfl

theorem escaped_backslash_end (hn : normal '\\' = false) :
    escapedTransform normal un ['\\'] = .err := by
  have h1 : takeWhile1 normal ['\\'] = .err := by rw [takeWhile1_eq_err]; simp [hn]
  unfold escapedTransform
  rw [escapedAux_cons, h1]; simp

theorem escaped_stop {c : Char} {s : Str} (hc : normal c = false) (hb : c ≠ '\\') :
    escapedTransform normal un (c :: s) = .ok (c :: s) [] := by
  have h1 : takeWhile1 normal (c :: s) = .err := by rw [takeWhile1_eq_err]; simp [hc]
  unfold escapedTransform
  rw [escapedAux_cons, h1]; simp [hb]
end Escaped

theorem content_iff {normal : Char → Bool} {plain : Char → Prop} (hp : ∀ c, normal c = true ↔ plain c)
    (hn : normal '\\' = false) {s r v : Str} :
    escapedTransform normal unescape s = .ok r v ↔
      ∃ src, s = src ++ r ∧ Content plain src v r ∧ ¬ Head (fun c => plain c ∨ c = '\\') r := by
  constructor
  · intro h
    generalize hl : s.length = n
    induction n using Nat.strongRecOn generalizing s r v with
    | ind n ih =>
    cases s with
    | nil =>
      rw [escaped_nil] at h; injection h with h1 h2; subst h1 h2
      exact ⟨[], rfl, .nil _, Head.not_nil⟩
    | cons c cs =>
      by_cases hc : normal c = true
      · rw [escaped_plain hc] at h
        obtain ⟨v', h', rfl⟩ := map_eq_ok.1 h
        obtain ⟨src, rfl, h2, h3⟩ := ih cs.length (by simp at hl; omega) h' rfl
        exact ⟨c :: src, rfl, .plain c src v' r ((hp c).1 hc) h2, h3⟩
      · by_cases hb : c = '\\'
        · subst hb
          cases cs with
          | nil => rw [escaped_backslash_end hn] at h; cases h
          | cons d ds =>
            rw [escaped_backslash hn (by simp), bind_eq_ok] at h
            obtain ⟨r', v', hu, h⟩ := h
            split at h
            · rename_i hlt
              obtain ⟨v'', h', rfl⟩ := map_eq_ok.1 h
              obtain ⟨src, rfl, h2, h3⟩ := ih r'.length (by simp at hl hlt; omega) h' rfl
              obtain ⟨e, c', rfl, he, hE⟩ := unescape_eq_ok.1 hu
              refine ⟨'\\' :: e ++ src, ?_, .escape e c' src v'' r hE h2, h3⟩
              rw [he]; simp
            · cases h
        · have hc' : normal c = false := by simpa using hc
          rw [escaped_stop hc' hb] at h
          injection h with h1 h2; subst h1 h2
          refine ⟨[], rfl, .nil _, ?_⟩
          rw [head_cons]; rintro (h | h)
          · exact hc ((hp c).2 h)
          · exact hb h
  · rintro ⟨src, rfl, hC, hr⟩
    induction hC with
    | nil r =>
      cases r with
      | nil => rfl
      | cons c t =>
        rw [head_cons] at hr
        refine escaped_stop ?_ fun h => hr (.inr h)
        cases hc : normal c with
        | false => rfl
        | true => exact absurd (.inl ((hp c).1 hc)) hr
    | plain c s v r hc _ ih =>
      show escapedTransform normal unescape (c :: (s ++ r)) = _
      rw [escaped_plain ((hp c).2 hc), ih hr]; rfl
    | escape e c s v r hE _ ih =>
      have : '\\' :: e ++ s ++ r = '\\' :: (e ++ (s ++ r)) := by simp
      rw [this]
      have hu := unescape_eq_ok.2 ⟨e, c, rfl, rfl, hE⟩
      have hl := unescape_length hu
      rw [escaped_backslash hn (by have := hE.ne_nil; simp [this]), hu, bind_ok, if_pos hl, ih hr]
      rfl

theorem legalChar_iff (c : Char) : legalChar c = true ↔ Plain c := by simp [legalChar, Plain]
theorem legalSingleLineChar_iff (c : Char) : legalSingleLineChar c = true ↔ PlainLine c := by
  simp [legalSingleLineChar, PlainLine, and_assoc]

theorem quoted_iff {normal : Char → Bool} {plain : Char → Prop} (hp : ∀ c, normal c = true ↔ plain c)
    (hn : normal '\\' = false) (hq : normal '"' = false) {s r v : Str} :
    ((tag ['"'] >>= fun _ => escapedTransform normal unescape >>= fun v => tag ['"'] >>= fun _ => pure v :
      Parser Str) s) = .ok r v ↔ Quoted plain s v r := by
  simp only [bind_apply, bind_eq_ok, tag_eq_ok, pure_apply, content_iff hp hn]
  constructor
  · rintro ⟨s', _, ⟨rfl, -⟩, s'', v', ⟨src, rfl, h1, -⟩, s''', _, ⟨rfl, -⟩, h⟩
    injection h with h2 h3; subst h2 h3
    exact ⟨src, by simp, h1⟩
  · rintro ⟨src, rfl, h⟩
    refine ⟨src ++ '"' :: r, _, ⟨by simp, rfl⟩, '"' :: r, v, ⟨src, rfl, h, ?_⟩, r, _, ⟨rfl, rfl⟩, rfl⟩
    rw [head_cons]; rintro (h | h)
    · rw [(hp _).2 h] at hq; cases hq
    · simp at h

theorem quotedString_iff {s r v : Str} : quotedString s = .ok r v ↔ Quoted Plain s v r :=
  quoted_iff legalChar_iff (by decide) (by decide)
theorem stringLiteral_iff {s r v : Str} : stringLiteral s = .ok r v ↔ Quoted PlainLine s v r :=
  quoted_iff legalSingleLineChar_iff (by decide) (by decide)

/-- Parsers that never panic and never run out of fuel. -/
def Safe {α : Type} (p : Parser α) : Prop := ∀ s, p s ≠ .panic ∧ p s ≠ .diverge

theorem escaped_safe {normal : Char → Bool} (hn : normal '\\' = false) :
    Safe (escapedTransform normal unescape) := by
  intro s
  generalize hl : s.length = n
  induction n using Nat.strongRecOn generalizing s with
  | ind n ih =>
  cases s with
  | nil => simp [escaped_nil]
  | cons c cs =>
    by_cases hc : normal c = true
    · rw [escaped_plain hc]
      have := ih cs.length (by simp at hl; omega) cs rfl
      simp [this]
    · by_cases hb : c = '\\'
      · subst hb
        cases cs with
        | nil => simp [escaped_backslash_end hn]
        | cons d ds =>
          rw [escaped_backslash hn (by simp)]
          rcases unescape_ok_or_fail (d :: ds) with ⟨r, v, h⟩ | h
          · rw [h, bind_ok]
            split
            · rename_i hlt
              have := ih r.length (by simp at hl hlt; omega) r rfl
              simp [this]
            · simp
          · simp [h]
      · have hc' : normal c = false := by simpa using hc
        simp [escaped_stop hc' hb]

theorem Tame.safe {α : Type} {p : Parser α} (h : Tame p) : Safe p := fun s => by
  rcases h s with ⟨r, v, h⟩ | h <;> simp [h]

theorem Safe.bind {α β : Type} {p : Parser α} {f : α → Parser β} (hp : Safe p) (hf : ∀ v, Safe (f v)) :
    Safe (p >>= f) := fun s => by
  rw [bind_apply]
  have := hp s
  cases h : p s with
  | ok r v => exact hf v r
  | _ => simp_all

theorem Safe.orElse {α : Type} {p q : Parser α} (hp : Safe p) (hq : Safe q) : Safe (p <//> q) := fun s => by
  have := hp s; have := hq s
  unfold Verif.orElse
  cases h : p s <;> simp_all

theorem Safe.mapP {α β : Type} {g : α → β} {p : Parser α} (hp : Safe p) : Safe (mapP g p) := fun s => by
  have := hp s; simp_all

theorem Safe.quotedString : Safe quotedString :=
  .bind (Tame.tag _).safe fun _ => .bind (escaped_safe (by decide)) fun _ =>
    .bind (Tame.tag _).safe fun _ => (Tame.pure _).safe
theorem Safe.stringLiteral : Safe stringLiteral :=
  .bind (Tame.tag _).safe fun _ => .bind (escaped_safe (by decide)) fun _ =>
    .bind (Tame.tag _).safe fun _ => (Tame.pure _).safe

end Verif
