import Verif.Props.Write
import Verif.Proofs.Utf8
/-!
# Byte buffers: C96

`serde_bytes::ByteBuf` as the target of deserialization (`Ty.bytes`), for expressions, map keys and whole documents.
-/
set_option autoImplicit false

namespace Verif.Props
open Verif Spec

/-- The expression is an integer literal that is a byte, and this is its value. -/
def IsByte (e : Expr) (k : Nat) : Prop := k < 256 ∧ ∃ n : Number, e = .number n ∧ IsInteger n k

/-- A buffer of these bytes. -/
def buffer (ks : List Nat) : DVal := .seq (ks.map fun k : Nat => .int k)

theorem buffer_inj {ks ks' : List Nat} (h : buffer ks = buffer ks') : ks = ks' := by
  unfold buffer at h
  injection h with h
  exact List.map_inj_right (f := fun k : Nat => DVal.int k) (fun a b h => by injection h with h; omega) |>.1 h

section
variable {P : F64Parse} {I : F64OfInt}

theorem readsAll_bytes {es : List Expr} {vs : List DVal} (h : ReadsAll P I (.int ⟨false, 8⟩) (es.map .expr) vs) :
    ∃ ks : List Nat, vs = ks.map (fun k : Nat => DVal.int k) ∧ es.length = ks.length ∧ ∀ p ∈ es.zip ks, IsByte p.1 p.2 := by
  induction es generalizing vs with
  | nil => cases h; exact ⟨[], rfl, rfl, by simp⟩
  | cons e es ih =>
    cases h with
    | cons _ _ v _ vs h h' =>
      obtain ⟨ks, rfl, h1, h2⟩ := ih h'
      have hb : ∃ k : Nat, v = .int k ∧ IsByte e k := by
        cases h with
        | int _ n k hk h3 h4 =>
          obtain ⟨h5, h6⟩ := u8_range.1 ⟨h3, h4⟩
          have hz : ((k.toNat : Nat) : Int) = k := by omega
          exact ⟨k.toNat, by rw [hz], by omega, n, rfl, by rw [hz]; exact hk⟩
        | tuple _ _ _ _ _ h => cases h
        | object _ _ _ _ _ h => cases h
      obtain ⟨k, rfl, hb⟩ := hb
      refine ⟨k :: ks, rfl, by simp [h1], fun p hp => ?_⟩
      rw [List.zip_cons_cons, List.mem_cons] at hp
      rcases hp with rfl | hp
      · exact hb
      · exact h2 p hp

theorem bytes_readsAll {es : List Expr} {ks : List Nat} (hl : es.length = ks.length) (h : ∀ p ∈ es.zip ks, IsByte p.1 p.2) :
    ReadsAll P I (.int ⟨false, 8⟩) (es.map .expr) (ks.map fun k : Nat => DVal.int k) := by
  induction es generalizing ks with
  | nil =>
    cases ks with
    | nil => exact .nil _
    | cons k ks => simp at hl
  | cons e es ih =>
    cases ks with
    | nil => simp at hl
    | cons k ks =>
      obtain ⟨h1, n, rfl, h2⟩ := h (e, k) (by simp)
      have hr := (u8_range (k := (k : Int))).2 ⟨by omega, by omega⟩
      exact .cons _ _ _ _ _ (.int _ _ _ h2 hr.1 hr.2) (ih (by simpa using hl) fun p hp => h p (by simp [hp]))

theorem sameVal_buffer {ks : List Nat} {v : DVal} (h : SameVal (buffer ks) v) : v = buffer ks := by
  unfold buffer at h ⊢
  cases h with
  | refl => rfl
  | seq _ vs' hl hz =>
    congr 1
    refine List.ext_getElem (by rw [hl]) fun i h1 h2 => ?_
    have hm : ((ks.map fun k : Nat => DVal.int k)[i], vs'[i]) ∈ (ks.map fun k : Nat => DVal.int k).zip vs' := by
      rw [← List.getElem_zip (h := by simp; simp at h2; omega)]
      exact List.getElem_mem _
    have := hz _ hm
    rw [List.getElem_map] at this ⊢
    generalize vs'[i] = w at this
    cases this; rfl

variable (P I) (ord : HashOrder) (u : U8)

/-- C96: a tuple is read as a byte buffer exactly if all its items are integer literals from 0 to 255; the buffer has their
values, in order. -/
theorem c96_tuple (es : List Expr) (v : DVal) : deserialize P I ord (.bytes u) (.expr (.tuple es)) = .ok v ↔
    ∃ ks : List Nat, v = buffer ks ∧ es.length = ks.length ∧ ∀ p ∈ es.zip ks, IsByte p.1 p.2 := by
  constructor
  · intro h
    have := c68_deserialized_is_read P I ord _ (.bytes u) _ v h
    cases this with
    | tuple _ _ _ _ _ hs =>
      cases hs with
      | bytes _ _ vs hs =>
        obtain ⟨ks, rfl, h1, h2⟩ := readsAll_bytes hs
        exact ⟨ks, rfl, h1, h2⟩
  · rintro ⟨ks, rfl, h1, h2⟩
    obtain ⟨v', h3, h4⟩ := c68_read_is_deserialized P I ord (.bytes u) (.bytes u) _ (buffer ks)
      (.tuple _ es _ (by simp) (by simp) (.bytes u _ _ (bytes_readsAll h1 h2)))
    rw [h3, sameVal_buffer h4]

/-- C96: a text is always read as a byte buffer, of its UTF-8 encoding; so is a map key. -/
theorem c96_text (s : CowStr) : deserialize P I ord (.bytes u) (.expr (.string s)) = .ok (buffer (utf8 s.str)) ∧
    deserialize P I ord (.bytes u) (.key s) = .ok (buffer (utf8 s.str)) := by
  constructor
  · obtain ⟨v', h3, h4⟩ := c68_read_is_deserialized P I ord (.bytes u) (.bytes u) _ _ (.bytesString u s)
    rw [h3, sameVal_buffer h4]
  · obtain ⟨v', h3, h4⟩ := c68_read_is_deserialized P I ord (.bytes u) (.bytes u) _ _ (.bytesKey u s)
    rw [h3, sameVal_buffer h4]

/-- C96: nothing but tuples and texts is read as a byte buffer: every other expression is a type error (a number that does not
fit, a number error). -/
theorem c96_other (e : Expr) (h1 : ∀ es, e ≠ .tuple es) (h2 : ∀ s, e ≠ .string s) :
    deserialize P I ord (.bytes u) (.expr e) = .error .custom ∨
      ∃ n, e = .number n ∧ (¬ ∃ k, IsInteger n k) ∧ (¬ ∃ x, IsFloat P n x) ∧
        deserialize P I ord (.bytes u) (.expr e) = .error (if n.isFloat then .parseFloat else .parseInt) := by
  rw [deserialize_eq]
  cases e with
  | tuple es => exact absurd rfl (h1 es)
  | string s => exact absurd rfl (h2 s)
  | null => exact .inl rfl
  | boolean b => exact .inl rfl
  | object o => exact .inl rfl
  | number n =>
    by_cases hk : ∃ k, IsInteger n k
    · obtain ⟨k, hk⟩ := hk
      left
      show (deserializeNumber P n).bind _ = _
      rw [integer_call hk]; rfl
    · by_cases hx : ∃ x, IsFloat P n x
      · obtain ⟨x, hx⟩ := hx
        left
        show (deserializeNumber P n).bind _ = _
        rw [float_call hx]; rfl
      · refine .inr ⟨n, rfl, hk, hx, ?_⟩
        show (deserializeNumber P n).bind _ = _
        unfold deserializeNumber
        cases hf : n.isFloat with
        | true =>
          rw [if_pos rfl, if_pos rfl]
          cases hp : P n.input.str with
          | some x => exact absurd ⟨x, hf, hp⟩ hx
          | none => rfl
        | false =>
          have hs : n.isSigned = true := by simpa [Number.isFloat] using hf
          rw [hs, if_neg (by decide), if_pos rfl, if_neg (by decide)]
          cases hp : n.asInt ⟨true, 64⟩ with
          | some k => exact absurd ⟨k, hf, hp⟩ hk
          | none => rfl

/-- C96: different texts give different buffers, and a buffer given by a text is valid UTF-8 from which the text comes back. -/
theorem c96_text_kept (s s' : CowStr) (v : DVal) (h : deserialize P I ord (.bytes u) (.expr (.string s)) = .ok v)
    (h' : deserialize P I ord (.bytes u) (.expr (.string s')) = .ok v) : s.str = s'.str := by
  rw [(c96_text P I ord u s).1] at h
  rw [(c96_text P I ord u s').1] at h'
  cases h
  injection h' with h'
  have := buffer_inj h'
  have h1 := fromUtf8_utf8 s.str
  rw [← this, fromUtf8_utf8] at h1
  exact (Option.some.inj h1).symm

/-- C96: for a tuple, a byte buffer is what `Vec<u8>` is, errors included; a text is not a `Vec<u8>`. -/
theorem c96_vec (es : List Expr) (s : CowStr) :
    deserialize P I ord (.bytes u) (.expr (.tuple es)) = deserialize P I ord (.seq (.int ⟨false, 8⟩)) (.expr (.tuple es)) ∧
      deserialize P I ord (.seq (.int ⟨false, 8⟩)) (.expr (.string s)) = .error .custom := by
  obtain ⟨_, rfl⟩ := u
  constructor
  · rw [deserialize_eq, deserialize_eq P I ord (.seq _)]; rfl
  · rw [deserialize_eq]
    show Res.bind (.ok (deserializeString s)) _ = _
    unfold deserializeString
    split <;> rfl

theorem byte_res (e : Expr) : (∃ v, deserialize P I ord (.int ⟨false, 8⟩) (.expr e) = .ok v) ∨
    ∃ x, deserialize P I ord (.int ⟨false, 8⟩) (.expr e) = .error x := by
  rw [deserialize_eq]
  cases e with
  | number n =>
    show (∃ v, (deserializeNumber P n).bind _ = _) ∨ ∃ v, (deserializeNumber P n).bind _ = _
    cases hn : deserializeNumber P n with
    | ok c =>
      rcases number_call hn with ⟨x, -, rfl⟩ | ⟨k, -, rfl⟩
      · exact .inr ⟨_, rfl⟩
      · simp only [Res.bind, visit]
        split
        · exact .inl ⟨_, rfl⟩
        · exact .inr ⟨_, rfl⟩
    | error x => exact .inr ⟨_, rfl⟩
    | panic =>
      unfold deserializeNumber at hn
      split at hn <;> split at hn <;> try (cases hn; done)
      all_goals split at hn <;> cases hn
    | diverge =>
      unfold deserializeNumber at hn
      split at hn <;> split at hn <;> try (cases hn; done)
      all_goals split at hn <;> cases hn
  | string s =>
    right
    show ∃ x, Res.bind (.ok (deserializeString s)) _ = _
    unfold deserializeString
    split <;> exact ⟨_, rfl⟩
  | _ => exact .inr ⟨_, rfl⟩

/-- C96: reading an expression as a byte buffer gives a buffer or an error; it never panics. -/
theorem c96_no_panic (e : Expr) : (∃ ks : List Nat, deserialize P I ord (.bytes u) (.expr e) = .ok (buffer ks) ∧ ∀ k ∈ ks, k < 256) ∨
    ∃ x, deserialize P I ord (.bytes u) (.expr e) = .error x := by
  by_cases h1 : ∃ es, e = .tuple es
  · obtain ⟨es, rfl⟩ := h1
    have hd : (∃ vs, deAll (deserialize P I ord (.int ⟨false, 8⟩)) (es.map .expr) = .ok vs) ∨
        ∃ x, deAll (deserialize P I ord (.int ⟨false, 8⟩)) (es.map .expr) = .error x := by
      induction es with
      | nil => exact .inl ⟨_, rfl⟩
      | cons e es ih =>
        simp only [List.map_cons, deAll]
        rcases byte_res P I ord e with ⟨v, hv⟩ | ⟨x, hx⟩
        · rw [hv]
          rcases ih with ⟨vs, hvs⟩ | ⟨x, hx⟩
          · rw [hvs]; exact .inl ⟨_, rfl⟩
          · rw [hx]; exact .inr ⟨_, rfl⟩
        · rw [hx]; exact .inr ⟨_, rfl⟩
    have he : deserialize P I ord (.bytes u) (.expr (.tuple es)) =
        (deAll (deserialize P I ord (.int ⟨false, 8⟩)) (es.map .expr)).map .seq := by
      obtain ⟨_, rfl⟩ := u
      rw [deserialize_eq]; rfl
    rcases hd with ⟨vs, hd⟩ | ⟨x, hd⟩
    · left
      rw [hd] at he
      obtain ⟨ks, hk, hl, hb⟩ := (c96_tuple P I ord u es _).1 he
      refine ⟨ks, by rw [he]; show Res.ok _ = _; rw [hk], fun k hm => ?_⟩
      obtain ⟨i, hi, rfl⟩ := List.getElem_of_mem hm
      have hm2 : (es[i]'(by omega), ks[i]) ∈ es.zip ks := by
        rw [← List.getElem_zip (h := by simp; omega)]
        exact List.getElem_mem _
      exact (hb _ hm2).1
    · right
      rw [he, hd]; exact ⟨_, rfl⟩
  · by_cases h2 : ∃ s, e = .string s
    · obtain ⟨s, rfl⟩ := h2
      exact .inl ⟨_, (c96_text P I ord u s).1, fun k hk => utf8_lt hk⟩
    · rcases c96_other P I ord u e (fun es h => h1 ⟨es, h⟩) (fun s h => h2 ⟨s, h⟩) with h | ⟨n, -, -, -, h⟩
      · exact .inr ⟨_, h⟩
      · exact .inr ⟨_, h⟩

/-- C96: every sequence of bytes, valid UTF-8 or not, is the value of a field of some document; a text gives exactly the valid
ones. -/
theorem c96_every_buffer (U : CharClass) (f : Str) (hf : IsIdent U f) (ks : List Nat) (hk : ∀ k ∈ ks, k < 256) :
    (∃ s, deFromStr U P I ord (.struct [(f, .bytes u)]) s = .ok (.entries [(f, buffer ks)])) ∧
      ((∃ s, deserialize P I ord (.bytes u) (.expr (.string s)) = .ok (buffer ks)) ↔ ∃ t, fromUtf8 ks = some t) := by
  constructor
  · obtain ⟨F, hF⟩ := c78_writer_exists P I
    have hx : Expressible U P I (.bytes u) (buffer ks) := .bytes u _ fun v hv => by
      obtain ⟨k, hm, rfl⟩ := List.mem_map.1 hv
      exact ⟨k, rfl, by omega, by have := hk k hm; omega⟩
    obtain ⟨v', h1, h2⟩ := c78_written_is_read U P I ord F hF (.struct [(f, .bytes u)])
      (.struct _ (by simp) (by simp; exact .bytes u)) (.struct _ (by simp; exact .bytes u)) (.entries [(f, buffer ks)])
      (.inl ⟨_, rfl⟩) (.struct [(f, .bytes u)] [buffer ks] (by simpa using hf) rfl (by simpa using hx))
    obtain ⟨b, h3, h4⟩ := c68_from_str_value P I ord U _ (.struct _ (by simp) (by simp; exact .bytes u)) _ _ h1
    have hv : ∃ w, v' = .entries [(f, w)] := by
      cases h4 with
      | body _ _ _ _ _ hm =>
        cases hm with
        | struct _ _ vs hs _ =>
          cases hs with
          | present _ _ _ v _ _ vs _ _ hs => cases hs; exact ⟨v, rfl⟩
    obtain ⟨w, rfl⟩ := hv
    refine ⟨_, h1.trans ?_⟩
    have hs : SameVal (buffer ks) w := by
      generalize hz : DVal.entries [(f, buffer ks)] = z at h2
      generalize hz' : DVal.entries [(f, w)] = z' at h2
      cases h2 with
      | refl => subst hz; cases hz'; exact .refl _
      | entries es es' es'' h5 h6 h7 =>
        cases hz; cases hz'
        have h8 := List.perm_singleton.1 h7
        subst h8
        exact h6 ((f, buffer ks), (f, w)) (by simp)
      | some => cases hz
      | seq => cases hz
    rw [sameVal_buffer hs]
  · constructor
    · rintro ⟨s, h⟩
      rw [(c96_text P I ord u s).1] at h
      injection h with h
      exact ⟨s.str, by rw [← buffer_inj h]; exact fromUtf8_utf8 _⟩
    · rintro ⟨t, h⟩
      refine ⟨.borrowed t, ?_⟩
      rw [(c96_text P I ord u _).1, fromUtf8_iff.1 h]; rfl

end

end Verif.Props
