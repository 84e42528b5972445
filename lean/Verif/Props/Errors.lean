import Verif.Model.Errors
import Verif.Proofs.Utf8
/-! # Error conversions (C54) -/
set_option autoImplicit false

namespace Verif.Props
open Verif Spec

section
variable {ι : Type}

/-- The entries of an error's chain: input and kind, in order. -/
def chain {ε : Type} : Context ι ε → List (ι × ErrorKind ε)
  | .code i k => [(i, k)]
  | .list l => l

/-- The public error for a custom code: what the code stands for, with the input it occurred at. -/
inductive CodeMeans (asBytes : ι → List Nat) (text : ι → Str) (i : ι) : Nat → PubErr → Prop
  | codePoint : CodeMeans asBytes text i 0 (.invalidUnicodeCodePoint (text i))
  | unicode : CodeMeans asBytes text i 1 (.invalidUnicode (asBytes i))
  | number : CodeMeans asBytes text i 2 (.invalidNumber (text i))

/-- The text of an input; "UNKNOWN" if it has none. -/
def textOr (convert : ι → Option Str) (i : ι) : Str :=
  match convert i with
  | some s => s
  | none => "UNKNOWN".toList

variable (asBytes : ι → List Nat) (convert : ι → Option Str)

private theorem textOr_eq (i : ι) : (convert i).getD unknownText = textOr convert i := by
  unfold textOr
  cases convert i <;> rfl

private theorem code_iff (i : ι) (c : Nat) (e : PubErr) :
    fromInputAndCode asBytes convert i c = some e ↔ CodeMeans asBytes (textOr convert) i c e := by
  unfold fromInputAndCode
  rw [textOr_eq]
  constructor
  · intro h
    rcases c with _ | _ | _ | c
    · injection h with h; subst h; exact .codePoint
    · injection h with h; subst h; exact .unicode
    · injection h with h; subst h; exact .number
    · cases h
  · intro h
    cases h <;> rfl

/-- C54: the public error is the specific one exactly for a failure whose last chain entry has a known custom code; it
carries the input of that entry. -/
theorem c54_specific_error_iff (shown : NomErr ι Nat → Str) (e : NomErr ι Nat) (p : PubErr)
    (hp : ∀ s, p ≠ .parseError s) :
    fromErr asBytes convert shown e = p ↔
      ∃ c i k, e = .failure c ∧ (chain c).getLast? = some (i, .custom k) ∧ CodeMeans asBytes (textOr convert) i k p := by
  have hctx : ∀ c, fromContext asBytes convert c = some p ↔
      ∃ i k, (chain c).getLast? = some (i, .custom k) ∧ CodeMeans asBytes (textOr convert) i k p := by
    intro c
    cases c with
    | code i kind =>
      cases kind with
      | custom k =>
        simp only [fromContext, chain, List.getLast?_singleton, code_iff]
        constructor
        · intro h; exact ⟨i, k, rfl, h⟩
        · rintro ⟨i', k', h, h'⟩
          injection h with h; injection h with h1 h2; injection h2 with h2
          subst h1; subst h2; exact h'
      | other d =>
        simp only [fromContext, chain, List.getLast?_singleton]
        constructor
        · intro h; cases h
        · rintro ⟨i', k', h, h'⟩; injection h with h; injection h with h1 h2; cases h2
    | list l =>
      simp only [fromContext, chain]
      cases hl : l.getLast? with
      | none =>
        constructor
        · intro h; cases h
        · rintro ⟨i', k', h, h'⟩; cases h
      | some q =>
        obtain ⟨i, kind⟩ := q
        cases kind with
        | custom k =>
          simp only [code_iff]
          constructor
          · intro h; exact ⟨i, k, rfl, h⟩
          · rintro ⟨i', k', h, h'⟩
            injection h with h; injection h with h1 h2; injection h2 with h2
            subst h1; subst h2; exact h'
        | other d =>
          constructor
          · intro h; cases h
          · rintro ⟨i', k', h, h'⟩; injection h with h; injection h with h1 h2; cases h2
  cases e with
  | incomplete n =>
    constructor
    · intro h; exact absurd h.symm (hp _)
    · rintro ⟨c, i, k, h, -⟩; cases h
  | error c =>
    constructor
    · intro h; exact absurd h.symm (hp _)
    · rintro ⟨c, i, k, h, -⟩; cases h
  | failure c =>
    simp only [fromErr]
    cases hc : fromContext asBytes convert c with
    | none =>
      constructor
      · intro h; exact absurd h.symm (hp _)
      · rintro ⟨c', i, k, h, h'⟩
        injection h with h; subst h
        rw [(hctx c).2 ⟨i, k, h'⟩] at hc; cases hc
    | some p' =>
      simp only []
      constructor
      · rintro rfl
        obtain ⟨i, k, h⟩ := (hctx c).1 hc
        exact ⟨c, i, k, rfl, h⟩
      · rintro ⟨c', i, k, h, h'⟩
        injection h with h; subst h
        rw [(hctx c).2 ⟨i, k, h'⟩] at hc
        injection hc with hc; exact hc.symm

/-- C54: in all other cases it is the generic parse error with the formatted nom error; there are no other variants. -/
theorem c54_otherwise_generic (shown : NomErr ι Nat → Str) (e : NomErr ι Nat) :
    (∃ c i k p, e = .failure c ∧ (chain c).getLast? = some (i, .custom k) ∧ CodeMeans asBytes (textOr convert) i k p) ∨
    fromErr asBytes convert shown e = .parseError (shown e) := by
  by_cases h : ∃ s, fromErr asBytes convert shown e = .parseError s
  · obtain ⟨s, h⟩ := h
    right
    rw [h]
    unfold fromErr at h
    split at h
    · rename_i c
      split at h
      · rename_i p hp
        subst h
        exfalso
        have : ∀ i k, fromInputAndCode asBytes convert i k ≠ some (PubErr.parseError s) := by
          intro i k hk
          cases (code_iff asBytes convert i k _).1 hk
        cases c with
        | code i kind =>
          cases kind with
          | custom k => exact this i k hp
          | other d => cases hp
        | list l =>
          simp only [fromContext] at hp
          split at hp
          · exact this _ _ hp
          · cases hp
      · exact h.symm
    · exact h.symm
  · left
    obtain ⟨c, i, k, h1, h2, h3⟩ := (c54_specific_error_iff asBytes convert shown e _ fun s hs => h ⟨s, hs⟩).1 rfl
    exact ⟨c, i, k, _, h1, h2, h3⟩

/-- The kind that a chain entry gets: the public error of its code, the generic error "UNKNOWN" for an unknown code, and
the generic error with nom's description for nom's own kinds. -/
inductive Relabelled (asBytes : ι → List Nat) (text : ι → Str) (i : ι) : ErrorKind Nat → ErrorKind PubErr → Prop
  | known (k : Nat) (e : PubErr) : CodeMeans asBytes text i k e → Relabelled asBytes text i (.custom k) (.custom e)
  | unknown (k : Nat) : (¬ ∃ e, CodeMeans asBytes text i k e) →
      Relabelled asBytes text i (.custom k) (.custom (.parseError "UNKNOWN".toList))
  | other (d : Str) : Relabelled asBytes text i (.other d) (.custom (.parseError d))

private theorem convertKind_rel (i : ι) (k : ErrorKind Nat) :
    Relabelled asBytes (textOr convert) i k (.custom (convertKind asBytes convert i k)) := by
  cases k with
  | other d => exact .other d
  | custom k =>
    simp only [convertKind]
    cases h : fromInputAndCode asBytes convert i k with
    | some e => exact .known k e ((code_iff asBytes convert i k e).1 h)
    | none =>
      refine .unknown k ?_
      rintro ⟨e, he⟩
      rw [(code_iff asBytes convert i k e).2 he] at h
      cases h

/-- C54: `make_custom_error` keeps an incomplete error as it is. -/
theorem c54_incomplete_kept (n : Option Nat) :
    makeCustomError asBytes convert (.incomplete n) = .incomplete n := rfl

/-- C54: `make_custom_error` keeps the severity, the shape of the context, the number and order of the chain's entries and
their inputs; each kind is relabelled. -/
theorem c54_severity_and_chain_kept (c : Context ι Nat) :
    ∃ c', makeCustomError asBytes convert (.error c) = .error c' ∧
      makeCustomError asBytes convert (.failure c) = .failure c' ∧
      ((∃ i k, c = .code i k) ↔ ∃ i k, c' = .code i k) ∧
      (chain c').length = (chain c).length ∧
      ∀ j (h : j < (chain c).length) (h' : j < (chain c').length),
        ((chain c')[j]).1 = ((chain c)[j]).1 ∧
        Relabelled asBytes (textOr convert) ((chain c)[j]).1 ((chain c)[j]).2 ((chain c')[j]).2 := by
  refine ⟨_, rfl, rfl, ?_⟩
  cases c with
  | code i k =>
    refine ⟨⟨fun _ => ⟨_, _, rfl⟩, fun _ => ⟨_, _, rfl⟩⟩, rfl, fun j h h' => ?_⟩
    have : j = 0 := by simp [chain] at h; exact h
    subst this
    exact ⟨rfl, convertKind_rel asBytes convert i k⟩
  | list l =>
    refine ⟨⟨fun h => ?_, fun h => ?_⟩, by simp [chain, convertContext], fun j h h' => ?_⟩
    · obtain ⟨i, k, h⟩ := h; cases h
    · obtain ⟨i, k, h⟩ := h; cases h
    · simp only [chain, convertContext, List.getElem_map]
      exact ⟨True.intro, convertKind_rel asBytes convert _ _⟩

/-- C54: codes and internal kinds correspond one to one. -/
theorem c54_codes_round_trip (k : InternalKind) (n : Nat) : InternalKind.fromU32 n = some k ↔ k.toU32 = n := by
  constructor
  · intro h
    rcases n with _ | _ | _ | n
    · injection h with h; subst h; rfl
    · injection h with h; subst h; rfl
    · injection h with h; subst h; rfl
    · cases h
  · rintro rfl; cases k <;> rfl

end

/-- C54: on text the specific errors carry the rest of the input unchanged; on bytes its decoding, or "UNKNOWN". -/
theorem c54_text_and_bytes (i : Str) (b : List Nat) :
    textOr some i = i ∧ (∀ s, b = utf8 s → textOr fromUtf8 b = s) ∧
    ((∀ s, b ≠ utf8 s) → textOr fromUtf8 b = "UNKNOWN".toList) := by
  refine ⟨rfl, ?_, fun h => ?_⟩
  · rintro s rfl
    unfold textOr
    rw [fromUtf8_iff.2 rfl]
  · unfold textOr
    cases hf : fromUtf8 b with
    | none => rfl
    | some s => exact absurd (fromUtf8_iff.1 hf) (h s)

/-! a failure from `\u{D800}`-like escapes: the last entry has code 0 -/

example : fromErrStr (fun _ => []) (fun _ => []) (.failure (.list [(['u'], .other ['T']), (['x'], .custom 0)])) =
    .invalidUnicodeCodePoint ['x'] := rfl
example : fromErrStr (fun _ => []) (fun _ => ['g']) (.error (.list [(['u'], .other ['T']), (['x'], .custom 0)])) =
    .parseError ['g'] := rfl
example : fromErrStr (fun _ => []) (fun _ => ['g']) (.failure (.list [(['x'], .custom 0), (['u'], .other ['T'])])) =
    .parseError ['g'] := rfl

/-- C54: the public conversions are these, for texts (`from_err_str`, `make_custom_err_str`) and for bytes
(`from_err_bytes`, `make_custom_err_bytes`). For instance a unicode escape that fails is reported with its text in both. -/
theorem c54_instances (bytes : Str → List Nat) (shown : NomErr Str Nat → Str) (shownB : NomErr (List Nat) Nat → Str)
    (e : NomErr Str Nat) (f : NomErr (List Nat) Nat) (p : PubErr) (hp : ∀ s, p ≠ .parseError s) :
    (fromErrStr bytes shown e = p ↔ ∃ c i k, e = .failure c ∧ (chain c).getLast? = some (i, .custom k) ∧
      CodeMeans bytes (textOr some) i k p) ∧
    (fromErrBytes shownB f = p ↔ ∃ c i k, f = .failure c ∧ (chain c).getLast? = some (i, .custom k) ∧
      CodeMeans id (textOr fromUtf8) i k p) ∧
    (∀ n, makeCustomErrStr bytes (.incomplete n) = .incomplete n ∧ makeCustomErrBytes (.incomplete n) = .incomplete n) :=
  ⟨c54_specific_error_iff _ _ _ _ _ hp, c54_specific_error_iff _ _ _ _ _ hp, fun n => ⟨rfl, rfl⟩⟩

/-- C54: `make_custom_err_str`, severity by severity: every entry of the chain is relabelled with the text that was left. -/
theorem c54_custom_str (bytes : Str → List Nat) (c : Context Str Nat) :
    ∃ c', makeCustomErrStr bytes (.error c) = .error c' ∧ makeCustomErrStr bytes (.failure c) = .failure c' ∧
      ((∃ i k, c = .code i k) ↔ ∃ i k, c' = .code i k) ∧ (chain c').length = (chain c).length ∧
      ∀ j (h : j < (chain c).length) (h' : j < (chain c').length),
        ((chain c')[j]).1 = ((chain c)[j]).1 ∧
        Relabelled bytes id ((chain c)[j]).1 ((chain c)[j]).2 ((chain c')[j]).2 :=
  c54_severity_and_chain_kept bytes some c

/-- C54: `make_custom_err_bytes`: the same, with the bytes that were left, decoded ("UNKNOWN" if they are not UTF-8). -/
theorem c54_custom_bytes (c : Context (List Nat) Nat) :
    ∃ c', makeCustomErrBytes (.error c) = .error c' ∧ makeCustomErrBytes (.failure c) = .failure c' ∧
      ((∃ i k, c = .code i k) ↔ ∃ i k, c' = .code i k) ∧ (chain c').length = (chain c).length ∧
      ∀ j (h : j < (chain c).length) (h' : j < (chain c').length),
        ((chain c')[j]).1 = ((chain c)[j]).1 ∧
        Relabelled id (textOr fromUtf8) ((chain c)[j]).1 ((chain c)[j]).2 ((chain c')[j]).2 :=
  c54_severity_and_chain_kept id fromUtf8 c

end Verif.Props
