import Verif.Spec.Message
import Verif.Proofs.IntParse
/-! # Error messages (C76) -/
set_option autoImplicit false

namespace Verif.Props
open Verif Spec

/-! ## splitting texts -/

theorem split_first {c : Char} : ∀ {a b x y : Str}, c ∉ a → c ∉ b → a ++ c :: x = b ++ c :: y → a = b ∧ x = y
  | [], [], _, _, _, _, h => by injection h with _ h; exact ⟨rfl, h⟩
  | [], _ :: _, _, _, _, hb, h => by
    injection h with h _
    exact absurd (by rw [h]; exact .head _) hb
  | _ :: _, [], _, _, ha, _, h => by
    injection h with h _
    exact absurd (by rw [← h]; exact .head _) ha
  | d :: a, e :: b, x, y, ha, hb, h => by
    injection h with h1 h2
    have := split_first (fun hc => ha (.tail _ hc)) (fun hc => hb (.tail _ hc)) h2
    exact ⟨by rw [h1, this.1], this.2⟩

theorem split_last {c : Char} {a b x y : Str} (ha : c ∉ a) (hb : c ∉ b) (h : x ++ c :: a = y ++ c :: b) :
    x = y ∧ a = b := by
  have h' := congrArg List.reverse h
  simp only [List.reverse_append, List.reverse_cons, List.append_assoc, List.singleton_append] at h'
  have := split_first (by simpa using ha) (by simpa using hb) h'
  exact ⟨List.reverse_inj.1 this.2, List.reverse_inj.1 this.1⟩

/-! ## numbers -/

theorem decimal_inj {m n : Nat} (h : decimal m = decimal n) : m = n := by
  have h1 := (numeral10_iff.1 (decimal_spec m).2).2
  have h2 := (numeral10_iff.1 (decimal_spec n).2).2
  rw [← h1, ← h2, h]

private theorem decimal_digits (n : Nat) : ∀ c ∈ decimal n, c.isDigit = true := (numeral10_iff.1 (decimal_spec n).2).1

private theorem decimal_ne_nil (n : Nat) : decimal n ≠ [] := (digits_iff.1 (decimal_spec n).1.1).1

private theorem not_digit {c : Char} (h : c.isDigit = false) (n : Nat) : c ∉ decimal n := fun hc => by
  rw [decimal_digits n c hc] at h; cases h

private theorem debugBytes_lines : ∀ a b : List Nat,
    (a.map fun n => lit "    " ++ decimal n ++ lit ",\n").flatten ++ lit "]" =
      (b.map fun n => lit "    " ++ decimal n ++ lit ",\n").flatten ++ lit "]" → a = b
  | [], [], _ => rfl
  | [], m :: b, h => by
    have := congrArg (fun l : Str => l[0]?) h
    exact absurd (show some ']' = some ' ' from this) (by decide)
  | n :: a, [], h => by
    have := congrArg (fun l : Str => l[0]?) h
    exact absurd (show some ' ' = some ']' from this) (by decide)
  | n :: a, m :: b, h => by
    simp only [List.map_cons, List.flatten_cons, List.append_assoc] at h
    have h := List.append_cancel_left h
    have h := split_first (c := ',') (not_digit (by decide) n) (not_digit (by decide) m) h
    have h2 : '\n' :: ((a.map fun n => lit "    " ++ (decimal n ++ lit ",\n")).flatten ++ lit "]") =
      '\n' :: ((b.map fun n => lit "    " ++ (decimal n ++ lit ",\n")).flatten ++ lit "]") := h.2
    injection h2 with _ h2
    simp only [← List.append_assoc] at h2
    rw [decimal_inj h.1, debugBytes_lines a b h2]

theorem debugBytes_inj {a b : List Nat} (h : debugBytes a = debugBytes b) : a = b := by
  unfold debugBytes at h
  cases a with
  | nil =>
    cases b with
    | nil => rfl
    | cons m b =>
      have := congrArg (fun l : Str => l[1]?) h
      exact absurd (show some ']' = some '\n' from this) (by decide)
  | cons n a =>
    cases b with
    | nil =>
      have := congrArg (fun l : Str => l[1]?) h
      exact absurd (show some '\n' = some ']' from this) (by decide)
    | cons m b =>
      simp only [List.isEmpty_cons, Bool.false_eq_true, if_false, List.append_assoc] at h
      have h := List.append_cancel_left h
      refine debugBytes_lines _ _ ?_
      simp only [List.append_assoc]
      exact h

/-! ## the kind of an error shows in its first characters -/

private def kindOf (s : Str) : Nat :=
  if s[0]? = some 'I' then
    if s[1]? = some 'O' then 7 else if s[8]? = some 'U' then 0 else 1
  else if s[0]? = some 'B' then
    if s[6]? = some 'c' then 2 else 8
  else if s[0]? = some 'G' then 3
  else if s[0]? = some 'V' then 4
  else if s[0]? = some 'P' then 10
  else if s[1]? = some 'r' then 5
  else if s[9]? = some 't' then 6
  else 9

private def PubErr.kind : PubErr → Nat
  | .invalidUnicodeCodePoint _ => 0
  | .invalidNumber _ => 1
  | .invalidUnicode _ => 2
  | .parseError _ => 3
  | .illegalMultipleEntries _ _ => 4
  | .errorMergingKeys _ _ _ => 5
  | .unexpectedVariant _ _ _ => 6
  | .ioError _ => 7
  | .invalidUnicodeToParse _ => 8
  | .unexpectedRemainingInput _ => 9
  | .bug _ => 10

private theorem kindOf_display (e : PubErr) : kindOf e.display = PubErr.kind e := by
  cases e <;> rfl

/-- C76: two errors of the library with the same message are the same error: the message tells the kind of error and
everything it carries. -/
theorem c76_message_identifies_error (e f : PubErr) (he : Named e) (hf : Named f) (h : e.display = f.display) : e = f := by
  have hk : PubErr.kind e = PubErr.kind f := by rw [← kindOf_display, ← kindOf_display, h]
  have l1 : lit " does not allow multiple values with the same key " =
      ' ' :: lit "does not allow multiple values with the same key " := by decide +kernel
  have l2 : lit " cannot be merged with variant " = lit " cannot be merged with variant" ++ [' '] := by decide +kernel
  have l3 : lit " into `Value`: existing value of variant " =
      lit " into `Value`: existing value of variant" ++ [' '] := by decide +kernel
  have l4 : lit " to be of variant " = ' ' :: lit "to be of variant " := by decide +kernel
  have l5 : lit " but got " = ' ' :: lit "but got " := by decide +kernel
  cases e <;> cases f <;> try (simp [PubErr.kind] at hk; done)
  case illegalMultipleEntries.illegalMultipleEntries k v k' v' =>
    simp only [PubErr.display, List.append_assoc, List.append_cancel_left_eq] at h
    rw [l1] at h
    simp only [List.cons_append] at h
    have h := split_first he hf h
    rw [h.1, List.append_cancel_left h.2]
  case errorMergingKeys.errorMergingKeys k v w k' v' w' =>
    simp only [PubErr.display] at h
    rw [l2, l3] at h
    generalize lit "Error merging key " = L0 at h
    generalize lit " into `Value`: existing value of variant" = L1 at h
    generalize lit " cannot be merged with variant" = L2 at h
    have h : (L0 ++ k ++ (L1 ++ [' ']) ++ v ++ L2) ++ ' ' :: w = (L0 ++ k' ++ (L1 ++ [' ']) ++ v' ++ L2) ++ ' ' :: w' := by
      simpa only [List.append_assoc, List.singleton_append] using h
    have h1 := split_last he.2 hf.2 h
    have h2 := List.append_cancel_right h1.1
    have h2 : (L0 ++ k ++ L1) ++ ' ' :: v = (L0 ++ k' ++ L1) ++ ' ' :: v' := by
      simpa only [List.append_assoc, List.singleton_append] using h2
    have h3 := split_last he.1 hf.1 h2
    rw [h1.2, h3.2, List.append_cancel_left (List.append_cancel_right h3.1)]
  case unexpectedVariant.unexpectedVariant t e a t' e' a' =>
    simp only [PubErr.display, List.append_assoc, List.append_cancel_left_eq] at h
    rw [l4, l5] at h
    simp only [List.cons_append] at h
    have h1 := split_first he.1 hf.1 h
    have h2 := split_first he.2.1 hf.2.1 (List.append_cancel_left h1.2)
    rw [h1.1, h2.1, List.append_cancel_right (List.append_cancel_left h2.2)]
  case invalidUnicode.invalidUnicode s t =>
    simp only [PubErr.display, List.append_cancel_left_eq] at h
    rw [debugBytes_inj h]
  all_goals
    simp only [PubErr.display, List.append_cancel_left_eq, List.append_cancel_right_eq] at h
    rw [h]

/-- The hypotheses hold of two different errors about a key that looks like part of a message. -/
example : Named (.errorMergingKeys (lit "a into `Value`: existing value of variant b") (lit "Object") (lit "List")) ∧
    Named (.illegalMultipleEntries (lit "a b") (lit "Integer")) := by
  constructor <;> simp only [Named, OneWord] <;> decide

/-- Without single-word names it fails. -/
example : (PubErr.illegalMultipleEntries (lit "k")
      (lit "A does not allow multiple values with the same key B")).display =
    (PubErr.illegalMultipleEntries (lit "B does not allow multiple values with the same key k") (lit "A")).display := by
  decide +kernel

private theorem infix_mid (a s b : Str) : s <:+: a ++ s ++ b := ⟨a, b, rfl⟩

/-- C76: the message quotes what the error carries, verbatim: keys, names, texts and causes. -/
theorem c76_message_quotes (e : PubErr) (t : Str) (h : t ∈ Carries e) : t <:+: e.display := by
  have mid : ∀ a b : Str, t <:+: a ++ (t ++ b) := fun a b => ⟨a, b, List.append_assoc _ _ _⟩
  have fin : ∀ a : Str, t <:+: a ++ t := fun a => ⟨a, [], List.append_nil _⟩
  cases e with
  | invalidUnicode b => cases h
  | illegalMultipleEntries k v =>
    simp only [Carries, List.mem_cons, List.not_mem_nil, or_false] at h
    rcases h with rfl | rfl
    · simp only [PubErr.display]; exact fin _
    · simp only [PubErr.display, List.append_assoc]; exact mid _ _
  | errorMergingKeys k v w =>
    simp only [Carries, List.mem_cons, List.not_mem_nil, or_false] at h
    rcases h with rfl | rfl | rfl
    · simp only [PubErr.display, List.append_assoc]; exact mid _ _
    · simp only [PubErr.display, List.append_assoc]
      exact ⟨lit "Error merging key " ++ (k ++ lit " into `Value`: existing value of variant "),
        lit " cannot be merged with variant " ++ w, by simp only [List.append_assoc]⟩
    · simp only [PubErr.display]; exact fin _
  | unexpectedVariant ty x a =>
    simp only [Carries, List.mem_cons, List.not_mem_nil, or_false] at h
    rcases h with rfl | rfl | rfl
    · simp only [PubErr.display, List.append_assoc]; exact mid _ _
    · simp only [PubErr.display, List.append_assoc]
      exact ⟨lit "Expected type " ++ (ty ++ lit " to be of variant "), lit " but got " ++ (a ++ lit " instead"),
        by simp only [List.append_assoc]⟩
    · simp only [PubErr.display]
      simp only [List.append_assoc _ t]
      exact mid _ _
  | bug s =>
    simp only [Carries, List.mem_cons, List.not_mem_nil, or_false] at h
    subst h
    simp only [PubErr.display, List.append_assoc]; exact mid _ _
  | _ =>
    simp only [Carries, List.mem_cons, List.not_mem_nil, or_false] at h
    subst h
    simp only [PubErr.display]
    exact fin _

/-- C76: the errors of the value API have single-word names, so that their messages identify them: the key and the variants
involved. -/
theorem c76_value_error_messages (e f : ValueErr) :
    Named e.toPub ∧ (e.toPub.display = f.toPub.display → e = f) := by
  have hv : ∀ v : Variant, OneWord v.name := by
    intro v; unfold OneWord; cases v <;> decide
  have hn : ∀ e : ValueErr, Named e.toPub := by
    intro e
    cases e with
    | illegalMultipleEntries k v => exact hv v
    | errorMergingKeys k x i => exact ⟨hv x, hv i⟩
    | unexpectedVariant x a => exact ⟨by unfold OneWord; decide, hv x, hv a⟩
  have hi : ∀ v w : Variant, v.name = w.name → v = w := by
    intro v w h
    cases v <;> cases w <;> first | rfl | exact absurd h (by decide)
  refine ⟨hn e, fun h => ?_⟩
  have h := c76_message_identifies_error _ _ (hn e) (hn f) h
  cases e <;> cases f <;> simp only [ValueErr.toPub, PubErr.illegalMultipleEntries.injEq, PubErr.errorMergingKeys.injEq,
    PubErr.unexpectedVariant.injEq, reduceCtorEq] at h
  · rw [h.1, hi _ _ h.2]
  · rw [h.1, hi _ _ h.2.1, hi _ _ h.2.2]
  · rw [hi _ _ h.2.1, hi _ _ h.2.2]

example : (ValueErr.illegalMultipleEntries (lit "foo") .integer).toPub.display =
    (lit "Variant Integer does not allow multiple values with the same key foo") := by decide +kernel

/-! ## deserialization -/

private def deKindOf (s : Str) : Nat :=
  if s[0]? = some 'H' then 0
  else if s[0]? = some 'E' then (if s[14]? = some 'i' then 1 else 2)
  else if s[0]? = some 'I' then (if s[2]? = some 'p' then 3 else 5)
  else if s[1]? = some 'v' then 4
  else if s[1]? = some 'b' then 6
  else 7

private def SerdeErr.kind : SerdeErr → Nat
  | .parseError _ => 0
  | .parseIntError _ => 1
  | .parseFloatError _ => 2
  | .trailingCharacters => 3
  | .overflow _ => 4
  | .invalidTupleLength _ _ => 5
  | .objectDuplicateKey _ => 6
  | .bodyDuplicateKey _ => 7
  | .custom m => deKindOf m

private theorem deKindOf_display (e : SerdeErr) : deKindOf e.display = SerdeErr.kind e := by
  cases e <;> rfl

/-- The error of the library in it, if any, has single-word names. -/
def SerdeNamed : SerdeErr → Prop
  | .parseError e => Named e
  | _ => True

/-- C76: two deserialization errors with the same message are the same, unless one of them is a message made by a type's
own `Deserialize` implementation. -/
theorem c76_de_message_identifies_error (e f : SerdeErr) (he : SerdeNamed e) (hf : SerdeNamed f)
    (hce : ∀ m, e ≠ .custom m) (hcf : ∀ m, f ≠ .custom m) (h : e.display = f.display) : e = f := by
  have hk : SerdeErr.kind e = SerdeErr.kind f := by rw [← deKindOf_display, ← deKindOf_display, h]
  have l1 : lit ", got " = ',' :: lit " got " := by decide +kernel
  cases e <;> try (exact absurd rfl (hce _))
  all_goals cases f <;> try (exact absurd rfl (hcf _))
  all_goals try (simp [SerdeErr.kind] at hk; done)
  case parseError.parseError a b =>
    simp only [SerdeErr.display, List.append_cancel_left_eq] at h
    exact congrArg _ (c76_message_identifies_error _ _ he hf h)
  case trailingCharacters.trailingCharacters => rfl
  case invalidTupleLength.invalidTupleLength x a x' a' =>
    simp only [SerdeErr.display, List.append_assoc, List.append_cancel_left_eq] at h
    rw [l1] at h
    simp only [List.cons_append] at h
    have h := split_first (c := ',') (not_digit (by decide) x) (not_digit (by decide) x') h
    rw [decimal_inj h.1, decimal_inj (List.append_cancel_left h.2)]
  all_goals
    simp only [SerdeErr.display, List.append_cancel_left_eq] at h
    rw [h]

/-- C76: a custom message is shown as it is, so it can look like any other error. -/
theorem c76_custom_message_can_look_like_any_error (e : SerdeErr) :
    ∃ m, (DeCompat.custom m).display = e.display ∧ (DeCompat.custom m).toError = .custom m :=
  ⟨e.display, rfl, rfl⟩

example : SerdeNamed (.invalidTupleLength 12 3) ∧ (SerdeErr.invalidTupleLength 12 3).display =
    (lit "Invalid tuple length. Expected 12, got 3") := ⟨trivial, by decide⟩

/-- C76: nothing is lost in the wrapper the deserializers return: unwrapping gives back the error, with the same message;
errors of the library come out as parse errors. -/
theorem c76_compat_keeps_the_error (e : SerdeErr) (c : DeCompat) (p : PubErr) :
    (DeCompat.ofError e).toError = e ∧ DeCompat.ofError c.toError = c ∧ c.display = c.toError.display ∧
      (DeCompat.ofPub p).toError = .parseError p ∧ SerdeErr.ofPub p = .parseError p := ⟨rfl, rfl, rfl, rfl, rfl⟩

/-! ## the command line -/

private def cliKindOf (s : Str) : Nat :=
  if s[7]? = some 'P' then 0 else if s[7]? = some 'I' then 1 else 2

private def CliError.kind : CliError → Nat
  | .parser _ => 0
  | .io _ => 1
  | .unknownCommand _ => 2

/-- C76: what the command line program prints for an error tells exactly which error it was. -/
theorem c76_cli_message_identifies_error (e f : CliError) (he : ∀ p, e = .parser p → Named p)
    (hf : ∀ p, f = .parser p → Named p) (h : e.printed = f.printed) : e = f := by
  have hk : CliError.kind e = CliError.kind f := by
    have hd : ∀ e : CliError, cliKindOf e.printed = CliError.kind e := by intro e; cases e <;> rfl
    rw [← hd, ← hd, h]
  simp only [CliError.printed, List.append_cancel_left_eq, List.append_cancel_right_eq] at h
  cases e <;> cases f <;> try (simp [CliError.kind] at hk; done)
  all_goals simp only [CliError.display, List.append_cancel_left_eq] at h
  · exact congrArg _ (c76_message_identifies_error _ _ (he _ rfl) (hf _ rfl) h)
  · rw [h]
  · rw [h]

example : (CliError.ofPub (.parseError (lit "x"))).printed = (lit "Error: Parser error: Generic Parse Error x\n") := by
  decide +kernel

/-- C76: the causes are kept by the conversions of `?`. -/
theorem c76_conversions_keep_the_cause (c : Str) (p : PubErr) :
    Carries (PubErr.ofIo c) = [c] ∧ Carries (PubErr.ofUtf8 c) = [c] ∧ PubErr.ofIo c ≠ PubErr.ofUtf8 c ∧
      CliError.ofPub p = .parser p ∧ CliError.ofIo c = .io c := ⟨rfl, rfl, (by intro h; cases h), rfl, rfl⟩

end Verif.Props
