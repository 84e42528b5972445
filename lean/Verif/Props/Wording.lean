import Verif.Spec.Wording
import Verif.Props.Messages
/-! # C76: the exact messages -/
set_option autoImplicit false
set_option linter.unusedSimpArgs false

namespace Verif.Props
open Verif Spec

theorem fill_end : ∀ t : Str, fillIn t [] = t
  | [] => by rw [fillIn]
  | c :: t => by rw [fillIn, fill_end t]; intros; contradiction

theorem fill_hole {t l r : Str} {a : Str} {as : List Str} (h : t = l ++ '{' :: '}' :: r) (hl : '{' ∉ l) :
    fillIn t (a :: as) = l ++ (a ++ fillIn r as) := by
  subst h
  induction l with
  | nil => rw [List.nil_append, fillIn]; rfl
  | cons c l ih =>
    simp only [List.mem_cons, not_or] at hl
    rw [List.cons_append, fillIn, ih hl.2]
    · rfl
    · intros; simp_all

theorem lit_nil : lit "" = [] := by decide +kernel

/-- C76: the message of every error is its template, filled in. -/
theorem c76_wording (e : PubErr) : e.display = fillIn (Wording e).1.toList (Wording e).2 := by
  cases e with
  | invalidUnicodeCodePoint s =>
    simp only [Wording]
    rw [fill_hole (l := lit "Invalid Unicode Code Points \\") (r := lit "") (by decide +kernel) (by decide +kernel), fill_end]
    simp only [PubErr.display, lit_nil, List.append_assoc, List.append_nil, List.nil_append]
  | invalidNumber s =>
    simp only [Wording]
    rw [fill_hole (l := lit "Invalid Number ") (r := lit "") (by decide +kernel) (by decide +kernel), fill_end]
    simp only [PubErr.display, lit_nil, List.append_assoc, List.append_nil, List.nil_append]
  | parseError s =>
    simp only [Wording]
    rw [fill_hole (l := lit "Generic Parse Error ") (r := lit "") (by decide +kernel) (by decide +kernel), fill_end]
    simp only [PubErr.display, lit_nil, List.append_assoc, List.append_nil, List.nil_append]
  | illegalMultipleEntries k v =>
    simp only [Wording]
    rw [fill_hole (l := lit "Variant ") (r := lit " does not allow multiple values with the same key {}") (by decide +kernel) (by decide +kernel), fill_hole (l := lit " does not allow multiple values with the same key ") (r := lit "") (by decide +kernel) (by decide +kernel), fill_end]
    simp only [PubErr.display, lit_nil, List.append_assoc, List.append_nil, List.nil_append]
  | errorMergingKeys k v w =>
    simp only [Wording]
    rw [fill_hole (l := lit "Error merging key ") (r := lit " into `Value`: existing value of variant {} cannot be merged with variant {}") (by decide +kernel) (by decide +kernel), fill_hole (l := lit " into `Value`: existing value of variant ") (r := lit " cannot be merged with variant {}") (by decide +kernel) (by decide +kernel), fill_hole (l := lit " cannot be merged with variant ") (r := lit "") (by decide +kernel) (by decide +kernel), fill_end]
    simp only [PubErr.display, lit_nil, List.append_assoc, List.append_nil, List.nil_append]
  | unexpectedVariant t x a =>
    simp only [Wording]
    rw [fill_hole (l := lit "Expected type ") (r := lit " to be of variant {} but got {} instead") (by decide +kernel) (by decide +kernel), fill_hole (l := lit " to be of variant ") (r := lit " but got {} instead") (by decide +kernel) (by decide +kernel), fill_hole (l := lit " but got ") (r := lit " instead") (by decide +kernel) (by decide +kernel), fill_end]
    simp only [PubErr.display, lit_nil, List.append_assoc, List.append_nil, List.nil_append]
  | ioError s =>
    simp only [Wording]
    rw [fill_hole (l := lit "IO Error: ") (r := lit "") (by decide +kernel) (by decide +kernel), fill_end]
    simp only [PubErr.display, lit_nil, List.append_assoc, List.append_nil, List.nil_append]
  | invalidUnicodeToParse s =>
    simp only [Wording]
    rw [fill_hole (l := lit "Bytes to be parsed is invalid UTF-8: ") (r := lit "") (by decide +kernel) (by decide +kernel), fill_end]
    simp only [PubErr.display, lit_nil, List.append_assoc, List.append_nil, List.nil_append]
  | unexpectedRemainingInput s =>
    simp only [Wording]
    rw [fill_hole (l := lit "Expected all input to be consumed, but the following remains: ") (r := lit "") (by decide +kernel) (by decide +kernel), fill_end]
    simp only [PubErr.display, lit_nil, List.append_assoc, List.append_nil, List.nil_append]
  | bug s =>
    simp only [Wording]
    rw [fill_hole (l := lit "Possible bug with the library encountered: ") (r := lit "; Please report to https://github.com/lawliet89/ferrous-chloride/issues") (by decide +kernel) (by decide +kernel), fill_end]
    simp only [PubErr.display, lit_nil, List.append_assoc, List.append_nil, List.nil_append]
  | invalidUnicode b =>
    simp only [Wording]
    rw [fill_hole (l := lit "Bytes contain invalid unicode: ") (r := lit "") (by decide +kernel) (by decide +kernel), fill_end]
    rw [lit_nil, List.append_nil, PubErr.display, debugBytes]
    cases b with
    | nil => simp; decide +kernel
    | cons n b => simp only [List.isEmpty_cons, reduceCtorEq, if_false, List.flatMap]; rfl

/-- C76: and of every deserialization error, also as the deserializers return it. -/
theorem c76_de_wording (e : SerdeErr) : e.display = fillIn (SerdeWording e).1.toList (SerdeWording e).2 ∧
    (DeCompat.ofError e).display = fillIn (SerdeWording e).1.toList (SerdeWording e).2 := by
  have h : e.display = fillIn (SerdeWording e).1.toList (SerdeWording e).2 := by
    cases e with
    | parseIntError c =>
      simp only [SerdeWording]
      rw [fill_hole (l := lit "Error parsing integer: ") (r := lit "") (by decide +kernel) (by decide +kernel), fill_end]
      simp only [SerdeErr.display, lit_nil, List.append_assoc, List.append_nil, List.nil_append]
    | parseFloatError c =>
      simp only [SerdeWording]
      rw [fill_hole (l := lit "Error parsing float: ") (r := lit "") (by decide +kernel) (by decide +kernel), fill_end]
      simp only [SerdeErr.display, lit_nil, List.append_assoc, List.append_nil, List.nil_append]
    | trailingCharacters =>
      simp only [SerdeWording]
      rw [fill_end]
      rfl
    | overflow t =>
      simp only [SerdeWording]
      rw [fill_hole (l := lit "Overflow when trying to convert to ") (r := lit "") (by decide +kernel) (by decide +kernel), fill_end]
      simp only [SerdeErr.display, lit_nil, List.append_assoc, List.append_nil, List.nil_append]
    | invalidTupleLength x a =>
      simp only [SerdeWording]
      rw [fill_hole (l := lit "Invalid tuple length. Expected ") (r := lit ", got {}") (by decide +kernel) (by decide +kernel), fill_hole (l := lit ", got ") (r := lit "") (by decide +kernel) (by decide +kernel), fill_end]
      simp only [SerdeErr.display, lit_nil, List.append_assoc, List.append_nil, List.nil_append]
    | objectDuplicateKey k =>
      simp only [SerdeWording]
      rw [fill_hole (l := lit "Object has duplicate key ") (r := lit "") (by decide +kernel) (by decide +kernel), fill_end]
      simp only [SerdeErr.display, lit_nil, List.append_assoc, List.append_nil, List.nil_append]
    | bodyDuplicateKey k =>
      simp only [SerdeWording]
      rw [fill_hole (l := lit "Body has duplicate key ") (r := lit "") (by decide +kernel) (by decide +kernel), fill_end]
      simp only [SerdeErr.display, lit_nil, List.append_assoc, List.append_nil, List.nil_append]
    | custom m =>
      simp only [SerdeWording]
      rw [fill_hole (l := lit "") (r := lit "") (by decide +kernel) (by decide +kernel), fill_end]
      simp only [SerdeErr.display, lit_nil, List.append_assoc, List.append_nil, List.nil_append]
    | parseError e =>
      simp only [SerdeWording]
      rw [fill_hole (l := lit "HCL parse error: ") (r := lit "") (by decide +kernel) (by decide +kernel), fill_end]
      simp only [SerdeErr.display, lit_nil, List.append_nil, c76_wording]
  exact ⟨h, h⟩

/-- C76: and what the command-line tool prints. -/
theorem c76_cli_wording (e : CliError) : e.printed = fillIn (CliWording e).1.toList (CliWording e).2 := by
  have l1 : lit "Error: Parser error: " = lit "Error: " ++ lit "Parser error: " := by decide +kernel
  have l2 : lit "Error: IO Error: " = lit "Error: " ++ lit "IO Error: " := by decide +kernel
  have l3 : lit "Error: Unknown command: " = lit "Error: " ++ lit "Unknown command: " := by decide +kernel
  cases e with
  | parser e =>
    simp only [CliWording]
    rw [fill_hole (l := lit "Error: Parser error: ") (r := lit "\n") (by decide +kernel) (by decide +kernel), fill_end]
    rw [l1]; simp only [CliError.printed, CliError.display, List.append_assoc, c76_wording]
  | io c =>
    simp only [CliWording]
    rw [fill_hole (l := lit "Error: IO Error: ") (r := lit "\n") (by decide +kernel) (by decide +kernel), fill_end]
    rw [l2]; simp only [CliError.printed, CliError.display, List.append_assoc]
  | unknownCommand n =>
    simp only [CliWording]
    rw [fill_hole (l := lit "Error: Unknown command: ") (r := lit "\n") (by decide +kernel) (by decide +kernel), fill_end]
    rw [l3]; simp only [CliError.printed, CliError.display, List.append_assoc]

/-- C76: the messages of the errors of legacy values, with the name of the type and the variants. -/
theorem c76_value_wording (e : ValueErr) : e.toPub.display = (match e with
    | .illegalMultipleEntries key v =>
      fillIn "Variant {} does not allow multiple values with the same key {}".toList [v.name, key]
    | .errorMergingKeys key existing incoming =>
      fillIn "Error merging key {} into `Value`: existing value of variant {} cannot be merged with variant {}".toList
        [key, existing.name, incoming.name]
    | .unexpectedVariant expected actual =>
      fillIn "Expected type Value to be of variant {} but got {} instead".toList [expected.name, actual.name]) := by
  cases e with
  | illegalMultipleEntries key v => rw [c76_wording]; rfl
  | errorMergingKeys key x i => rw [c76_wording]; rfl
  | unexpectedVariant x a =>
    have l1 : lit "Expected type Value to be of variant " = lit "Expected type " ++ (lit "Value" ++ lit " to be of variant ") := by
      decide +kernel
    simp only
    rw [fill_hole (l := lit "Expected type Value to be of variant ") (r := lit " but got {} instead") (by decide +kernel) (by decide +kernel), fill_hole (l := lit " but got ") (r := lit " instead") (by decide +kernel) (by decide +kernel), fill_end]
    rw [l1]
    simp only [ValueErr.toPub, PubErr.display, valueName, List.append_assoc]

/-- C76: a parser error that becomes a deserialization error is that parser error, and is shown behind `HCL parse error: `. -/
theorem c76_de_parser_error (bytes : Str → List Nat) (shown : NomErr Str Nat → Str) (e : NomErr Str Nat) :
    SerdeErr.ofNom bytes shown e = .parseError (fromErrStr bytes shown e) ∧
      (SerdeErr.ofNom bytes shown e).display = "HCL parse error: ".toList ++ (fromErrStr bytes shown e).display := ⟨rfl, rfl⟩

/-- braces in a key are not taken for a hole -/
example : (PubErr.illegalMultipleEntries (lit "{}") (lit "List")).display =
    lit "Variant List does not allow multiple values with the same key {}" := by decide +kernel

end Verif.Props
