import Verif.Model.DebugError
import Verif.Spec.ErrorLine
import Verif.Props.DebugLine
import Verif.Props.Messages
/-! # C104: the `{:?}` text of errors -/
set_option autoImplicit false

namespace Verif.Props
open Verif Spec

variable (D : DebugStyle) (C : CauseTrees)

/-- How the causes show themselves on one line. -/
def causeTexts : CauseTexts :=
  ⟨fun c => (C.io c).line D, fun c => (C.utf8 c).line D, fun c => (C.int c).line D, fun c => (C.float c).line D⟩

/-- The errors of std show themselves as terms, which tell apart what has different messages. -/
structure CausesShown : Prop where
  io : (∀ c, (C.io c).Clean) ∧ ∀ c d, C.io c = C.io d → c = d
  utf8 : (∀ c, (C.utf8 c).Clean) ∧ ∀ c d, C.utf8 c = C.utf8 d → c = d
  int : (∀ c, (C.int c).Clean) ∧ ∀ c d, C.int c = C.int d → c = d
  float : (∀ c, (C.float c).Clean) ∧ ∀ c d, C.float c = C.float d → c = d

theorem line_str (s : Str) : (DTree.str s).line D = (texts D).str s := by rw [DTree.line]; rfl

theorem decimalInt_nat (n : Nat) : decimalInt n = decimal n := by
  unfold decimalInt
  rw [if_neg (by omega)]
  rfl

theorem line_nat (n : Nat) : (debugNat n).line D = (texts D).int n := by
  rw [debugNat, line_word]; exact (decimalInt_nat n).symm

/-- C104: the `{:?}` text of an error of the library is the error as a Rust term on one line. -/
theorem c104_text (e : PubErr) : (e.debug C).line D = pubErrLine (texts D) (causeTexts D C) e := by
  cases e with
  | invalidUnicodeCodePoint s => exact (line_call D _ _).trans (by rw [line_str]; rfl)
  | invalidNumber s => exact (line_call D _ _).trans (by rw [line_str]; rfl)
  | invalidUnicode b =>
    refine (line_call D _ _).trans ?_
    rw [line_list, List.map_map, pubErrLine]
    exact congrArg (fun l => callLine "InvalidUnicode" (listLine l)) (List.map_congr_left fun n _ => line_nat D n)
  | parseError s => exact (line_call D _ _).trans (by rw [line_str]; rfl)
  | illegalMultipleEntries key variant =>
    refine (line_struct D _ _).trans ?_
    simp only [List.map_cons, List.map_nil, line_word, line_str, pubErrLine]; rfl
  | errorMergingKeys key existing incoming =>
    refine (line_struct D _ _).trans ?_
    simp only [List.map_cons, List.map_nil, line_word, line_str, pubErrLine]; rfl
  | unexpectedVariant enumType expected actual =>
    refine (line_struct D _ _).trans ?_
    simp only [List.map_cons, List.map_nil, line_word, line_str, pubErrLine]; rfl
  | ioError cause => exact line_call D _ _
  | invalidUnicodeToParse cause => exact line_call D _ _
  | unexpectedRemainingInput s => exact (line_call D _ _).trans (by rw [line_str]; rfl)
  | bug s => exact (line_call D _ _).trans (by rw [line_str]; rfl)

theorem line_lengths (e a : Nat) : (DTree.struct (lit "InvalidTupleLength") [(.word (lit "expected"), debugNat e), (.word (lit "actual"), debugNat a)]).line D
    = recordLine "InvalidTupleLength" [colonLine "expected".toList ((debugNat e).line D), colonLine "actual".toList ((debugNat a).line D)] := by
  generalize debugNat e = x
  generalize debugNat a = y
  unfold lit
  rw [line_struct, List.map_cons, List.map_cons, List.map_nil, line_word, line_word]

/-- C104: the same for deserialization errors. -/
theorem c104_de_text (e : SerdeErr) : (e.debug C).line D = serdeErrLine (texts D) (causeTexts D C) e := by
  cases e with
  | parseError e => exact (line_call D _ _).trans (by rw [c104_text]; rfl)
  | parseIntError c => exact line_call D _ _
  | parseFloatError c => exact line_call D _ _
  | trailingCharacters => exact line_word D _
  | overflow t => exact (line_call D _ _).trans (by rw [line_str]; rfl)
  | invalidTupleLength e a =>
    show _ = recordLine "InvalidTupleLength" [colonLine "expected".toList ((texts D).int e), colonLine "actual".toList ((texts D).int a)]
    rw [← line_nat D e, ← line_nat D a]
    exact line_lengths D e a
  | objectDuplicateKey k => exact (line_call D _ _).trans (by rw [line_str]; rfl)
  | bodyDuplicateKey k => exact (line_call D _ _).trans (by rw [line_str]; rfl)
  | custom m => exact (line_call D _ _).trans (by rw [line_str]; rfl)

/-- C104: the same for the errors of the command line program. -/
theorem c104_cli_text (e : CliError) : (e.debug C).line D = cliErrorLine (texts D) (causeTexts D C) e := by
  cases e with
  | parser e => exact (line_call D _ _).trans (by rw [c104_text]; rfl)
  | io c => exact line_call D _ _
  | unknownCommand n => exact (line_call D _ _).trans (by rw [line_str]; rfl)

theorem decimal_clean (n : Nat) : (debugNat n).Clean := by
  obtain ⟨h1, h2⟩ := numeral10_iff.1 (decimal_spec n).2
  refine ⟨(digits_iff.1 (decimal_spec n).1.1).1, fun c hc => ?_⟩
  have := h1 c hc
  exact wordChar_digit this
where
  wordChar_digit {c : Char} (h : c.isDigit = true) : wordChar c = true := by
    simp only [wordChar, Bool.not_eq_true', List.contains_eq_mem, decide_eq_false_iff_not]
    intro hm
    simp only [List.mem_cons, List.not_mem_nil, or_false] at hm
    rcases hm with rfl | rfl | rfl | rfl | rfl | rfl | rfl | rfl | rfl | rfl | rfl <;> exact absurd h (by decide)

theorem nats_clean : ∀ b : List Nat, CleanItems (b.map debugNat)
  | [] => trivial
  | n :: b => ⟨decimal_clean n, nats_clean b⟩

theorem nats_inj : ∀ {a b : List Nat}, a.map debugNat = b.map debugNat → a = b
  | [], [], _ => rfl
  | [], _ :: _, h => by simp at h
  | _ :: _, [], h => by simp at h
  | m :: a, n :: b, h => by
    simp only [List.map_cons, List.cons.injEq] at h
    have h1 := h.1
    simp only [debugNat, DTree.word.injEq] at h1
    rw [decimal_inj h1, nats_inj h.2]

theorem errWords : CleanWord (lit "InvalidUnicodeCodePoint") ∧ CleanWord (lit "InvalidNumber") ∧ CleanWord (lit "InvalidUnicode") ∧
    CleanWord (lit "ParseError") ∧ CleanWord (lit "IllegalMultipleEntries") ∧ CleanWord (lit "ErrorMergingKeys") ∧
    CleanWord (lit "UnexpectedVariant") ∧ CleanWord (lit "IOError") ∧ CleanWord (lit "InvalidUnicodeToParse") ∧
    CleanWord (lit "UnexpectedRemainingInput") ∧ CleanWord (lit "Bug") ∧ CleanWord (lit "ParseIntError") ∧
    CleanWord (lit "ParseFloatError") ∧ CleanWord (lit "TrailingCharacters") ∧ CleanWord (lit "Overflow") ∧
    CleanWord (lit "InvalidTupleLength") ∧ CleanWord (lit "ObjectDuplicateKey") ∧ CleanWord (lit "BodyDuplicateKey") ∧
    CleanWord (lit "Custom") ∧ CleanWord (lit "ParserError") ∧ CleanWord (lit "UnknownCommand") ∧
    (CleanWord (lit "key") ∧ lit "key" ≠ []) ∧ (CleanWord (lit "variant") ∧ lit "variant" ≠ []) ∧
    (CleanWord (lit "existing_variant") ∧ lit "existing_variant" ≠ []) ∧ (CleanWord (lit "incoming_variant") ∧ lit "incoming_variant" ≠ []) ∧
    (CleanWord (lit "enum_type") ∧ lit "enum_type" ≠ []) ∧ (CleanWord (lit "expected") ∧ lit "expected" ≠ []) ∧
    (CleanWord (lit "actual") ∧ lit "actual" ≠ []) ∧ lit "TrailingCharacters" ≠ [] := by
  unfold CleanWord
  decide +kernel

section
variable {C} (hC : CausesShown C)
include hC

theorem pubErr_clean (e : PubErr) : (e.debug C).Clean := by
  have := errWords
  cases e <;> simp [PubErr.debug, DTree.Clean, CleanItems, CleanEntries, this, nats_clean, hC.io.1, hC.utf8.1]

theorem serdeErr_clean (e : SerdeErr) : (e.debug C).Clean := by
  have := errWords
  cases e <;> simp [SerdeErr.debug, DTree.Clean, CleanItems, CleanEntries, this, decimal_clean, hC.int.1, hC.float.1, pubErr_clean hC]

theorem cliError_clean (e : CliError) : (e.debug C).Clean := by
  have := errWords
  cases e <;> simp [CliError.debug, DTree.Clean, CleanItems, this, hC.io.1, pubErr_clean hC]
end

/-- the name of the outermost term -/
def treeHead : DTree → Str
  | .word s => s
  | .tuple n _ => n
  | .struct n _ => n
  | _ => []

section
variable {C} (hC : CausesShown C)
include hC

theorem pubErr_debug_inj (e f : PubErr) (h : e.debug C = f.debug C) : e = f := by
  have hh := congrArg treeHead h
  cases e <;> cases f <;> try (exact absurd hh (by simp only [PubErr.debug, treeHead]; decide +kernel))
  all_goals simp only [PubErr.debug, DTree.tuple.injEq, DTree.struct.injEq, List.cons.injEq, Prod.mk.injEq, DTree.str.injEq,
    DTree.list.injEq, and_true, true_and] at h
  case invalidUnicode => rw [nats_inj h]
  case ioError => rw [hC.io.2 _ _ h]
  case invalidUnicodeToParse => rw [hC.utf8.2 _ _ h]
  all_goals simp [h]

theorem serdeErr_debug_inj (e f : SerdeErr) (h : e.debug C = f.debug C) : e = f := by
  have hh := congrArg treeHead h
  cases e <;> cases f <;> try (exact absurd hh (by simp only [SerdeErr.debug, treeHead]; decide +kernel))
  all_goals simp only [SerdeErr.debug, DTree.tuple.injEq, DTree.struct.injEq, List.cons.injEq, Prod.mk.injEq, DTree.str.injEq,
    and_true, true_and] at h
  case parseError => rw [pubErr_debug_inj hC _ _ h]
  case parseIntError => rw [hC.int.2 _ _ h]
  case parseFloatError => rw [hC.float.2 _ _ h]
  case invalidTupleLength =>
    simp only [debugNat, DTree.word.injEq] at h
    rw [decimal_inj h.1, decimal_inj h.2]
  all_goals simp [h]

theorem cliError_debug_inj (e f : CliError) (h : e.debug C = f.debug C) : e = f := by
  have hh := congrArg treeHead h
  cases e <;> cases f <;> try (exact absurd hh (by simp only [CliError.debug, treeHead]; decide +kernel))
  all_goals simp only [CliError.debug, DTree.tuple.injEq, List.cons.injEq, DTree.str.injEq, and_true, true_and] at h
  case parser => rw [pubErr_debug_inj hC _ _ h]
  case io => rw [hC.io.2 _ _ h]
  all_goals simp [h]

/-- C104: two errors of the library with the same `{:?}` or the same `{:#?}` text are the same error, and the `{:?}` text is one line. -/
theorem c104_text_identifies_error (e f : PubErr) : ((e.debug C).line D = (f.debug C).line D ↔ e = f) ∧
    ((e.debug C).pretty D = (f.debug C).pretty D ↔ e = f) ∧ '\n' ∉ (e.debug C).line D :=
  ⟨⟨fun h => pubErr_debug_inj hC _ _ (line_inj (D := D) _ _ (pubErr_clean hC e) (pubErr_clean hC f) h), fun h => by rw [h]⟩,
    ⟨fun h => pubErr_debug_inj hC _ _ (pretty_inj (D := D) _ _ (pubErr_clean hC e) (pubErr_clean hC f) h), fun h => by rw [h]⟩,
    line_no_nl D _ (pubErr_clean hC e)⟩

/-- C104: the same for deserialization errors. -/
theorem c104_de_text_identifies_error (e f : SerdeErr) : ((e.debug C).line D = (f.debug C).line D ↔ e = f) ∧
    ((e.debug C).pretty D = (f.debug C).pretty D ↔ e = f) ∧ '\n' ∉ (e.debug C).line D :=
  ⟨⟨fun h => serdeErr_debug_inj hC _ _ (line_inj (D := D) _ _ (serdeErr_clean hC e) (serdeErr_clean hC f) h), fun h => by rw [h]⟩,
    ⟨fun h => serdeErr_debug_inj hC _ _ (pretty_inj (D := D) _ _ (serdeErr_clean hC e) (serdeErr_clean hC f) h), fun h => by rw [h]⟩,
    line_no_nl D _ (serdeErr_clean hC e)⟩

/-- C104: the same for the errors of the command line program. -/
theorem c104_cli_text_identifies_error (e f : CliError) : ((e.debug C).line D = (f.debug C).line D ↔ e = f) ∧
    ((e.debug C).pretty D = (f.debug C).pretty D ↔ e = f) ∧ '\n' ∉ (e.debug C).line D :=
  ⟨⟨fun h => cliError_debug_inj hC _ _ (line_inj (D := D) _ _ (cliError_clean hC e) (cliError_clean hC f) h), fun h => by rw [h]⟩,
    ⟨fun h => cliError_debug_inj hC _ _ (pretty_inj (D := D) _ _ (cliError_clean hC e) (cliError_clean hC f) h), fun h => by rw [h]⟩,
    line_no_nl D _ (cliError_clean hC e)⟩
end

/-- causes that show themselves as a struct with their message (as `io::Error` does) -/
def plainCauses : CauseTrees :=
  ⟨fun c => .struct (lit "Os") [(.word (lit "message"), .str c)], fun c => .tuple (lit "Utf8Error") [.str c],
    fun c => .tuple (lit "ParseIntError") [.str c], fun c => .tuple (lit "ParseFloatError") [.str c]⟩

theorem plainCauses_shown : CausesShown plainCauses := by
  have h : CleanWord (lit "Os") ∧ CleanWord (lit "message") ∧ lit "message" ≠ [] ∧ CleanWord (lit "Utf8Error") ∧
      CleanWord (lit "ParseIntError") ∧ CleanWord (lit "ParseFloatError") := by unfold CleanWord; decide +kernel
  constructor <;> constructor <;> intros <;> simp_all [plainCauses, DTree.Clean, CleanItems, CleanEntries]

/-- Non-vacuity: the texts of some errors. -/
example : ((PubErr.invalidUnicode [255, 0]).debug plainCauses).line plainStyle = "InvalidUnicode([255, 0])".toList ∧
    ((SerdeErr.parseError (.errorMergingKeys ['k'] (lit "List") (lit "Null"))).debug plainCauses).line plainStyle =
      "ParseError(ErrorMergingKeys { key: \"k\", existing_variant: \"List\", incoming_variant: \"Null\" })".toList ∧
    ((CliError.io ['x']).debug plainCauses).line plainStyle = "IOError(Os { message: \"x\" })".toList := by
  rw [c104_text, c104_de_text, c104_cli_text]
  decide +kernel

/-- Non-vacuity: a message of a Deserialize implementation that is worded like another error is told apart here. -/
example : (SerdeErr.debug plainCauses (.custom (lit "Object has duplicate key a"))).line plainStyle ≠
    (SerdeErr.debug plainCauses (.objectDuplicateKey ['a'])).line plainStyle ∧
    (SerdeErr.custom (lit "Object has duplicate key a")).display = (SerdeErr.objectDuplicateKey ['a']).display := by
  rw [Ne, (c104_de_text_identifies_error plainStyle plainCauses_shown _ _).1]
  decide +kernel

example := (c104_text_identifies_error plainStyle plainCauses_shown (.bug ['a']) (.bug ['a', '\n'])).1
example := (c104_cli_text_identifies_error plainStyle plainCauses_shown (.parser (.bug ['a'])) (.unknownCommand ['a'])).1

end Verif.Props
