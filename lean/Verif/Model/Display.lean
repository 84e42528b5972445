import Verif.Model.Errors
import Verif.Model.Value
import Verif.Model.Number
/-!
# Error messages (lib/src/errors.rs, lib/src/serde/de.rs, cli/src/error.rs)

The `Display` of the three public error types, as derived from their `#[fail(display = …)]` attributes
(failure_derive: `write!(f, template, fields…)`), and the conversions between the types.
-/
set_option autoImplicit false

namespace Verif

/-- the characters of a string literal of the source -/
def lit (s : String) : Str := s.toList

/-- constants.rs:1-10: the names of variants -/
def Variant.name : Variant → Str
  | .null => lit "Null"
  | .integer => lit "Integer"
  | .float => lit "Float"
  | .boolean => lit "Boolean"
  | .string => lit "String"
  | .list => lit "List"
  | .object => lit "Object"
  | .block => lit "Block"

/-- constants.rs:15 `VALUE` -/
def valueName : Str := lit "Value"

/-- value.rs:125-130, 804-807, 814-818, 827-831: the public error of an error of the value API -/
def ValueErr.toPub : ValueErr → PubErr
  | .illegalMultipleEntries key v => .illegalMultipleEntries key v.name
  | .errorMergingKeys key e i => .errorMergingKeys key e.name i.name
  | .unexpectedVariant e a => .unexpectedVariant valueName e.name a.name

/-- std `{:#?}` of a `Vec<u8>`: one line per element -/
def debugBytes (b : List Nat) : Str :=
  if b.isEmpty then lit "[]"
  else lit "[\n" ++ (b.map fun n => lit "    " ++ decimal n ++ lit ",\n").flatten ++ lit "]"

/-- errors.rs:13-68 `Display for Error` -/
def PubErr.display : PubErr → Str
  | .invalidUnicodeCodePoint s => lit "Invalid Unicode Code Points \\" ++ s
  | .invalidNumber s => lit "Invalid Number " ++ s
  | .invalidUnicode b => lit "Bytes contain invalid unicode: " ++ debugBytes b
  | .parseError s => lit "Generic Parse Error " ++ s
  | .illegalMultipleEntries key variant =>
    lit "Variant " ++ variant ++ lit " does not allow multiple values with the same key " ++ key
  | .errorMergingKeys key existing incoming =>
    lit "Error merging key " ++ key ++ lit " into `Value`: existing value of variant " ++ existing ++
      lit " cannot be merged with variant " ++ incoming
  | .unexpectedVariant enumType expected actual =>
    lit "Expected type " ++ enumType ++ lit " to be of variant " ++ expected ++ lit " but got " ++ actual ++
      lit " instead"
  | .ioError cause => lit "IO Error: " ++ cause
  | .invalidUnicodeToParse cause => lit "Bytes to be parsed is invalid UTF-8: " ++ cause
  | .unexpectedRemainingInput s =>
    lit "Expected all input to be consumed, but the following remains: " ++ s
  | .bug s =>
    lit "Possible bug with the library encountered: " ++ s ++
      lit "; Please report to https://github.com/lawliet89/ferrous-chloride/issues"

/-- serde/de.rs:28-58 `serde::de::Error`; causes from std are identified by their message -/
inductive SerdeErr where
  | parseError (e : PubErr)
  | parseIntError (cause : Str)
  | parseFloatError (cause : Str)
  | trailingCharacters
  | overflow (type : Str)
  | invalidTupleLength (expected actual : Nat)
  | objectDuplicateKey (key : Str)
  | bodyDuplicateKey (key : Str)
  | custom (msg : Str)
  deriving Repr, DecidableEq

/-- serde/de.rs:29-57 `Display for serde::de::Error` -/
def SerdeErr.display : SerdeErr → Str
  | .parseError e => lit "HCL parse error: " ++ e.display
  | .parseIntError c => lit "Error parsing integer: " ++ c
  | .parseFloatError c => lit "Error parsing float: " ++ c
  | .trailingCharacters => lit "Input was not completely consumed during deserialization."
  | .overflow t => lit "Overflow when trying to convert to " ++ t
  | .invalidTupleLength e a =>
    lit "Invalid tuple length. Expected " ++ decimal e ++ lit ", got " ++ decimal a
  | .objectDuplicateKey k => lit "Object has duplicate key " ++ k
  | .bodyDuplicateKey k => lit "Body has duplicate key " ++ k
  | .custom m => m

/-- serde/de.rs:88-89 `Compat`, the error the deserializers return (`failure::Compat` keeps the error it wraps) -/
structure DeCompat where
  inner : SerdeErr
  deriving Repr, DecidableEq

/-- serde/de.rs:115-119 `From<Error> for Compat` -/
def DeCompat.ofError (e : SerdeErr) : DeCompat := ⟨e⟩
/-- serde/de.rs:127-131 `From<Compat> for Error` -/
def DeCompat.toError (c : DeCompat) : SerdeErr := c.inner
/-- serde/de.rs:121-125 `From<crate::Error> for Compat` -/
def DeCompat.ofPub (e : PubErr) : DeCompat := .ofError (.parseError e)
/-- serde/de.rs:98-105 `serde::de::Error::custom` -/
def DeCompat.custom (msg : Str) : DeCompat := .ofError (.custom msg)
/-- serde/de.rs:107-111 `Display for Compat` -/
def DeCompat.display (c : DeCompat) : Str := c.inner.display
/-- serde/de.rs:60-64 `From<crate::Error> for Error` -/
def SerdeErr.ofPub (e : PubErr) : SerdeErr := .parseError e
/-- serde/de.rs:66-74 `From<nom::Err<I, u32>> for Error` -/
def SerdeErr.ofNom (bytes : Str → List Nat) (shown : NomErr Str Nat → Str) (e : NomErr Str Nat) : SerdeErr :=
  .ofPub (fromErrStr bytes shown e)

/-- cli/src/error.rs:3-11 `Error`, with the messages of its causes -/
inductive CliError where
  | parser (e : PubErr)
  | io (cause : Str)
  | unknownCommand (name : Str)
  deriving Repr, DecidableEq

/-- cli/src/error.rs:4-10 `Display for Error` -/
def CliError.display : CliError → Str
  | .parser e => lit "Parser error: " ++ e.display
  | .io c => lit "IO Error: " ++ c
  | .unknownCommand n => lit "Unknown command: " ++ n

/-- cli/src/main.rs:18 `println!("Error: {}", e)` -/
def CliError.printed (e : CliError) : Str := lit "Error: " ++ e.display ++ lit "\n"

/-- errors.rs:234-238 `From<io::Error> for Error` -/
def PubErr.ofIo (cause : Str) : PubErr := .ioError cause
/-- errors.rs:240-244 `From<Utf8Error> for Error` -/
def PubErr.ofUtf8 (cause : Str) : PubErr := .invalidUnicodeToParse cause
/-- cli/src/error.rs:13-17 `From<ferrous_chloride::Error> for Error` -/
def CliError.ofPub (e : PubErr) : CliError := .parser e
/-- cli/src/error.rs:19-23 `From<io::Error> for Error` -/
def CliError.ofIo (cause : Str) : CliError := .io cause

end Verif
