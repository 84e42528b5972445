import Verif.Model.Display
import Verif.Spec.Line
/-! # Errors as Rust terms on one line -/
set_option autoImplicit false

namespace Verif.Spec
open Verif

/-- How the errors of std that are causes of errors are written, by message. -/
structure CauseTexts where
  io : Str → Str
  utf8 : Str → Str
  int : Str → Str
  float : Str → Str

section
variable (T : Texts) (C : CauseTexts)

/-- Errors of the library. -/
def pubErrLine : PubErr → Str
  | .invalidUnicodeCodePoint s => callLine "InvalidUnicodeCodePoint" (T.str s)
  | .invalidNumber s => callLine "InvalidNumber" (T.str s)
  | .invalidUnicode b => callLine "InvalidUnicode" (listLine (b.map fun (n : Nat) => T.int (n : Int)))
  | .parseError s => callLine "ParseError" (T.str s)
  | .illegalMultipleEntries key variant =>
    recordLine "IllegalMultipleEntries" [colonLine "key".toList (T.str key), colonLine "variant".toList (T.str variant)]
  | .errorMergingKeys key existing incoming =>
    recordLine "ErrorMergingKeys" [colonLine "key".toList (T.str key), colonLine "existing_variant".toList (T.str existing),
      colonLine "incoming_variant".toList (T.str incoming)]
  | .unexpectedVariant enumType expected actual =>
    recordLine "UnexpectedVariant" [colonLine "enum_type".toList (T.str enumType), colonLine "expected".toList (T.str expected),
      colonLine "actual".toList (T.str actual)]
  | .ioError cause => callLine "IOError" (C.io cause)
  | .invalidUnicodeToParse cause => callLine "InvalidUnicodeToParse" (C.utf8 cause)
  | .unexpectedRemainingInput s => callLine "UnexpectedRemainingInput" (T.str s)
  | .bug s => callLine "Bug" (T.str s)

/-- Errors of deserialization. -/
def serdeErrLine : SerdeErr → Str
  | .parseError e => callLine "ParseError" (pubErrLine T C e)
  | .parseIntError c => callLine "ParseIntError" (C.int c)
  | .parseFloatError c => callLine "ParseFloatError" (C.float c)
  | .trailingCharacters => "TrailingCharacters".toList
  | .overflow t => callLine "Overflow" (T.str t)
  | .invalidTupleLength e a =>
    recordLine "InvalidTupleLength" [colonLine "expected".toList (T.int e), colonLine "actual".toList (T.int a)]
  | .objectDuplicateKey k => callLine "ObjectDuplicateKey" (T.str k)
  | .bodyDuplicateKey k => callLine "BodyDuplicateKey" (T.str k)
  | .custom m => callLine "Custom" (T.str m)

/-- Errors of the command line program. -/
def cliErrorLine : CliError → Str
  | .parser e => callLine "ParserError" (pubErrLine T C e)
  | .io c => callLine "IOError" (C.io c)
  | .unknownCommand n => callLine "UnknownCommand" (T.str n)
end

end Verif.Spec
