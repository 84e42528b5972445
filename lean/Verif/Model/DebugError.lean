import Verif.Model.DebugLine
import Verif.Model.Display
/-!
# `{:?}` and `{:#?}` of errors

Derived `Debug` of the error types (what `unwrap` and `expect` show when a text cannot be read). How std's own errors show
themselves is a parameter. Not modelled: `Debug` of `serde::de::Compat`, whose field is a type of the `failure` crate.
-/
set_option autoImplicit false

namespace Verif

/-- std `Debug` of the causes that are errors of std, identified by their messages as in `PubErr` and `SerdeErr` -/
structure CauseTrees where
  io : Str → DTree
  utf8 : Str → DTree
  int : Str → DTree
  float : Str → DTree

/-- std `Debug` of a `u8`, `usize` -/
def debugNat (n : Nat) : DTree := .word (decimal n)

/-- errors.rs:12 derived `Debug for Error` -/
def PubErr.debug (C : CauseTrees) : PubErr → DTree
  | .invalidUnicodeCodePoint s => .tuple (lit "InvalidUnicodeCodePoint") [.str s]
  | .invalidNumber s => .tuple (lit "InvalidNumber") [.str s]
  | .invalidUnicode b => .tuple (lit "InvalidUnicode") [.list (b.map debugNat)]
  | .parseError s => .tuple (lit "ParseError") [.str s]
  | .illegalMultipleEntries key variant => .struct (lit "IllegalMultipleEntries")
      [(.word (lit "key"), .str key), (.word (lit "variant"), .str variant)]
  | .errorMergingKeys key existing incoming => .struct (lit "ErrorMergingKeys")
      [(.word (lit "key"), .str key), (.word (lit "existing_variant"), .str existing),
        (.word (lit "incoming_variant"), .str incoming)]
  | .unexpectedVariant enumType expected actual => .struct (lit "UnexpectedVariant")
      [(.word (lit "enum_type"), .str enumType), (.word (lit "expected"), .str expected), (.word (lit "actual"), .str actual)]
  | .ioError cause => .tuple (lit "IOError") [C.io cause]
  | .invalidUnicodeToParse cause => .tuple (lit "InvalidUnicodeToParse") [C.utf8 cause]
  | .unexpectedRemainingInput s => .tuple (lit "UnexpectedRemainingInput") [.str s]
  | .bug s => .tuple (lit "Bug") [.str s]

/-- serde/de.rs:27 derived `Debug for serde::de::Error` -/
def SerdeErr.debug (C : CauseTrees) : SerdeErr → DTree
  | .parseError e => .tuple (lit "ParseError") [e.debug C]
  | .parseIntError c => .tuple (lit "ParseIntError") [C.int c]
  | .parseFloatError c => .tuple (lit "ParseFloatError") [C.float c]
  | .trailingCharacters => .word (lit "TrailingCharacters")
  | .overflow t => .tuple (lit "Overflow") [.str t]
  | .invalidTupleLength e a => .struct (lit "InvalidTupleLength") [(.word (lit "expected"), debugNat e), (.word (lit "actual"), debugNat a)]
  | .objectDuplicateKey k => .tuple (lit "ObjectDuplicateKey") [.str k]
  | .bodyDuplicateKey k => .tuple (lit "BodyDuplicateKey") [.str k]
  | .custom m => .tuple (lit "Custom") [.str m]

/-- cli/src/error.rs:3 derived `Debug for Error` -/
def CliError.debug (C : CauseTrees) : CliError → DTree
  | .parser e => .tuple (lit "ParserError") [e.debug C]
  | .io c => .tuple (lit "IOError") [C.io c]
  | .unknownCommand n => .tuple (lit "UnknownCommand") [.str n]

end Verif
