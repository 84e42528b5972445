import Verif.Spec.Message
/-! # The wording of messages: templates as they stand in the source -/
set_option autoImplicit false

namespace Verif.Spec

/-- `format!`: every `{}` of the template stands for the next argument. -/
def fillIn : Str → List Str → Str
  | '{' :: '}' :: t, a :: as => a ++ fillIn t as
  | c :: t, as => c :: fillIn t as
  | [], _ => []

/-- The message of an error: template and arguments, in the order in which they are shown (the bytes of `InvalidUnicode` are shown
one per line). -/
def Wording : PubErr → String × List Str
  | .invalidUnicodeCodePoint s => ("Invalid Unicode Code Points \\{}", [s])
  | .invalidNumber s => ("Invalid Number {}", [s])
  | .invalidUnicode b => ("Bytes contain invalid unicode: {}",
      [if b = [] then ['[', ']'] else ['[', '\n'] ++ (b.flatMap fun n => "    ".toList ++ decimal n ++ [',', '\n']) ++ [']']])
  | .parseError s => ("Generic Parse Error {}", [s])
  | .illegalMultipleEntries key variant => ("Variant {} does not allow multiple values with the same key {}", [variant, key])
  | .errorMergingKeys key existing incoming =>
    ("Error merging key {} into `Value`: existing value of variant {} cannot be merged with variant {}", [key, existing, incoming])
  | .unexpectedVariant enumType expected actual =>
    ("Expected type {} to be of variant {} but got {} instead", [enumType, expected, actual])
  | .ioError cause => ("IO Error: {}", [cause])
  | .invalidUnicodeToParse cause => ("Bytes to be parsed is invalid UTF-8: {}", [cause])
  | .unexpectedRemainingInput s => ("Expected all input to be consumed, but the following remains: {}", [s])
  | .bug s => ("Possible bug with the library encountered: {}; Please report to https://github.com/lawliet89/ferrous-chloride/issues", [s])

/-- The same for deserialization errors. -/
def SerdeWording : SerdeErr → String × List Str
  | .parseError e => ("HCL parse error: {}", [fillIn (Wording e).1.toList (Wording e).2])
  | .parseIntError c => ("Error parsing integer: {}", [c])
  | .parseFloatError c => ("Error parsing float: {}", [c])
  | .trailingCharacters => ("Input was not completely consumed during deserialization.", [])
  | .overflow t => ("Overflow when trying to convert to {}", [t])
  | .invalidTupleLength e a => ("Invalid tuple length. Expected {}, got {}", [decimal e, decimal a])
  | .objectDuplicateKey k => ("Object has duplicate key {}", [k])
  | .bodyDuplicateKey k => ("Body has duplicate key {}", [k])
  | .custom m => ("{}", [m])

/-- What the command-line tool prints. -/
def CliWording : CliError → String × List Str
  | .parser e => ("Error: Parser error: {}\n", [fillIn (Wording e).1.toList (Wording e).2])
  | .io c => ("Error: IO Error: {}\n", [c])
  | .unknownCommand n => ("Error: Unknown command: {}\n", [n])

end Verif.Spec
