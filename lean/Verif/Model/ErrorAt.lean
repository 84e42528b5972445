import Verif.Model.Parser
import Verif.Model.Errors
import Verif.Model.OldParser
/-!
# Where a parse error is reported

`config_file` (public) returns nom's `IResult`, and `parse_str` formats nom's error into `ParseError`. nom's `exact!(p)` is
`terminated!(p, eof!())`, and `eof!()` on a non-empty input `i` returns `Err::Error(Context::Code(i, ErrorKind::Eof))`.
-/
set_option autoImplicit false

namespace Verif

/-- nom `ErrorKind::Eof`, by its `description()` -/
def eofKind : ErrorKind Nat := .other ['E', 'n', 'd', ' ', 'o', 'f', ' ', 'f', 'i', 'l', 'e']

/-- parser.rs:165-178 `config_file`: the context of the `Err::Error` it returns, if it returns one. `body` itself
(body.rs:104-126, a `many0!`) returns none. -/
def configFileError (U : CharClass) (s : Str) : Option (Context Str Nat) :=
  match body U s with
  | .ok (c :: r) _ => some (.code (c :: r) eofKind)
  | _ => none

/-- parser.rs:149-152 `body`, of which value.rs:896-899 `from_str` formats the error: the context of the `Err::Error` it
returns, if it returns one -/
def fromStrError (U : CharClass) (P : F64Parse) (s : Str) : Option (Context Str Nat) :=
  match mapValues U P s with
  | .ok (c :: r) _ => some (.code (c :: r) eofKind)
  | _ => none

end Verif
