import Verif.Model.Owned
/-!
# Error conversions (lib/src/errors.rs, lib/src/macros.rs)

nom's error types (`nom::Err`, `Context`, `ErrorKind`; nom 4.2.3 with `verbose-errors`) are transcribed from its
documentation; formatting (`{:#}`) is a parameter.
-/
set_option autoImplicit false

namespace Verif

/-- nom `ErrorKind<E>`: a custom code, or one of nom's own kinds, here identified by its `description()`. -/
inductive ErrorKind (ε : Type) where
  | custom (code : ε)
  | other (description : Str)

/-- nom `Context<I, E>` (verbose errors) -/
inductive Context (ι ε : Type) where
  | code (input : ι) (kind : ErrorKind ε)
  | list (l : List (ι × ErrorKind ε))

/-- nom `Err<I, E>`; `needed` is `Needed::Size(n)` or `Needed::Unknown` -/
inductive NomErr (ι ε : Type) where
  | incomplete (needed : Option Nat)
  | error (c : Context ι ε)
  | failure (c : Context ι ε)

/-- errors.rs:12-69 `Error`; the causes of the two I/O variants are identified by their message -/
inductive PubErr where
  | invalidUnicodeCodePoint (s : Str)
  | invalidNumber (s : Str)
  | invalidUnicode (bytes : List Nat)
  | parseError (s : Str)
  | illegalMultipleEntries (key variant : Str)
  | errorMergingKeys (key existing incoming : Str)
  | unexpectedVariant (enumType expected actual : Str)
  | ioError (cause : Str)
  | invalidUnicodeToParse (cause : Str)
  | unexpectedRemainingInput (s : Str)
  | bug (s : Str)
  deriving Repr, DecidableEq

/-- errors.rs:273-277 `InternalKind` -/
inductive InternalKind where
  | invalidUnicodeCodePoint
  | invalidUnicode
  | invalidNumber
  deriving Repr, DecidableEq

/-- errors.rs:253-261 `InternalKind::from_u32` -/
def InternalKind.fromU32 : Nat → Option InternalKind
  | 0 => some .invalidUnicodeCodePoint
  | 1 => some .invalidUnicode
  | 2 => some .invalidNumber
  | _ => none

/-- errors.rs:264-268 `From<InternalKind> for u32` -/
def InternalKind.toU32 : InternalKind → Nat
  | .invalidUnicodeCodePoint => 0
  | .invalidUnicode => 1
  | .invalidNumber => 2

section
variable {ι : Type} (asBytes : ι → List Nat) (convert : ι → Option Str)

/-- the text "UNKNOWN" -/
def unknownText : Str := ['U', 'N', 'K', 'N', 'O', 'W', 'N']

/-- errors.rs:210-231 `from_input_and_code` -/
def fromInputAndCode (input : ι) (code : Nat) : Option PubErr :=
  match InternalKind.fromU32 code with
  | some .invalidUnicodeCodePoint => some (.invalidUnicodeCodePoint ((convert input).getD unknownText))
  | some .invalidUnicode => some (.invalidUnicode (asBytes input))
  | some .invalidNumber => some (.invalidNumber ((convert input).getD unknownText))
  | none => none

/-- errors.rs:149-167 `from_context` -/
def fromContext : Context ι Nat → Option PubErr
  | .code input (.custom code) => fromInputAndCode asBytes convert input code
  | .list l => match l.getLast? with
    | some (input, .custom code) => fromInputAndCode asBytes convert input code
    | _ => none
  | _ => none

/-- errors.rs:99-111 `from_err`; `show` is the formatting of the nom error -/
def fromErr (shown : NomErr ι Nat → Str) (e : NomErr ι Nat) : PubErr :=
  match e with
  | .failure c => match fromContext asBytes convert c with
    | some e' => e'
    | none => .parseError (shown e)
  | e => .parseError (shown e)

/-- errors.rs:190-199 (and 176-183, 200-204): the new kind for one entry of the chain -/
def convertKind (input : ι) : ErrorKind Nat → PubErr
  | .custom code => (fromInputAndCode asBytes convert input code).getD (.parseError unknownText)
  | .other d => .parseError d

/-- errors.rs:170-208 `convert_context` -/
def convertContext : Context ι Nat → Context ι PubErr
  | .code input k => .code input (.custom (convertKind asBytes convert input k))
  | .list l => .list (l.map fun p => (p.1, .custom (convertKind asBytes convert p.1 p.2)))

/-- errors.rs:114-128 `make_custom_error` -/
def makeCustomError : NomErr ι Nat → NomErr ι PubErr
  | .incomplete n => .incomplete n
  | .error c => .error (convertContext asBytes convert c)
  | .failure c => .failure (convertContext asBytes convert c)

end

/-- errors.rs:76-85 `from_err_bytes` -/
def fromErrBytes (shown : NomErr (List Nat) Nat → Str) : NomErr (List Nat) Nat → PubErr := fromErr id fromUtf8 shown

/-- errors.rs:88-93 `from_err_str`; `bytes` are the bytes of the text -/
def fromErrStr (bytes : Str → List Nat) (shown : NomErr Str Nat → Str) : NomErr Str Nat → PubErr :=
  fromErr bytes some shown

/-- errors.rs:130-135 `make_custom_err_str` (macros.rs:8-15 `map_err_str!`) -/
def makeCustomErrStr (bytes : Str → List Nat) : NomErr Str Nat → NomErr Str PubErr := makeCustomError bytes some

/-- errors.rs:137-146 `make_custom_err_bytes` (macros.rs:24-31 `map_err!`) -/
def makeCustomErrBytes : NomErr (List Nat) Nat → NomErr (List Nat) PubErr := makeCustomError id fromUtf8

end Verif
