import Verif.Model.Nom
/-!
# Lexical parsers: whitespace, identifiers, booleans, null, strings, heredocs
-/
set_option autoImplicit false

namespace Verif

/-- Unicode character tables used by the code: `unic_ucd_ident::{is_id_start,is_id_continue}`
(lib/src/parser/identifier.rs:30) and `char::is_alphanumeric` (lib/src/parser/string.rs:175).
The tables themselves are not modelled; only their behaviour on ASCII and `ID_Start ⊆ ID_Continue`
are recorded. Every theorem quantifies over all such tables. -/
structure CharClass where
  idStart : Char → Bool
  idContinue : Char → Bool
  alnum : Char → Bool
  idStart_ascii : ∀ c, c.toNat < 128 → idStart c = c.isAlpha
  idContinue_ascii : ∀ c, c.toNat < 128 → idContinue c = (c.isAlphanum || c == '_')
  alnum_ascii : ∀ c, c.toNat < 128 → alnum c = c.isAlphanum
  idStart_idContinue : ∀ c, idStart c = true → idContinue c = true

/-- The pure ASCII table (no non-ASCII identifiers): used in examples and witnesses. -/
def asciiClass : CharClass where
  idStart := fun c => c.isAlpha
  idContinue := fun c => c.isAlphanum || c == '_'
  alnum := fun c => c.isAlphanum
  idStart_ascii := fun _ _ => rfl
  idContinue_ascii := fun _ _ => rfl
  alnum_ascii := fun _ _ => rfl
  idStart_idContinue := by
    intro c h
    simp [Char.isAlphanum, h]

/-! ## Whitespace and comments (lib/src/parser/whitespace.rs) -/

/-- nom `eol`: `"\n"` or `"\r\n"`. -/
def eol : Parser Str := tag ['\n'] <//> tag ['\r', '\n']

/-- whitespace.rs:33-35 `not_eol` -/
def notEol (c : Char) : Bool := c != '\r' && c != '\n'

/-- whitespace.rs:37-40 `inline_comment` -/
def inlineComment : Parser Str := do
  let _ ← tag ['/', '*']
  let v ← takeUntil ['*', '/']
  let _ ← tag ['*', '/']
  pure v

/-- whitespace.rs:42-45 `hash_comment` -/
def hashComment : Parser Str := do
  let _ ← tag ['#']
  let v ← takeWhile notEol
  let _ ← eol
  pure v

/-- whitespace.rs:47-50 `slash_comment` -/
def slashComment : Parser Str := do
  let _ ← tag ['/', '/']
  let v ← takeWhile notEol
  let _ ← eol
  pure v

/-- whitespace.rs:52-57 `line_comment`: both alternatives of the code are `hash_comment`. Nothing in the crate calls it. -/
def lineComment : Parser Str := hashComment <//> hashComment

/-- `eat_separator!(" \t")` predicate (whitespace.rs:63) -/
def isBlank (c : Char) : Bool := c == ' ' || c == '\t'

/-- `eat_separator!(" \t\r\n")` predicate (whitespace.rs:74) -/
def isSpace (c : Char) : Bool := c == ' ' || c == '\t' || c == '\r' || c == '\n'

/-- whitespace.rs:59-66 `inline_whitespace` -/
def inlineWs : Parser (List Str) := many0 (inlineComment <//> takeWhile isBlank)

/-- whitespace.rs:68-77 `whitespace` -/
def ws : Parser (List Str) :=
  many0 (hashComment <//> slashComment <//> inlineComment <//> takeWhile isSpace)

/-- whitespace.rs:79-93, one item of `newline` -/
def newlineItem : Parser Str :=
  hashComment <//> slashComment
    <//> (do let c ← inlineComment; let _ ← eol; pure c)
    <//> eol

/-- whitespace.rs:79-93 `newline` -/
def newline : Parser (List Str) := many1 newlineItem

/-- whitespace.rs:117-136: macro `whitespace!(p)` for a `p` that nom's `sep!` does not rewrite:
skip layout, run `p`, skip layout. -/
def wsAround {α : Type} (p : Parser α) : Parser α := do
  let _ ← ws
  let v ← p
  let _ ← ws
  pure v

/-- whitespace.rs:95-115: macro `inline_whitespace!(p)`, same shape. -/
def inlineWsAround {α : Type} (p : Parser α) : Parser α := do
  let _ ← inlineWs
  let v ← p
  let _ ← inlineWs
  pure v

/-! ## Identifiers, booleans, null -/

/-- identifier.rs:40: `is_id_continue(c) || c == '-'` -/
def identChar (U : CharClass) (c : Char) : Bool := U.idContinue c || c == '-'

/-- identifier.rs:46: `is_id_start(c) || c == '_'` -/
def identStart (U : CharClass) (c : Char) : Bool := U.idStart c || c == '_'

/-- identifier.rs:35-52 `identifier` (with utils.rs:5-17 `while_predicate1`) -/
def identifier (U : CharClass) : Parser Str :=
  verify (takeWhile1 (identChar U)) fun s => match s with
    | [] => false
    | c :: _ => identStart U c

/-- boolean.rs:5-10 `boolean` -/
def boolean : Parser Bool :=
  mapP (fun _ => true) (tag ['t', 'r', 'u', 'e']) <//> mapP (fun _ => false) (tag ['f', 'a', 'l', 's', 'e'])

/-- null.rs:4-12 `null` -/
def null : Parser Unit := mapP (fun _ => ()) (tag ['n', 'u', 'l', 'l'])

/-! ## Strings (lib/src/parser/string.rs) -/

/-- `Cow<str>`: the text plus whether it is `Cow::Owned`. Rust equality ignores the flag. -/
structure CowStr where
  owned : Bool
  str : Str
  deriving Repr, DecidableEq

/-- `Cow::Borrowed` -/
def CowStr.borrowed (s : Str) : CowStr := ⟨false, s⟩
/-- `Cow::Owned` -/
def CowStr.ownedS (s : Str) : CowStr := ⟨true, s⟩

/-- Value of a digit in bases up to 16 (`char::to_digit`). -/
def digitVal (c : Char) : Nat :=
  if c.isDigit then c.toNat - '0'.toNat
  else if 'a'.toNat ≤ c.toNat ∧ c.toNat ≤ 'f'.toNat then c.toNat - 'a'.toNat + 10
  else if 'A'.toNat ≤ c.toNat ∧ c.toNat ≤ 'F'.toNat then c.toNat - 'A'.toNat + 10
  else 0

/-- string.rs:23-25 `is_hex_digit` (`char::is_digit(16)`) -/
def isHexDigit (c : Char) : Bool :=
  c.isDigit || ('a'.toNat ≤ c.toNat && c.toNat ≤ 'f'.toNat) || ('A'.toNat ≤ c.toNat && c.toNat ≤ 'F'.toNat)

/-- string.rs:27-29 `is_oct_digit` (`char::is_digit(8)`) -/
def isOctDigit (c : Char) : Bool := '0'.toNat ≤ c.toNat && c.toNat ≤ '7'.toNat

/-- `u32::from_str_radix` on digits already checked by the parser. At most 8 hex digits reach it, so
the value is below 2^32 and the `expect` cannot fail. -/
def radixVal (base : Nat) (ds : Str) : Nat := ds.foldl (fun a c => a * base + digitVal c) 0

/-- `char::from_u32` -/
def charFromU32 (n : Nat) : Option Char :=
  if h : n.isValidChar then some (Char.ofNatAux n h) else none

/-- string.rs:43-50 `octal_to_string` -/
def octalToString (s : Str) : Option Str := (charFromU32 (radixVal 8 s)).map fun c => [c]

/-- string.rs:52-57 `hex_to_string` -/
def hexToString (s : Str) : Option Str := (charFromU32 (radixVal 16 s)).map fun c => [c]

/-- One `map_res!(preceded!(tag!(k), take_while_m_n!(1, n, is_hex_digit)), hex_to_string)` arm of
`hex_to_unicode` (string.rs:114-117) -/
def hexArm (k : Char) (n : Nat) : Parser Str :=
  mapRes (do let _ ← tag [k]; takeWhileMN 1 n isHexDigit) hexToString

/-- string.rs:107-122 `hex_to_unicode` -/
def hexToUnicode : Parser Str :=
  returnError (hexArm 'x' 2 <//> hexArm 'u' 4 <//> hexArm 'U' 8)

/-- string.rs:89-105 `unescape` -/
def unescape : Parser Str :=
  mapP (fun _ => ['\x07']) (tag ['a'])
  <//> mapP (fun _ => ['\x08']) (tag ['b'])
  <//> mapP (fun _ => ['\x0c']) (tag ['f'])
  <//> mapP (fun _ => ['\n']) (tag ['n'])
  <//> mapP (fun _ => ['\r']) (tag ['r'])
  <//> mapP (fun _ => ['\t']) (tag ['t'])
  <//> mapP (fun _ => ['\x0b']) (tag ['v'])
  <//> mapP (fun _ => ['\\']) (tag ['\\'])
  <//> mapP (fun _ => ['"']) (tag ['"'])
  <//> mapP (fun _ => ['?']) (tag ['?'])
  <//> mapRes (takeWhileMN 1 3 isOctDigit) octalToString
  <//> hexToUnicode

/-- string.rs:31-35 `legal_string_literal_character` -/
def legalChar (c : Char) : Bool := c != '\\' && c != '"'

/-- string.rs:37-41 `legal_string_literal_single_line_character` -/
def legalSingleLineChar (c : Char) : Bool := c != '\\' && c != '"' && c != '\r' && c != '\n'

/-- nom `escaped_transform!(take_while1!(normal), '\\', unescape)` with fuel: runs of normal characters
are copied, `\` starts an escape; any other character stops with success; a final lone `\` is an
error. -/
def escapedAux (normal : Char → Bool) (un : Parser Str) : Nat → Parser Str
  | 0 => fun _ => .diverge
  | n + 1 => fun s => match s with
    | [] => .ok [] []
    | c :: cs => match takeWhile1 normal (c :: cs) with
      | .ok r v => (escapedAux normal un n r).map (v ++ ·)
      | _ => if c == '\\' then
          match cs with
          | [] => .err
          | _ => (un cs).bind fun r v =>
              if r.length < cs.length then (escapedAux normal un n r).map (v ++ ·) else .err
        else .ok (c :: cs) []

/-- nom `escaped_transform!` -/
def escapedTransform (normal : Char → Bool) (un : Parser Str) : Parser Str := fun s =>
  escapedAux normal un (s.length + 1) s

/-- string.rs:125-132 `multiline_string_content` -/
def multilineStringContent : Parser Str := escapedTransform legalChar unescape

/-- string.rs:134-141 `quoted_string` -/
def quotedString : Parser Str := do
  let _ ← tag ['"']
  let v ← multilineStringContent
  let _ ← tag ['"']
  pure v

/-- string.rs:143-150 `string_literal_content` -/
def stringLiteralContent : Parser Str := escapedTransform legalSingleLineChar unescape

/-- string.rs:152-159 `string_literal` -/
def stringLiteral : Parser Str := do
  let _ ← tag ['"']
  let v ← stringLiteralContent
  let _ ← tag ['"']
  pure v

/-- string.rs:161-166 `HereDoc` -/
structure HereDoc where
  identifier : Str
  indented : Bool
  deriving Repr, DecidableEq

/-- string.rs:175: `c.is_alphanumeric() || c == '_'` -/
def heredocChar (U : CharClass) (c : Char) : Bool := U.alnum c || c == '_'

/-- string.rs:170-182 `heredoc_begin` -/
def heredocBegin (U : CharClass) : Parser HereDoc := do
  let _ ← tag ['<', '<']
  let ind ← opt (tag ['-'])
  let id ← takeWhile1 (heredocChar U)
  let _ ← peek eol
  pure ⟨id, ind == some ['-']⟩

/-- string.rs:188-206 `heredoc_end`: returns the indentation (length in bytes of the blanks before the
marker, all of them one byte) if the heredoc is indented, else 0. -/
def heredocEnd (h : HereDoc) : Parser Nat := do
  let _ ← eol
  let ind ← takeWhile isBlank
  let _ ← tag h.identifier
  let _ ← peek eol
  pure (if h.indented then ind.length else 0)

/-- utils.rs:112-152 `take_till_match!` on `CompleteStr`: try the parser at every character index
(utils.rs:47-56 `safe_indices`; the end of input is not an index), ignoring its errors. Panics inside
the sub-parser propagate. -/
def takeTillMatch {α : Type} (p : Parser α) : Parser (Str × α)
  | [] => .err
  | c :: s => match p (c :: s) with
    | .ok r v => .ok r ([], v)
    | .panic => .panic
    | .diverge => .diverge
    | .err | .fail _ => (takeTillMatch p s).bind fun r v => .ok r (c :: v.1, v.2)

/-- `str::char_indices` starting at byte offset `i` -/
def charIndicesFrom (i : Nat) : Str → List (Nat × Char)
  | [] => []
  | c :: s => (i, c) :: charIndicesFrom (i + c.utf8Size) s

/-- `&line[i..]`: `none` when `i` is out of range or not on a character boundary (Rust panics). -/
def sliceFrom : Str → Nat → Option Str
  | s, 0 => some s
  | [], _ + 1 => none
  | c :: s, i => if c.utf8Size ≤ i then sliceFrom s (i - c.utf8Size) else none

/-- `Iterator::all` on the peekable rest: `(all true?, iterator after the call)` -/
def allSpaces : List (Nat × Char) → Bool × List (Nat × Char)
  | [] => (true, [])
  | (_, c) :: it => if c == ' ' then allSpaces it else (false, it)

/-- string.rs:66-77, loop body of `unindent_heredoc` on one line (`none` = panic) -/
def unindentLine (n : Nat) (line : Str) : Option Str :=
  let beginning := (charIndicesFrom 0 line).take n
  match allSpaces beginning with
  | (true, _) => sliceFrom line n
  | (false, rest) => match rest with
    | [] => none
    | (start, _) :: _ => sliceFrom line (start - 1)

/-- `str::split('\n')` -/
def splitLines : Str → List Str
  | [] => [[]]
  | c :: s => if c == '\n' then [] :: splitLines s else
    match splitLines s with
    | [] => [[c]]
    | l :: ls => (c :: l) :: ls

/-- Lines joined by `'\n'` (push each line and `'\n'`, then truncate the last `'\n'`). -/
def joinLines : List Str → Str
  | [] => []
  | [l] => l
  | l :: ls => l ++ '\n' :: joinLines ls

/-- string.rs:60-83 `unindent_heredoc` (`none` = panic) -/
def unindentHeredoc (s : Str) (n : Nat) : Option CowStr :=
  if n = 0 then some (.borrowed s)
  else ((splitLines s).mapM (unindentLine n)).map fun ls => .ownedS (joinLines ls)

/-- string.rs:213-220, content of `heredoc_string`: the terminator at once, or an end of line and everything
before the first terminator -/
def heredocContent (h : HereDoc) : Parser (Str × Nat) :=
  mapP (fun _ => (([] : Str), 0)) (heredocEnd h)
    <//> (do let _ ← eol; takeTillMatch (heredocEnd h))

/-- string.rs:221, result of `heredoc_string`: `unindent_heredoc`, which may panic -/
def heredocFinish (c : Str × Nat) : Parser CowStr := fun s =>
  match unindentHeredoc c.1 c.2 with
    | some v => .ok s v
    | none => .panic

/-- string.rs:208-223 `heredoc_string` -/
def heredocString (U : CharClass) : Parser CowStr := do
  let h ← heredocBegin U
  let c ← heredocContent h
  heredocFinish c

/-- string.rs:225-231 `string` -/
def string (U : CharClass) : Parser CowStr :=
  mapP CowStr.ownedS quotedString <//> heredocString U

end Verif
