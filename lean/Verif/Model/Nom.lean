/-!
# Model of the nom 4.2.3 combinators used by ferrous-chloride

nom's source is not part of /repo; the combinators are transcribed from their documented behaviour on
`nom::types::CompleteStr` (every parser in /repo/lib/src/parser runs on `CompleteStr`).
`Err::Incomplete` only arises from `nom::eol` at the end of input and is always turned into an error
by an enclosing `alt_complete!`, so it is modelled as `err` here; `Model/Incomplete.lean` models the parsers concerned again,
with `Incomplete` as an outcome, and the theorems of C95 show that this makes no difference.
-/
set_option autoImplicit false

namespace Verif

/-- Rust `str`: a finite sequence of Unicode scalar values. -/
abbrev Str := List Char

/-- Result of a nom parser (`nom::IResult<CompleteStr, O>`), plus the two outcomes that are not values
in Rust: a panic, and non-termination (`diverge`, produced only when model fuel runs out).
`err` = `Err::Error` (recoverable: `alt!`, `opt!`, `many0!` catch it), `fail` = `Err::Failure`
(unrecoverable); it carries the input at which the `return_error!` that made it was entered, the last entry of the context
nom builds. The payload of `err`, and the conversions of nom errors, are modelled separately in `Model/Errors.lean`. -/
inductive PRes (α : Type) where
  | ok (rest : Str) (v : α)
  | err
  | fail (at_ : Str)
  | panic
  | diverge
  deriving Repr, DecidableEq

/-- A nom parser on `CompleteStr`. -/
def Parser (α : Type) := Str → PRes α

namespace PRes
/-- Sequencing of results: only success continues. -/
def bind {α β : Type} (x : PRes α) (f : Str → α → PRes β) : PRes β :=
  match x with
  | ok r v => f r v
  | err => err
  | fail t => fail t
  | panic => panic
  | diverge => diverge

/-- nom `map!`: apply a function to the output. -/
def map {α β : Type} (g : α → β) (x : PRes α) : PRes β := x.bind fun r v => ok r (g v)
end PRes

/-- nom `do_parse!`/`tuple!`/`preceded!`/`terminated!`/`delimited!`: sequencing. -/
def Parser.bind {α β : Type} (p : Parser α) (f : α → Parser β) : Parser β :=
  fun s => (p s).bind fun r v => f v r

/-- Succeed without consuming input (the final expression of `do_parse!`). -/
def Parser.pure {α : Type} (v : α) : Parser α := fun s => .ok s v

instance : Monad Parser where
  pure := Parser.pure
  bind := Parser.bind

/-- nom `tag!`/`char!`: expect exactly this text. -/
def tag (t : Str) : Parser Str := fun s =>
  if t.isPrefixOf s then .ok (s.drop t.length) t else .err

/-- nom `eof!`: succeed only at the end of input. -/
def eof : Parser Unit := fun s => if s.isEmpty then .ok s () else .err

/-- nom `alt!` / `alt_complete!` with two alternatives (nest for more). -/
def orElse {α : Type} (p q : Parser α) : Parser α := fun s =>
  match p s with
  | .err => q s
  | r => r

@[inherit_doc] infixr:20 " <//> " => orElse

/-- nom `opt!`. -/
def opt {α : Type} (p : Parser α) : Parser (Option α) := fun s =>
  match p s with
  | .ok r v => .ok r (some v)
  | .err => .ok s none
  | .fail t => .fail t
  | .panic => .panic
  | .diverge => .diverge

/-- nom `peek!`: run without consuming. -/
def peek {α : Type} (p : Parser α) : Parser α := fun s => (p s).bind fun _ v => .ok s v

/-- nom `map!` and the `=> { |v| .. }` arms of `alt!`. -/
def mapP {α β : Type} (g : α → β) (p : Parser α) : Parser β := fun s => (p s).map g

/-- nom `verify!`. -/
def verify {α : Type} (p : Parser α) (ok? : α → Bool) : Parser α := fun s =>
  (p s).bind fun r v => if ok? v then .ok r v else .err

/-- nom `map_res!` / `flat_map!(.., parse_to!(..))`: `none` is a conversion error. -/
def mapRes {α β : Type} (p : Parser α) (g : α → Option β) : Parser β := fun s =>
  (p s).bind fun r v => match g v with
    | some w => .ok r w
    | none => .err

/-- nom `return_error!`: errors become failures (no backtracking past this point), with the input appended to the context. -/
def returnError {α : Type} (p : Parser α) : Parser α := fun s =>
  match p s with
  | .err => .fail s
  | r => r

/-- nom `recognize!`: return the consumed text. -/
def recognize {α : Type} (p : Parser α) : Parser Str := fun s =>
  (p s).bind fun r _ => .ok r (s.take (s.length - r.length))

/-- nom `exact!`: run, then require the end of input. -/
def exact {α : Type} (p : Parser α) : Parser α := fun s =>
  (p s).bind fun r v => if r.isEmpty then .ok r v else .err

/-- nom `take_while!` (zero or more). -/
def takeWhile (f : Char → Bool) : Parser Str := fun s => .ok (s.dropWhile f) (s.takeWhile f)

/-- nom `take_while1!`, `digit`, `InputTakeAtPosition::split_at_position1` (one or more). -/
def takeWhile1 (f : Char → Bool) : Parser Str := fun s =>
  if (s.takeWhile f).isEmpty then .err else .ok (s.dropWhile f) (s.takeWhile f)

/-- nom `take_while_m_n!`: greedily at most `n`, at least `m` characters satisfying `f`. -/
def takeWhileMN (m n : Nat) (f : Char → Bool) : Parser Str := fun s =>
  let t := (s.take n).takeWhile f
  if t.length < m then .err else .ok (s.drop t.length) t

/-- nom `take_until!`: everything before the first occurrence of `t` (error when there is none). -/
def takeUntil (t : Str) : Parser Str
  | [] => if t.isEmpty then .ok [] [] else .err
  | c :: s => if t.isPrefixOf (c :: s) then .ok (c :: s) []
      else (takeUntil t s).bind fun r v => .ok r (c :: v)

/-- Loop of nom `many0!`, with fuel. An item that consumes nothing stops the loop (on `CompleteStr`);
nom tests `remaining == input`, here the test is on lengths (remaining inputs are suffixes). -/
def many0Aux {α : Type} (p : Parser α) : Nat → Parser (List α)
  | 0 => fun _ => .diverge
  | n + 1 => fun s => match p s with
    | .ok r v => if r.length < s.length then (many0Aux p n r).map (v :: ·) else .ok s []
    | .err => .ok s []
    | .fail t => .fail t
    | .panic => .panic
    | .diverge => .diverge

/-- nom `many0!`. -/
def many0 {α : Type} (p : Parser α) : Parser (List α) := fun s => many0Aux p (s.length + 1) s

/-- nom `many1!`. -/
def many1 {α : Type} (p : Parser α) : Parser (List α) := fun s =>
  (p s).bind fun r v => (many0 p r).map (v :: ·)

/-- Loop of nom `separated_list!` after the first element, with fuel. -/
def sepTailAux {α β : Type} (sep : Parser β) (p : Parser α) : Nat → Parser (List α)
  | 0 => fun _ => .diverge
  | n + 1 => fun s => match sep s with
    | .err => .ok s []
    | .fail t => .fail t
    | .panic => .panic
    | .diverge => .diverge
    | .ok r _ => match p r with
      | .err => .ok s []
      | .fail t => .fail t
      | .panic => .panic
      | .diverge => .diverge
      | .ok r' v => if r'.length < s.length then (sepTailAux sep p n r').map (v :: ·) else .err

/-- nom `separated_list!`. -/
def separatedList {α β : Type} (sep : Parser β) (p : Parser α) : Parser (List α) := fun s =>
  match p s with
  | .err => .ok s []
  | .fail t => .fail t
  | .panic => .panic
  | .diverge => .diverge
  | .ok r v => if r.length < s.length then (sepTailAux sep p (r.length + 1) r).map (v :: ·) else .err

end Verif
