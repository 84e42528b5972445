import Verif.Model.OldParser
import Verif.Model.Parser
/-!
# `Err::Incomplete`

`Model/Nom.lean` does not distinguish nom's `Err::Incomplete` from `Err::Error`, although `alt!`, `opt!` and `many0!` do: they
pass `Incomplete` on. On `CompleteStr`, of all parsers used, only `nom::eol` (`line_ending`) returns it. Here the parsers that call
`eol` are modelled again, with `Incomplete` as an outcome of its own; `Proofs/Incomplete.lean` shows that the simpler model
gives the same outcomes, but for `Incomplete` being an error, and that layout and line ends are never `Incomplete`.
-/
set_option autoImplicit false

namespace Verif

/-- An outcome, or `Err::Incomplete`. -/
inductive IRes (α : Type) where
  | done (x : PRes α)
  | incomplete
  deriving DecidableEq

/-- A parser that may ask for more input. -/
def IParser (α : Type) := Str → IRes α

/-- A parser that never asks for more input. -/
def IParser.lift {α : Type} (p : Parser α) : IParser α := fun s => .done (p s)

/-- nom `do_parse!`/`delimited!`: sequencing; `Incomplete` ends the sequence -/
def IParser.bind {α β : Type} (p : IParser α) (f : α → IParser β) : IParser β := fun s =>
  match p s with
  | .incomplete => .incomplete
  | .done (.ok r v) => f v r
  | .done .err => .done .err
  | .done (.fail t) => .done (.fail t)
  | .done .panic => .done .panic
  | .done .diverge => .done .diverge

instance : Monad IParser where
  pure v := IParser.lift (Parser.pure v)
  bind := IParser.bind

/-- nom `alt!` with two alternatives: only `Err::Error` leads to the next one -/
def IParser.alt {α : Type} (p q : IParser α) : IParser α := fun s =>
  match p s with
  | .done .err => q s
  | r => r

/-- nom `complete!`: `Incomplete` becomes an error -/
def IParser.complete {α : Type} (p : IParser α) : IParser α := fun s =>
  match p s with
  | .incomplete => .done .err
  | r => r

/-- nom `alt_complete!` with two alternatives: `alt!` of `complete!`d alternatives -/
def IParser.altComplete {α : Type} (p q : IParser α) : IParser α := p.complete.alt q.complete

/-- nom `map!` -/
def IParser.mapP {α β : Type} (g : α → β) (p : IParser α) : IParser β := p.bind fun v => .lift (.pure (g v))

/-- nom `peek!` -/
def IParser.peek {α : Type} (p : IParser α) : IParser α := fun s =>
  match p s with
  | .done (.ok _ v) => .done (.ok s v)
  | r => r

/-- Loop of nom `many0!`, as `many0Aux`; `Incomplete` ends it without a result -/
def IParser.many0Aux {α : Type} (p : IParser α) : Nat → IParser (List α)
  | 0 => fun _ => .done .diverge
  | n + 1 => fun s => match p s with
    | .incomplete => .incomplete
    | .done (.ok r v) => if r.length < s.length then (IParser.many0Aux p n).mapP (v :: ·) r else .done (.ok s [])
    | .done .err => .done (.ok s [])
    | .done (.fail t) => .done (.fail t)
    | .done .panic => .done .panic
    | .done .diverge => .done .diverge

/-- nom `many0!` -/
def IParser.many0 {α : Type} (p : IParser α) : IParser (List α) := fun s => IParser.many0Aux p (s.length + 1) s

/-- nom `many1!` -/
def IParser.many1 {α : Type} (p : IParser α) : IParser (List α) := p.bind fun v => p.many0.mapP (v :: ·)

/-- nom 4.2.3 `line_ending` = `eol`: `compare` says `Incomplete` of a text that ends before it differs -/
def eolI : IParser Str
  | [] => .incomplete
  | ['\r'] => .incomplete
  | s => .done (eol s)

/-- whitespace.rs:42-45 `hash_comment` -/
def hashCommentI : IParser Str := do
  let _ ← IParser.lift (tag ['#'])
  let v ← IParser.lift (takeWhile notEol)
  let _ ← eolI
  pure v

/-- whitespace.rs:47-50 `slash_comment` -/
def slashCommentI : IParser Str := do
  let _ ← IParser.lift (tag ['/', '/'])
  let v ← IParser.lift (takeWhile notEol)
  let _ ← eolI
  pure v

/-- whitespace.rs:52-57 `line_comment` -/
def lineCommentI : IParser Str := hashCommentI.altComplete hashCommentI

/-- whitespace.rs:68-77 `whitespace` (the parser `inline_whitespace` does not call `eol`) -/
def wsI : IParser (List Str) :=
  IParser.many0 (hashCommentI.altComplete (slashCommentI.altComplete
    ((IParser.lift inlineComment).altComplete (IParser.lift (takeWhile isSpace)))))

/-- whitespace.rs:79-93 `newline` -/
def newlineI : IParser (List Str) :=
  IParser.many1 (hashCommentI.altComplete (slashCommentI.altComplete
    (IParser.altComplete (do let c ← IParser.lift inlineComment; let _ ← eolI; pure c) eolI)))

/-- string.rs:170-182 `heredoc_begin` -/
def heredocBeginI (U : CharClass) : IParser HereDoc := do
  let _ ← IParser.lift (tag ['<', '<'])
  let ind ← IParser.lift (opt (tag ['-']))
  let id ← IParser.lift (takeWhile1 (heredocChar U))
  let _ ← eolI.peek
  pure ⟨id, ind == some ['-']⟩

/-- string.rs:188-206 `heredoc_end` -/
def heredocEndI (h : HereDoc) : IParser Nat := do
  let _ ← eolI
  let ind ← IParser.lift (takeWhile isBlank)
  let _ ← IParser.lift (tag h.identifier)
  let _ ← eolI.peek
  pure (if h.indented then ind.length else 0)

/-- utils.rs:112-152 `take_till_match!`: every `Err` is ignored, `Incomplete` too (`Err(_e1) => {}`) -/
def takeTillMatchI {α : Type} (p : IParser α) : Parser (Str × α)
  | [] => .err
  | c :: s => match p (c :: s) with
    | .done (.ok r v) => .ok r ([], v)
    | .done .panic => .panic
    | .done .diverge => .diverge
    | .done .err | .done (.fail _) | .incomplete => (takeTillMatchI p s).bind fun r v => .ok r (c :: v.1, v.2)

/-- string.rs:213-220, content of `heredoc_string`: an `alt!`, so `Incomplete` in the first alternative is passed on -/
def heredocContentI (h : HereDoc) : IParser (Str × Nat) :=
  (IParser.mapP (fun _ => (([] : Str), 0)) (heredocEndI h)).alt
    (do let _ ← eolI; IParser.lift (takeTillMatchI (heredocEndI h)))

/-- string.rs:208-223 `heredoc_string` -/
def heredocStringI (U : CharClass) : IParser CowStr := do
  let h ← heredocBeginI U
  let c ← heredocContentI h
  IParser.lift (heredocFinish c)

/-- string.rs:225-231 `string`: an `alt!` -/
def stringI (U : CharClass) : IParser CowStr :=
  (IParser.lift (mapP CowStr.ownedS quotedString)).alt (heredocStringI U)

/-- expression.rs:187-212 `expression`, one unfolding: an `alt_complete!`. The other alternatives call, of the parsers above, only
`whitespace` and `newline`, which are never `Incomplete` (`ws_lift`, `newline_lift`), and the nested parser `e`. -/
def exprStepI (U : CharClass) (e : Parser Expr) : IParser Expr :=
  (IParser.lift (mapP (fun _ => .null) null)).altComplete
  ((IParser.lift (mapP .number number)).altComplete
  ((IParser.lift (mapP .boolean boolean)).altComplete
  ((IParser.mapP .string (stringI U)).altComplete
  ((IParser.lift (mapP .tuple (tuple e))).altComplete
  ((IParser.lift (mapP .object (object U e))).altComplete
  (IParser.lift (bracketExpression e)))))))

/-- parser.rs:79-89 `single_value`, one unfolding: an `alt_complete!`, as `exprStepI` -/
def valueStepI (U : CharClass) (P : F64Parse) (v : Parser Value) (m : Parser MapValues) : IParser Value :=
  (IParser.lift (mapP (fun _ => .null) null)).altComplete
  ((IParser.lift (oldNumber P)).altComplete
  ((IParser.lift (mapP .boolean boolean)).altComplete
  ((IParser.mapP (fun s : CowStr => .string s.str) (stringI U)).altComplete
  ((IParser.lift (mapP .list (list v))).altComplete
  (IParser.lift (mapP (fun x => .object [x]) (mapExpression m)))))))

end Verif
