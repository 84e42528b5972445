import Verif.Model.Ast
/-!
# Lexical specification

Declarative description of the tokens of the language. Nothing here refers to the parser: only to texts
(`Str`), the Unicode tables (`CharClass`) and syntax trees.
-/
set_option autoImplicit false

namespace Verif.Spec

/-- End of line: LF or CR LF. -/
inductive Eol : Str → Prop
  | lf : Eol ['\n']
  | crlf : Eol ['\r', '\n']

/-- The text begins with an end of line. -/
def StartsEol (s : Str) : Prop := ∃ e t, Eol e ∧ s = e ++ t

/-- A line comment: `#` or `//`, any characters other than CR/LF, then an end of line. -/
inductive LineComment : Str → Prop
  | hash (body e : Str) : (∀ c ∈ body, c ≠ '\r' ∧ c ≠ '\n') → Eol e → LineComment ('#' :: body ++ e)
  | slash (body e : Str) : (∀ c ∈ body, c ≠ '\r' ∧ c ≠ '\n') → Eol e →
      LineComment ('/' :: '/' :: body ++ e)

/-- An inline comment: from `/*` to the first following `*/`. -/
inductive InlineComment : Str → Prop
  | mk (body : Str) : ¬ ['*', '/'] <:+: body ++ ['*'] → InlineComment ('/' :: '*' :: body ++ ['*', '/'])

/-- One piece of layout inside a line. -/
inductive InlineItem : Str → Prop
  | blank (c : Char) : c = ' ' ∨ c = '\t' → InlineItem [c]
  | comment (s : Str) : InlineComment s → InlineItem s

/-- One piece of layout where line ends are insignificant. -/
inductive LayoutItem : Str → Prop
  | space (c : Char) : c = ' ' ∨ c = '\t' ∨ c = '\r' ∨ c = '\n' → LayoutItem [c]
  | line (s : Str) : LineComment s → LayoutItem s
  | comment (s : Str) : InlineComment s → LayoutItem s

/-- One line-terminating piece: end of line, line comment, or inline comment directly before an end of
line. -/
inductive NewlineItem : Str → Prop
  | eol (s : Str) : Eol s → NewlineItem s
  | line (s : Str) : LineComment s → NewlineItem s
  | comment (s e : Str) : InlineComment s → Eol e → NewlineItem (s ++ e)

/-- A text that is a (possibly empty) sequence of pieces. -/
inductive Seq (I : Str → Prop) : Str → Prop
  | nil : Seq I []
  | cons (i s : Str) : I i → Seq I s → Seq I (i ++ s)

/-- The text begins with a piece. -/
def Starts (I : Str → Prop) (s : Str) : Prop := ∃ i t, I i ∧ s = i ++ t

/-- `s` is a maximal sequence of pieces followed by `rest`. -/
def Skip (I : Str → Prop) (s rest : Str) : Prop := ∃ l, Seq I l ∧ s = l ++ rest ∧ ¬ Starts I rest

/-- Skip all layout (blanks, line ends, comments). -/
abbrev SkipLayout := Skip LayoutItem
/-- Skip all layout on the current line (blanks and inline comments). -/
abbrev SkipInline := Skip InlineItem

/-- `s` begins with one or more line terminators, followed by `rest`. -/
def Newlines (s rest : Str) : Prop := ∃ i l, NewlineItem i ∧ Seq NewlineItem l ∧ s = i ++ l ++ rest

/-- Characters that may occur in an identifier: `ID_Continue` or `-`. -/
def IdentChar (U : CharClass) (c : Char) : Prop := U.idContinue c = true ∨ c = '-'
/-- Characters that may begin an identifier: `ID_Start` or `_`. -/
def IdentStart (U : CharClass) (c : Char) : Prop := U.idStart c = true ∨ c = '_'

/-- A text is an identifier. -/
inductive IsIdent (U : CharClass) : Str → Prop
  | mk (c : Char) (cs : Str) : IdentStart U c → (∀ d ∈ cs, IdentChar U d) → IsIdent U (c :: cs)

/-- The first character (if any) satisfies `P`. -/
def Head (P : Char → Prop) (s : Str) : Prop := ∃ c t, s = c :: t ∧ P c

/-- `s` = identifier `i` (taken as long as possible) followed by `rest`. -/
def Ident (U : CharClass) (s i rest : Str) : Prop :=
  s = i ++ rest ∧ IsIdent U i ∧ ¬ Head (IdentChar U) rest

/-! ## Numbers -/

/-- A nonempty run of ASCII digits. -/
def Digits (ds : Str) : Prop := ds ≠ [] ∧ ∀ c ∈ ds, '0' ≤ c ∧ c ≤ '9'

/-- Optional sign and whether it denotes a nonnegative number. -/
inductive Sign : Str → Bool → Prop
  | none : Sign [] true
  | plus : Sign ['+'] true
  | minus : Sign ['-'] false

/-- Mantissa: `12`, `12.`, `12.5` or `.5` — whole and fraction digits. -/
inductive Mantissa : Str → Option Str → Option Str → Prop
  | int (w : Str) : Digits w → Mantissa w (some w) none
  | dot (w : Str) : Digits w → Mantissa (w ++ ['.']) (some w) (some [])
  | frac (w f : Str) : Digits w → Digits f → Mantissa (w ++ '.' :: f) (some w) (some f)
  | dotFrac (f : Str) : Digits f → Mantissa ('.' :: f) none (some f)

/-- Exponent part: `e`/`E`, optional sign, digits. -/
inductive ExpPart : Str → Option (Bool × Str) → Prop
  | none : ExpPart [] none
  | some (c : Char) (sg d : Str) (pos : Bool) : c = 'e' ∨ c = 'E' → Sign sg pos → Digits d →
      ExpPart (c :: sg ++ d) (some (pos, d))

/-- A number literal and the `Number` it denotes (its own text, sign, whole, fraction, exponent; all
borrowed from the source). -/
inductive IsNumber : Str → Number → Prop
  | mk (sg m x : Str) (pos : Bool) (w f : Option Str) (e : Option (Bool × Str)) :
      Sign sg pos → Mantissa m w f → ExpPart x e →
      IsNumber (sg ++ m ++ x) {
        input := .borrowed (sg ++ m ++ x)
        positive := pos
        whole := w.map .borrowed
        fraction := f.map .borrowed
        exponent := e.map fun p => ⟨p.1, .borrowed p.2⟩ }

/-- `s` = the longest number literal at the start of `s`, followed by `rest`. -/
def NumberTok (s : Str) (n : Number) (rest : Str) : Prop :=
  ∃ t, s = t ++ rest ∧ IsNumber t n ∧ ∀ p, p <+: rest → p ≠ [] → ∀ m, ¬ IsNumber (t ++ p) m

/-! ## Quoted strings -/

/-- Digit of the given base, with its value. -/
inductive Digit : (base : Nat) → Char → Nat → Prop
  | dec (base : Nat) (c : Char) : '0' ≤ c → c ≤ '9' → c.toNat - '0'.toNat < base →
      Digit base c (c.toNat - '0'.toNat)
  | lower (base : Nat) (c : Char) : 'a' ≤ c → c ≤ 'z' → c.toNat - 'a'.toNat + 10 < base →
      Digit base c (c.toNat - 'a'.toNat + 10)
  | upper (base : Nat) (c : Char) : 'A' ≤ c → c ≤ 'Z' → c.toNat - 'A'.toNat + 10 < base →
      Digit base c (c.toNat - 'A'.toNat + 10)

/-- A digit sequence and its value in the given base. -/
inductive Numeral (base : Nat) : Str → Nat → Prop
  | nil : Numeral base [] 0
  | snoc (ds : Str) (c : Char) (n v : Nat) : Numeral base ds n → Digit base c v →
      Numeral base (ds ++ [c]) (n * base + v)

/-- Single-letter escapes. -/
def simpleEscapes : List (Char × Char) :=
  [('a', '\x07'), ('b', '\x08'), ('f', '\x0c'), ('n', '\n'), ('r', '\r'), ('t', '\t'), ('v', '\x0b'),
   ('\\', '\\'), ('"', '"'), ('?', '?')]

/-- Prefix letters of hexadecimal escapes with the maximal number of digits. -/
def hexEscapes : List (Char × Nat) := [('x', 2), ('u', 4), ('U', 8)]

/-- `Escape e c rest`: after the backslash, the text `e` (followed by `rest`) denotes the character `c`.
Numeric escapes take as many digits as allowed. -/
inductive Escape : Str → Char → Str → Prop
  | simple (k c : Char) (rest : Str) : (k, c) ∈ simpleEscapes → Escape [k] c rest
  | octal (ds : Str) (c : Char) (rest : Str) : ds ≠ [] → ds.length ≤ 3 →
      (ds.length = 3 ∨ ¬ Head (fun d => ∃ v, Digit 8 d v) rest) →
      Numeral 8 ds c.toNat → Escape ds c rest
  | hex (k : Char) (max : Nat) (ds : Str) (c : Char) (rest : Str) : (k, max) ∈ hexEscapes →
      ds ≠ [] → ds.length ≤ max →
      (ds.length = max ∨ ¬ Head (fun d => ∃ v, Digit 16 d v) rest) →
      Numeral 16 ds c.toNat → Escape (k :: ds) c rest

/-- `Content plain src v rest`: `src`, followed by `rest`, is string content denoting `v`, where `plain`
are the characters that stand for themselves. -/
inductive Content (plain : Char → Prop) : Str → Str → Str → Prop
  | nil (rest : Str) : Content plain [] [] rest
  | plain (c : Char) (s v rest : Str) : plain c → Content plain s v rest →
      Content plain (c :: s) (c :: v) rest
  | escape (e : Str) (c : Char) (s v rest : Str) : Escape e c (s ++ rest) → Content plain s v rest →
      Content plain ('\\' :: e ++ s) (c :: v) rest

/-- Characters standing for themselves in a quoted string expression. -/
def Plain (c : Char) : Prop := c ≠ '\\' ∧ c ≠ '"'
/-- Characters standing for themselves in a single-line string literal (labels, keys). -/
def PlainLine (c : Char) : Prop := c ≠ '\\' ∧ c ≠ '"' ∧ c ≠ '\r' ∧ c ≠ '\n'

/-- A double-quoted string at the start of `s` denoting `v`, followed by `rest`. -/
def Quoted (plain : Char → Prop) (s v rest : Str) : Prop :=
  ∃ src, s = '"' :: src ++ '"' :: rest ∧ Content plain src v ('"' :: rest)

/-! ## Heredocs -/

/-- Characters of a heredoc marker. -/
def MarkerChar (U : CharClass) (c : Char) : Prop := U.alnum c = true ∨ c = '_'

/-- `s` = end of line, blanks, marker, followed by `rest` which begins with an end of line. -/
def Terminator (marker s blanks rest : Str) : Prop :=
  ∃ e, Eol e ∧ s = e ++ blanks ++ marker ++ rest ∧ (∀ c ∈ blanks, c = ' ' ∨ c = '\t') ∧ StartsEol rest

/-- `s` contains its first terminator after `content`. -/
def FirstTerminator (marker s content blanks rest : Str) : Prop :=
  (∃ t, s = content ++ t ∧ Terminator marker t blanks rest) ∧
  ∀ c' t' b' r', s = c' ++ t' → Terminator marker t' b' r' → content.length ≤ c'.length

/-- What an indented heredoc line becomes: `n` leading spaces removed, or, when it has fewer (`k < n`)
leading spaces, those `k`. Defined only for the lines on which the code does not panic: either `n`
leading spaces, or `k + 1 < n`, a one-byte character after the spaces and another character after it. -/
inductive Unindented (n : Nat) : Str → Str → Prop
  | full (l : Str) : Unindented n (List.replicate n ' ' ++ l) l
  | short (k : Nat) (c d : Char) (l : Str) : k + 1 < n → c ≠ ' ' → c.toNat < 128 →
      Unindented n (List.replicate k ' ' ++ c :: d :: l) (c :: d :: l)

/-- Lines of a text: the pieces between line feeds. -/
inductive Lines : Str → List Str → Prop
  | last (l : Str) : '\n' ∉ l → Lines l [l]
  | cons (l s : Str) (ls : List Str) : '\n' ∉ l → Lines s ls → Lines (l ++ '\n' :: s) (l :: ls)

/-- Two lists of the same length related element by element. -/
inductive AllPairs {α β : Type} (R : α → β → Prop) : List α → List β → Prop
  | nil : AllPairs R [] []
  | cons (a : α) (b : β) (as : List α) (bs : List β) : R a b → AllPairs R as bs →
      AllPairs R (a :: as) (b :: bs)

/-- Value of heredoc content: verbatim (borrowed) for indentation 0, otherwise line by line (owned). -/
inductive HeredocValue : Str → Nat → CowStr → Prop
  | verbatim (s : Str) : HeredocValue s 0 (.borrowed s)
  | indented (s s' : Str) (n : Nat) (ls ls' : List Str) : 0 < n → Lines s ls →
      AllPairs (Unindented n) ls ls' → Lines s' ls' → HeredocValue s n (.ownedS s')

/-- A heredoc at the start of `s` denoting `v`, followed by `rest`. -/
inductive Heredoc (U : CharClass) : Str → CowStr → Str → Prop
  | empty (ind : Bool) (m s blanks rest : Str) :
      m ≠ [] → (∀ c ∈ m, MarkerChar U c) → Terminator m s blanks rest →
      Heredoc U ('<' :: '<' :: (if ind then ['-'] else []) ++ m ++ s) (.borrowed []) rest
  | content (ind : Bool) (m e s content blanks rest : Str) (v : CowStr) :
      m ≠ [] → (∀ c ∈ m, MarkerChar U c) → Eol e →
      (¬ ∃ b r, Terminator m (e ++ s) b r) → FirstTerminator m s content blanks rest →
      HeredocValue content (if ind then blanks.length else 0) v →
      Heredoc U ('<' :: '<' :: (if ind then ['-'] else []) ++ m ++ e ++ s) v rest

/-- What a line of an indented heredoc should become: it loses `n` leading spaces, or all its leading spaces when it
has fewer. -/
inductive Stripped (n : Nat) : Str → Str → Prop
  | full (l : Str) : Stripped n (List.replicate n ' ' ++ l) l
  | short (k : Nat) (l : Str) : k < n → (∀ t, l ≠ ' ' :: t) → Stripped n (List.replicate k ' ' ++ l) l

/-- No line of the content would be taken for the terminator line of marker `m`: blanks followed by `m` (and possibly
a carriage return, the rest of the line end). -/
def NoTerminatorLine (m content : Str) : Prop :=
  ∀ ls, Lines content ls → ∀ l ∈ ls, ∀ b : Str, (∀ c ∈ b, c = ' ' ∨ c = '\t') → l ≠ b ++ m ∧ l ≠ b ++ m ++ ['\r']

/-- The lines of an indented heredoc (terminator indented by `n`) that make the code abort: a line with fewer than
`n` leading spaces that is otherwise empty, or has just one more character, or is exactly one space short, or goes
on with a character of more than one byte. -/
inductive BadLine (n : Nat) : Str → Prop
  | blank (k : Nat) : k < n → BadLine n (List.replicate k ' ')
  | single (k : Nat) (c : Char) : k < n → c ≠ ' ' → BadLine n (List.replicate k ' ' ++ [c])
  | oneShort (k : Nat) (c : Char) (l : Str) : k + 1 = n → c ≠ ' ' → BadLine n (List.replicate k ' ' ++ c :: l)
  | multibyte (k : Nat) (c : Char) (l : Str) : k < n → 128 ≤ c.toNat → BadLine n (List.replicate k ' ' ++ c :: l)

/-- An indented heredoc with a non-empty content one of whose lines is bad. -/
def BadHeredoc (U : CharClass) (s : Str) : Prop :=
  ∃ m e t content blanks rest ls l, m ≠ [] ∧ (∀ c ∈ m, MarkerChar U c) ∧ Eol e ∧
    s = '<' :: '<' :: '-' :: m ++ e ++ t ∧ (¬ ∃ b r, Terminator m (e ++ t) b r) ∧
    FirstTerminator m t content blanks rest ∧ Lines content ls ∧ l ∈ ls ∧ BadLine blanks.length l

end Verif.Spec
