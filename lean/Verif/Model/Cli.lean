import Verif.Model.OldParser
/-!
# The command line program (cli/src/main.rs, cli/src/error.rs)

Argument parsing is clap's and not modelled: `value_of("input")`, `value_of("output")` (both default to `-`) and
`is_present("no_merge")` are the arguments here. Files are whole byte strings by path; each operation of the operating
system may fail.
-/
set_option autoImplicit false

namespace Verif

/-- What the program can observe and change. -/
structure World where
  /-- the files, by path -/
  files : Str → Option (List Nat)
  /-- the standard input, read by read -/
  stdin : List ReadEvent
  /-- what has been written to the standard output -/
  stdout : List Nat

/-- The operating system's choices. -/
structure Os where
  /-- opening the existing file for reading works -/
  canOpen : Str → Bool
  /-- how reading a file with this content goes -/
  reads : Str → List Nat → List ReadEvent
  /-- creating or truncating the file works -/
  canCreate : Str → Bool
  /-- writing to this target (`-` is the standard output): `none`: everything is written; `some n`: an error after `n` bytes -/
  writes : Str → List Nat → Option Nat

/-- cli/src/error.rs:3-11 `Error` -/
inductive CliErr where
  | parser (e : FromErr)
  | io
  | unknownCommand (name : Str)
  deriving Repr, DecidableEq

/-- The path that stands for the standard streams -/
def dash : Str := ['-']

/-- cli/src/main.rs:58-66 `input_reader` -/
def inputReader (os : Os) (w : World) (path : Str) : Res CliErr (List ReadEvent) :=
  if path = dash then .ok w.stdin
  else match w.files path with
    | none => .error .io
    | some content => if os.canOpen path then .ok (os.reads path content) else .error .io

/-- std `File::create`: the file exists and is empty -/
def World.create (w : World) (path : Str) : World :=
  { w with files := fun p => if p = path then some [] else w.files p }

/-- Bytes appended to an open output -/
def World.write (w : World) (path : Str) (bytes : List Nat) : World :=
  if path = dash then { w with stdout := w.stdout ++ bytes }
  else { w with files := fun p => if p = path then (w.files p).map (· ++ bytes) else w.files p }

/-- cli/src/main.rs:69-77 `output_writer` -/
def outputWriter (os : Os) (w : World) (path : Str) : Res CliErr Unit × World :=
  if path = dash then (.ok (), w)
  else if os.canCreate path then (.ok (), w.create path) else (.error .io, w)

/-- std `write_all` -/
def writeAll (os : Os) (w : World) (path : Str) (bytes : List Nat) : Res CliErr Unit × World :=
  match os.writes path bytes with
  | none => (.ok (), w.write path bytes)
  | some n => (.error .io, w.write path (bytes.take n))

/-- cli/src/main.rs:32-49, first half of `run_parse`: what is parsed (the standard input is used up) -/
def runParseInput (U : CharClass) (P : F64Parse) (os : Os) (w : World) (input : Str) (noMerge : Bool) :
    Res CliErr MapValues :=
  match inputReader os w input with
  | .ok es => match fromReader U P es (if noMerge then none else some .error) with
    | .ok m => .ok m
    | .error e => .error (.parser e)
    | .panic => .panic
    | .diverge => .diverge
  | .error e => .error e
  | .panic => .panic
  | .diverge => .diverge

/-- cli/src/main.rs:31-56 `run_parse`; `render` is `format!("{:#?}\n", parsed)` as bytes -/
def runParse (U : CharClass) (P : F64Parse) (os : Os) (render : MapValues → List Nat) (w : World) (input output : Str)
    (noMerge : Bool) : Res CliErr Unit × World :=
  match runParseInput U P os w input noMerge with
  | .ok m => match outputWriter os w output with
    | (.ok (), w') => writeAll os w' output (render m)
    | (r, w') => (r, w')
  | .error e => (.error e, w)
  | .panic => (.panic, w)
  | .diverge => (.diverge, w)

/-- The arguments of `parse`. -/
structure ParseArgs where
  input : Str
  output : Str
  noMerge : Bool

/-- cli/src/main.rs:24-29 `run_subcommand` -/
def runSubcommand (U : CharClass) (P : F64Parse) (os : Os) (render : MapValues → List Nat) (w : World)
    (sub : Str × Option ParseArgs) : Res CliErr Unit × World :=
  match sub with
  | (name, some args) =>
    if name = ['p', 'a', 'r', 's', 'e'] then runParse U P os render w args.input args.output args.noMerge
    else (.error (.unknownCommand name), w)
  | (name, none) => (.error (.unknownCommand name), w)

/-- cli/src/main.rs:13-22 `main`: the exit status (0, 1, 101 for a panic; none: it does not end) and what it leaves;
`showErr` is `format!("Error: {}\n", e)` as bytes. (A failing `println!` is not modelled.) -/
def cliMain (U : CharClass) (P : F64Parse) (os : Os) (render : MapValues → List Nat) (showErr : CliErr → List Nat)
    (w : World) (sub : Str × Option ParseArgs) : Option Nat × World :=
  match runSubcommand U P os render w sub with
  | (.ok (), w') => (some 0, w')
  | (.error e, w') => (some 1, w'.write dash (showErr e))
  | (.panic, w') => (some 101, w')
  | (.diverge, w') => (none, w')

end Verif
