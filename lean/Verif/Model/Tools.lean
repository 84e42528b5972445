import Verif.Model.Owned
import Verif.Model.Parser
/-! # The fuzzing programs and the build script -/
set_option autoImplicit false

namespace Verif

/-- What one call of the fuzzed closure does: it returns, or the library panics (which the fuzzers record as a crash), or it does
not end (recorded as a hang). -/
inductive FuzzOutcome where
  | returns
  | crash
  | hang
  deriving DecidableEq

/-- fuzz-afl/src/main.rs:9-13, fuzz-honggfuzz/src/main.rs:9-13: the closure (both programs have the same one) -/
def fuzzOne (U : CharClass) (data : List Nat) : FuzzOutcome :=
  match fromUtf8 data with
  | none => .returns
  | some s =>
    match parseStr U s with
    | .ok _ => .returns
    | .error _ => .returns
    | .panic => .crash
    | .diverge => .hang

/-- fuzz-afl/src/main.rs:8-14, fuzz-honggfuzz/src/main.rs:8-14: the loop, over the inputs the fuzzer supplies; `fuzz!` of both
fuzzers ends the process when the closure panics. The result is the number of completed rounds and what ended the loop (`none`:
there was no further input). -/
def fuzzLoop (U : CharClass) : List (List Nat) → Nat × Option FuzzOutcome
  | [] => (0, none)
  | d :: ds =>
    match fuzzOne U d with
    | .returns => ((fuzzLoop U ds).1 + 1, (fuzzLoop U ds).2)
    | .crash => (0, some .crash)
    | .hang => (0, some .hang)

/-- What the build script does: nothing, warn that it could not check the compiler, or panic so that the build stops. -/
inductive BuildOutcome where
  | proceeds
  | warns
  | stops
  deriving DecidableEq

/-- lib/build.rs:28-62: `version`, `date`: what `version_check` says about the compiler (`none`: it could not tell) -/
def buildScript (version date : Option Bool) : BuildOutcome :=
  match version, date with
  | some v, some d => if !v || !d then .stops else .proceeds
  | _, _ => .warns

end Verif
