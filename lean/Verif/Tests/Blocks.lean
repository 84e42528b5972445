import Verif.Tests.Base
import Verif.Model.BlocksMut
/-! # Tests of `Blocks` in lib/src/parser/block.rs -/
set_option autoImplicit false

namespace Verif.Tests
open Verif Spec

/-- the block that a text is -/
def oneBlock (s : String) : List Block :=
  match oneLineBlock testClass s.toList with
  | .ok _ (.block t ls b) => [⟨t, ls, b⟩]
  | _ => []

/-- block.rs:921-928 -/
def repeatBlocks (n : Nat) : Blocks := .new ((List.replicate n "test { foo = 123 }").flatMap oneBlock)

/-- the contents reached -/
def at? (m : Blocks) (t : String) (ls : List String) : BlockBody := (m.get t.toList (ls.map String.toList)).getD (.body [])

-- block.rs:930-943
#guard (repeatBlocks 10).len = 1 && (repeatBlocks 10).lenBlocks = 10 && ((repeatBlocks 10).get "test".toList []).isSome &&
  !(at? (repeatBlocks 10) "test" []).hasFurtherLabels && (at? (repeatBlocks 10) "test" []).labelLens = [0] &&
  (at? (repeatBlocks 10) "test" []).isLabelLensUniform

/-- block.rs:945-963 -/
def distinctBlocks : Blocks := .new ((List.range 10).flatMap fun i => oneBlock s!"test_{i} \{ foo = 123 }")
-- block.rs:965-978
#guard distinctBlocks.len = 10 && distinctBlocks.lenBlocks = 10 && distinctBlocks.all (fun p => !p.2.hasFurtherLabels) &&
  distinctBlocks.all (fun p => p.2.isLabelLensUniform) && distinctBlocks.labelLens.all fun p => p.2 = [0]

/-- block.rs:980-990 -/
def appended : Blocks := (repeatBlocks 10).extend ((List.replicate 10 "test \"foo\" { foo = true } ").flatMap oneBlock)
-- block.rs:992-1011
#guard appended.len = 1 && appended.lenBlocks = 20 && (at? appended "test" []).hasFurtherLabels && (at? appended "test" []).labelLens = [0, 1] &&
  !(at? appended "test" []).isLabelLensUniform && (at? appended "test" []).getEmpty.length = 10 &&
  ((at? appended "test" []).getLabels.map List.length) = some 1 && !(at? appended "test" ["foo"]).hasFurtherLabels &&
  (at? appended "test" ["foo"]).lenBlocks = 10

/-- block.rs:1013-1034 -/
def mixed : Blocks := (repeatBlocks 10).extend ((List.range 10).flatMap fun i =>
  oneBlock (s!"test_{i} " ++ (if i % 2 = 0 then "\"foobar\"" else "\"foobar\" \"foobar\"") ++ " { foo = true }"))
-- block.rs:1036-1066
#guard mixed.len = 11 && mixed.lenBlocks = 20 && !(at? mixed "test" []).hasFurtherLabels && (at? mixed "test" []).isLabelLensUniform &&
  (at? mixed "test" []).labelLens = [0] && (at? mixed "test_0" []).labelLens = [1] && (at? mixed "test_0" []).isLabelLensUniform &&
  !(at? mixed "test_0" ["foobar"]).hasFurtherLabels && (at? mixed "test_1" []).labelLens = [2] && (at? mixed "test_1" []).isLabelLensUniform &&
  (at? mixed "test_1" ["foobar"]).hasFurtherLabels && (at? mixed "test_1" ["foobar"]).labelLens = [1] &&
  ((at? mixed "test_1" ["foobar", "foobar"]).lenBlocks = 1) && !(at? mixed "test_1" ["foobar", "foobar"]).hasFurtherLabels &&
  mixed.flatIter.all fun p => if p.1 = "test".toList then p.2.1.length = 0 else p.2.1.length ≠ 0

end Verif.Tests
