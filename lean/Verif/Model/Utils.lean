import Verif.Model.Lex
/-!
# The search combinator of utils.rs, with the indices it really uses
-/
set_option autoImplicit false

namespace Verif

/-- utils.rs:36-56 `safe_indices` of `&str` and `CompleteStr`: byte offsets of the characters -/
def safeIndices (s : Str) : List Nat := (charIndicesFrom 0 s).map Prod.fst

/-- `&s[..i]`: `none` when `i` is out of range or inside a character (Rust panics). -/
def sliceTo : Str → Nat → Option Str
  | _, 0 => some []
  | [], _ + 1 => none
  | c :: s, i => if c.utf8Size ≤ i then (sliceTo s (i - c.utf8Size)).map (c :: ·) else none

/-- utils.rs:120-138, the loop of `take_till_match!` over byte indices: slice at the index, run the parser, split
the input there on success. -/
def takeTillMatchAt {α : Type} (p : Parser α) (s : Str) : List Nat → PRes (Str × α)
  | [] => .err
  | i :: is => match sliceFrom s i with
    | none => .panic
    | some t => match p t with
      | .ok r v => (match sliceTo s i with
        | none => .panic
        | some c => .ok r (c, v))
      | .panic => .panic
      | .diverge => .diverge
      | .err | .fail _ => takeTillMatchAt p s is

/-- utils.rs:112-152 `take_till_match!` on `&str`/`CompleteStr`, index by index -/
def takeTillMatchIdx {α : Type} (p : Parser α) : Parser (Str × α) := fun s => takeTillMatchAt p s (safeIndices s)

/-- Outcome of the search on a slice. -/
inductive SliceRes (β α : Type) where
  | ok (rest : List β) (before : List β) (v : α)
  | panic

/-- utils.rs:112-152 `take_till_match!` on `&[T]`, `CompleteByteSlice` and `Input<T>` (utils.rs:58-97): the indices
are 0, 1, 2, … without end; the parser is also tried on the empty rest, and the slice after the end panics. The
sub-parser is a function to `none` (any error) or a rest and a value. -/
def takeTillMatchSlice {β α : Type} (p : List β → Option (List β × α)) : List β → SliceRes β α
  | [] => match p [] with
    | some (r, v) => .ok r [] v
    | none => .panic
  | b :: s => match p (b :: s) with
    | some (r, v) => .ok r [] v
    | none => match takeTillMatchSlice p s with
      | .ok r c v => .ok r (b :: c) v
      | .panic => .panic

end Verif
