import Verif.Model.Number
/-!
# `as_owned`, derived equality of trees, parse_slice and parse_reader
-/
set_option autoImplicit false

namespace Verif

/-- lib.rs:510-521 (`Cow`), and `Cow::Owned(x.to_string())` / `Cow::Owned(x.as_owned())` in the impls below -/
def CowStr.asOwned (s : CowStr) : CowStr := .ownedS s.str

/-- number.rs:213-222 -/
def Exponent.asOwned (e : Exponent) : Exponent := ⟨e.positive, e.exponent.asOwned⟩

/-- number.rs:143-155 (with `Option`, lib.rs:523-536) -/
def Number.asOwned (n : Number) : Number :=
  ⟨n.input.asOwned, n.positive, n.whole.map CowStr.asOwned, n.fraction.map CowStr.asOwned,
    n.exponent.map Exponent.asOwned⟩

/-- object.rs:80-93 -/
def ObjKey.asOwned : ObjKey → ObjKey
  | .ident s => .ident s.asOwned
  | .expr s => .expr s.asOwned

mutual
/-- expression.rs:113-126 -/
def Expr.asOwned : Expr → Expr
  | .null => .null
  | .number n => .number n.asOwned
  | .boolean b => .boolean b
  | .string s => .string s.asOwned
  | .tuple es => .tuple (Expr.asOwnedList es)
  | .object es => .object (Expr.asOwnedPairs es)
/-- lib.rs:469-479 (`Vec`) on expressions -/
def Expr.asOwnedList : List Expr → List Expr
  | [] => []
  | e :: es => e.asOwned :: Expr.asOwnedList es
/-- lib.rs:455-479 (`Vec` of pairs) -/
def Expr.asOwnedPairs : List (ObjKey × Expr) → List (ObjKey × Expr)
  | [] => []
  | (k, e) :: es => (k.asOwned, e.asOwned) :: Expr.asOwnedPairs es
end

/-- block.rs:112-121 -/
def BlockLabel.asOwned : BlockLabel → BlockLabel
  | .stringLiteral s => .stringLiteral s
  | .identifier s => .identifier s.asOwned

mutual
/-- body.rs:79-87 with block.rs:123-133 and attribute.rs:26-34 -/
def BodyElement.asOwned : BodyElement → BodyElement
  | .attribute k e => .attribute k.asOwned e.asOwned
  | .block t ls b => .block t.asOwned (ls.map BlockLabel.asOwned) (BodyElement.asOwnedList b)
/-- lib.rs:469-479 (`Vec`) on body elements -/
def BodyElement.asOwnedList : List BodyElement → List BodyElement
  | [] => []
  | b :: bs => b.asOwned :: BodyElement.asOwnedList bs
end

/-- `as_owned` of a body -/
abbrev Body.asOwned (b : Body) : Body := BodyElement.asOwnedList b

/-! ## equality of trees -/

/-- object.rs:23 derived `PartialEq` (`Cow` compares the text) -/
def ObjKey.eq : ObjKey → ObjKey → Bool
  | .ident a, .ident b => a.str == b.str
  | .expr a, .expr b => a.str == b.str
  | _, _ => false

mutual
/-- expression.rs:51 derived `PartialEq` -/
def Expr.eq (O : FloatOps) : Expr → Expr → Bool
  | .null, .null => true
  | .number a, .number b => a.eq O b
  | .boolean a, .boolean b => a == b
  | .string a, .string b => a.str == b.str
  | .tuple a, .tuple b => Expr.eqList O a b
  | .object a, .object b => Expr.eqPairs O a b
  | _, _ => false
/-- `Vec` equality -/
def Expr.eqList (O : FloatOps) : List Expr → List Expr → Bool
  | [], [] => true
  | a :: as, b :: bs => a.eq O b && Expr.eqList O as bs
  | _, _ => false
/-- `Vec` equality on pairs -/
def Expr.eqPairs (O : FloatOps) : List (ObjKey × Expr) → List (ObjKey × Expr) → Bool
  | [], [] => true
  | (k, a) :: as, (l, b) :: bs => k.eq l && a.eq O b && Expr.eqPairs O as bs
  | _, _ => false
end

/-- block.rs:66-69, 97-104: `BlockLabel::as_str` / `Borrow<str>` -/
def BlockLabel.text : BlockLabel → Str
  | .stringLiteral s => s
  | .identifier s => s.str

/-- block.rs:60 derived `PartialEq` of `BlockLabel` -/
def BlockLabel.eq : BlockLabel → BlockLabel → Bool
  | .stringLiteral a, .stringLiteral b => a == b
  | .identifier a, .identifier b => a.str == b.str
  | _, _ => false

/-- `Vec` equality on labels -/
def BlockLabel.eqList : List BlockLabel → List BlockLabel → Bool
  | [], [] => true
  | a :: as, b :: bs => a.eq b && BlockLabel.eqList as bs
  | _, _ => false

mutual
/-- body.rs:26 derived `PartialEq` -/
def BodyElement.eq (O : FloatOps) : BodyElement → BodyElement → Bool
  | .attribute k a, .attribute l b => k.str == l.str && a.eq O b
  | .block t ls a, .block u ms b => t.str == u.str && BlockLabel.eqList ls ms && BodyElement.eqList O a b
  | _, _ => false
/-- `Vec` equality on bodies -/
def BodyElement.eqList (O : FloatOps) : List BodyElement → List BodyElement → Bool
  | [], [] => true
  | a :: as, b :: bs => a.eq O b && BodyElement.eqList O as bs
  | _, _ => false
end

/-! ## bytes -/

/-- A continuation byte. -/
def isCont (b : Nat) : Bool := 0x80 ≤ b && b ≤ 0xBF

/-- Allowed second bytes by first byte, `core::str::from_utf8`'s validation table. -/
def second3 (a b : Nat) : Bool :=
  (a == 0xE0 && 0xA0 ≤ b && b ≤ 0xBF) || (0xE1 ≤ a && a ≤ 0xEC && isCont b) ||
  (a == 0xED && 0x80 ≤ b && b ≤ 0x9F) || (0xEE ≤ a && a ≤ 0xEF && isCont b)

/-- The same for four-byte sequences. -/
def second4 (a b : Nat) : Bool :=
  (a == 0xF0 && 0x90 ≤ b && b ≤ 0xBF) || (0xF1 ≤ a && a ≤ 0xF3 && isCont b) || (a == 0xF4 && 0x80 ≤ b && b ≤ 0x8F)

/-- std `core::str::from_utf8` (validation table of `run_utf8_validation`, with the decoded scalar values); bytes are
numbers below 256, `none` = `Utf8Error`. -/
def fromUtf8 : List Nat → Option Str
  | [] => some []
  | a :: s =>
    if a < 0x80 then (fromUtf8 s).map (Char.ofNat a :: ·)
    else if 0xC2 ≤ a ∧ a ≤ 0xDF then
      match s with
      | b :: s => if isCont b then (fromUtf8 s).map (Char.ofNat ((a - 0xC0) * 64 + (b - 0x80)) :: ·) else none
      | _ => none
    else if 0xE0 ≤ a ∧ a ≤ 0xEF then
      match s with
      | b :: c :: s => if second3 a b && isCont c then
          (fromUtf8 s).map (Char.ofNat ((a - 0xE0) * 4096 + (b - 0x80) * 64 + (c - 0x80)) :: ·) else none
      | _ => none
    else if 0xF0 ≤ a ∧ a ≤ 0xF4 then
      match s with
      | b :: c :: d :: s => if second4 a b && isCont c && isCont d then
          (fromUtf8 s).map
            (Char.ofNat ((a - 0xF0) * 262144 + (b - 0x80) * 4096 + (c - 0x80) * 64 + (d - 0x80)) :: ·) else none
      | _ => none
    else none

/-- parser.rs:215-218 `parse_slice` -/
def parseSlice (U : CharClass) (bytes : List Nat) : Res Err Body :=
  match fromUtf8 bytes with
  | none => .error .utf8
  | some s => parseStr U s

/-- One call of `Read::read`: some bytes (none = end of the stream), an interruption (std retries), or an error. -/
inductive ReadEvent where
  | data (bytes : List Nat)
  | interrupted
  | error
  deriving Repr, DecidableEq

/-- std `read_to_end`: all bytes up to the end of the stream, or `none` for an I/O error. The list is what the reader
does, call by call; at its end the stream ends. -/
def readToEnd : List ReadEvent → Option (List Nat)
  | [] => some []
  | .data [] :: _ => some []
  | .data (b :: bs) :: es => (readToEnd es).map ((b :: bs) ++ ·)
  | .interrupted :: es => readToEnd es
  | .error :: _ => none

/-- parser.rs:206-212 `parse_reader` (`read_to_string` reports invalid UTF-8 as an I/O error) -/
def parseReader (U : CharClass) (es : List ReadEvent) : Res Err Body :=
  match readToEnd es with
  | none => .error .io
  | some bytes => match fromUtf8 bytes with
    | none => .error .io
    | some s => match parseStr U s with
      | .ok b => .ok b.asOwned
      | .error e => .error e
      | .panic => .panic
      | .diverge => .diverge

end Verif
