import Verif.Tests.Base
import Verif.Model.Number
import Verif.Model.DeTypes
/-! # Tests of lib/src/serde/de/{expression,body}.rs

Rows with `HashSet`, which the model has no type for, are tried with `Vec`. -/
set_option autoImplicit false

namespace Verif.Tests
open Verif Spec

deriving instance BEq for F64
deriving instance BEq for DVal

/-- floats are told apart by their text -/
def deFloats : F64Parse := fun t => some ⟨t.foldl (fun a c => a * 256 + c.toNat) 0⟩
/-- an integer as a float -/
def deOfInt : F64OfInt := ⟨fun k => ⟨k.toNat⟩, fun k => ⟨k.toNat⟩, fun x => x⟩
/-- the order of insertion -/
def noOrder : HashOrder := ⟨id, fun _ => .refl _⟩

/-- the value deserialized -/
def de (t : Ty) (e : Expr) : Res DeErr DVal := deN deFloats deOfInt noOrder 1000 t (.expr e)
/-- it is this one -/
def is (x : Res DeErr DVal) (v : DVal) : Bool := match x with | .ok w => w == v | _ => false
/-- it is an error of a visitor -/
def bad (x : Res DeErr DVal) : Bool := match x with | .error .custom => true | _ => false
/-- integer types -/
def u (n : Nat) : Ty := .int ⟨false, n⟩
/-- signed -/
def i (n : Nat) : Ty := .int ⟨true, n⟩
/-- `Expression::from(k)` of a number written as text -/
def n (s : String) : Expr := match number s.toList with | .ok _ x => .number x | _ => .null
/-- text -/
def owned (s : String) : Expr := .string (.ownedS s.toList)
/-- borrowed -/
def lent (s : String) : Expr := .string (.borrowed s.toList)

-- expression.rs:94-108
#guard is (de .unit .null) .unit && is (de .bool (.boolean true)) (.bool true) && is (de .bool (.boolean false)) (.bool false)
-- expression.rs:110-126
#guard is (de (u 32) (n "12345")) (.int 12345) && is (de (i 32) (n "-12345")) (.int (-12345)) && bad (de (u 8) (n "12345"))
-- expression.rs:128-138
#guard is (de .f64 (n "12345")) (.f64 (deOfInt 12345)) && is (de .f32 (n "-12345.12")) (.f32 ⟨"-12345.12".toList.foldl (fun a c => a * 256 + c.toNat) 0⟩)
-- expression.rs:140-161
#guard is (de .string (owned "foobar")) (.string "foobar".toList) && is (de .str (lent "foobar")) (.string "foobar".toList) && bad (de .str (owned "input"))
-- expression.rs:163-175
#guard is (de .char (lent "c")) (.char 'c') && bad (de .char (lent "this will fail"))
-- expression.rs:177-205 (`ByteBuf` reads a sequence of `u8`)
#guard is (de (.seq (u 8)) (.tuple (["104", "101", "108", "108", "111"].map n))) (.seq [.int 104, .int 101, .int 108, .int 108, .int 111]) &&
  bad (de (.seq (u 8)) (.tuple [.boolean false, lent "hi"])) && bad (de (.seq (u 8)) (.tuple [n "1", n "999"]))
-- expression.rs:207-216
#guard is (de (.option (u 32)) .null) .none && is (de (.option (u 32)) (n "42")) (.some (.int 42))
-- expression.rs:218-235
#guard is (de .unitStruct .null) .unit && is (de (.newtype .bool) (.boolean true)) (.bool true)
-- expression.rs:237-278
#guard is (de (.seq (u 32)) (.tuple (["1", "2", "3", "4", "5"].map n))) (.seq [.int 1, .int 2, .int 3, .int 4, .int 5]) &&
  is (de (.seq .unit) (.tuple [.null, .null, .null, .null])) (.seq [.unit, .unit, .unit, .unit]) &&
  is (de (.seq .bool) (.tuple [.boolean true, .boolean false])) (.seq [.bool true, .bool false]) &&
  is (de (.seq (.seq (u 32))) (.tuple [.tuple (["1", "2", "9"].map n), .tuple (["3", "4", "5"].map n)]))
    (.seq [.seq [.int 1, .int 2, .int 9], .seq [.int 3, .int 4, .int 5]])
-- expression.rs:280-303
#guard is (de (.tuple [u 32, i 32, i 16]) (.tuple (["1", "2", "3"].map n))) (.seq [.int 1, .int 2, .int 3]) &&
  is (de (.tuple [.f32, .bool, .unit]) (.tuple [n "1", .boolean true, .null])) (.seq [.f32 (deOfInt.f32 1), .bool true, .unit]) &&
  (match de (.tuple [u 32, i 32, i 16]) (.tuple (["1", "2", "3", "4"].map n)) with | .error (.invalidTupleLength a b) => a = 3 && b = 4 | _ => false)
-- expression.rs:305-325
#guard is (de (.tupleStruct [u 32, i 32, i 16]) (.tuple (["1", "2", "3"].map n))) (.seq [.int 1, .int 2, .int 3]) &&
  is (de (.tupleStruct [.f32, .bool, .str]) (.tuple [n "1", .boolean true, lent "null"])) (.seq [.f32 (deOfInt.f32 1), .bool true, .string "null".toList])
-- expression.rs:327-344
#guard is (de (.map .string) (.object [(.ident (txt "test"), lent "foo"), (.ident (txt "bar"), lent "baz")]))
  (.entries [("test".toList, .string "foo".toList), ("bar".toList, .string "baz".toList)])

/-- `from_str` (body.rs:197-203) with bounded nesting -/
def deText (t : Ty) (s : String) : Res DeErr DVal :=
  match parseStr testClass s.toList with
  | .ok b => deN deFloats deOfInt noOrder 1000 t (.body b)
  | .error e => .error (.parse e)
  | .panic => .panic
  | .diverge => .diverge
/-- a struct -/
def st (fs : List (String × Ty)) : Ty := .struct (fs.map fun p => (p.1.toList, p.2))
/-- its value -/
def sv (fs : List (String × DVal)) : DVal := .entries (fs.map fun p => (p.1.toList, p.2))
/-- a string -/
def dstr (s : String) : DVal := .string s.toList

-- body.rs:210-238
#guard is (deText (st [("name", .string), ("allow", .bool), ("index", u 64), ("list", .seq .string), ("nothing", .option .f64)])
    "\nname = \"second\"\nallow = false\nindex = 1\nlist = [\"foo\", \"bar\", \"baz\"]\n")
  (sv [("name", dstr "second"), ("allow", .bool false), ("index", .int 1), ("list", .seq [dstr "foo", dstr "bar", dstr "baz"]), ("nothing", .none)])
-- body.rs:240-273
#guard is (deText (st [("name", .string), ("allow", st [("name", .string), ("cidrs", .seq .string)])])
    "\nname = \"second\"\n\nallow {\n  name = \"all\"\n  cidrs = [\"0.0.0.0/0\"]\n}\n    ")
  (sv [("name", dstr "second"), ("allow", sv [("name", dstr "all"), ("cidrs", .seq [dstr "0.0.0.0/0"])])])
-- body.rs:275-318
#guard is (deText (st [("name", .string), ("allow", .seq (st [("name", .string), ("cidrs", .seq .string)]))])
    "\nname = \"second\"\n\nallow {\n  name = \"lan\"\n  cidrs = [\"192.168.0.0/16\", \"10.0.0.0/8\"]\n}\n\nallow {\n  name = \"localhost\"\n  cidrs = [\"127.0.0.1/32\"]\n}\n    ")
  (sv [("name", dstr "second"), ("allow", .seq [sv [("name", dstr "lan"), ("cidrs", .seq [dstr "192.168.0.0/16", dstr "10.0.0.0/8"])],
    sv [("name", dstr "localhost"), ("cidrs", .seq [dstr "127.0.0.1/32"])]])])

end Verif.Tests
