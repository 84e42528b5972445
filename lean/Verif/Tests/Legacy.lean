import Verif.Tests.Base
import Verif.Model.OldParser
import Verif.Model.Construct
import Verif.Proofs.DecideValue
/-! # Tests of lib/src/parser.rs (legacy grammar), literals/key.rs, literals/number.rs and value.rs -/
set_option autoImplicit false

namespace Verif.Tests
open Verif Spec

/-- floats are told apart by their text -/
def floatOf (s : String) : F64 := ⟨s.toList.foldl (fun a c => a * 256 + c.toNat) 0⟩
/-- reading of floats for the tests -/
def testFloats : F64Parse := fun t => some ⟨t.foldl (fun a c => a * 256 + c.toNat) 0⟩

/-- an identifier as a key -/
def k (s : String) : Key := .identifier (txt s)
/-- a string -/
def vs (s : String) : Value := .string s.toList
/-- keys without ownership -/
def disown : Key → Key
  | .identifier s => .identifier (.borrowed s.str)
  | .string s => .string (.borrowed s.str)

-- key.rs:138-154
#guard ([("abcd123", .identifier (txt "abcd123")), ("_abc", .identifier (txt "_abc")), ("゛藏_a", .identifier (txt "゛藏_a")),
    ("\"123\"", .string (txt "123")), ("\"a/b/c\"", .string (txt "a/b/c"))].all
    fun p => gives ((oldKey testClass p.1.toList).map disown) "" p.2)
-- literals/number.rs:63-94
#guard ([("12345", .integer 12345), ("+12345", .integer 12345), ("-12345", .integer (-12345)), ("12.34", .float (floatOf "12.34")),
    ("+12.34", .float (floatOf "+12.34")), ("-12.34", .float (floatOf "-12.34"))].all
    fun p => gives (oldNumber testFloats p.1.toList) "" p.2)

/-- the list of the tests -/
def sampleList : Value := .list [.boolean true, .boolean false, .integer 123, .float (floatOf "-123.456"), vs "foobar"]

-- parser.rs:237-283
#guard ([("[]", []), ("[1,]", [.integer 1]),
    ("[true, false, 123, -123.456, \"foobar\"]", [.boolean true, .boolean false, .integer 123, .float (floatOf "-123.456"), vs "foobar"]),
    ("[
                        true,
                        false,
                        123,
                        -123.456,
                        \"testing\",                        [
                            \"inside voice!\",
                            \"lol\"
                        ],
                    ]", [.boolean true, .boolean false, .integer 123, .float (floatOf "-123.456"), vs "testing",
        .newList [vs "inside voice!", vs "lol"]])].all
    fun p => gives (list (singleValue testClass testFloats) p.1.toList) "" p.2)

-- parser.rs:285-332
#guard ([("null", .null, ""), ("123", .integer 123, ""), ("true", .boolean true, ""), ("123.456", .float (floatOf "123.456"), ""),
    ("\"foobar\"", vs "foobar", ""), ("<<EOF\nnew\nline\nEOF\n", vs "new\nline", "\n"), ("[true, false, 123, -123.456, \"foobar\"]", sampleList, ""),
    ("{\n        test = 123\n}", .newMap [[(k "test", .integer 123)]], "")].all
    fun p => gives (singleValue testClass testFloats p.1.toList) p.2.2 p.2.1)

-- parser.rs:334-365
#guard (["{\nfoo = \"bar\"\n}", "{\nfoo = \"bar\"\n\n\n}", "{\n            foo = \"bar\"\n            }"].all
    fun s => gives (mapExpression (mapValues testClass testFloats) s.toList) "" (.newUnmerged [(k "foo", vs "bar")]))

/-- `attribute` with its nested parsers -/
def attr (s : String) : PRes (Key × Value) :=
  (oldAttribute testClass (singleValue testClass testFloats) (mapValues testClass testFloats) s.toList).map fun p => (disown p.1, p.2)

-- parser.rs:367-414
#guard ([("test = 123", k "test", .integer 123, ""), ("test = true", k "test", .boolean true, ""), ("test = 123.456", k "test", .float (floatOf "123.456"), ""),
    ("   test   =   123  ", k "test", .integer 123, ""), ("\"a/b/c\" = \"foobar\",", .string (txt "a/b/c"), vs "foobar", ","),
    ("test = <<EOF\nnew\nline\nEOF\n", k "test", vs "new\nline", "\n"), ("test = [],", k "test", .list [], ","), ("test = [1,]", k "test", .newList [.integer 1], ""),
    ("test = [true, false, 123, -123.456, \"foobar\"],", k "test", sampleList, ",")].all
    fun p => gives (attr p.1) p.2.2.2 (p.2.1, p.2.2.1))
-- parser.rs:416-458
#guard ([("test {\nfoo = \"bar\"\n}", .newSingleMap [(k "foo", vs "bar")]), ("test = {\nfoo = \"bar\"\n\n\n}", .newSingleMap [(k "foo", vs "bar")]),
    ("test \"one\" \"two\" {\n            foo = \"bar\"\n            }", .newBlock ["one".toList, "two".toList] [(k "foo", vs "bar")])].all
    fun p => gives (attr p.1) "" (k "test", p.2))

/-- the entries that `from_str` gives -/
def reads (s : String) (es : List (Key × Value)) : Bool :=
  match fromStr testClass testFloats s.toList none with
  | .ok m => decide (m = .unmerged es) && decide (Value.isUnmergedMap m = some true)
  | _ => false

-- parser.rs:462-486 and value.rs:949-955
#guard (reads "" [] && reads fixtureNoNewline [(k "test", .boolean true)] && reads fixtureSingle [(k "foo", vs "bar")])
-- parser.rs:488-513
#guard reads fixtureScalar [(k "test_unsigned_int", .integer 123), (k "test_signed_int", .integer (-123)), (k "test_float", .float (floatOf "-1.23")),
    (k "bool_true", .boolean true), (k "bool_false", .boolean false), (k "string", vs "Hello World!"), (k "long_string", vs "hihi\nanother line!"),
    (k "string_escaped", vs "\" Hello World!")]
-- parser.rs:515-568
#guard reads fixtureList [(k "list", sampleList), (k "list_multi", sampleList),
    (k "list_in_list", .newList [.newList [vs "test", vs "foobar"], .integer 1, .integer 2, .integer (-3)]),
    (k "object_in_list", .newList [.newMap [[(k "test", .integer 123)]], .newMap [[(k "foo", vs "bar")]], .newMap [[(k "baz", .boolean false)]]])]

/-- the entries of fixtures/block.hcl -/
def blockEntries : List (Key × Value) := [(k "simple_map", .newSingleMap [(k "foo", vs "bar"), (k "bar", vs "baz"), (k "index", .integer 1)]),
  (k "simple_map", .newSingleMap [(k "foo", vs "bar"), (k "bar", vs "baz"), (k "index", .integer 0)]),
  (k "resource", .newBlock ["security/group".toList, "foobar".toList] [(k "name", vs "foobar"),
    (k "allow", .newSingleMap [(k "name", vs "localhost"), (k "cidrs", .newList [vs "127.0.0.1/32"])]),
    (k "allow", .newSingleMap [(k "name", vs "lan"), (k "cidrs", .newList [vs "192.168.0.0/16"])]),
    (k "deny", .newSingleMap [(k "name", vs "internet"), (k "cidrs", .newList [vs "0.0.0.0/0"])])]),
  (k "resource", .newBlock ["security/group".toList, "second".toList] [(k "name", vs "second"),
    (k "allow", .newSingleMap [(k "name", vs "all"), (k "cidrs", .newList [vs "0.0.0.0/0"])])]),
  (k "resource", .newBlock ["instance".toList, "an_instance".toList] [(k "name", vs "an_instance"), (k "image", vs "ubuntu:18.04"),
    (k "user", .newBlock ["test".toList] [(k "root", .boolean true)])])]

-- parser.rs:570-665
#guard fromStr testClass testFloats fixtureBlock.toList none = .ok (.unmerged blockEntries)
#guard Value.isUnmergedMap (.unmerged blockEntries) = some true ∧ Value.lenScalarMap (.unmerged blockEntries) = some 19 ∧
    ((KVP.unmerged blockEntries).get Key.text "simple_map".toList = some (.many [.newSingleMap [(k "foo", vs "bar"), (k "bar", vs "baz"), (k "index", .integer 1)],
      .newSingleMap [(k "foo", vs "bar"), (k "bar", vs "baz"), (k "index", .integer 0)]])) ∧
    (match (KVP.unmerged blockEntries).get Key.text "resource".toList with | some (.many l) => l.length | _ => 0) = 3

/-- a value as a result of merging, or null -/
def orNull : Except ValueErr Value → Value
  | .ok v => v
  | .error _ => .null
/-- a merged map as a value -/
def merged (es : List (Key × Value)) : Value := orNull ((MapValues.newMerged es).map .ofMap)
/-- a merged block as a value -/
def mergedBlock (es : List (List String × List (Key × Value))) : Value :=
  orNull (((es.mapM fun p => (MapValues.newMerged p.2).map fun m => (p.1.map String.toList, m)).bind VBlock.newMerged).map .block)

-- parser.rs:669-808; merged maps are compared here with their keys in the same order
#guard (match MapValues.merge (.unmerged blockEntries) with
    | .ok m => decide (Value.isMergedMap m = some true) && decide (m.len = 2) && decide (Value.lenScalarMap m = some 19) &&
      decide (m.get Key.text "simple_map".toList = some (.one (.object
        [(match MapValues.newMerged [(k "foo", vs "bar"), (k "bar", vs "baz"), (k "index", .integer 1)] with | .ok m => m | _ => .unmerged []),
         (match MapValues.newMerged [(k "foo", vs "bar"), (k "bar", vs "baz"), (k "index", .integer 0)] with | .ok m => m | _ => .unmerged [])]))) &&
      decide (m.get Key.text "resource".toList = some (.one (mergedBlock
        [(["security/group", "foobar"], [(k "name", vs "foobar"),
          (k "allow", merged [(k "name", vs "localhost"), (k "cidrs", .newList [vs "127.0.0.1/32"])]),
          (k "allow", merged [(k "name", vs "lan"), (k "cidrs", .newList [vs "192.168.0.0/16"])]),
          (k "deny", merged [(k "name", vs "internet"), (k "cidrs", .newList [vs "0.0.0.0/0"])])]),
         (["security/group", "second"], [(k "name", vs "second"), (k "allow", merged [(k "name", vs "all"), (k "cidrs", .newList [vs "0.0.0.0/0"])])]),
         (["instance", "an_instance"], [(k "name", vs "an_instance"), (k "image", vs "ubuntu:18.04"), (k "user", mergedBlock [(["test"], [(k "root", .boolean true)])])])])))
    | _ => false)

-- value.rs:957-963
#guard ([fixtureBlock, fixtureList, fixtureNoNewline, fixtureScalar, fixtureSimpleBlock, fixtureSingle, fixtureStrings].all fun s =>
    match fromStr testClass testFloats s.toList (some .error) with
    | .ok m => decide (Value.isMergedMap m = some true)
    | _ => false)

end Verif.Tests
