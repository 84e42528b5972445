import Verif.Tests.Base
import Verif.Model.Number
import Verif.Model.Construct
/-! # Tests of lib/src/parser/{number,tuple,expression,object,attribute,block,body}.rs and parser.rs (new grammar) -/
set_option autoImplicit false

namespace Verif.Tests
open Verif Spec

-- number.rs:294-343 (floats aside): all is consumed, and reading as an integer is reading the text
#guard (["+3.14", "3.14", "-3.14", "0", "0.0", "1.", ".789", "-.5", "1e7", "-1E-7", ".3e-2", "1.e4", "1.2e4", "-1.234E-12", "-1.234e-12"].all
    fun t => match number t.toList with
      | .ok r n => r.isEmpty && decide (n.asInt ⟨true, 64⟩ = if t = "0" then some 0 else none) &&
          decide (n.asInt ⟨false, 64⟩ = if t = "0" then some 0 else none) && decide (n.isFloat = decide (t ≠ "0"))
      | _ => false)

/-- the expression, up to ownership -/
def ex (x : PRes Expr) : PRes Expr := x.map forgetExpr

/-- the tuple of the tests -/
def sampleTuple : Expr := .tuple [.boolean true, .boolean false, int "123", flt false "123" "456", str "foobar"]

-- tuple.rs:59-103
#guard ([("[]", .tuple []), ("[1,]", .tuple [int "1"]), ("[true, false, 123, -123.456, \"foobar\"]", sampleTuple),
    ("[
                        true,
                        false,
                        123,
                        -123.456,
                        \"testing\",                        [
                            \"inside voice!\",
                            \"lol\"
                        ],
                    ]", .tuple [.boolean true, .boolean false, int "123", flt false "123" "456", str "testing",
                      .tuple [str "inside voice!", str "lol"]])].all
    fun p => gives (ex ((tuple (expression testClass) p.1.toList).map .tuple)) "" p.2)

-- expression.rs:219-248
#guard ([("(null)", .null, ""), ("(123)", int "123", ""), ("((123))", int "123", ""), ("(((123)))", int "123", ""), ("(true)", .boolean true, ""),
    ("123.456", flt true "123" "456", ""), ("123", int "123", ""), ("\"foobar\"", str "foobar", ""),
    ("\n(\n<<EOF\nnew\nline\nEOF\n)\n", str "new\nline", "\n")].all
    fun p => gives (ex (expression testClass p.1.toList)) p.2.2 p.2.1)

-- expression.rs:250-297
#guard ([("null", .null, ""), ("123", int "123", ""), ("true", .boolean true, ""), ("123.456", flt true "123" "456", ""),
    ("\"foobar\"", str "foobar", ""), ("<<EOF\nnew\nline\nEOF\n", str "new\nline", "\n"),
    ("[true, false, 123, -123.456, \"foobar\"]", sampleTuple, ""),
    ("{\n                    test = 123\n            }", obj [("test", int "123")], "")].all
    fun p => gives (ex (expression testClass p.1.toList)) p.2.2 p.2.1)

-- object.rs:175-202
#guard ([("foobar", .ident (txt "foobar")), ("true", .ident (txt "true")), ("(true)", .expr (txt "(true)")), ("(1234)", .expr (txt "(1234)"))].all
    fun p => gives (objectElementIdentifier testClass (expression testClass) p.1.toList) "" p.2)

/-- the cases of attribute.rs:39-80 and object.rs:204-259 -/
def attributeCases : List (String × Expr × String) := [("test = 123", int "123", ""), ("test = true", .boolean true, ""),
  ("test = 123.456", flt true "123" "456", ""), ("   test   =   123  ", int "123", ""),
  ("test = <<EOF\nnew\nline\nEOF\n", str "new\nline", "\n"), ("test = [],", .tuple [], ","), ("test = [1,]", .tuple [int "1"], ""),
  ("test = [true, false, 123, -123.456, \"foobar\"],", sampleTuple, ","), ("test /* test */ = 123", int "123", "")]
-- object.rs:204-259
#guard (attributeCases.all fun p => gives ((objectElement testClass (expression testClass) p.1.toList).map fun q => (q.1, forgetExpr q.2)) p.2.2
    (.ident (txt "test"), p.2.1))
-- attribute.rs:39-80
#guard (attributeCases.all fun p => gives ((attributeP testClass p.1.toList).map fun q => (q.1, forgetExpr q.2)) p.2.2 (txt "test", p.2.1))
-- attribute.rs:81-165
#guard ([("list_multi", "list_multi = [ # hmm\n    true, # Comment\n    false, // Test\n    123, /* Comment */\n    # \"non-existent\",\n    /* Comment */ -123.456,\n    \"foobar\",\n]\n",
      sampleTuple),
    ("list_in_list", "list_in_list = [ // This should work\n    [/* Inline start */ \"test\", \"foobar\"],\n    1,\n    2,\n    -3,\n]\n",
      .tuple [.tuple [str "test", str "foobar"], int "1", int "2", int "-3"]),
    ("object_in_list", "object_in_list = [ /* This too! */\n    {\n        test = 123\n    },\n    {\n        foo = \"bar\"\n    },\n    {\n        baz = false,\n    },\n]\n",
      .tuple [obj [("test", int "123")], obj [("foo", str "bar")], obj [("baz", .boolean false)]])].all
    fun p => gives ((attributeP testClass p.2.1.toList).map fun q => (q.1, forgetExpr q.2)) "\n" (txt p.1, p.2.2))

/-- the elements of an object, up to ownership, as an expression -/
def ob (x : PRes (List (ObjKey × Expr))) : PRes Expr := x.map fun o => forgetExpr (.object o)

/-- foo, bar and true -/
def threeElements : Expr := obj [("foo", str "bar"), ("bar", str "baz"), ("true", .boolean false)]

-- object.rs:261-423, the bodies of objects
#guard ([("", obj []), ("test = true,", obj [("test", .boolean true)]), ("foo = \"bar\"\n", obj [("foo", str "bar")]),
    ("foo = \"bar\"\nbar = \"baz\"\ntrue = false\n", threeElements), ("foo = \"bar\"\nbar = \"baz\"\ntrue = false,", threeElements),
    ("foo = \"bar\"\nbar = \"baz\"\ntrue = false\n# Hi\n", threeElements)].all
    fun p => gives (ob (objectBody testClass (expression testClass) p.1.toList)) "" p.2)
-- object.rs:261-423, objects
#guard ([("{}", obj []), ("{ test = true }", obj [("test", .boolean true)]), ("{\nfoo = \"bar\"\n}", obj [("foo", str "bar")]),
    ("{\nfoo = \"bar\"\nbar = \"baz\"\ntrue = false}", threeElements), ("{\nfoo = \"bar\"\nbar = \"baz\"\ntrue = false,}", threeElements),
    ("{\nfoo = \"bar\"\nbar = \"baz\"\ntrue = false\n# Hi\n}", threeElements)].all
    fun p => gives (ob (object testClass (expression testClass) p.1.toList)) "" p.2)

/-- the elements of object.rs:425-510 -/
def scalarElements : List (String × Expr) := [("test_unsigned_int", int "123"), ("test_signed_int", int "-123"), ("test_float", flt false "1" "23"),
  ("bool_true", .boolean true), ("bool_false", .boolean false), ("string", str "Hello World!"), ("comma_separated", str "I'm special!"),
  ("long_string", str "hihi\nanother line!"), ("string_escaped", str "\" Hello World!")]
-- object.rs:425-466
#guard gives (ob (objectBody testClass (expression testClass) "test_unsigned_int = 123
test_signed_int /*inline comment */ = -123 # Another comment
test_float = -1.23

bool_true = true
bool_false = false

string = \"Hello World!\"
comma_separated = \"I'm special!\",

long_string = <<EOF
hihi
another line!
EOF
string_escaped = \"\\\" Hello World!\"
".toList)) "" (obj scalarElements)
-- object.rs:468-513
#guard gives (ob (object testClass (expression testClass) "{
    test_unsigned_int = 123
    test_signed_int /*inline comment */ = -123 # Another comment
    test_float = -1.23

    bool_true = true
    bool_false = false

    string = \"Hello World!\"
    comma_separated = \"I'm special!\",

    long_string = <<EOF
hihi
another line!
EOF
    string_escaped = \"\\\" Hello World!\"
}
".toList)) "\n" (obj scalarElements)

/-- the elements of fixtures/list.hcl -/
def listElements : List (String × Expr) := [("list", sampleTuple), ("list_multi", sampleTuple),
  ("list_in_list", .tuple [.tuple [str "test", str "foobar"], int "1", int "2", int "-3"]),
  ("object_in_list", .tuple [obj [("test", int "123")], obj [("foo", str "bar")], obj [("baz", .boolean false)]])]
-- object.rs:515-559 and 561-606
#guard gives (ob (objectBody testClass (expression testClass) fixtureList.toList)) "" (obj listElements) = true ∧
    gives (ob (object testClass (expression testClass) ("{" ++ fixtureList ++ "}").toList)) "" (obj listElements)
-- object.rs:608-650
#guard gives (ob (object testClass (expression testClass) "{
    test_unsigned_int = 123
    true = false

    nested = {
        false = true
        oh_no = \"reality is broken!\"
    },
},
".toList)) ",\n" (obj [("test_unsigned_int", int "123"), ("true", .boolean false),
    ("nested", obj [("false", .boolean true), ("oh_no", str "reality is broken!")])])

/-! ## blocks -/

/-- an identifier as a label -/
def idl (s : String) : BlockLabel := .identifier (txt s)
/-- a string as a label -/
def strl (s : String) : BlockLabel := .stringLiteral s.toList

-- block.rs:715-729
#guard gives (blockLabel testClass "foobar".toList) "" (idl "foobar") = true ∧ gives (blockLabel testClass "\"foobar\"".toList) "" (strl "foobar")
-- block.rs:731-762
#guard ([("", []), ("foobar", [idl "foobar"]), ("foo bar baz", [idl "foo", idl "bar", idl "baz"]), ("\"foobar\"", [strl "foobar"]),
    ("foo \"bar\" baz", [idl "foo", strl "bar", idl "baz"])].all fun p => gives (blockLabels testClass p.1.toList) "" p.2)
-- block.rs:777-825
#guard ([("test {}", [], none), ("test { foo = 123 }", [], some (txt "foo", int "123")),
    ("test foo bar baz {}", [idl "foo", idl "bar", idl "baz"], none),
    ("test foo \"bar\" baz { foo = 123 }", [idl "foo", strl "bar", idl "baz"], some (txt "foo", int "123"))].all
    fun p => gives ((oneLineBlock testClass p.1.toList).map forgetElement) "" (.ofBlock (.newOneLine (txt "test") p.2.1 p.2.2)))
-- block.rs:827-850
#guard gives ((block testClass (body testClass) "simple_map \"foo\" bar {\n  foo   = \"bar\"\n  bar   = \"baz\"\n  index = 0\n}".toList).map forgetElement) ""
    (.block (txt "simple_map") [strl "foo", idl "bar"] [att "foo" (str "bar"), att "bar" (str "baz"), att "index" (int "0")])

/-- the body of the first resource in fixtures/block.hcl -/
def groupBody : Body := [att "name" (str "foobar"), blk "allow" [] [att "name" (str "localhost"), att "cidrs" (.tuple [str "127.0.0.1/32"])],
  blk "allow" [] [att "name" (str "lan"), att "cidrs" (.tuple [str "192.168.0.0/16"])],
  blk "deny" [] [att "name" (str "internet"), att "cidrs" (.tuple [str "0.0.0.0/0"])]]
-- block.rs:852-918
#guard gives ((block testClass (body testClass) "resource \"security/group\" foobar {
  name = \"foobar\" # Comment

  allow {
    name = \"localhost\" // Seems pointless
    cidrs = [\"127.0.0.1/32\"]
  }

  allow {
    name = \"lan\" /* Is this all our LAN CIDR? */
    cidrs = [\"192.168.0.0/16\"]
  }

  deny {
    # Now this is pointless
    name = \"internet\"
    cidrs = [\"0.0.0.0/0\"]
  }
}".toList).map forgetElement) "" (.block (txt "resource") [strl "security/group", idl "foobar"] groupBody)

/-! ## bodies and documents -/

/-- the body, up to ownership -/
def parsesTo (s : String) (b : Body) : Bool :=
  match parseStr testClass s.toList with
  | .ok b' => decide (forgetBody b' = b)
  | _ => false

-- body.rs:137-163
#guard (parsesTo "" [] && parsesTo fixtureNoNewline [att "test" (.boolean true)] && parsesTo fixtureSingle [att "foo" (str "bar")])
-- body.rs:165-192
#guard parsesTo fixtureScalar ((scalarElements.filter (fun p => p.1 ≠ "comma_separated")).map fun p => att p.1 p.2)
-- body.rs:194-239
#guard parsesTo fixtureList (listElements.map fun p => att p.1 p.2)
-- body.rs:241-347
#guard parsesTo fixtureBlock [blk "simple_map" [] [att "foo" (str "bar"), att "bar" (str "baz"), att "index" (int "1")],
    blk "simple_map" [] [att "foo" (str "bar"), att "bar" (str "baz"), att "index" (int "0")],
    blk "resource" ["security/group", "foobar"] groupBody,
    blk "resource" ["security/group", "second"] [att "name" (str "second"),
      blk "allow" [] [att "name" (str "all"), att "cidrs" (.tuple [str "0.0.0.0/0"])]],
    blk "resource" ["instance", "an_instance"] [att "name" (str "an_instance"), att "image" (str "ubuntu:18.04"),
      blk "user" ["test"] [att "root" (.boolean true)]]]
-- parser.rs:230-235 for the remaining fixtures
#guard parsesTo fixtureSimpleBlock [blk "simple_map" [] [att "foo" (str "bar"), att "bar" (str "baz"), att "index" (int "1")],
    blk "simple_map" [] [att "foo" (str "bar"), att "bar" (str "baz"), att "index" (int "0")]] = true ∧
  parsesTo fixtureStrings [att "empty" (str ""), att "single_line" (str "foobar"), att "multi_line" (str "foo\n\nbar"), att "empty_heredoc" (str ""),
    att "heredoc" (str "hihi\nhihi\nfoo\nbar"), att "heredoc_indented" (str "this\nshould\nbe\nunidented"), att "more" (str "test")]

end Verif.Tests
