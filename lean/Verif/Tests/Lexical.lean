import Verif.Tests.Base
import Verif.Model.Utils
/-! # Tests of lib/src/parser/{identifier,boolean,null,whitespace,string}.rs and utils.rs -/
set_option autoImplicit false

namespace Verif.Tests
open Verif Spec

-- identifier.rs:58-72
#guard (["abcd123", "abcd_123", "abcd-123", "_abc", "゛藏_a"].all fun i => gives (identifier testClass i.toList) "" i.toList)
-- identifier.rs:74-82
#guard (["1abc", "①_is_some_number"].all fun i => fails (identifier testClass i.toList))
-- boolean.rs:18-22
#guard gives (boolean "true".toList) "" true = true ∧ gives (boolean "false".toList) "" false
-- null.rs:18-31
#guard gives (null "null".toList) "" () = true ∧ null "true".toList = .err

/-- whitespace.rs:163-169, the body of the test parser: `inline_whitespace!(tuple!(take!(3), tag!("de")))` -/
def inlineWhitespaceTest : Parser (Str × Str) := do
  let _ ← inlineWs
  let a ← fun s => if 3 ≤ s.length then .ok (s.drop 3) (s.take 3) else .err
  let _ ← inlineWs
  let b ← tag "de".toList
  let _ ← inlineWs
  pure (a, b)
#guard gives (inlineWhitespaceTest " \t abc de fg".toList) "fg" ("abc".toList, "de".toList)

-- whitespace.rs:171-203
#guard ([("  \t\r\n", ["  \t\r\n"]), ("# Test Comment\r\n", [" Test Comment"]), ("// Test Comment\n", [" Test Comment"]),
    ("/* Test Comment One liner */", [" Test Comment One liner "]),
    ("/* Test Comment \nmultiple\r\n liner */", [" Test Comment \nmultiple\r\n liner "]),
    ("// Comment One\n# Comment Two\n/* I am the last */\n", [" Comment One", " Comment Two", " I am the last ", "\n"])].all
    fun p => gives (ws p.1.toList) "" (p.2.map String.toList))

/-- whitespace.rs:147-160, the test parser -/
def whitespaceTest : Parser (List Str) := wsAround do
  let l ← wsAround (separatedList (wsAround (tag ['|'])) (wsAround (takeWhile1 Char.isAlphanum)))
  let _ ← wsAround eof
  pure l
-- whitespace.rs:205-238
#guard ([("foo | bar \t | baz | \r\n more", ["foo", "bar", "baz", "more"]), ("# Test Comment\n", []), ("// Test Comment\n", []),
    ("/* Test Comment One liner */", []), ("foobar |  again # Test Comment\n", ["foobar", "again"]),
    ("foo | bar | baz // Test Comment\n", ["foo", "bar", "baz"]),
    ("foo | bar | /* Test Comment One liner */ baz // Test Comment\n", ["foo", "bar", "baz"]),
    ("foo | bar | /* Test Comment \nmultiple\r\n liner */ baz // Test Comment\n", ["foo", "bar", "baz"])].all
    fun p => gives (whitespaceTest p.1.toList) "" (p.2.map String.toList))

-- string.rs:242-265
#guard ([("a", "\x07"), ("b", "\x08"), ("f", "\x0c"), ("n", "\n"), ("r", "\r"), ("t", "\t"), ("v", "\x0b"), ("\\", "\\"), ("\"", "\""),
    ("?", "?"), ("xff", "ÿ"), ("251", "©"), ("uD000", "퀀"), ("U29000", "𩀀")].all fun p => gives (unescape p.1.toList) "" p.2.toList)
-- string.rs:267-272: a failure that is not recovered from
#guard unescape "UD800".toList = .fail "UD800".toList
/-- the cases of string.rs:274-298 and 300-323 -/
def stringCases : List (String × String) := [("", ""), ("abcd", "abcd"), ("ab\\\"cd", "ab\"cd"), ("ab \\\\ cd", "ab \\ cd"),
  ("ab \\n cd", "ab \n cd"), ("ab \\? cd", "ab ? cd"), ("ab \\xff \\251 \\uD000 \\U29000", "ab ÿ © 퀀 𩀀"), ("ab\ncd", "ab\ncd")]
-- string.rs:274-298
#guard (stringCases.all fun p => gives (multilineStringContent p.1.toList) "" p.2.toList)
-- string.rs:300-323
#guard (stringCases.all fun p => gives (quotedString ("\"" ++ p.1 ++ "\"").toList) "" p.2.toList)
-- string.rs:325-361
#guard ([("<<EOF\n", "EOF", false, "\n"), ("<<-EOH\n", "EOH", true, "\n"), ("<<藏_\r\n", "藏_", false, "\r\n")].all
    fun p => gives (heredocBegin testClass p.1.toList) p.2.2.2 ⟨p.2.1.toList, p.2.2.1⟩)
-- string.rs:363-406
#guard ([("\nEOF\n", "EOF", false, 0, "\n"), ("\n    EOH\n", "EOH", true, 4, "\n"), ("\r\nEOF\r\n", "EOF", false, 0, "\r\n")].all
    fun p => gives (heredocEnd ⟨p.2.1.toList, p.2.2.1⟩ p.1.toList) p.2.2.2.2 p.2.2.2.1)
-- string.rs:408-490
#guard ([("<<EOF\nEOF\n", ""), ("<<EOF\nsomething 老虎\nEOF\n", "something 老虎"),
    ("<<EOH\nsomething\nwith 老虎\nnew lines\nand quotes \"\n                    EOH\n", "something\nwith 老虎\nnew lines\nand quotes \""),
    ("<<-EOF\n    strip\n    the\n    spaces\n    but    not   these 老虎\n    EOF\n", "strip\nthe\nspaces\nbut    not   these 老虎"),
    ("<<-EOF\n    strip\n    the\n    spaces\n    but    not   these 老虎\n  EOF\n", "  strip\n  the\n  spaces\n  but    not   these 老虎"),
    ("<<-EOF\nstrip\n    the\nspaces\n    but    not   these 老虎\n  EOF\n", "strip\n  the\nspaces\n  but    not   these 老虎"),
    ("<<-EOF\n  strip\n    the\n  spaces\n    but    not   these 老虎\n    EOF\n", "strip\nthe\nspaces\nbut    not   these 老虎")].all
    fun p => gives (noOwn (heredocString testClass p.1.toList)) "\n" p.2.toList)
-- string.rs:492-550
#guard ([("\"\"", "", ""), ("\"abcd\"", "abcd", ""), ("\"ab\\\"cd\"", "ab\"cd", ""), ("\"ab \\\\ cd\"", "ab \\ cd", ""),
    ("\"ab \\n cd\"", "ab \n cd", ""), ("\"ab \\? cd\"", "ab ? cd", ""), ("<<EOF\n    EOF\n", "", "\n"),
    ("\"ab \\xff \\251 \\uD000 \\U29000\"", "ab ÿ © 퀀 𩀀", ""), ("<<EOF\nsomething\n    EOF\n", "something", "\n"),
    ("<<EOH\nsomething\nwith\nnew lines\nand quotes \"\n                        EOH\n", "something\nwith\nnew lines\nand quotes \"", "\n")].all
    fun p => gives (noOwn (string testClass p.1.toList)) p.2.2 p.2.1.toList)

-- utils.rs:251-278
#guard safeIndices "Löwe 老虎 Léopard".toList = [0, 1, 3, 4, 5, 6, 9, 12, 13, 14, 16, 17, 18, 19, 20]

end Verif.Tests
