import Verif.Model.Parser
import Verif.Proofs.Decide
import Verif.Spec.Same
/-!
# The project's own unit tests, run on the model

These are tests, not proofs of properties: they check the transcription. Every test case of /repo that concerns modelled code
is here, with its input and expected result, as `#guard`: the build stops if the model computes another result.
No theorem depends on them.
-/
set_option autoImplicit false

namespace Verif.Tests
open Verif Spec

/-- A table with the few non-ASCII characters of the tests: letters and ideographs start identifiers; `①` does not. -/
def testClass : CharClass where
  idStart := fun c => c.isAlpha || c ∈ ['゛', '藏', '老', '虎']
  idContinue := fun c => c.isAlphanum || c == '_' || c ∈ ['゛', '藏', '老', '虎']
  alnum := fun c => c.isAlphanum || c ∈ ['藏', '老', '虎', '①']
  idStart_ascii := by
    intro c h
    have : c ∉ ['゛', '藏', '老', '虎'] := by
      intro hc; simp only [List.mem_cons, List.not_mem_nil, or_false] at hc
      rcases hc with rfl | rfl | rfl | rfl <;> exact absurd h (by decide)
    simp only [this, decide_false, Bool.or_false]
  idContinue_ascii := by
    intro c h
    have : c ∉ ['゛', '藏', '老', '虎'] := by
      intro hc; simp only [List.mem_cons, List.not_mem_nil, or_false] at hc
      rcases hc with rfl | rfl | rfl | rfl <;> exact absurd h (by decide)
    simp only [this, decide_false, Bool.or_false]
  alnum_ascii := by
    intro c h
    have : c ∉ ['藏', '老', '虎', '①'] := by
      intro hc; simp only [List.mem_cons, List.not_mem_nil, or_false] at hc
      rcases hc with rfl | rfl | rfl | rfl <;> exact absurd h (by decide)
    simp only [this, decide_false, Bool.or_false]
  idStart_idContinue := by
    intro c h
    simp only [Bool.or_eq_true, decide_eq_true_eq] at h ⊢
    rcases h with h | h
    · left; left; simp [Char.isAlphanum, h]
    · exact .inr h

/-- the rest and the result as expected -/
def gives {α : Type} [DecidableEq α] (x : PRes α) (rest : String) (v : α) : Bool :=
  match x with
  | .ok r w => decide (r = rest.toList) && decide (w = v)
  | _ => false

/-- no result -/
def fails {α : Type} (x : PRes α) : Bool :=
  match x with
  | .ok _ _ => false
  | _ => true

/-- `CompleteStr` result without the ownership of strings -/
def noOwn (x : PRes CowStr) : PRes Str := x.map CowStr.str

/-- a borrowed text -/
def txt (s : String) : CowStr := .borrowed s.toList

/-- an integer literal as an expression -/
def int (s : String) : Expr :=
  match s.toList with
  | '-' :: t => .number ⟨txt s, false, some (.borrowed t), none, none⟩
  | t => .number ⟨txt s, true, some (.borrowed t), none, none⟩
/-- a literal with a decimal point as an expression -/
def flt (pos : Bool) (w f : String) : Expr :=
  .number ⟨txt ((if pos then "" else "-") ++ w ++ "." ++ f), pos, some (txt w), some (txt f), none⟩
/-- a string expression -/
def str (s : String) : Expr := .string (txt s)
/-- an object expression with identifier keys -/
def obj (l : List (String × Expr)) : Expr := .object (l.map fun p => (.ident (txt p.1), p.2))
/-- an attribute -/
def att (k : String) (e : Expr) : BodyElement := .attribute (txt k) e
/-- a block; labels in quotes -/
def blk (t : String) (ls : List String) (b : Body) : BodyElement := .block (txt t) (ls.map fun l => .stringLiteral l.toList) b

/-! lib/fixtures -/

/-- lib/fixtures/single.hcl -/
def fixtureSingle : String := "foo = \"bar\"
"

/-- lib/fixtures/no_newline_terminating.hcl -/
def fixtureNoNewline : String := "test = true"

/-- lib/fixtures/scalar.hcl -/
def fixtureScalar : String := "test_unsigned_int = 123
test_signed_int /*inline comment */ = -123 # Another comment
test_float = -1.23

bool_true = true
bool_false = false

string = \"Hello World!\"

long_string = <<EOF
hihi
another line!
EOF
string_escaped = \"\\\" Hello World!\"
"

/-- lib/fixtures/list.hcl -/
def fixtureList : String := "list = [true, false, 123, -123.456, \"foobar\"]
list_multi = [ # hmm
    true, # Comment
    false, // Test
    123, /* Comment */
    # \"non-existent\",
    /* Comment */ -123.456,
    \"foobar\",
]

list_in_list = [ // This should work
    [/* Inline start */ \"test\", \"foobar\"],
    1,
    2,
    -3,
]

object_in_list = [ /* This too! */
    {
        test = 123
    },
    {
        foo = \"bar\"
    },
    {
        baz = false,
    },
]
"

/-- lib/fixtures/simple_block.hcl -/
def fixtureSimpleBlock : String := "simple_map /* Inline comment */ { // Comment
  foo   = \"bar\"
  bar   = \"baz\"
  index = 1
}

/* Test Map */
simple_map {
  foo   = \"bar\"
  bar   = \"baz\"
  index = 0
}
"

/-- lib/fixtures/block.hcl -/
def fixtureBlock : String := "simple_map /* Inline comment */ { // Comment
  foo   = \"bar\"
  bar   = \"baz\"
  index = 1
}

/* Test Map */
simple_map {
  foo   = \"bar\"
  bar   = \"baz\"
  index = 0
}

// This is a useless security group
resource \"security/group\" \"foobar\" {
  name = \"foobar\" # Comment

  allow {
    name = \"localhost\" // Seems pointless
    cidrs = [\"127.0.0.1/32\"]
  }

  allow {
    name = \"lan\" /* Is this all our LAN CIDR? */
    cidrs = [\"192.168.0.0/16\"]
  }

  deny {
    # Now this is pointless
    name = \"internet\"
    cidrs = [\"0.0.0.0/0\"]
  }
}

# Might as well be this
resource \"security/group\" \"second\" {
  name = \"second\"

  allow {
    name = \"all\"
    cidrs = [\"0.0.0.0/0\"]
  }
}

// Instance
resource \"instance\" \"an_instance\" {
  name = \"an_instance\"
  image = \"ubuntu:18.04\"

  user \"test\" {
    root = true
  }
}
"

/-- lib/fixtures/strings.hcl -/
def fixtureStrings : String := "empty = \"\"
single_line = \"foobar\"

multi_line = \"foo

bar\"

empty_heredoc = <<EOF
EOF

heredoc = <<EOF
hihi
hihi
foo
bar
EOF

heredoc_indented = <<-EOF
    this
    should
    be
    unidented
    EOF

more = \"test\"
"

end Verif.Tests
