import Verif.Spec.Grammar
/-!
# What the public parsers of the pieces accept

`parser::*` exposes its nom parsers; each takes a text and gives a value and the text left over.
-/
set_option autoImplicit false

namespace Verif.Spec

/-- A comment or a run of spaces between tokens of one line: its text, its value (what is between the delimiters, or the
run itself) and what follows. -/
inductive InlinePiece : Str → Str → Str → Prop
  | comment (c r : Str) : ¬ ['*', '/'] <:+: c ++ ['*'] → InlinePiece ('/' :: '*' :: c ++ '*' :: '/' :: r) c r
  | run (w r : Str) : w ≠ [] → (∀ c ∈ w, c = ' ' ∨ c = '\t') → ¬ Head (fun c => c = ' ' ∨ c = '\t') r →
      InlinePiece (w ++ r) w r

/-- The same where the ends of lines do not count. -/
inductive LayoutPiece : Str → Str → Str → Prop
  | hash (c e r : Str) : (∀ d ∈ c, d ≠ '\r' ∧ d ≠ '\n') → Eol e → LayoutPiece ('#' :: c ++ e ++ r) c r
  | slash (c e r : Str) : (∀ d ∈ c, d ≠ '\r' ∧ d ≠ '\n') → Eol e → LayoutPiece ('/' :: '/' :: c ++ e ++ r) c r
  | comment (c r : Str) : ¬ ['*', '/'] <:+: c ++ ['*'] → LayoutPiece ('/' :: '*' :: c ++ '*' :: '/' :: r) c r
  | run (w r : Str) : w ≠ [] → (∀ c ∈ w, c = ' ' ∨ c = '\t' ∨ c = '\r' ∨ c = '\n') →
      ¬ Head (fun c => c = ' ' ∨ c = '\t' ∨ c = '\r' ∨ c = '\n') r → LayoutPiece (w ++ r) w r

/-- A line terminator: its value is the comment, or the end of the line itself. -/
inductive NewlinePiece : Str → Str → Str → Prop
  | hash (c e r : Str) : (∀ d ∈ c, d ≠ '\r' ∧ d ≠ '\n') → Eol e → NewlinePiece ('#' :: c ++ e ++ r) c r
  | slash (c e r : Str) : (∀ d ∈ c, d ≠ '\r' ∧ d ≠ '\n') → Eol e → NewlinePiece ('/' :: '/' :: c ++ e ++ r) c r
  | comment (c e r : Str) : ¬ ['*', '/'] <:+: c ++ ['*'] → Eol e →
      NewlinePiece ('/' :: '*' :: c ++ '*' :: '/' :: e ++ r) c r
  | eol (e r : Str) : Eol e → NewlinePiece (e ++ r) e r

/-- As many pieces as there are, with their values, and what follows them. -/
inductive Pieces (I : Str → Str → Str → Prop) : Str → List Str → Str → Prop
  | done (r : Str) : (∀ v t, ¬ I r v t) → Pieces I r [] r
  | piece (s t r v : Str) (vs : List Str) : I s v t → Pieces I t vs r → Pieces I s (v :: vs) r

/-- Labels, each with the spaces and comments around it, as many as there are. -/
inductive LabelList (U : CharClass) : Str → List BlockLabel → Str → Prop
  | done (s t : Str) : SkipInline s t → ¬ (∃ l r, IsLabel U t l r) → LabelList U s [] s
  | label (s t u v r : Str) (l : BlockLabel) (ls : List BlockLabel) : SkipInline s t → IsLabel U t l u →
      SkipInline u v → LabelList U v ls r → LabelList U s (l :: ls) r

/-- A block on one line: empty or with one attribute. -/
inductive OneLine (U : CharClass) : Str → Str → List BlockLabel → Body → Str → Prop
  | empty (s i t u v r : Str) (ls : List BlockLabel) : Ident U s i t → IsLabels U t ls u →
      SkipInline u ('}' :: v) → SkipInline v r → OneLine U s i ls [] r
  | one (s i t u u' v r : Str) (ls : List BlockLabel) (k : CowStr) (e : Expr) :
      Ident U s i t → IsLabels U t ls u → SkipInline u u' → IsAttribute U u' k e ('}' :: v) →
      SkipInline v r → OneLine U s i ls [.attribute k e] r

/-- A block over several lines: its body begins on the line after the brace. -/
inductive ManyLines (U : CharClass) : Str → Str → List BlockLabel → Body → Str → Prop
  | mk (s i t u u' v w r : Str) (ls : List BlockLabel) (b : Body) : Ident U s i t →
      IsLabels U t ls u → SkipInline u u' → Newlines u' v → IsBody U v b ('}' :: w) → SkipInline w r →
      ManyLines U s i ls b r

/-- One element of an object, with the spaces and comments around it. -/
inductive ObjectElem (U : CharClass) : Str → ObjKey → Expr → Str → Prop
  | mk (s t u v w x r : Str) (k : ObjKey) (e : Expr) : SkipInline s t → IsObjectKey U t k u →
      SkipInline u ('=' :: v) → SkipInline v w → IsExpr U w e x → SkipInline x r → ObjectElem U s k e r

/-- An element of a body, after layout, followed by the end of its line or of the text. -/
def ElementLine (U : CharClass) (s : Str) : Prop := ∃ el t u, IsElement U s el t ∧ IsElementEnd t u

end Verif.Spec
