import Verif.Proofs.Pieces
import Verif.Proofs.Decide
/-!
# C87 The public parsers of the pieces

`parser::*` exposes the nom parsers of all the pieces of the language. Each of them reads exactly the pieces the grammar
describes, from the start of the text it is given, and gives back the value and the text that follows.
-/
set_option autoImplicit false

namespace Verif.Props
open Verif Spec

section
variable (U : CharClass) (s r : Str)

/-! ## comments and spaces -/

/-- `inline_comment`: from `/*` to the first `*/`; the value is what is between them. -/
theorem c87_inline_comment (v : Str) :
    inlineComment s = .ok r v ↔ s = '/' :: '*' :: v ++ '*' :: '/' :: r ∧ ¬ ['*', '/'] <:+: v ++ ['*'] :=
  inlineComment_eq_ok

/-- `hash_comment`: from `#` to the end of the line, which must be there. -/
theorem c87_hash_comment (v : Str) :
    hashComment s = .ok r v ↔ ∃ e, Eol e ∧ s = '#' :: v ++ e ++ r ∧ ∀ c ∈ v, c ≠ '\r' ∧ c ≠ '\n' :=
  hashComment_eq_ok

/-- `slash_comment`: from `//` to the end of the line, which must be there. -/
theorem c87_slash_comment (v : Str) :
    slashComment s = .ok r v ↔ ∃ e, Eol e ∧ s = '/' :: '/' :: v ++ e ++ r ∧ ∀ c ∈ v, c ≠ '\r' ∧ c ≠ '\n' :=
  slashComment_eq_ok

/-- `line_comment` reads only the comments that begin with `#`, although the documentation of the module says that line
comments start with either `//` or `#`. -/
theorem c87_line_comment (v : Str) :
    lineComment s = .ok r v ↔ ∃ e, Eol e ∧ s = '#' :: v ++ e ++ r ∧ ∀ c ∈ v, c ≠ '\r' ∧ c ≠ '\n' := by
  unfold lineComment
  rw [orElse_eq_ok, hashComment_eq_ok]
  constructor
  · rintro (h | ⟨-, h⟩) <;> exact h
  · exact .inl

/-- `line_comment` refuses every comment that begins with `//`. -/
theorem c87_line_comment_refuses_slashes : lineComment ('/' :: '/' :: s) = .err := by
  have : hashComment ('/' :: '/' :: s) = .err := not_hash (by simp)
  unfold lineComment
  rw [orElse_of_err this, this]

/-- `inline_whitespace` never fails: it reads the blanks and inline comments there are, one value for each comment and
each run of blanks. -/
theorem c87_inline_whitespace (vs : List Str) : inlineWs s = .ok r vs ↔ Pieces InlinePiece s vs r := inlineWs_pieces

/-- `whitespace`: the same with line comments and the ends of lines. -/
theorem c87_whitespace (vs : List Str) : ws s = .ok r vs ↔ Pieces LayoutPiece s vs r := ws_pieces

/-- `inline_whitespace` and `whitespace` accept every text. -/
theorem c87_whitespace_never_fails : (∃ r vs, inlineWs s = .ok r vs) ∧ ∃ r vs, ws s = .ok r vs :=
  ⟨inlineWs_total s, ws_total s⟩

/-- `newline`: at least one line terminator, and all there are. -/
theorem c87_newline (vs : List Str) :
    newline s = .ok r vs ↔ ∃ v ws t, vs = v :: ws ∧ NewlinePiece s v t ∧ Pieces NewlinePiece t ws r := newline_pieces

/-! ## names, constants, numbers, strings -/

/-- `identifier`: as long as possible. -/
theorem c87_identifier (i : Str) : identifier U s = .ok r i ↔ Ident U s i r := identifier_iff

/-- `boolean`: what follows the word does not matter (`trueish` leaves `ish`). -/
theorem c87_boolean (b : Bool) :
    boolean s = .ok r b ↔ s = (if b then ['t', 'r', 'u', 'e'] else ['f', 'a', 'l', 's', 'e']) ++ r := by
  unfold boolean
  simp only [orElse_eq_ok, mapP_eq_ok, tag_eq_ok]
  constructor
  · rintro (⟨_, ⟨rfl, -⟩, rfl⟩ | ⟨-, _, ⟨rfl, -⟩, rfl⟩) <;> rfl
  · cases b with
    | true => rintro rfl; exact .inl ⟨_, ⟨rfl, rfl⟩, rfl⟩
    | false =>
      rintro rfl
      refine .inr ⟨?_, _, ⟨rfl, rfl⟩, rfl⟩
      rw [mapP_apply, show (if false = true then ['t', 'r', 'u', 'e'] else ['f', 'a', 'l', 's', 'e']) ++ r =
        'f' :: ('a' :: 'l' :: 's' :: 'e' :: r) from rfl, tag_cons_ne (by decide)]
      rfl

/-- `null`: likewise. -/
theorem c87_null : null s = .ok r () ↔ s = ['n', 'u', 'l', 'l'] ++ r := by
  unfold null
  simp only [mapP_eq_ok, tag_eq_ok]
  exact ⟨fun ⟨_, ⟨h, _⟩, _⟩ => h, fun h => ⟨_, ⟨h, rfl⟩, trivial⟩⟩

/-- `number`: the longest literal. -/
theorem c87_number (n : Number) : number s = .ok r n ↔ NumberTok s n r := number_iff

/-- `string_literal`: a quoted string on one line. -/
theorem c87_string_literal (v : Str) : stringLiteral s = .ok r v ↔ Quoted PlainLine s v r := stringLiteral_iff

/-- `heredoc_begin`: the opening line of a heredoc, up to but not including its end. -/
theorem c87_heredoc_begin (h : HereDoc) :
    heredocBegin U s = .ok r h ↔
      s = '<' :: '<' :: (if h.indented then ['-'] else []) ++ h.identifier ++ r ∧ h.identifier ≠ [] ∧
        (∀ c ∈ h.identifier, MarkerChar U c) ∧ StartsEol r := heredocBegin_iff

/-- `heredoc_end`: the closing line of a heredoc; the value is its indentation if the heredoc is indented, otherwise 0. -/
theorem c87_heredoc_end (h : HereDoc) (h1 : h.identifier ≠ []) (h2 : ∀ c ∈ h.identifier, MarkerChar U c) (n : Nat) :
    heredocEnd h s = .ok r n ↔ ∃ b, Terminator h.identifier s b r ∧ n = if h.indented then b.length else 0 :=
  heredocEnd_iff h1 fun c hc => markerChar_not_blank (h2 c hc)

/-- `heredoc_string` -/
theorem c87_heredoc_string (v : CowStr) : heredocString U s = .ok r v ↔ Heredoc U s v r := heredocString_iff

/-- `string`: a quoted string or a heredoc. -/
theorem c87_string (v : CowStr) : string U s = .ok r v ↔ StringTok U s v r := string_iff

/-! ## expressions -/

/-- `expression` -/
theorem c87_expression (v : Expr) : expression U s = .ok r v ↔ IsExpr U s v r := expression_iff

/-- `tuple`: must begin at the bracket. -/
theorem c87_tuple (es : List Expr) :
    tuple (expression U) s = .ok r es ↔ ∃ t, s = '[' :: t ∧ IsTupleBody U t es r := tuple_iff

/-- `object`: layout may precede the brace. -/
theorem c87_object (es : List (ObjKey × Expr)) :
    object U (expression U) s = .ok r es ↔ ∃ t, SkipLayout s ('{' :: t) ∧ IsObjectBody U t es r := object_iff

/-- `object_element_identifier` -/
theorem c87_object_element_identifier (k : ObjKey) :
    objectElementIdentifier U (expression U) s = .ok r k ↔ IsObjectKey U s k r := objectKey_iff

/-- `object_element` -/
theorem c87_object_element (k : ObjKey) (v : Expr) :
    objectElement U (expression U) s = .ok r (k, v) ↔ ObjectElem U s k v r := objectElement_iff

/-- `object_begin` and `object_end` -/
theorem c87_object_braces (v : Str) :
    (objectBegin s = .ok r v ↔ s = '{' :: r ∧ v = ['{']) ∧ (objectEnd s = .ok r v ↔ s = '}' :: r ∧ v = ['}']) := by
  unfold objectBegin objectEnd
  simp [tag_eq_ok]

/-- `object_separator`: a comma (which is its value), all the line ends there are, or nothing before a closing brace
(both with an empty value). -/
theorem c87_object_separator (v : Str) :
    objectSeparatorText s = .ok r v ↔
      s = ',' :: r ∧ v = [','] ∨
      (∃ w ws t, NewlinePiece s w t ∧ Pieces NewlinePiece t ws r) ∧ v = [] ∨
      (∃ t, s = '}' :: t) ∧ r = s ∧ v = [] := by
  unfold objectSeparatorText objectEnd
  simp only [orElse_eq_ok, mapP_eq_ok, tag_eq_ok, peek_eq_ok, newline_pieces]
  have hnl : ∀ {t u w : Str}, NewlinePiece t w u → ∃ c x, t = c :: x ∧ (c = '#' ∨ c = '/' ∨ c = '\r' ∨ c = '\n') := by
    intro t u w h
    cases h with
    | eol => rename_i h; cases h <;> exact ⟨_, _, rfl, by simp⟩
    | _ => exact ⟨_, _, rfl, by simp⟩
  constructor
  · rintro (⟨rfl, rfl⟩ | ⟨-, ⟨_, ⟨w, ws, t, rfl, h1, h2⟩, rfl⟩ | ⟨-, _, ⟨rfl, u, rfl, rfl⟩, rfl⟩⟩)
    · exact .inl ⟨rfl, rfl⟩
    · exact .inr (.inl ⟨⟨w, ws, t, h1, h2⟩, rfl⟩)
    · exact .inr (.inr ⟨⟨u, rfl⟩, rfl, rfl⟩)
  · rintro (⟨rfl, rfl⟩ | ⟨⟨w, ws, t, h1, h2⟩, rfl⟩ | ⟨⟨t, rfl⟩, rfl, rfl⟩)
    · exact .inl ⟨rfl, rfl⟩
    · obtain ⟨c, x, rfl, hc⟩ := hnl h1
      exact .inr ⟨tag_cons_ne (by rintro rfl; revert hc; decide), .inl ⟨_, ⟨w, ws, t, rfl, h1, h2⟩, rfl⟩⟩
    · refine .inr ⟨tag_cons_ne (by decide), .inr ⟨?_, _, ⟨rfl, t, rfl, rfl⟩, rfl⟩⟩
      rw [mapP_apply, PRes.map_eq_err]
      refine Tame.newline.not_ok fun r' v' hk => ?_
      obtain ⟨w, ws, u, -, h1, -⟩ := newline_pieces.1 hk
      obtain ⟨c, x, h, hc⟩ := hnl h1
      injection h with h2 h3; subst h2; revert hc; decide

/-- `bracket_expression`: the value of the expression between the parentheses. -/
theorem c87_bracket_expression (v : Expr) :
    bracketExpression (expression U) s = .ok r v ↔
      ∃ t u w, SkipLayout s ('(' :: t) ∧ SkipLayout t u ∧ IsExpr U u v w ∧ SkipLayout w (')' :: r) := by
  rw [bracket_eq_ok]; simp only [expression_iff]

/-! ## attributes, blocks, bodies -/

/-- `attribute` -/
theorem c87_attribute (k : CowStr) (e : Expr) :
    attributeP U s = .ok r (k, e) ↔ ∃ t, SkipInline s t ∧ IsAttribute U t k e r := attributeP_iff

/-- `block_label` -/
theorem c87_block_label (l : BlockLabel) : blockLabel U s = .ok r l ↔ IsLabel U s l r := blockLabel_iff

/-- `block_labels`: all the labels there are, provided that the text after them does not go on with a quote (a label
that cannot be read). -/
theorem c87_block_labels (ls : List BlockLabel) (hr : ∀ t, SkipInline r t → ¬ Head (· = '"') t) :
    blockLabels U s = .ok r ls ↔ LabelList U s ls r := blockLabels_iff hr

/-- `one_line_block_body`: an attribute when there is one. -/
theorem c87_one_line_block_body (k : CowStr) (e : Expr) :
    oneLineBlockBody U s = .ok r (some (k, e)) ↔ ∃ t, SkipInline s t ∧ IsAttribute U t k e r := by
  unfold oneLineBlockBody
  rw [opt_eq_ok, ← attributeP_iff (a := (k, e))]
  constructor
  · rintro (⟨a, h, h'⟩ | ⟨-, -, h⟩)
    · injection h' with h'; subst h'; exact h
    · cases h
  · intro h; exact .inl ⟨_, h, rfl⟩

/-- `one_line_block` -/
theorem c87_one_line_block (el : BodyElement) :
    oneLineBlock U s = .ok r el ↔
      ∃ t i ls b, SkipInline s t ∧ OneLine U t i ls b r ∧ el = .block (.borrowed i) ls b := oneLineBlock_iff

/-- `block` reads only the blocks whose body begins on its own line. -/
theorem c87_block (el : BodyElement) :
    block U (body U) s = .ok r el ↔
      ∃ t i ls b, SkipInline s t ∧ ManyLines U t i ls b r ∧ el = .block (.borrowed i) ls b := block_iff

/-- `body_element` -/
theorem c87_body_element (el : BodyElement) :
    bodyElement U (body U) s = .ok r el ↔ ∃ t, SkipInline s t ∧ IsElement U t el r := bodyElement_iff

/-- `body`: what it gives is a body, and it stops only where no further element begins. -/
theorem c87_body (v : Body) (h : body U s = .ok r v) : IsBody U s v r ∧ ¬ ElementLine U r :=
  ⟨body_sound h, body_stops_elem h⟩

/-- `body` reads the whole body whenever what follows it does not begin with a name. -/
theorem c87_body_iff (v : Body) (hr : ¬ Head (IdentStart U) r) : body U s = .ok r v ↔ IsBody U s v r :=
  ⟨body_sound, body_complete' hr⟩

end

/-! ## the hypotheses are met -/

/-- `line_comment` on `# a` and on `// a`. -/
example : lineComment "# a\nx".toList = .ok "x".toList " a".toList ∧ lineComment "// a\nx".toList = .err := by
  decide +kernel

/-- The pieces of `␠/* a */\t# b⏎x`. -/
example : ws " /* a */\t# b\nx".toList = .ok "x".toList [" ".toList, " a ".toList, "\t".toList, " b".toList] := by
  decide +kernel

example : Pieces LayoutPiece " /* a */\t# b\nx".toList [" ".toList, " a ".toList, "\t".toList, " b".toList] "x".toList :=
  (c87_whitespace _ _ _).1 (by decide +kernel)

/-- A heredoc marker. -/
example : heredocBegin asciiClass "<<-EOF\nx".toList = .ok "\nx".toList ⟨"EOF".toList, true⟩ := by decide +kernel

example : ∀ c ∈ "EOF".toList, MarkerChar asciiClass c := by
  intro c hc
  simp at hc
  rcases hc with rfl | rfl | rfl <;> exact .inl (by decide +kernel)

/-- Labels followed by a brace. -/
example : blockLabels asciiClass "a \"b\" {".toList = .ok "{".toList [.identifier (.borrowed "a".toList), .stringLiteral "b".toList] := by
  decide +kernel

example : ∀ t, SkipInline "{".toList t → ¬ Head (· = '"') t := by
  intro t ht
  have : t = "{".toList := by
    obtain ⟨l, hl, h, -⟩ := ht
    cases hl with
    | nil => exact h.symm
    | cons i s hi _ =>
      exfalso
      cases hi with
      | blank c hc => simp at h; rcases hc with rfl | rfl <;> simp at h
      | comment _ hi => cases hi; simp at h
  subst this
  rintro ⟨c, u, h, rfl⟩; simp at h

/-- A body followed by something that is not a name. -/
example : (match body asciiClass "a = 1\n)".toList with
    | .ok r v => r == ")".toList && v.length == 1
    | _ => false) = true := by decide +kernel

/-- `body` stops before the second element because the first line is not ended. -/
example : body asciiClass "a = 1 b = 2\n".toList = .ok "a = 1 b = 2\n".toList [] := by decide +kernel

end Verif.Props
