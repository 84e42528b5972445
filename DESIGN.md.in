# Formal model of ferrous-chloride in Lean 4 — design

## 1. Method
The Rust source in /repo is read as text and transcribed, function by function, into total
Lean functions (`lean/Verif/Model/*`, every definition cites file and lines). A small
specification that does not use the model's functions is in `lean/Verif/Spec/*` (grammar relations, what a string denotes,
printing, leaves, look-up places, …), helper lemmas are in `lean/Verif/Proofs/*` and the property theorems,
`cNN_…` for property CNN of `properties.jsonl`, in `lean/Verif/Props/*`, each beside an example that a concrete case
meets its hypotheses. `MANIFEST.json` (generated by `mkmanifest.py`) lists the theorems of each property; `notes.json`
has the notes. `seeded/LOG.jsonl` is the log of the seeded-bug experiments.

Where the property a user would expect is *false* of the code (see section 6), the property in `properties.jsonl` states what the
code does instead, the theorem characterises it for all inputs, and a witness refutes the expected statement.

`lean/Verif/Witness/*` applies the theorems of `Props` that have hypotheses to concrete, non-trivial arguments
(`example := cNN_… args`), with the hypotheses proved for them: no theorem is vacuous.
`lean/Verif/Tests/*` holds the unit tests of /repo (and its fixtures) transcribed to the model as `#guard` commands: tests
of the transcription, evaluated, not proofs. No theorem or manifest entry rests on them.

## 2. Modelling decisions
* Text: `List Char` (Rust `str` = sequence of Unicode scalar values = Lean `Char`). Bytes and byte offsets
  are modelled where the code uses them (`unindent_heredoc`, byte-slice search, `parse_slice`/`parse_reader` with a
  UTF-8 decoder).
* nom 4.2.3 combinators: transcribed from their semantics on `CompleteStr`
  (nom's source is not in the sandbox): result type `PRes` = ok / err (recoverable) /
  fail (unrecoverable, with the input it carries) / panic / diverge. nom facts used for error values (C75): `return_error!` adds its node
  last to the verbose context, and no enclosing combinator of this crate alters an `Err::Failure`. Unbounded loops get structural fuel; running out of fuel is the separate
  outcome `diverge`, and it is a theorem that it never happens (C03, C56).
  nom facts relied on: `alt!` tries the next alternative on `Error` only; `many0!` and `separated_list!` stop at an `Error` and give
  back the input before the failed item (or separator), and stop at an item that consumes nothing; `opt!` turns `Error` into `None`;
  `exact!(p)` is `terminated!(p, eof!())`; the rewriting macro `sep!` behind `whitespace!` and `inline_whitespace!` puts the skipping parser before
  every step of a `do_parse!`/`tuple!`/`terminated!`/`alt!`/`call!`, before each item of `many0!` and before each separator and
  element of `separated_list!` (the tests of tuple.rs, with layout around commas, agree; they are transcribed in Tests).
  `Err::Incomplete` comes only from `nom::eol` where the text ends (`""` or `"\r"`): the main model takes it for an error, and
  `Model/Incomplete` models the parsers concerned with `Incomplete` as an outcome passed on by `alt!`, `many0!`, `peek!` and caught by
  `alt_complete!`; C95 proves that the difference is invisible from outside and where it shows. nom's `recognize_float` is transcribed
  (`Model/OldParser`) and proved to recognise what number.rs `number` does (`recognizeFloat_eq`).
* Recursive grammars: every level is parameterised by the parser for nested expressions/bodies and
  the recursion is tied with fuel `length + 1`; that more fuel changes nothing, so that the parsers are fixed points of their
  productions, is a theorem (C74).
* Work: `Model/Calls`, `Model/OldCalls` run the same parsers while counting calls of the recursive ones. `Model/Work` (`OldWork`) runs the
  HCL 2 (legacy) parsers while counting every token parser that is tried and every character that is looked at or copied; building nodes
  of the syntax tree, allocation and construction of errors are not counted.
* Unicode tables (`is_id_start`, `is_id_continue`, `is_alphanumeric`): a structure of predicates with
  their ASCII behaviour as fields (`CharClass`); theorems hold for every such table.
* `Cow`: owned flag + text. `HashMap`: association list with unique keys, statements up to the
  (unspecified) iteration order, or for every iteration order (`HashOrder`). That a bucketed hash table with any hasher
  agrees with it is proved in `Model/Hash`, `Props/Hash`.
* `f64`: opaque; std's parsing, comparison and formatting are parameters (`F64Parse`, `FloatOps`, `ShowsFloats`, `ShowsF64`), and so are the `as f64` and `as f32` conversions done by serde's visitors (`F64OfInt`).
* Panics (`unimplemented!`, `expect`, slice errors, `assert!`, debug overflow) are explicit outcomes.
* serde: a `Deserializer` method is the call it makes on the visitor (`Call`), a `MapAccess` is a state machine, and the
  visitors of std types and of `#[derive(Deserialize)]` are transcribed as `visit`.
* In-place mutation (`get_mut`, `flat_iter_mut`, `iter_mut`): a lens (place + write) or a program with its own state run
  over the items.

## 3. Trusted base
* Lean 4.33.0's kernel. No axioms of our own; no compiled evaluation. Of the @NTH@ theorems in the manifest, @AX3@ depend on
  `propext`, `Classical.choice`, `Quot.sound`; @AX2@ on `propext`, `Quot.sound`; @AX1@ on `propext`; @AX0@ on none.
* The reading of the Rust code: that each `Model` definition is a faithful transcription of the cited lines.
* The transcription of code outside /repo: nom 4.2.3's combinators; std's `str`/`char`/`u32` functions, integer parsing
  and printing, `HashMap`/`HashSet`/`Vec` operations, `Cow`, UTF-8 decoding; serde 1.0.101's and serde_derive 1.0.93's
  `Deserialize` implementations and `CowStrDeserializer`; vec1; derived `PartialEq`/`Hash`/`Clone`/`Debug` and the builders of `core::fmt`.
* The parameters listed in section 2 stand for arbitrary functions (with the laws stated as structure fields), so nothing is
  assumed of them beyond these laws.
* Not modelled: memory exhaustion and stack overflow (the recursion depth itself is, C74), Unicode normalisation tables themselves, wall-clock time.

## 4. What is modelled
| Code in /repo | Model |
|---|---|
| lib/src/parser/{whitespace,identifier,string,heredoc,boolean,null,number,…}.rs lexical rules, utils.rs | Model/Nom, Lex, Utils, Number |
| lib/src/parser.rs (parse_str, parse_slice, parse_reader), body/block/expression/object/tuple/attribute grammars | Model/Parser, Owned |
| AST types, equality, as_owned, `From` conversions, constructors, unwraps | Model/Ast, Owned, Construct, Number, Float |
| lib/src/value.rs, legacy grammar, merge/unmerge, from_str/from_slice/from_reader, accessors, len* | Model/OldParser, Value, Container |
| lib/src/lib.rs, iter.rs containers (`KeyValuePairs`, `OneOrMany`, iterators) | Model/Container |
| lib/src/parser/block.rs `Blocks`, `BlockBody` and all their look-ups, iterators and mutation | Model/Blocks, BlocksMut |
| number of calls of the recursive parsers, and of all steps | Model/Calls, OldCalls, Work, OldWork |
| Hash/Borrow of keys, labels, object keys, numbers | Model/Hash |
| lib/src/serde/de.rs, serde/de/*.rs | Model/De, DeTypes, DeKeys, DeAttrs |
| errors.rs, serde/de.rs error types, cli/src/error.rs: conversions and messages | Model/Errors, Display, ErrorAt |
| fuzz-afl, fuzz-honggfuzz main.rs, lib/build.rs (decisions only) | Model/Tools |
| cli/src/*.rs: run of `parse` as an effect trace, exit status, printed value (`{:#?}`) | Model/Cli, Debug |
| derived `Debug` of trees and indexed blocks | Model/DebugTree |
| `{:?}`: the same on one line | Model/DebugLine |
| derived `Debug` of errors (how std's errors show themselves is a parameter) | Model/DebugError |

Not modelled: messages of build.rs, the fuzzers themselves, benches, clap's own argument parser, `Debug` of deserializers and of `serde::de::Compat`, `Display` of nom and std errors (parameters),
`Error::description`, `Default` derives, `Deref` plumbing.

## 5. Plan per property
| Id | Modelled | Proof |
|---|---|---|
| C01, C02, C20 | new grammar, parse_str, Expression::parse | declarative grammar relation; soundness and completeness by induction on input length |
| C03 | combinators with fuel | suffix/shorter lemmas, fixpoint equation |
| C04, C09 | heredoc + unindent with panics | position relation (text before a value position is well-formed) and exact characterisation of panics, both directions |
| C05–C08 | string.rs, heredoc | induction on content |
| C10–C13 | number.rs | longest-match, decimal arithmetic |
| C14 | identifier.rs | span lemmas |
| C15, C16 | whole grammar; for C15 also `Spec/Laid`, a generative description of all texts of a tree with freely chosen layout | C16: corollary of C01 by surgery on derivations; C15: the two descriptions coincide, by induction on derivations in both directions |
| C17 | a printer (specification) | printed text derives the tree in the grammar; then C01 |
| C18, C19 | parse_slice/reader, as_owned | UTF-8 codec, structural induction |
| C21, C22 | legacy grammar | as C01 |
| C23–C33 | value.rs | structural induction on value trees; merge specified by a relation on the values under each key |
| C34–C36 | lib.rs, iter.rs, value.rs accessors | list lemmas |
| C37–C43 | block.rs containers | invariants over append histories |
| C44–C52 | serde accesses and deserializers | state machines over entries, invariants over call sequences |
| C53 | cli run_parse as an effect trace | case analysis over all worlds |
| C54 | errors.rs | case analysis / induction on context |
| C55 | utils.rs take_till_match | induction on input |
| C56–C60 | T::deserialize for nested target types | well-founded measure, fixpoint equation; induction on the tree; permutation of hash order |
| C61, C62 | derived/explicit PartialEq, Hash, Borrow | structural induction; bucketed hash table refines the list |
| C63, C65 | From conversions, constructors | text shape, then C10/C17 |
| C64 | get_mut, flat_iter_mut, iter_mut, into_iter | lens laws; simulation of a stateful writer |
| C66 | both parsers, relation AgreeBody between a syntax tree and legacy entries | the two grammar characterisations (C01/C21) joined by induction on the derivation |
| C67 | writer for legacy entries (Spec/OldPrint), legacy parser | each written piece derives in the legacy grammar, then C21 |
| C68 | relation Reads (Spec/Reads) against deserialize (Model/DeTypes) | soundness by induction on size of type + node, completeness by mutual induction on the derivation |
| C69 | relation Alike (Spec/Alike) over nodes, ordinary hash order | C68 both ways; induction on Reads with permutations |
| C70 | derived == on values, maps, block sets, keys, std's HashMap equality | equivalence with an inductive relation by induction over the mutual value type; symmetry, transitivity, reflexivity and compatibility with merging from the relation |
| C71 | the legacy parser of Model/Value over a generative grammar of layouts (Spec/OldLaid) | mutual induction both ways against the grammar of C21 |
| C72 | calls of `body`/`expression` counted along the parsers of Model/Parser | cost invariants (success: cost + 2·rest ≤ 2·input) by induction on depth; erasure to the uncounted parsers |
| C73 | calls of `single_value`/`map_values` counted | completeness-style induction on the grammar derivation; exact count by induction on n |
| C74 | the depth-limited parsers of Model/Parser and Model/OldParser | agreement of depth limits on texts with few brackets, closed under the combinators; witnesses by induction |
| C75 | parser results with the input carried by nom's Err::Failure (return_error!) | soundness and completeness of positions for failures, by induction on fuel and on position derivations, for the new and the legacy parser |
| C76 | Display of the three error types, conversions between them | injectivity by a decoder of the kind and splitting at the first or last separator |
| C77 | derived Debug as trees, std's pretty printer | unique parse of the pretty text by induction (bracket depth of clean lines), then injectivity of the tree by mutual induction |
| C78 | `Spec/Write.lean`: a writer of typed values and the rules `Expressible`; nothing new of the code | expressible values are read by the rules of C68 from what the writer produces, which is printable (C17) and read back up to ownership (C69); conversely induction on the rules of C68 over nodes of parsed documents |
| C79 | `Model/Traits.lean`: for each trait the trees of its implementations, leaves with arbitrary methods | mutual induction on trees; sums are independent of order; short-circuiting `all` analysed with panics |
| C80 | DeTypes, De as for C58 | from the exact condition for structs (`c58_struct`): the entries of a body after insertion, last runs after appending a block; counterexample for a block inside a run |
| C81 | parse_str, Expression::parse, from_str | from the exact description of accepted texts (C15), with an inversion for the block form |
| C82 | parse_str, Expression::parse, from_str | from the exact description of accepted texts (C15, C71): replacing LF by CR LF, and deleting CRs, take texts of a tree to texts of a related tree, by induction over the description |
| C83 | config_file's and from_str's Err::Error as a position (Model/ErrorAt) | exactness of body (C15/C71) plus maximality of many0's stopping point |
| C84 | texts of a tree as a list (Spec/Slices); Slices relation to the input | induction over the layouts of C15/C71; lengths of escapes and stripped lines; induction over the reading rules of C68 |
| C85 | parse_str and Expression::parse as modelled; how values and elements may begin and end | through the grammar relation (C20) and its determinism: the text so far can be read in one way only, so what follows must be what that reading needs |
| C86 | the fuzzed closure, the loop over inputs, the decision of the build script | corollary of C04, C01 and the UTF-8 decoding of C18; induction on the sequence of inputs |
| C87 | every public nom parser (Model/Lex, Model/Parser) | equivalence with the declarative grammar; repetitions by induction with maximality (Spec/Pieces) |
| C88 | `deserialize` of C56/C68 (all deserializers and the visitors of serde's standard types and derived structs) | `Spec/Failure.lean` states the failures as rules without visitors or calls (mutual inductive `Fails`), with the order of block types left open; soundness by induction on the rules, completeness by induction on the size of type and node; every order of block types of every body is realised by some hash order (changed at one map at a time; inner bodies are smaller, so they are not affected) |
| C89 | the parser model of C01/C15 | places are trees with a hole (`Spec/Edit.lean`); from the layout characterisation of C15 (`LaidDocument`) the piece of the text at the hole is found by induction on the derivation, and the derivation is rebuilt with the other text; heredocs need the line end that followed the old piece to follow the new one |
| C90 | the deserializer model of C58/C59 on the trees of C89 | entries of a body under a name (`EntryOf`) are related for two bodies that differ at one place (`fill_rel`, `entry_same`), and the characterisations of maps and structs (`c58_struct`, `c59_map`, `c59_map_from_object`, `c58_struct_from_object`, `c49_into_vec`) are transferred; for any depth the reading rules of C68 are followed along the place (`Proofs/EditRead.lean`); with C89 the same for texts |
| C91 | the deserializer model with the target type `any` (a visitor that accepts everything and keeps it) | `PlainValue` (Spec/PlainData.lean) is shown equivalent to the reading rules of C68 at `any` by induction on the expression; equal plain values make expressions `Alike`, and C69 does the rest; writing back is C78 |
| C92 | nothing new is modelled | a document is a text laid out as in C15; complete lines in front of further text yield their elements first (induction on the laid-out body); the last element read from the cut text is also the first of the rest, since only a number literal depends on what follows it (`laidExpr_isExpr_ends`) |
| C93 | Spec/Rename: places of names with fill and Spells. Lenses on the layout relations (every accepted text is a laid-out one, C15/C71): induction over the place, with each constructor of the relation rebuilt around the new name; an identifier label must stay separated from what follows, which does not depend on the name. |
| C94 | `Spec/Tables` defines `SameOn` (tables that agree on the characters of a text) and `Extends` (more characters). The first part is a congruence through all parser combinators (`Proofs/Tables`: equal results on texts over agreeing characters, remainders are suffixes); the second goes through the layout grammars of C15 and C71, which are shown to be monotone in the tables (`Proofs/TablesMono`; the two negative conditions of the grammar concern ASCII characters only). The last part takes the union of the two tables. |
| C95 | Model/Incomplete transcribes the parsers that reach nom's eol with Incomplete as an outcome of its own and with alt!, alt_complete!, many0!, peek! as nom defines them; they are shown equal to the simpler model up to Incomplete being an error, and the texts with Incomplete are characterised. |
| C96 | `Ty.bytes` in Model/DeTypes.lean with serde_bytes' visitor; UTF-8 of a text by Lean's `String.utf8EncodeChar`, in the specification by RFC 3629 (Spec/Utf8.lean). Proved from C68 (reading rules) and C78 (written values). |
| C97 | Model/DeKeys transcribes serde's loop over next_entry with a seed for keys; Spec/Keys says what a name can be read as and which entry decides a failure. The map accesses are drained as in C46/C52, the loop with a key seed is reduced to a run over the drained entries, and the two runs (string keys, other keys) are compared by induction. |
| C98 | Model/DeAttrs transcribes the visitor that serde_derive generates (field identification, loop over next_key/next_value, defaults, visit_seq) and drives the map accesses of the code with it; Spec/Attrs says from which entries a struct is read. The accesses are drained as in C46/C52 (no name is yielded twice), the loop is reduced to a run over the drained entries, and the run is related to the entries that the body has (C59). Theorems c98_* in Props/DeAttrs. |
| C99 | Model/Work repeats the parsers with the number of their steps. Token and layout parsers are bounded one by one (layout is linear because an item that skips something makes steps in proportion to it; a heredoc is quadratic, as its end is tried at every position); the recursive parsers are related to the call-counting parsers of C72: all steps between two calls are polynomial and each call pays for them. Model/OldWork does the same for the legacy parser, against the calls counted in C73; in the other direction every call is shown to be a step, which gives the exponential lower bound. Theorems c99_* in Props/Work, Props/OldWork. |
| C100 | Spec/Brackets gives the reading as a step relation with a stack of closing brackets that are due, and the brackets of a tree. Induction over the grammars of C01 and C21 shows that every part reads from its beginning to its end with the stack unchanged; the step relation is shown deterministic (first characters, prefix-freeness of comments, uniqueness of strings and heredocs) and ending, so the two readings of an accepted text coincide and an unclosed text is in no grammar. Theorems c100_* in Props/Brackets. |
| C101 | derived Debug of trees over the builders of C77, extended with structs (Model/DebugTree) | the pretty text is parsed uniquely (C77, with structs), then injectivity by mutual induction; `Spec/TreeTerm.lean` says what a Rust term of a tree is |
| C102 | std's builders without `#` over the trees of C77 and C101 (Model/DebugLine) | `Spec/Line.lean` writes the terms directly; the text is equal to it by mutual induction; unique reading of the text by induction over trees with what may follow |
| C103 | std's PartialEq for Vec and HashMap over blocks and bodies (Model/BlocksEq) | `Spec/BlocksEq.lean` compares along label paths; induction over the structure using that hash maps have no key twice and no node is empty, which every history keeps; transitivity by composing the relation of C61 on bodies along paths |
| C104 | derived Debug of the error types (Model/DebugError), std's errors as parameters | `Spec/ErrorLine.lean` writes the terms; equality of texts by cases; injectivity from the unique reading of C77/C102 |
| C105 | parser and deserializer as for C92, C58, C59, C68 | `Spec/CutConfig.lean` says what may be left of a value; C92 gives the first elements, C68's rules read on the first blocks and on all blocks, by cases on the type |
| C106 | parser and deserializer as for C16, C58, C59 | `Spec/Files.lean`; the entries of the whole are those of the parts (last runs of block types), then C58 and C59 in both directions |
| C107 | merging as for C23–C31, the parser as for C21 | the relation `MergesMap` of `Spec/Value.lean` (C24): complete (induction on it), closed under replacing the values under a key by what they combine to, unique up to `EqMap` (`Proofs/MergeStages.lean`, `Proofs/MergeUnique.lean`); documents by C81 |
| C108 | parser as for C21 and C92, merging as for C23–C31 | `Spec/Grown.lean`; C92 gives the entries that are left, merging them is the first part of merging all (`addAll` on appended lists), and what a key carries only grows |
@MORE@
Every listed property is expressible in the model; none is marked not applicable.

## 6. Findings (behaviour proved that a user would not expect)
* `[,]` is accepted as an empty tuple by the grammar of tuples; a heredoc never succeeds as the whole input of `Expression::parse`.
* Indented heredocs with certain short lines panic (C04, C09).
* `-0` is rejected by unsigned conversions (C11); `==` on numbers is neither reflexive nor transitive (C12, C61); `Number::from(iN::MIN)` panics or
  yields an inconsistent number (C13); `Number::from(inf)` is an "integer" (C63).
* `is_merged`, `is_unmerged`, `len`, `len_scalar` panic on Null (C26, C27); merging drops blocks with repeated labels (C28);
  identifier and string keys with the same text coexist (C29); TakeFirst/TakeLast panic on every valid document (C33).
* `BlockBody::append` loses trailing labels (C38); `Blocks::new` overwrites non-adjacent runs (C39); `label_lens_uniform` only ever
  returns None or Some(0) (C41).
* Deserialization panics on an attribute and a block of the same name (C45), expression keys (C46), labelled blocks (C50); u64 literals
  above i64::MAX fail (C47); a body as `Option` or newtype fails (C48); a struct can be filled from a sequence by position with surplus elements
  dropped (C49).
* Object keys hash differently from the text they borrow as, so look-up by text finds nothing; equal numbers hash differently (C62).
* Legacy `from_str` backtracks exponentially on `a{a{a{…` (C73: 2^(n+1) − 1 calls on 2 n characters, because `attribute`'s second and third
  alternatives, parser.rs:113-124, run `map_expression` on the same text), while accepted texts and the HCL 2 parser are linear (C72, C73).
* No parser limits its recursion: `[` repeated n times recurses n + 1 levels (C74), so a long enough run of brackets exhausts the stack of the
  real program (stack overflow is outside the model, see section 3).
* Unmerging is not determined by `==`: equal merged values can unmerge to unequal ones (C70). Enums deserialize only as map keys; `&str` map keys
  never; several blocks of one type read as a tuple or struct by position take a prefix; a newtype around a body fails (C48, C56–C60, C64–C68).
* `take_till_match` on byte slices panics without a match (C55); the CLI prints errors to stdout (C53).
