{"id": "C01", "title": "parse_str accepts exactly the HCL body grammar and returns the tree the text denotes", "statement": "parser::parse_str(s) returns Ok(body) if and only if s is a document of the grammar (body elements separated by newlines/comments, expressions, blocks, one-line blocks, with the lexical longest-match rules), and body is then the unique tree that grammar assigns to s.", "quantifier": "every string s over Unicode scalar values (any length, any nesting depth) and every Body", "why_tests_cant": "Both directions range over infinitely many documents; tests only sample a few accepted and rejected ones.", "anchors": ["lib/src/parser.rs: parse_str, config_file", "lib/src/parser/body.rs: body, body_element", "lib/src/parser/expression.rs: expression", "lib/src/parser/block.rs: block, one_line_block", "lib/src/parser/object.rs: object", "lib/src/parser/tuple.rs: tuple"]}
{"id": "C02", "title": "A successful parse consumes the whole document", "statement": "When parse_str / the value parser succeed no input is left over: the internal `Bug` error for leftover input can never be returned, and appending unparseable text to a document is never silently ignored.", "quantifier": "every input string", "why_tests_cant": "Needs every possible stopping point of the repetition combinators.", "anchors": ["lib/src/parser.rs: parse_str, config_file, body", "lib/src/value.rs: MapValues::from_str", "lib/src/errors.rs: Error::Bug"]}
{"id": "C03", "title": "Parsing terminates on every input", "statement": "parse_str, Expression::parse and the value parser return (Ok, Err or panic) on every input: no repetition loops forever and recursion always descends on a strictly shorter remaining input.", "quantifier": "every input string", "why_tests_cant": "Non-termination can hide behind one unusual input; tests can only time out.", "anchors": ["lib/src/parser/whitespace.rs: whitespace, newline", "lib/src/parser/body.rs: body", "lib/src/parser/object.rs: object_body", "lib/src/parser/expression.rs: expression"]}
{"id": "C04", "title": "Parsing panics on exactly one kind of text", "statement": "parse_str and Expression::parse return Ok or Err on every text except those in which a position where a value is expected (reached through well-formed text) holds an indented heredoc with a bad line (fewer leading spaces than the terminator and: otherwise empty, or one more character, or exactly one space short, or continuing with a multi-byte character); on those they panic. In particular a text without `<<-` never panics. The value parser, with merge None or Error, likewise panics exactly when a position of the legacy document where a value is expected holds such a heredoc; with the other merge behaviours (not implemented) it also panics on every well-formed document. ('Never panics', which a user would expect, is false of this code: witness.)", "quantifier": "every input string", "why_tests_cant": "One crashing input among infinitely many.", "anchors": ["lib/src/parser/string.rs: unindent_heredoc, heredoc_string"]}
{"id": "C05", "title": "Quoted strings: unescaping inverts escaping", "statement": "For every text t, writing t between double quotes with backslash and double quote escaped parses as exactly the string t; and more generally each escape form (\\n, \\t, octal, \\x, \\u, \\U ...) denotes the documented character.", "quantifier": "every Unicode string t, every escape sequence", "why_tests_cant": "Infinite set of strings and code points.", "anchors": ["lib/src/parser/string.rs: unescape, quoted_string, string_literal, multiline_string_content"]}
{"id": "C06", "title": "An invalid escape rejects the whole document", "statement": "A backslash inside a quoted string followed by an unknown escape letter, or naming a code point that is not a Unicode scalar value, makes parsing fail rather than being dropped or kept verbatim, whatever precedes or follows it. This holds of parse_str and of value::from_str.", "quantifier": "every string prefix/suffix and every invalid escape", "why_tests_cant": "Any position in any document.", "anchors": ["lib/src/parser/string.rs: unescape, hex_to_unicode, octal_to_string, hex_to_string"]}
{"id": "C07", "title": "String literals used as labels and keys are single-line", "statement": "string_literal never accepts raw carriage return or line feed characters, whereas quoted string expressions accept them and keep them verbatim. In value::from_str, where every quoted string is a string literal, a line break between the quotes rejects the document.", "quantifier": "every input string", "why_tests_cant": "All positions of a newline inside all strings.", "anchors": ["lib/src/parser/string.rs: string_literal, legal_string_literal_single_line_character, quoted_string"]}
{"id": "C08", "title": "Heredocs return their content verbatim up to the first terminator line", "statement": "A non-indented heredoc <<ID ... ID evaluates to exactly the text between the opening line and the first following line consisting of optional blanks, ID and an end of line; no escape processing; earlier lookalikes that are not followed by an end of line are content.", "quantifier": "every marker, every content, every following text", "why_tests_cant": "First-match over arbitrary content.", "anchors": ["lib/src/parser/string.rs: heredoc_begin, heredoc_end, heredoc_string", "lib/src/utils.rs: take_till_match"]}
{"id": "C09", "title": "Indented heredocs strip the terminator's indentation from each line", "statement": "For <<-ID heredocs every content line loses the terminator's indentation, or all its leading spaces when it has fewer, provided no line is bad in the sense of C04; if some line is bad, parse_str panics whatever follows. (A user would expect stripping without exception.)", "quantifier": "every content and every indentation", "why_tests_cant": "Every combination of line lengths and indentation.", "anchors": ["lib/src/parser/string.rs: unindent_heredoc"]}
{"id": "C10", "title": "Number literals keep their exact source text and are classified by shape", "statement": "Parsing a number literal yields a Number whose string form is exactly the source text; it is a float iff a fraction or exponent is written, unsigned iff it is an integer without a minus sign; the literal is the longest prefix that is a number.", "quantifier": "every input string", "why_tests_cant": "All digit strings.", "anchors": ["lib/src/parser/number.rs: number, exponent, Number::is_signed, is_unsigned, is_float, Deref"]}
{"id": "C11", "title": "Integer conversions are exact or fail", "statement": "For every integer literal as_u8..as_u128 / as_i8..as_i128 return Ok(n) exactly when the literal's mathematical value n is in the range of the target type (never truncating or wrapping), and fail on every float literal. (As in Rust's own integer parsing, a literal with a minus sign, even -0, is rejected by the unsigned types.)", "quantifier": "every number literal and every integer width", "why_tests_cant": "Boundary behaviour on every width and arbitrarily long digit strings.", "anchors": ["lib/src/parser/number.rs: to_number macro"]}
{"id": "C12", "title": "Integers within 128 bits are equal exactly when they are the same number", "statement": "Two integer literals compare == iff they denote the same integer and it lies between i128::MIN and u128::MAX. Consequently == on Numbers is not reflexive: an integer literal beyond 128 bits is not equal to itself; and float comparison ignores the sign (1.5 == -1.5), for any float type whose absolute value ignores the sign. (A user would expect an equivalence relation; it is not one.)", "quantifier": "every pair of parsed numbers", "why_tests_cant": "All pairs of literals.", "anchors": ["lib/src/parser/number.rs: PartialEq for Number"]}
{"id": "C13", "title": "Number::from(integer) round-trips, except for the minimum of a signed type", "statement": "Number::from(n) for every value n of a built-in integer type other than a signed minimum has the decimal text of n, is unsigned iff n >= 0, is what the parser returns for that text, and the corresponding as_* returns n. Number::from(iN::MIN) panics when overflow checks are on, and otherwise gives a Number with the right text whose whole part wrongly contains the minus sign.", "quantifier": "every integer of every built-in width", "why_tests_cant": "2^128 values.", "anchors": ["lib/src/parser/number.rs: from_uint, from_int"]}
{"id": "C14", "title": "Identifiers are the longest identifier prefix", "statement": "The identifier parser succeeds iff the input begins with an ID_Start character or underscore, and it returns the maximal prefix of ID_Continue characters and dashes, unmodified; it never returns an empty or partial identifier.", "quantifier": "every input string and every Unicode identifier table with the ASCII laws", "why_tests_cant": "All strings.", "anchors": ["lib/src/parser/identifier.rs: identifier", "lib/src/utils.rs: while_predicate1"]}
{"id": "C15", "title": "Whitespace and comments never change the parsed tree", "statement": "The body that parse_str returns does not depend on the layout of its text: parse_str returns a given body for exactly the texts that write it with blanks, line ends, #, // and /* */ comments chosen freely in every place where they may stand (before, between and after elements; inside tuples, objects and parentheses; blanks and /* */ comments around the tokens of a line). The same holds for Expression::parse.", "quantifier": "every tree and every two texts that write it with different layout", "why_tests_cant": "All documents times all layouts.", "anchors": ["lib/src/parser/whitespace.rs: whitespace, inline_whitespace, newline"]}
{"id": "C16", "title": "Concatenating documents concatenates bodies in source order", "statement": "If parse_str(s) = Ok(a), s ends in a line end, and parse_str(t) = Ok(b) then parse_str(s ++ t) = Ok(a ++ b): elements appear in source order, none lost, none reordered or merged; conversely if s ++ t is read, then so is t. A line end may also be put between the two.", "quantifier": "every pair of documents", "why_tests_cant": "All pairs of documents.", "anchors": ["lib/src/parser/body.rs: body", "lib/src/parser.rs: parse_str"]}
{"id": "C17", "title": "Printing a body and parsing it back is the identity", "statement": "For every body built from valid identifiers and valid number literals, the text printed in canonical form is accepted by parse_str and yields the same body again (up to Cow ownership).", "quantifier": "every well-formed Body of any depth", "why_tests_cant": "All trees.", "anchors": ["lib/src/parser.rs: parse_str", "lib/src/parser/body.rs", "lib/src/parser/block.rs", "lib/src/parser/expression.rs"]}
{"id": "C18", "title": "parse_reader and parse_slice agree with parse_str", "statement": "parse_slice(bytes) succeeds iff the bytes are valid UTF-8 of a string s with parse_str(s) Ok and returns the same tree; parse_reader on a reader delivering those bytes returns the same tree (owned), and fails with an error, never a tree, on invalid UTF-8 or read errors.", "quantifier": "every byte sequence and every way a reader can chunk it", "why_tests_cant": "All byte strings and chunkings.", "anchors": ["lib/src/parser.rs: parse_reader, parse_slice"]}
{"id": "C19", "title": "as_owned preserves the tree", "statement": "as_owned on bodies, expressions, keys and values returns an equal tree in which every string is owned, and is idempotent.", "quantifier": "every tree", "why_tests_cant": "All trees.", "anchors": ["lib/src/lib.rs: AsOwned", "lib/src/parser/expression.rs: as_owned", "lib/src/parser/block.rs: as_owned", "lib/src/value.rs: as_owned"]}
{"id": "C20", "title": "Expression::parse accepts exactly single complete expressions", "statement": "Expression::parse(s) = Ok(e) iff s as a whole is an expression denoting e; if an expression is followed by anything else it returns UnexpectedRemainingInput with exactly the remaining text.", "quantifier": "every string", "why_tests_cant": "All strings.", "anchors": ["lib/src/parser/expression.rs: Expression::parse, expression"]}
{"id": "C21", "title": "The value parser accepts exactly the legacy grammar", "statement": "value::from_str(s, None) returns Ok(values) iff s is in the attribute-list grammar (key = value, key map, key labels map; list and map values, separators comma/newline) and the values are those the grammar assigns.", "quantifier": "every string", "why_tests_cant": "All strings.", "anchors": ["lib/src/parser.rs: list, single_value, map_expression, attribute, map_values, body", "lib/src/value.rs: from_str"]}
{"id": "C22", "title": "from_str without merging preserves every entry in source order", "statement": "With merge None the returned MapValues is Unmerged and lists every attribute of the document, duplicates included, in source order.", "quantifier": "every document", "why_tests_cant": "All documents.", "anchors": ["lib/src/value.rs: MapValues::from_str, new_unmerged", "lib/src/parser.rs: map_values"]}
{"id": "C23", "title": "Merging succeeds iff no key is illegally repeated", "statement": "merge() of an unmerged map succeeds exactly when, at every level, no key carrying a scalar, null or list occurs twice and no key mixes objects with blocks; otherwise it reports IllegalMultipleEntries / ErrorMergingKeys and never drops an entry silently for that reason.", "quantifier": "every value tree", "why_tests_cant": "All trees, arbitrary depth and duplicates.", "anchors": ["lib/src/value.rs: MapValues::new_merged, Mergeable for Value/MapValues/Block"]}
{"id": "C24", "title": "Merged maps contain every key with the combined contents", "statement": "After a successful merge the map has exactly the keys of the input; a scalar/list/null key maps to its only value; repeated object keys map to the list of all their (merged) objects in order; keys of blocks map to a merged block.", "quantifier": "every value tree", "why_tests_cant": "All trees.", "anchors": ["lib/src/value.rs: MapValues::new_merged"]}
{"id": "C25", "title": "Merging is idempotent", "statement": "Merging an already merged value, map or block returns it unchanged and never fails.", "quantifier": "every merged tree", "why_tests_cant": "All trees.", "anchors": ["lib/src/value.rs: Mergeable impls"]}
{"id": "C26", "title": "merge leaves nothing unmerged; is_merged / is_unmerged answer correctly or panic on Null", "statement": "After a successful merge() no nested map is unmerged (given that already merged parts are merged throughout), and is_merged() is then true if there is no Null in the tree. In general is_merged() is true exactly if the tree has no Null and nothing unmerged; an answer false is correct; it panics only if there is a Null, and always if there is one and nothing is unmerged. The same for is_unmerged. (A user would expect them to be total: they are not.)", "quantifier": "every tree", "why_tests_cant": "All trees.", "anchors": ["lib/src/value.rs: is_merged, is_unmerged, is_scalar"]}
{"id": "C27", "title": "len_scalar counts every leaf, and merging keeps it unless labels repeat", "statement": "len_scalar is the number of leaves of the tree, or panics, exactly if there is a Null. merge() keeps the multiset of leaves, hence len_scalar, if no two blocks of a type in one map have the same labels; in general it invents no leaf: the leaves of the result together with those of overwritten blocks are those of the input.", "quantifier": "every tree", "why_tests_cant": "All trees.", "anchors": ["lib/src/value.rs: ScalarLength impls", "lib/src/lib.rs: ScalarLength"]}
{"id": "C28", "title": "On merge the last of several blocks with the same type and labels silently replaces the others", "statement": "When blocks of one type are merged, the merged block has for every label path exactly the merged body of the last block with that path; earlier ones are lost without an error, for all types, labels and bodies. With distinct label paths nothing is lost (C27). (The documentation promises that multiple blocks are merged or rejected; that is false of this code.)", "quantifier": "every tree", "why_tests_cant": "All trees.", "anchors": ["lib/src/value.rs: Block::new_merged, MapValues::new_merged"]}
{"id": "C29", "title": "Merged map keys are unique as keys, and as texts per kind of key", "statement": "In a merged map no two entries have the same key (kind and text); if all keys of the input are of one kind, no two entries have the same text. An identifier key a and a string key \"a\" stay two separate entries of a merged map, so lookup by text is ambiguous then.", "quantifier": "every tree", "why_tests_cant": "All trees.", "anchors": ["lib/src/parser/literals/key.rs: Key", "lib/src/value.rs: MapValues::new_merged"]}
{"id": "C30", "title": "Merge results do not depend on the order of different keys", "statement": "Permuting entries with different keys in an unmerged map changes neither success nor the merged contents.", "quantifier": "every map and permutation", "why_tests_cant": "All permutations.", "anchors": ["lib/src/value.rs: MapValues::new_merged"]}
{"id": "C31", "title": "unmerge then merge restores a merged map", "statement": "For a merged map m, m.unmerge().merge() succeeds and equals m whenever m was produced by merge.", "quantifier": "every merged tree", "why_tests_cant": "All trees.", "anchors": ["lib/src/value.rs: Mergeable::unmerge, merge"]}
{"id": "C32", "title": "Integer values are exact; only out-of-range or fractional literals become floats", "statement": "In the value API a number literal becomes Integer(n) iff it is a plain integer literal whose value n fits i64, and Float otherwise; never a wrapped integer.", "quantifier": "every number literal", "why_tests_cant": "All digit strings.", "anchors": ["lib/src/parser/literals/number.rs: Number::from_str, number"]}
{"id": "C33", "title": "The merge behaviours TakeFirst and TakeLast panic on every valid document", "statement": "from_str with TakeFirst or TakeLast panics (unimplemented!) exactly when the document parses, and otherwise returns the parse error (or the parse panic). (A user would expect a value or an error.)", "quantifier": "every document", "why_tests_cant": "All documents.", "anchors": ["lib/src/value.rs: from_str, MergeBehaviour"]}
{"id": "C34", "title": "Map lookups, length and iteration agree", "statement": "For a KeyValuePairs (merged or unmerged) len equals the number of iterated pairs, keys/values are the projections of iter, get(k) returns exactly the values iterated under k (in order) and get_single(k) (and indexing, which panics on None) is the first of them; a lookup in a merged map yields One, in an unmerged map a non-empty Many.", "quantifier": "every map and key", "why_tests_cant": "All maps.", "anchors": ["lib/src/lib.rs: KeyValuePairs, OneOrMany"]}
{"id": "C35", "title": "Iterators yield exactly len items", "statement": "The iterators of OneOrMany and KeyValuePairs (pairs, keys and values, borrowing and consuming; List and Object are plain vectors) yield exactly as many items as len reports, size_hint is exact at every step, and after exhaustion they keep returning None.", "quantifier": "every collection and every number of steps", "why_tests_cant": "All collections and histories.", "anchors": ["lib/src/iter.rs"]}
{"id": "C36", "title": "Typed accessors succeed iff the variant matches", "statement": "integer()/float()/boolean()/string()/list()/object()/block() and their borrow variants return the payload exactly when the value has that variant and otherwise UnexpectedVariant naming the actual and expected variants.", "quantifier": "every value", "why_tests_cant": "All values and accessors.", "anchors": ["lib/src/value.rs: accessors"]}
{"id": "C37", "title": "Adding blocks one at a time never loses a block", "statement": "After any sequence of append/extend calls the number of stored blocks equals the number appended, and the multiset of bodies is preserved.", "quantifier": "every sequence of appends", "why_tests_cant": "All histories.", "anchors": ["lib/src/parser/block.rs: Blocks::append, BlockBody::append, extend, len_blocks, flat_iter"]}
{"id": "C38", "title": "Where a block can be looked up after append", "statement": "After append(block), get(type, labels) finds the block, with the bodies that were under these labels before and this one last, and every other lookup is unchanged - unless at some level with labels the next label of the block is new and further labels follow: then the further labels are lost, the full path finds nothing and the block is found under the path up to the new label. Nothing is lost for paths of at most one label or before the first labelled block. (A user would expect to find every appended block under its labels: counterexample.) Quantified over all histories in which a label text is not used both as a string and as an identifier at one place.", "quantifier": "every history of appends", "why_tests_cant": "All histories.", "anchors": ["lib/src/parser/block.rs: BlockBody::append, get"]}
{"id": "C39", "title": "Blocks::new keeps exactly the last adjacent run of each type", "statement": "Blocks::new(blocks) holds, for every type, exactly the blocks of the last uninterrupted run of blocks of that type; so it keeps all blocks if blocks of the same type are adjacent. (A user would expect all blocks to be kept: an interleaved block of another type makes it drop the earlier ones.)", "quantifier": "every list of blocks", "why_tests_cant": "All lists.", "anchors": ["lib/src/parser/block.rs: Blocks::new"]}
{"id": "C40", "title": "label_lens is the set of label path lengths", "statement": "label_lens() returns exactly the set of lengths of the label paths that flat_iter yields.", "quantifier": "every block body tree without degenerate empty maps", "why_tests_cant": "All trees.", "anchors": ["lib/src/parser/block.rs: BlockBody::label_lens, flat_iter"]}
{"id": "C41", "title": "What label_lens_uniform returns", "statement": "label_lens_uniform() is None exactly if some block's label path is a proper prefix of another's, and otherwise Some(0); so it agrees with label_lens() exactly if that is {0} or there is such a pair. (A user would expect Some(n) iff label_lens() = {n}; the nested level is never added: counterexamples.)", "quantifier": "every block body tree (made by appends in which a label text is not used both as a string and as an identifier at one place, where labels are looked up or compared by text)", "why_tests_cant": "All trees.", "anchors": ["lib/src/parser/block.rs: BlockBody::label_lens_uniform, is_label_lens_uniform"]}
{"id": "C42", "title": "flat_iter and len_blocks agree, whatever the hash order", "statement": "flat_iter yields exactly len_blocks items, each with its label path, and the multiset of items does not depend on the iteration order of the hash maps; get agrees with it.", "quantifier": "every tree and every iteration order (made by appends in which a label text is not used both as a string and as an identifier at one place, where labels are looked up or compared by text)", "why_tests_cant": "All trees and hash orders.", "anchors": ["lib/src/parser/block.rs: flat_iter, flat_into_iter, len_blocks, Blocks::flat_iter"]}
{"id": "C43", "title": "Labelled block maps are never empty", "statement": "Every BlockBody reachable through the API has a non-empty labels map in each Labels node (the documented logic invariant).", "quantifier": "every history of appends", "why_tests_cant": "All histories.", "anchors": ["lib/src/parser/block.rs: BlockBody::append, body_to_labels"]}
{"id": "C44", "title": "Deserializing a body reports every duplicate attribute", "statement": "The serde map access over a body yields each attribute exactly once in source order and returns BodyDuplicateKey on the first repeated attribute name; blocks are visited after attributes, once per type.", "quantifier": "every body", "why_tests_cant": "All bodies.", "anchors": ["lib/src/serde/de/body.rs: MapAccess"]}
{"id": "C45", "title": "An attribute and a block with the same name panic in deserialization", "statement": "Draining the serde map access of a body panics exactly if its attribute names are distinct and some block has the name of an attribute; all attributes are delivered before. (A user would expect an error.)", "quantifier": "every body", "why_tests_cant": "All bodies.", "anchors": ["lib/src/serde/de/body.rs: MapAccess"]}
{"id": "C46", "title": "Deserializing objects: duplicates and expression keys", "statement": "Object map access yields each entry once in order; a duplicate identifier key gives ObjectDuplicateKey; an expression key panics (unimplemented!).", "quantifier": "every object", "why_tests_cant": "All objects.", "anchors": ["lib/src/serde/de/object.rs: ObjectMapAccess", "lib/src/parser/object.rs: as_str"]}
{"id": "C47", "title": "Integers deserialize exactly or fail", "statement": "Deserializing an integer literal into iN/uN gives exactly its value or an error, never a wrapped value. (Literals above i64::MAX fail even for u64: the visit_u64 branch is dead.)", "quantifier": "every integer literal and target width", "why_tests_cant": "All literals.", "anchors": ["lib/src/serde/de.rs: deserialize_number", "lib/src/serde/de/expression.rs"]}
{"id": "C48", "title": "null deserializes to None and nothing else does", "statement": "deserialize_option on an expression visits none iff the expression is null, otherwise some with the same expression.", "quantifier": "every expression", "why_tests_cant": "All expressions.", "anchors": ["lib/src/serde/de/expression.rs: deserialize_option"]}
{"id": "C49", "title": "Tuples deserialize with the exact length", "statement": "Deserializing a tuple expression into a k-tuple succeeds only when it has exactly k elements, visits the elements in order, and gives an error otherwise.", "quantifier": "every tuple and k", "why_tests_cant": "All lengths.", "anchors": ["lib/src/serde/de/expression.rs: deserialize_tuple, deserialize_tuple_struct", "lib/src/serde/de.rs"]}
{"id": "C50", "title": "Block bodies deserialize by arity", "statement": "A block type with exactly one unlabelled body deserializes as a map, with several as a sequence of bodies in source order; labelled blocks panic (unimplemented!).", "quantifier": "every block body", "why_tests_cant": "All bodies.", "anchors": ["lib/src/serde/de/block.rs"]}
{"id": "C51", "title": "Borrowed strings only when the source text is the value", "statement": "visit_borrowed_str is called only with texts that are a contiguous piece of the document: exactly for the string expressions whose text is borrowed from it (heredocs kept as written); every other string, among them every quoted one, is given to visit_string, with the same text. A &str can be made from the former only, a String from both.", "quantifier": "every document", "why_tests_cant": "All documents.", "anchors": ["lib/src/serde/de.rs: deserialize_string", "lib/src/parser/string.rs: string"]}
{"id": "C52", "title": "Map access protocol", "statement": "For every sequence of next_key/next_value calls on the map access of an object or a body: next_value gives the value of the last key given, if that has not been asked for yet, and panics otherwise; next_key reports the end exactly when it has been called as often as there are entries, and keeps reporting it; size_hint is the exact number of entries not yet visited; no key is given twice; key and value seeds only see, and never influence, what is delivered. (When next_key itself fails or panics is C44-C46.)", "quantifier": "every sequence of calls", "why_tests_cant": "All call histories.", "anchors": ["lib/src/serde/de/object.rs", "lib/src/serde/de/body.rs"]}
{"id": "C53", "title": "The CLI never touches the output when parsing fails", "statement": "`parse` opens/truncates the output only after the input has been read and parsed (and merged) successfully: on any read, parse or merge error, or panic, no file and nothing printed changes. It succeeds exactly if the input parses, the output can be opened and everything is written; then the output is exactly the rendering of the parsed value and nothing else changed, also if input and output are the same file. After a failed write the output has a prefix of the rendering. The exit status is 0 exactly on success.", "quantifier": "every input, every pre-existing output, every failure point", "why_tests_cant": "All inputs and failure points.", "anchors": ["cli/src/main.rs: run_parse"]}
{"id": "C54", "title": "Error conversions preserve severity", "statement": "Converting a parser error to the public error gives a specific variant (invalid code point, unicode, number), carrying the input of the last chain entry, exactly for a Failure whose last entry has the corresponding custom code, and the generic parse error otherwise. Conversion to custom-coded errors keeps Incomplete/Error/Failure, the shape and order of the chain and every entry's input, and relabels each kind. Codes and kinds correspond one to one.", "quantifier": "every error value", "why_tests_cant": "All context chains.", "anchors": ["lib/src/errors.rs"]}
{"id": "C55", "title": "take_till_match finds the earliest match", "statement": "The search combinator returns the shortest prefix after which the sub-parser succeeds, with that result, and fails iff it succeeds nowhere before the end of input.", "quantifier": "every sub-parser and input", "why_tests_cant": "All parsers and inputs.", "anchors": ["lib/src/utils.rs: take_till_match"]}
{"id": "C56", "title": "Deserialization terminates", "statement": "Deserializing any parsed document, body, block, or expression into any of the modelled Rust types ends: it returns a value or an error, or panics, and satisfies its recursive equation. from_str reports exactly the parse error if the text does not parse, and otherwise the result of deserializing the parsed body.", "quantifier": "every target type, node and input text", "why_tests_cant": "All types and all nesting depths.", "anchors": ["lib/src/serde/de/body.rs: from_str, Deserializer", "lib/src/serde/de/mod.rs"]}
{"id": "C57", "title": "Plain documents never panic in deserialization", "statement": "If, at every depth, object keys are not expressions, blocks have no labels and no block shares its name with an attribute beside it, deserialization into any type returns a value or an error and never panics.", "quantifier": "every plain body and target type", "why_tests_cant": "All documents, all types.", "anchors": ["lib/src/serde/de/mod.rs", "lib/src/serde/de/body.rs", "lib/src/serde/de/object.rs"]}
{"id": "C58", "title": "Structs are filled by name", "statement": "Deserializing a body into a derived struct succeeds exactly if attribute names are distinct, no block has an attribute's name, each declared field's entry deserializes into the field's type (or the entry is missing and the field is an Option, giving None), and every undeclared entry can be skipped; the result has exactly those values, in declaration order. The same holds for an object whose keys are distinct identifiers, with the elements of the object as entries (an object with any other key is rejected).", "quantifier": "every struct type with distinct field names, every body", "why_tests_cant": "All struct types, all bodies.", "anchors": ["lib/src/serde/de/body.rs: MapAccess"]}
{"id": "C59", "title": "Maps get exactly the entries", "statement": "Deserializing a body into HashMap<String, T> gives a map whose keys are exactly the names of attributes and block types, each once, with the deserialized value; it succeeds exactly if names do not clash and every value is a T. From an object the entries are exactly the elements, in their order, and it succeeds exactly if all keys are distinct identifiers and every value is a T.", "quantifier": "every value type and body", "why_tests_cant": "All bodies and types.", "anchors": ["lib/src/serde/de/body.rs: MapAccess"]}
{"id": "C60", "title": "Deserialization does not depend on hash order", "statement": "Whether deserialization into a type succeeds, and the value it gives (up to the order of entries in a map), does not depend on the order in which the hash map of block types is iterated.", "quantifier": "every type, every node or text, every two iteration orders", "why_tests_cant": "Hash order is random per process; all orders and all documents.", "anchors": ["lib/src/serde/de/body.rs: build_map_acces_iter", "lib/src/parser/block.rs: Blocks"]}
{"id": "C61", "title": "Equality of parsed trees", "statement": "Two bodies (or expressions) are == exactly if they have the same structure in the same order, with the same names, label kinds and texts, key kinds and texts, strings and booleans, and with corresponding numbers == as numbers; ownership of texts is not seen. == is symmetric; a body equals itself exactly if every number in it equals itself; among bodies whose numbers are integer literals == is transitive (with floats it is not: 1 == 1.0 == -1).", "quantifier": "every two (three) bodies, of any depth and size", "why_tests_cant": "Relation laws over all pairs and triples of trees.", "anchors": ["lib/src/parser/expression.rs: Expression", "lib/src/parser/body.rs: Body, BodyElement", "lib/src/parser/block.rs: BlockLabel", "lib/src/parser/object.rs: ObjectElementIdentifier", "lib/src/parser/number.rs: PartialEq for Number"]}
{"id": "C62", "title": "Hashing agrees with equality and lookup by text", "statement": "Equal map keys, block labels and object keys hash equally; map keys and block labels hash like their text, so in a hash map filled in any way, with any hasher, looking up a string finds a value exactly if a key with that text was put in. Labels compare with strings by text; object keys compare equal to a string only when they are identifiers. (Not so: object keys do not hash like the text they borrow as, so a lookup by text finds nothing; equal numbers written differently, 1 and +1, hash differently.)", "quantifier": "every hasher, every sequence of insertions and updates, every key and text", "why_tests_cant": "All hashers and histories; hashers are randomly seeded.", "anchors": ["lib/src/parser/literals/key.rs: Hash for Key, Borrow<str>", "lib/src/parser/block.rs: Hash for BlockLabel, PartialEq<S>, Borrow<str>", "lib/src/parser/object.rs: ObjectElementIdentifier", "lib/src/parser/number.rs: Number"]}
{"id": "C63", "title": "Number::from(float)", "statement": "Number::from(x) for f32/f64 has the text x.to_string(); the parser reads that text back as the same number when x is finite; it is a float exactly if |x| is shown with a point, so integral floats become integers (converting to exactly the integer types that hold them). (Surprises: infinities, NaN and integral floats beyond 128 bits become integers that do not equal themselves.)", "quantifier": "every float of a type shown as std does", "why_tests_cant": "2^64 values.", "anchors": ["lib/src/parser/number.rs: from_float"]}
{"id": "C64", "title": "Changing blocks in place", "statement": "get_mut finds exactly the place get finds; writing there is seen by get at that place and under it, leaves every place not on the way to it unchanged, replaces exactly one stretch of flat_iter, and writing back the old value changes nothing. A program running through flat_iter_mut (iter_mut) gets exactly the items of flat_iter (iter) in that order, and afterwards flat_iter yields what it wrote under the same labels; get finds the same places. flat_into_iter yields the items of flat_iter by value.", "quantifier": "every collection of blocks, every place, every written value, every (stateful) program using a mutable iterator", "why_tests_cant": "All structures, all programs.", "anchors": ["lib/src/parser/block.rs: get_mut, flat_iter_mut, iter_mut, flat_into_iter, as_cow"]}
{"id": "C65", "title": "Trees built in code are the trees the parser returns", "statement": "An expression or body built with the public constructors and conversions (integers other than a signed minimum, finite floats, booleans, strings, (), tuples, objects and blocks with identifier names) is, up to ownership, what the parser returns for the text it is written as: the decimal text, to_string, true/false, null, the quoted string, [..], {..}. Building panics only for a signed minimum with overflow checks. unwrap_attribute/unwrap_block give back what an element was made from and panic exactly on the other kind. Values built from unmerged values are unmerged; keys made from a text have that text, string and identifier keys are always different.", "quantifier": "every tree built by any nesting of constructors", "why_tests_cant": "All trees.", "anchors": ["lib/src/parser/expression.rs: new_tuple, new_object, From impls", "lib/src/parser/body.rs: BodyElement", "lib/src/parser/block.rs: Block::new, new_one_line", "lib/src/value.rs: new_list, new_map, new_single_map, new_block, From impls", "lib/src/parser/literals/key.rs: Key"]}
{"id": "C66", "title": "The two parsers agree wherever both accept", "statement": "Whenever parser::parse_str and value::from_str (no merging) both accept a text, the syntax tree and the legacy entries describe the same data: same keys in the same order, same block types, labels and bodies, same lists, objects, strings, booleans and nulls, and equal numbers. The tree determines the legacy entries up to ownership of keys, so layout changes that keep the tree keep the legacy result; with merging, the result is the merge of entries that agree with the tree. Both accept the writing of every list of legacy entries whose document keys are identifiers and whose map literals contain no blocks.", "quantifier": "every text both parsers accept", "why_tests_cant": "Two independently written grammars are compared on all texts; tests compare them on a few fixtures.", "anchors": ["lib/src/parser.rs: parse_str", "lib/src/value.rs: from_str, body, map_values, single_value", "lib/src/parser/expression.rs: Expression::parse", "lib/src/parser/body.rs: Body"]}
{"id": "C67", "title": "Legacy values can be written and read back", "statement": "Legacy entries written in a fixed simple layout are read back by value::from_str as the same entries up to ownership of keys; everything value::from_str returns without merging can be written this way (so reformatting a document keeps its meaning), and entries with different meanings are written differently.", "quantifier": "every list of legacy entries made of representable values, every text accepted by value::from_str", "why_tests_cant": "Round trip over all nested values and strings, including every escape.", "anchors": ["lib/src/value.rs: from_str", "lib/src/parser.rs: map_values, single_value", "lib/src/parser/string.rs: string literals"]}
{"id": "C68", "title": "Deserialization into a type is exactly a set of reading rules", "statement": "For every target type made of serde's standard types and derived structs, deserialization of any expression, body, group of blocks or map key succeeds exactly if the reading rules give a value, and then gives that value up to the order of map entries: (), unit structs = null; bool = boolean literals; integer types = integer literals in range; f64 = float or integer literals; f32 = the same, a float literal being narrowed; String = string literals or keys; &str = strings borrowed from the document (heredocs kept as written, never quoted strings); char = one-character strings or keys; Option, Vec, tuples, structs, maps, newtypes as documented; enums only as map keys that name a variant without fields; a self-describing value (a type that asks for deserialize_any, as JSON values do) = whatever is there, as it is; a byte buffer (serde_bytes) = a tuple of integer literals from 0 to 255, or the UTF-8 of a string literal or key. from_str reads only structs, maps, IgnoredAny and self-describing values, and reports the parser's error unchanged for a text that does not parse.", "quantifier": "every target type, every node (expression, body, blocks, key), every text, every hash order", "why_tests_cant": "Target types and documents are unbounded recursive data; which combinations fail silently or succeed unexpectedly cannot be enumerated.", "anchors": ["lib/src/serde/de.rs: deserialize_string, deserialize_number, deserialize_tuple", "lib/src/serde/de/expression.rs: Deserializer for Expression", "lib/src/serde/de/body.rs: Deserializer for Body, MapAccess, from_str", "lib/src/serde/de/block.rs: Deserializer for BlockBody", "lib/src/serde/de/object.rs: ObjectMapAccess"]}
{"id": "C69", "title": "Deserialization does not depend on attribute order or on ownership", "statement": "For every target type, two documents that differ only in the order of attributes, the order of object elements, how attributes are mixed with blocks, how blocks of different types are mixed (as long as the last adjacent runs of each type are alike; what stands in blocks before these does not matter), the spelling of numbers (literals of the same kind with the same value, such as 1 and +01, or floats that the standard library reads alike), or (for types without &str) which strings are borrowed or owned and how they are written (quoted with any escapes, or as a heredoc), deserialize to the same value up to map order, or both fail. Being alike in this sense is an equivalence. So the text of a value in a document can be replaced by any other text of an alike value. In particular as_owned, parse_reader and reordering attributes never change the result; the order of blocks of one type does matter, and &str can never be read from an owned body.", "quantifier": "every target type, every pair of alike bodies, expressions and texts, every hash order", "why_tests_cant": "Permutations at every depth of unbounded trees and all target types cannot be enumerated.", "anchors": ["lib/src/serde/de/body.rs: MapAccess, from_str", "lib/src/serde/de/object.rs: ObjectMapAccess", "lib/src/parser/body.rs: as_owned", "lib/src/parser/mod.rs: parse_reader"]}
{"id": "C70", "title": "Equality of legacy values", "statement": "== on legacy values and maps says that both have the same contents (same kinds, same scalars, floats equal as f64, list elements and unmerged entries pairwise in order, entries of merged maps and block sets paired in any order). It is symmetric and transitive, and reflexive exactly when no float in the value is NaN; the iteration order of merged maps and the ownership of keys do not matter; a merged map never equals an unmerged one. Merging equal values fails for both or gives equal results; unmerge instead exposes the iteration order. Reading a document, writing the result and reading it again gives an equal map.", "quantifier": "every pair of values or maps, every document, every hash iteration order", "why_tests_cant": "All trees and all iteration orders; tests compare a few literals.", "anchors": ["lib/src/value.rs: Value (derive PartialEq), Mergeable::merge, unmerge, AsOwned", "lib/src/lib.rs: KeyValuePairs (derive PartialEq)", "lib/src/literals/key.rs: Key (derive PartialEq)"]}
{"id": "C71", "title": "Layout never matters in legacy documents", "statement": "The entries that from_str returns do not depend on the layout of the text: without merging, from_str returns given entries for exactly the texts that write them with blanks, line ends, #, // and /* */ comments chosen freely in every place where they may stand; two texts that write the same entries with different layout give the same result for every merge mode, errors included.", "quantifier": "every list of entries, every two texts that write it with different layout, every merge mode", "why_tests_cant": "All documents times all layouts.", "anchors": ["lib/src/value.rs: from_str, key_value, map_values, map_expression", "lib/src/parser/whitespace.rs: whitespace, inline_whitespace, newline"]}
{"id": "C72", "title": "The HCL 2 parsers do a linear number of recursive calls", "statement": "On every text of n characters, accepted or refused, parse_str and Expression::parse call their recursive parsers (body, expression) at most 2 n + 1 times: backtracking over alternatives never multiplies the work. On accepted texts the number of calls is at least the number of expressions and multi-line blocks in the result.", "quantifier": "every text, every Unicode table", "why_tests_cant": "Exponential backtracking shows only on particular families of texts; a test bounds the work on the texts tried.", "anchors": ["lib/src/parser/expression.rs:expression", "lib/src/parser/body.rs:body", "lib/src/parser/block.rs:one_line_block", "lib/src/parser/object.rs:object_element_identifier"]}
{"id": "C73", "title": "The legacy parser is linear on accepted texts and exponential on some refused ones", "statement": "from_str calls its recursive parsers at most 2 n + 1 times on a text of n characters it accepts; on `a{` repeated n times (2 n characters, refused) it makes exactly 2^(n+1) - 1 calls, so no linear bound holds in general. On accepted texts the number of calls is at least the number of values in the result.", "quantifier": "every accepted text, every n", "why_tests_cant": "The growth is a statement about all n; tests see finitely many sizes.", "anchors": ["lib/src/parser.rs:attribute", "lib/src/parser.rs:map_expression", "lib/src/parser.rs:map_values", "lib/src/value.rs:from_str"]}
{"id": "C74", "title": "Recursion depth is exactly the nesting of brackets", "statement": "expression, body and the legacy value parsers are the fixed points of their productions; the recursion is at most one level (two for the legacy parser) per opening bracket of the text plus a constant, and there is no other limit: for every n texts with n opening brackets reach the bound.", "quantifier": "every text, every n", "why_tests_cant": "Needs all texts; a stack overflow appears only beyond the nesting tried.", "anchors": ["lib/src/parser/expression.rs:expression", "lib/src/parser/body.rs:body", "lib/src/parser.rs:single_value", "lib/src/parser.rs:map_values"]}
{"id": "C75", "title": "Invalid escapes are reported as such, with the text that follows the backslash", "statement": "parse_str, Expression::parse and value::from_str return InvalidUnicodeCodePoint(t) exactly when some position where an expression, label or (for from_str) key or value is expected, reached through well-formed text, holds a quoted string that is well formed up to a backslash beginning no valid escape; t is everything after that backslash. All other rejections that do not panic are ParseError (or, for Expression::parse, the report of text left over behind an expression, and for from_str with merging the error of merging); in particular the error is never InvalidNumber, InvalidUnicode or Bug. The reported text is unique and never arises for accepted documents.", "quantifier": "every input text, every merge behaviour", "why_tests_cant": "The position can be anywhere in any nesting, and whether a recoverable alternative swallows the failure depends on the whole path to it.", "anchors": ["lib/src/parser/string.rs: unescape, hex_to_unicode", "lib/src/errors.rs: Error::from_err_str, from_context, from_input_and_code", "lib/src/parser/mod.rs: parse_str", "lib/src/value.rs: from_str"]}
{"id": "C76", "title": "Error messages identify the error", "statement": "Two errors of the library with the same Display message are the same error: the message tells the kind of error and everything it carries (key, variants, text, bytes, cause), and it quotes keys, texts and causes verbatim. The same holds of the errors of deserialization, except for custom messages of a type's Deserialize implementation, which are shown as they are and can look like any error, and of the line 'Error: ...' that the command line program prints. Converting an error into the wrapper the deserializers return and back keeps it. The wording is that of the templates in the source, filled in. The variant named in a message is the word with which values of this variant are printed by `{:?}`.", "quantifier": "for all pairs of errors with arbitrary keys, texts and causes (type and variant names being single words, which is proved of the errors of the value API)", "why_tests_cant": "a test compares the messages of a few errors; ambiguity can come from any key or text that looks like part of a message", "anchors": ["lib/src/errors.rs Error", "lib/src/serde/de.rs error::Error, Compat", "cli/src/error.rs Error", "cli/src/main.rs main", "lib/src/constants.rs"]}
{"id": "C77", "title": "What the command line program prints determines the parsed value", "statement": "Two legacy values have the same {:#?} text exactly if they are equal up to the ownership of their keys: kinds of scalars, merged or unmerged, the order in which entries are iterated, and every character of strings, keys and labels can be recovered from the text. So if two successful runs of the program, on any inputs and with any options, leave the same bytes in their output, then both inputs were parsed to the same value. Strings are printed as Rust string literals for them (printable characters other than quotes and backslashes as they are, everything that is not printable by escapes), and the whole text is the value as a Rust term: variants by their names, items in order, with commas and white space.", "quantifier": "all pairs of values of any depth and with any strings; all pairs of runs, systems, inputs and options (floats: any text form that tells floats apart)", "why_tests_cant": "ambiguity can come from any string that imitates the layout (quotes, brackets, newlines, indentation) at any depth; tests compare a few outputs", "anchors": ["cli/src/main.rs run_parse", "lib/src/value.rs Value (derive Debug)", "lib/src/lib.rs KeyValuePairs (derive Debug)", "lib/src/parser/literals/key.rs Key (derive Debug)"]}
{"id": "C78", "title": "The values a document can give; saving what was loaded", "statement": "For a document type (struct, HashMap<String, T>, IgnoredAny or a self-describing value) without &str, from_str gives exactly the values that can be written: integers in the range of their type and of i64, floats some number literal gives, any string and char, None, Some(v) except Some(()) and Some(None), sequences, tuples of the right length, maps whose keys are different identifiers, structs with all their fields, newtypes, and self-describing values made of these (whose floats have a float literal). Writing such a value in the obvious way (null, decimal integers, quoted strings, [..], {..}, one attribute per entry) and loading the text with from_str gives the value back, up to the order of map entries. So a configuration loaded from any document (with blocks, comments, heredocs, any order) and saved that way loads to the same value.", "quantifier": "every such type of any depth, every value, every document, every hash order, every float parser and float writer", "why_tests_cant": "Ranges over all types, all values and all documents.", "anchors": ["lib/src/serde/de/body.rs:from_str", "lib/src/serde/de/body.rs:deserialize_any", "lib/src/serde/de/expression.rs:deserialize_any", "lib/src/serde/de/block.rs"]}
{"id": "C79", "title": "The blanket trait implementations for containers of mergeable, measurable and ownable things", "statement": "For any nesting of the containers that lib.rs gives ScalarLength, Mergeable and AsOwned to, over leaf types with implementations of their own: len_scalar is the sum over all leaves, in any hash order, and panics exactly if a leaf does; is_empty_scalar iff all leaves are empty; is_merged (is_unmerged) iff every KeyValuePairs inside, at any depth, is merged (unmerged) and every leaf is, and they panic only if a leaf does; with the default is_unmerged both hold exactly of values without leaves and key-value pairs; as_owned keeps the structure, dropping references, provided different keys stay different, otherwise the last entry wins. Value's methods are these for the tree of its lists, maps and blocks. The default MergeBehaviour is to refuse duplicates.", "quantifier": "all nestings of &T, Vec, arrays, HashMap, pairs, OneOrMany, Option, KeyValuePairs; all leaf types and implementations, panicking ones included; all iteration orders", "why_tests_cant": "Generic code: infinitely many instantiations and values.", "anchors": ["lib/src/lib.rs:ScalarLength", "lib/src/lib.rs:Mergeable", "lib/src/lib.rs:AsOwned", "lib/src/lib.rs:MergeBehaviour", "lib/src/value.rs:len_scalar", "lib/src/value.rs:is_merged"]}
{"id": "C80", "title": "Documents and struct types can change over time", "statement": "A struct read from a document depends only on the entries with declared names: an attribute with an undeclared, unused name can be inserted or removed anywhere without changing the result, exactly if its value can be skipped; an undeclared block of a new type can be added at the end, exactly if it can be skipped (a labelled one panics, and one placed between two blocks of a declared type loses the earlier one); an Option field added to the type is None for every document without such an entry and leaves the other fields as they are; a field of another type must be present; a field can be removed from the type if its entry can be skipped.", "quantifier": "every struct type, every body, every place of insertion, every hash order", "why_tests_cant": "All types, documents and places of insertion.", "anchors": ["lib/src/serde/de/body.rs: MapAccess", "lib/src/parser/block.rs: Blocks::new", "lib/src/serde/de/block.rs: Deserializer for BlockBody"]}
{"id": "C81", "title": "Putting texts together", "statement": "A text put on lines of its own between the braces of a block (type, labels and opening brace written in any way) is read as that one block exactly if the text, with a line end, is a document for parse_str, and the body of the block is then that document's body. Documents put on lines of their own, one after the other, are read as their elements in sequence. A text that Expression::parse accepts can be put behind `name =`, into parentheses, between commas in `[ ]`, behind `key=` between commas in `{ }`, and is read as the same expression there; and whatever text stands behind the `=` of an attribute that is read can be read on its own in parentheses. For the legacy from_str (without merging): a text put on lines of its own between the braces of a block with or without labels, or of an object behind `key =`, is read as that one entry exactly if the text, with a line end, is a document, whose entries are then the content of that block or object, and documents put on lines of their own are read as their entries in sequence.", "quantifier": "all texts, of any size and nesting; all block headers with any layout; all lists of texts", "why_tests_cant": "Programs that generate HCL paste arbitrary texts together; that no text escapes from the place it is put into, or changes its meaning there, is a claim about all texts.", "anchors": ["lib/src/parser/body.rs: body, parse_str", "lib/src/parser/block.rs: block", "lib/src/parser/expression.rs: Expression::parse, expression", "lib/src/parser/tuple.rs: tuple", "lib/src/parser/object.rs: object", "lib/src/parser/attribute.rs: attribute", "lib/src/value.rs: from_str"]}
{"id": "C82", "title": "Windows line ends", "statement": "If a document without CRs is read by parse_str, then so is the document with every LF replaced by CR LF, as the same tree except that the line ends inside quoted strings, heredocs and expressions used as object keys are kept as CR LF; without such line ends the trees are equal. Conversely, if a document in which some or all line ends are CR LF is read, so is the document with LF line ends, provided it has no indented heredoc (`<<-`). So, without indented heredocs, a document is accepted with LF exactly if it is accepted with CR LF. The same holds for Expression::parse and for the legacy from_str (there, if no string has a line end in it, the results are equal with every merge setting).", "quantifier": "all documents, of any size and nesting; for the converse all mixtures of LF and CR LF", "why_tests_cant": "Files are checked out with either kind of line end; that nothing in any document depends on it is a claim about all documents.", "anchors": ["lib/src/parser/body.rs: parse_str", "lib/src/parser/whitespace.rs: whitespace, newline, comments", "lib/src/parser/string.rs: heredoc", "lib/src/parser/string.rs: string, string_literal", "lib/src/parser/expression.rs: Expression::parse", "lib/src/value.rs: from_str"]}
{"id": "C83", "title": "Where a parse error is reported", "statement": "A document in front, on lines of its own, never changes the outcome for the text behind it: a successful result gets the document's elements in front, and errors (with the text they carry) and panics stay the same. When parse_str fails with an ordinary parse error, config_file returns nom's Eof error, and the input it points at is the text right behind the longest beginning of the file that consists of complete elements and layout: that beginning is itself an accepted document, what is behind it is refused at its very start, and the place does not move when documents are put in front. The same, and the same about the place of the error, holds for the entries of the legacy from_str, unless the text behind the document begins with a comma (which would end the document's last entry).", "quantifier": "every text, every document in front of it, every merge setting", "why_tests_cant": "that the reported position is always the longest readable beginning is a maximality claim over all prefixes of all texts", "anchors": ["lib/src/parser.rs: config_file, parse_str", "lib/src/parser/body.rs: body", "lib/src/value.rs: from_str", "lib/src/errors.rs: from_err_str"]}
{"id": "C84", "title": "Texts of a tree are parts of the input, and trees are no larger than it", "statement": "The texts kept in a parsed tree (names, labels, keys, numbers, strings) come, in the order of the tree, from parts of the input that do not overlap. A borrowed text is such a part as it stands; an owned one (an unescaped or unindented string) is no longer than its part, in characters and in bytes. So all texts together are no longer than the document, and the tree has no more elements, labels, expressions and keys than the document has characters: nothing is amplified. Every &str in a deserialized value is a part of the document, and every String in it is a text of the parsed tree. The same holds for the texts of legacy values.", "quantifier": "every accepted text, every target type, every text inside the result", "why_tests_cant": "a bound on memory and an aliasing claim for all inputs; tests see finitely many trees", "anchors": ["lib/src/parser.rs: parse_str", "lib/src/parser/body.rs: Body", "lib/src/parser/string.rs: string", "lib/src/serde/de/body.rs: from_str", "lib/src/value.rs: from_str"]}
{"id": "C85", "title": "What is not supported is refused, never misread", "statement": "The parser supports literal values only, and whatever else HCL2 allows in their place is refused rather than read as something else. A value is one of the words null, true, false or begins with a digit, a sign, a dot, a quote, `<`, `[`, `{` or `(`: references, calls and conditionals are refused. Behind a value on its line stands nothing but layout, behind a value in a tuple a comma or `]`, in parentheses `)`, in an object a comma, a line end or `}`: operators, indexing, a second value are refused. A name in an object is followed by `=` (not `:`). At the top of a file stand only elements that begin with an identifier (no quoted names, no byte order mark, no braces), and a name is followed by `=`, `{`, a quote or an identifier. `${...}` within quotes is kept as text. The legacy from_str (with any merge setting) is as strict: a value is one of the words null, true, false or begins as above (but not with a parenthesis), behind a value on its line stands layout or a comma, in a list a comma or `]`; an entry begins with an identifier or a quoted key, a name is followed by `=`, a quoted label or `{`, a quoted key by `=`.", "quantifier": "every name, value, layout and continuation of the text", "why_tests_cant": "the unsupported syntax is an infinite set of texts; tests reject a few examples", "anchors": ["lib/src/parser/expression.rs: expression", "lib/src/parser/attribute.rs: attribute", "lib/src/parser/tuple.rs: tuple", "lib/src/parser/object.rs: object", "lib/src/parser/body.rs: body", "lib/src/parser/string.rs: string_literal"]}
{"id": "C86", "title": "What the fuzzing programs can find, and when the build goes on", "statement": "On any bytes, the closure run by both fuzzing programs returns unless the bytes are the UTF-8 form of a text on which parse_str panics (an indented heredoc with a line shorter than its indentation, or cut inside a character, where a value is read); it never hangs. Over any sequence of inputs the fuzzing loop processes all inputs before the first such one and ends there. The build script stops the build exactly if the compiler's version and date are both known and one of them is too old, and goes on silently exactly if both are known to be new enough.", "quantifier": "every byte string, every sequence of inputs of any length, every answer of the version check", "why_tests_cant": "fuzzers sample inputs: finding no crash says nothing about the inputs not tried", "anchors": ["fuzz-afl/src/main.rs: main", "fuzz-honggfuzz/src/main.rs: main", "lib/build.rs: main"]}
{"id": "C87", "title": "The public parsers of the pieces read exactly those pieces", "statement": "Every public nom parser of parser::{whitespace, identifier, boolean, null, number, string, tuple, object, expression, attribute, block, body}, called on any text, succeeds exactly when the text begins with the piece the grammar describes, with that value and the text after the piece left over: comments (from the delimiter to the first end; the value is the text between), runs of spaces, line ends, identifiers, constants, numbers, strings, heredocs (their opening and closing lines too), expressions, tuples, objects with their elements, keys and separators, parenthesised expressions, attributes, labels, one-line blocks, blocks over several lines, body elements. inline_whitespace and whitespace accept every text. line_comment reads only # comments: it refuses // although the documentation promises both. What body returns is a body and it stops only where no further element begins.", "quantifier": "every text, every rest, every value, all Unicode tables", "why_tests_cant": "each parser is an infinite relation between texts, values and rests; both directions of the equivalence, maximal munch and the absence of other successes cannot be enumerated", "anchors": ["lib/src/parser/whitespace.rs:37-93", "lib/src/parser/identifier.rs: identifier", "lib/src/parser/number.rs: number", "lib/src/parser/string.rs: string_literal, heredoc_begin, heredoc_end, heredoc_string, string", "lib/src/parser/tuple.rs: tuple", "lib/src/parser/object.rs: object, object_element, object_element_identifier, object_separator", "lib/src/parser/expression.rs: expression, bracket_expression", "lib/src/parser/attribute.rs: attribute", "lib/src/parser/block.rs: block_label, block_labels, one_line_block, block", "lib/src/parser/body.rs: body_element, body"]}
{"id": "C88", "title": "Which failure deserialization reports", "statement": "Deserializing any value into any type gives either the value that the type prescribes or one failure, and the failure is the first one met: the attributes of a body in source order (each read as the type of its field), then its block types; items of tuples and of repeated blocks in order. An out-of-range integer is a parse-int error and an unparsable float a parse-float error whatever type was asked for; a tuple of the wrong length is InvalidTupleLength with both lengths; a repeated attribute or object key is reported with its name, but only after everything before it could be read; a missing field is reported only when everything present can be read; labelled blocks and expression keys panic; anything else is serde's own error. The only freedom is the order in which a body's block types are visited: every order is possible, and apart from it the failure is determined. from_str reports the parser's error if parsing fails.", "quantifier": "all target types with distinct field names, all expressions, bodies, blocks and texts, all iteration orders of hash maps", "why_tests_cant": "The failure depends on the relative position of all problems in a value of any nesting; tests show a few values with one problem each and one iteration order.", "anchors": ["lib/src/serde/de.rs: deserialize_string, deserialize_number, deserialize_tuple", "lib/src/serde/de/expression.rs: Deserializer for Expression", "lib/src/serde/de/body.rs: Deserializer for Body, MapAccess, from_str", "lib/src/serde/de/block.rs: Deserializer for BlockBody", "lib/src/serde/de/object.rs: ObjectMapAccess"]}
{"id": "C89", "title": "Editing a document in place", "statement": "If parse_str accepts a text, then every value in the result, however deep in tuples, objects and blocks, has its own piece of the text, and replacing that piece by any text that Expression::parse accepts (or by a heredoc, if the piece is followed by a line end) gives a text that parse_str accepts, with the same result except for that one value. In the same way any run of neighbouring elements of a document, or of a block whose body is neither empty nor a single attribute (such blocks may be written on one line), has its own lines: replacing them by the lines of another document replaces just these elements, deleting them or putting # in front of each of them deletes just these elements, and the lines of another document can be inserted between any two elements. For the legacy from_str (without merging) the same holds for every value that is not itself an object or block (those may be written without `=`), at any depth in lists, objects and blocks, and for runs of entries of a document, object or block.", "quantifier": "all accepted texts, all places in the resulting tree, all replacement texts", "why_tests_cant": "Whether a replacement can disturb its surroundings depends on what stands before and behind it at any nesting depth and on any layout; tests edit a few documents.", "anchors": ["lib/src/parser/body.rs: body, parse_str", "lib/src/parser/block.rs: block", "lib/src/parser/attribute.rs: attribute", "lib/src/parser/expression.rs: Expression::parse, expression", "lib/src/parser/tuple.rs: tuple", "lib/src/parser/object.rs: object", "lib/src/value.rs: from_str", "lib/src/parser.rs: map_values, single_value"]}
{"id": "C90", "title": "Changing a value in a document changes the value read only there", "statement": "Let one value in a document, at any depth, be rewritten in place (as in C89). If the old and the new document can both be read with from_str as a map or as a struct, the two results have the same names, and the same values under all names but that of the attribute or of the outermost block in which the change was made; a change in an entry that the struct does not declare changes nothing. Whether the new document can be read depends only on that entry. For an attribute of the document, a field of an object and an item of a tuple the outcome is exact: the new document can be read if and only if the new value can be read as the type of this attribute, field or item, and then the result is the old one with just this value replaced. In general, for every type and a value at any depth: either the value is not looked at, and anything may be written there with the same result, or there are one type as which it is read and one place in the result where it is found, such that the new document can be read if and only if the new value can be read as that type, and the result is then the old one with just that place replaced (maps up to the order of their entries).", "quantifier": "all documents, all places of values in them, all new values, all target types, all iteration orders of the block map", "why_tests_cant": "That a change does not leak into another field has to be known for every place, every document around it and every target type; a test changes one value in one document.", "anchors": ["lib/src/serde/de.rs: from_str", "lib/src/serde/de/body.rs: Deserializer, build_map_acces_iter", "lib/src/serde/de/object.rs", "lib/src/serde/de/expression.rs", "lib/src/parser/body.rs: parse_str"]}
{"id": "C91", "title": "Reading into a self-describing value", "statement": "A type that asks for nothing in particular and keeps what it is given (deserialize_any, e.g. serde_json::Value) reads from an expression exactly what the expression is: a unit for null, the boolean, the string, the integer or the float, a sequence for a tuple, a map for an object. This works exactly if all numbers have a value and the keys of every object are different identifiers; anything that can be skipped with IgnoredAny can be read, and conversely. A body is a map, a single unlabelled block is its body, several blocks of a type are a list of bodies, blocks with labels panic. Two expressions with the same self-describing value (up to the order of map entries) are read alike as every type without &str, and can replace each other anywhere in a document; an expression rebuilt from the self-describing value is read like the original. For blocks this is false: `c {}` and `c = {}` give the same self-describing value, but only the block can be read as a list.", "quantifier": "all expressions, bodies and blocks, all places in documents, all target types without &str, all iteration orders of the block map", "why_tests_cant": "That nothing is lost on the way through a self-describing value has to hold for every value and every type it may be read as later.", "anchors": ["lib/src/serde/de/expression.rs: deserialize_any", "lib/src/serde/de/body.rs: deserialize_any", "lib/src/serde/de/object.rs", "lib/src/parser/number.rs"]}
{"id": "C92", "title": "Documents that were cut off", "statement": "If a document that parse_str accepts was cut off (a crash while writing, a stream that ends early) and what is left is still accepted, then what is read are the first elements of the document, unchanged and complete; the only exception is that the last element read may be a top-level attribute whose number was cut within its literal. So no element is ever read from a part of a string, heredoc, tuple, object or block. If the rest does not begin with a digit, '.', 'e' or 'E', or what is left ends in a line end or any other character that numbers do not contain, there is no exception. A document whose last element is not an attribute with a number is either read completely, or fewer elements are read. The same holds for parse_slice with the bytes cut anywhere, for parse_reader with streams that end too early, and (without merging) for the entries of the legacy from_str.", "quantifier": "all accepted documents, all places at which they are cut", "why_tests_cant": "Every document has as many cuts as characters, and whether a cut text happens to be a document of its own depends on every construct of the language at any depth.", "anchors": ["lib/src/parser.rs: parse_str, parse_slice, parse_reader", "lib/src/parser/body.rs: body", "lib/src/parser/number.rs: number", "lib/src/parser/whitespace.rs: whitespace, inline_whitespace, newline", "lib/src/parser/string.rs", "lib/src/value.rs: from_str, map_values"]}
{"id": "C93", "title": "Renaming in place", "statement": "In a text that is accepted, every name - of an attribute, of a block type, an identifier or string label of a block, a key of an object, at any depth in blocks, tuples, objects and parentheses - stands in its own piece of the text, written as the name itself (string labels: as a quoted string saying it). Replacing that piece by the spelling of any other name of the same kind, and nothing else, gives a text that is accepted with the same result except for that one name. The same holds for identifier keys, string keys and labels of the legacy parser (unmerged), and for bytes. Every string has a quoted spelling, and a quoted spelling says only one string.", "quantifier": "all texts accepted by parse_str / parse_slice / Expression::parse / legacy from_str without merging, all places of names in them, all other names and all their spellings", "why_tests_cant": "A test can rename a few names in a few documents; the claim is for every place at every depth, every surrounding text (comments, layout, heredocs) and every new name, including keywords and names that are prefixes of others.", "anchors": ["lib/src/parser/attribute.rs: attribute", "lib/src/parser/block.rs: block, block_labels, one_line_block", "lib/src/parser/body.rs: body", "lib/src/parser/object.rs: object", "lib/src/parser/identifier.rs: identifier", "lib/src/parser/string.rs: string_literal", "lib/src/value.rs: from_str", "lib/src/parser.rs: map_values, parse_slice"]}
{"id": "C94", "title": "Which version of Unicode is used changes no document that can be read", "statement": "What may stand in a name or a heredoc marker depends on Unicode tables that grow with every version of Unicode. Every entry point (`parse_str`, `parse_slice`, `parse_reader`, `Expression::parse`, the legacy `from_str`, `from_slice`, `from_reader` with every `MergeBehaviour`, deserialization from text) looks up only characters of its input: two versions of the tables that agree on those characters give the same outcome, whether it is a value, an error or a panic; in particular a text of ASCII characters is read in the same way with every version. A text that is read with one version is read with every later version (tables with more characters), to the same tree, the same map and merge outcome, and the same deserialized value. Two versions, however different, never read the same text to different trees.", "quantifier": "all texts, byte strings and readers; all pairs of Unicode tables whose ASCII part is the standard one; all merge settings; all types", "why_tests_cant": "tests run with the one set of tables they are compiled with; the claim is about all pairs of tables and all texts, including ones with characters not yet assigned", "anchors": ["lib/src/parser/identifier.rs: identifier", "lib/src/parser/string.rs: heredoc_begin", "lib/src/parser.rs: parse_str", "lib/src/parser/expression.rs: Expression::parse", "lib/src/value.rs: from_str, from_slice, from_reader", "lib/src/serde/de/body.rs: from_str"]}
{"id": "C95", "title": "When the parsers ask for more input", "statement": "nom's line-end parser answers Err::Incomplete where the text ends before the line does, and alt!, opt! and many0! pass Incomplete on where they would recover from an error. hash_comment, slash_comment, heredoc_begin, heredoc_end, heredoc_string and string return Incomplete exactly when the text ends (or ends between \\r and \\n) on a comment's line, on the opening line of a heredoc after its marker, or on the closing line (for heredoc_string and string only if the heredoc is empty; with content it is an error); otherwise they return what every other property says. whitespace, newline, line_comment, expression and the legacy single_value never return Incomplete, so parse_str and value::from_str never do. On a text that ends with a line feed no parser does.", "quantifier": "every text, all Unicode tables, every nested parser", "why_tests_cant": "the set of texts on which more input is asked for is infinite, and its absence from all other parsers is a statement about every text", "anchors": ["lib/src/parser/whitespace.rs:42-93 hash_comment, slash_comment, line_comment, whitespace, newline", "lib/src/parser/string.rs:170-231 heredoc_begin, heredoc_end, heredoc_string, string", "lib/src/parser/expression.rs:187-212 expression (alt_complete!)", "lib/src/parser.rs:79-89 single_value (alt_complete!)"]}
{"id": "C96", "title": "Byte buffers", "statement": "serde_bytes::ByteBuf is read from an expression in exactly two ways: from a tuple whose items are all integer literals from 0 to 255 (the buffer has their values, in order; the outcome, errors included, is that of Vec<u8>), or from a string, which never fails and gives the UTF-8 encoding of its value (a map key likewise). Every other expression, and every tuple with another item, is an error, never a panic, and no byte is ever out of range. Different strings give different buffers. Every sequence of bytes, UTF-8 or not, is the value of a field of some document; strings give exactly the valid UTF-8 ones.", "quantifier": "every expression, string, sequence of bytes, iteration order, Unicode tables", "why_tests_cant": "the repository tests one tuple and two errors; which of all expressions and byte sequences are possible is a statement about every one of them", "anchors": ["lib/src/serde/de/expression.rs:176-205 (tests deserialize_bytes\u2026), forward_to_deserialize_any! bytes byte_buf", "lib/src/serde/de.rs deserialize_string, deserialize_number", "lib/src/serde/de/body.rs from_str"]}
{"id": "C97", "title": "Maps with keys that are not strings", "statement": "Deserializing an object, a body, a block or a whole document into a HashMap<K, T> or BTreeMap<K, T> with any key type K succeeds exactly if it succeeds for HashMap<String, T> and every name can be read as a K; the pairs are then the same entries in the same order, with the names as keys. A name can be read as a String, as a char if it is one character, as an enum if it is a variant without fields, as a byte buffer (its UTF-8 bytes), as a self-describing value, or be ignored; it can never be read as a number, bool, &str, Option, newtype, tuple, sequence, struct or unit, so maps with such keys are read from empty maps only. Each key is read before its value, and the first key or value that cannot be read, or the end of the visit (a repeated name, an expression key), decides which failure is reported. No two pairs have the same key, so inserting them overwrites nothing. Reading always ends, and a text that is no document is the parser's error.", "quantifier": "every key type, value type, node (expression, body, block, key), text and hash order", "why_tests_cant": "Key types, value types and documents are unbounded, and the order in which failures are noticed depends on all earlier entries; the tests of the repository use string keys only.", "anchors": ["lib/src/serde/de/object.rs: MapAccess::next_key_seed, next_value_seed", "lib/src/serde/de/body.rs: MapAccess::next_key_seed, next_value_seed, from_str", "lib/src/serde/de/expression.rs: deserialize_any", "lib/src/serde/de/block.rs: deserialize_any"]}
{"id": "C98", "title": "Structs with serde attributes", "statement": "For a struct derived with #[serde(default)], #[serde(rename)], #[serde(alias)] on fields and #[serde(deny_unknown_fields)] on itself: a body is read successfully exactly if attribute names are distinct, no block has the name of an attribute, no field is given under two of its names, every field has an entry under one of its names that its type can be read from, or has a default, or is an Option, and every undeclared entry can be skipped and undeclared entries are not denied; the result has the fields in order with these values. The same holds for objects whose keys are distinct identifiers; a tuple is read by position, where missing items need a default; other expressions are errors. Which of its names a field is given under makes no difference, nor does the order of attributes or of hash maps; adding a field that documents do not have yet gives its default and leaves the rest unchanged. The first thing wrong (an undeclared name, a second name of a field, a value that cannot be read) is what is reported, and values behind it are not read. Without attributes, everything including failures is as for plain derived structs. Reading always ends.", "quantifier": "every struct (any fields with any names, aliases, defaults and field types, given as functions), every body, object, tuple, block and text, every hash order", "why_tests_cant": "Structs, their attributes and documents are unbounded, and so are the ways in which names of fields and names in documents can meet; no test of the repository uses an attribute.", "anchors": ["lib/src/serde/de/body.rs: MapAccess::next_key_seed, next_value_seed, from_str", "lib/src/serde/de/object.rs: MapAccess::next_key_seed, next_value_seed", "lib/src/serde/de/expression.rs: deserialize_any", "lib/src/serde/de/block.rs: deserialize_any"]}
{"id": "C99", "title": "Parsing takes polynomially many steps, except for refused legacy documents", "statement": "Parsing a text of n characters with parse_str makes at most 9000 (n + 1)^4 steps, and Expression::parse at most 9000 (n + 1)^3, whether the text is accepted or not, where a step is one token parser that is tried or one character that is looked at or copied, also on paths that are given up. The steps are at most quadratic (cubic in bodies) for each call of a recursive parser. The legacy from_str makes at most 9000 (n + 1)^4 steps on a text that it accepts, whatever the merge behaviour, and at most cubic work for each call of its recursive parsers; but some texts of 2n characters are refused only after 2^(n + 1) steps. Conversely no text is accepted in fewer steps than it has characters, and every call is a step.", "quantifier": "every text and every table of character classes", "why_tests_cant": "A test measures finitely many texts; whether some nesting, comment, heredoc or unfinished construct makes the parsers scan the same text again and again depends on all of them.", "anchors": ["lib/src/parser.rs: parse_str", "lib/src/parser/expression.rs: Expression::parse, expression", "lib/src/parser/body.rs: body", "lib/src/parser/whitespace.rs: whitespace, inline_whitespace, newline", "lib/src/parser/string.rs: string, heredoc_string", "lib/src/utils.rs: take_till_match", "lib/src/value.rs: from_str", "lib/src/parser.rs: single_value, map_values", "lib/src/parser/literals/number.rs: number"]}
{"id": "C100", "title": "Brackets are closed in whatever is accepted", "statement": "Read a text the way an editor looks for brackets: from the left, taking strings, heredocs and comments in one piece, a closing bracket always being the one due. Every text can be read in at most one way and either all brackets get closed or not. In a document that parse_str accepts, in a text that Expression::parse accepts and in a legacy document that Value's from_str accepts (with or without merging), all are closed. The opening brackets that are seen are those of the tree in order (one '[' per tuple, one '{' per object or block), besides round brackets and those inside keys that are expressions, and exactly those for legacy documents. So a text with a missing, surplus or wrong closing bracket, an unterminated string or an unterminated comment is never accepted, wherever that is.", "quantifier": "every text, every table of character classes, every merge behaviour", "why_tests_cant": "Documents nest without bound and brackets may occur in strings, heredocs and comments; tests see finitely many of the places where a bracket can be missing.", "anchors": ["lib/src/parser.rs: parse_str", "lib/src/parser/expression.rs: Expression::parse, tuple, object", "lib/src/parser/body.rs: body", "lib/src/parser/string.rs: quoted_string, heredoc_string", "lib/src/parser/whitespace.rs: whitespace, newline", "lib/src/value.rs: from_str"]}
{"id": "C101", "title": "The Debug text of a parsed tree determines the tree", "statement": "Two parsed bodies (and likewise expressions, numbers and indexed blocks) have the same {:#?} text exactly if they are the same up to the ownership of their strings, that is, exactly if their as_owned copies are identical: attributes or blocks, kinds of labels and keys, the sign, digits and spelling of numbers, nesting, order and every character of every string can be recovered from the text. The text is the tree as a Rust term: variants by their names, structs with their fields in order, strings as string literals. So bodies with the same text compare alike with ==, and documents whose trees have the same text deserialize alike (into types without borrowed strings); the converse fails, as 1 == +1.", "quantifier": "all pairs of bodies, expressions, numbers and indexed blocks of any depth and with any strings; all pairs of documents", "why_tests_cant": "ambiguity can come from any string that imitates the layout (quotes, brackets, newlines, indentation) at any depth; tests compare a few outputs", "anchors": ["lib/src/parser/number.rs Number, Exponent (derive Debug)", "lib/src/parser/object.rs ObjectElementIdentifier (derive Debug)", "lib/src/parser/expression.rs Expression (derive Debug)", "lib/src/parser/block.rs Block, BlockLabel, Blocks, BlockBody (derive Debug)", "lib/src/parser/body.rs BodyElement (derive Debug)"]}
{"id": "C102", "title": "The one-line Debug text is the tree as a Rust term", "statement": "The {:?} text (what unwrap, expect and assert_eq! show) of a parsed body, expression, number, indexed blocks, legacy value or legacy map is exactly the tree written as a Rust term on one line: variants by their names, Vecs as [a, b], hash maps as {k: v} in iteration order, tuples as (a, b), structs as Name { field: x, other: y } with the fields in order of declaration, strings as string literals for them, integers as literals. It contains no line break whatever the strings contain, two trees have the same {:?} text exactly if they have the same {:#?} text, that is, exactly if they are the same up to the ownership of strings (for legacy maps: without NaN, up to the ownership of keys), and an owned copy has the same text.", "quantifier": "all bodies, expressions, numbers, indexed blocks, legacy values and maps of any depth, with any strings and any iteration order", "why_tests_cant": "ambiguity or a broken line can come from any string, at any depth, that imitates separators, brackets or quotes; tests compare a few outputs", "anchors": ["lib/src/parser/number.rs Number, Exponent (derive Debug)", "lib/src/parser/expression.rs Expression (derive Debug)", "lib/src/parser/block.rs Block, BlockLabel, Blocks, BlockBody (derive Debug)", "lib/src/parser/body.rs BodyElement (derive Debug)", "lib/src/value.rs Value (derive Debug)", "lib/src/lib.rs KeyValuePairs (derive Debug)", "lib/src/parser/literals/key.rs Key (derive Debug)"]}
{"id": "C103", "title": "== on indexed blocks", "statement": "Two sets of blocks indexed by type (made by Blocks::new, appends, extends in any mixture) are == exactly if they have the same types and, for each type and each path of labels (a string label and an identifier being different), the same number of bodies that are equal one by one in order; likewise for the blocks of one type, and single blocks are == exactly if they have the same type, the same kinds and texts of labels in order and equal bodies. The iteration order of hash maps does not matter on either side. A set of blocks equals itself exactly if every number in it does; == is symmetric if comparing floats is, and transitive if all numbers are integer literals (not in general: 1, 1.0 and -1). Blocks put in by appends are equal if for each type the same blocks were put in in the same order, however blocks of different types were interleaved. Equal sets have as many blocks, and iterating over them gives, up to order, equal bodies under the same types and label texts; lookups succeed for the same labels and find equal places (unless a text is both that of a string label and of an identifier label). Blocks::new, append and extend applied to equal arguments give equal results, and so equal documents are equal when indexed.", "quantifier": "all indexed blocks with any history of operations, any depth of labels, any hash order, any bodies, any comparison of floats", "why_tests_cant": "The structures are recursive and unbounded, and the iteration order that the comparison follows is chosen by the hash function; tests see single runs of few structures.", "anchors": ["lib/src/parser/block.rs: Block, Blocks, BlockBody (derive PartialEq)", "lib/src/parser/block.rs: Blocks::new, append, extend, get, flat_iter, len_blocks", "lib/src/parser/block.rs: BlockLabel (derive PartialEq, Hash)"]}
{"id": "C104", "title": "{:?} text of errors", "statement": "What unwrap or expect show of an error: the {:?} text of an error of the library, of a deserialization error and of an error of the command line program is that error as a Rust term on one line, with the name of its variant and all its fields under their names, nested errors included. Provided that std's own errors show themselves as terms that tell different messages apart, two errors with the same {:?} text or the same {:#?} text are the same error (also where their Display texts are the same, as a custom message worded like another error), and the {:?} text contains no line break.", "quantifier": "all errors with any texts, numbers and bytes in them; any way in which std's errors show themselves", "why_tests_cant": "The texts in errors are unbounded and may contain quotes, brackets and line breaks; that no two errors collide ranges over pairs of errors.", "anchors": ["lib/src/errors.rs: Error (derive Debug)", "lib/src/serde/de.rs: Error (derive Debug)", "cli/src/error.rs: Error (derive Debug)"]}
{"id": "C105", "title": "Configurations that were cut off", "statement": "If a file that from_str reads as a struct was cut off (a crash while writing, a stream that ends early) and what is left is still read as that struct, then every field has the value it has in the whole file, or is an Option that is now None, or is the list of the first ones of the blocks; the only exception is one field whose number was cut within its literal. This is for files in which blocks of a type stand next to each other (otherwise other blocks may be read) and for fields that do not change their meaning with the number of blocks (structs and self-describing values do, unless there is just one block). For structs of leaves the layout of blocks does not matter; if none of their fields is an Option, then what is left is read to the same struct or not at all (if not cut within a number). A last element of a name of its own (not a number) that a required field asks for is an end marker: whatever is left and can be read is the complete document. Maps have no entries that the whole file does not have, with the same values in the same sense.", "quantifier": "all documents, all places where they are cut, all struct and map types, all hash orders", "why_tests_cant": "Every document can be cut at every place; what is lost silently ranges over all pairs of a document and a prefix, and all types.", "anchors": ["lib/src/serde/de.rs: from_str", "lib/src/parser/mod.rs: parse_str", "lib/src/serde/de.rs: BodyMapAccess, BlockBody deserializer"]}
{"id": "C106", "title": "Configurations in several files", "statement": "Two documents put one after the other (with a line end between them) whose names of attributes and types of blocks are different are read as the struct with the fields of two structs exactly if the first is read as the one and the second as the other (no field asking for a name of the other document), and then the fields are theirs; as a map, exactly if both are, and then the entries are those of both. An attribute that is in both, or has the name of a block in the other, makes the whole unreadable as any type. Blocks of one type in both: if the last block of the first document is of another type, then those of the first document are lost without notice and the field is read from those of the second; if all blocks of a type stand next to each other in the whole, a list has those of the first and then those of the second.", "quantifier": "all pairs of documents, all structs and maps, all hash orders", "why_tests_cant": "Ranges over pairs of documents and of struct types; when blocks are lost depends on what stands between them.", "anchors": ["lib/src/serde/de.rs: from_str, BodyMapAccess", "lib/src/parser/body.rs: body", "lib/src/parser/block.rs: Blocks::new"]}
{"id": "C107", "title": "Legacy configurations in several files", "statement": "Merging can be done in stages. If several maps are each merged on their own (each listed in whatever order its hash map iterates), putting the entries of the results together and merging again succeeds exactly if merging all the original entries at once succeeds; what it gives is a merged form of all the entries, and can be a part in a further stage; an error it reports describes two of the original entries that clash (the first entry with the key, and the kind of the other). Two merged forms of one map are equal for ==, if it has no NaN, so both ways give equal maps. For documents: several documents read with merging can be merged exactly if the text that has them on lines of their own, one after the other, is read with merging, and the maps are then equal. And a merged form, as C24 describes it, exists exactly if merge succeeds.", "quantifier": "all numbers of maps and documents, all their entries, keys, blocks and labels, all iteration orders of the hash maps", "why_tests_cant": "It is a statement about every way of cutting a configuration into parts, with every combination of keys and labels shared between them, and every hash order.", "anchors": ["lib/src/value.rs: MapValues::new_merged, MapValues::merge, MapValues::unmerge, Block::new_merged, Value::merge, from_str"]}
{"id": "C108", "title": "Merged legacy configurations that were cut off", "statement": "If a document that from_str reads with merging was cut off (a crash while writing, a stream that ends early) and what is left can be read at all, then it can be read with merging, and every key of the merged map is a key of the map of the whole document with the same kind of value: the same value, or for objects a list that goes on, or for blocks a set that has all the label paths, each with the same body unless the whole document has a later block with these labels. Numbers, strings, booleans, nulls and lists are the same. The only exception is one key, whose number was cut within its literal; there is none if the rest does not begin with a digit, '.', 'e' or 'E', or what is left ends in a character that numbers do not contain. The same holds for from_slice with the bytes cut anywhere, and for from_reader with streams that end too early.", "quantifier": "all documents, all places where they are cut, all keys and labels", "why_tests_cant": "Every prefix of every document would have to be tried.", "anchors": ["lib/src/value.rs: from_str, MapValues::new_merged, Block::new_merged", "lib/src/parser.rs: body"]}
