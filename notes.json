{
 "C04": {
  "note": "'Never panics' is false of this code; proved instead: the exact set of panicking texts for parse_str, Expression::parse and the legacy from_str (c04_*_exactly*), each with a witness."
 },
 "C09": {
  "note": "'Strips the indentation without exception' is false: c09_indented_heredoc_aborts. Proved: stripping when no line is bad, abort otherwise."
 },
 "C11": {
  "note": "std's from_str_radix is modelled digit by digit (checked multiply/add)."
 },
 "C12": {
  "note": "Equivalence relation is false of the code; the exact behaviour on integer literals and counterexamples are proved. f64 operations are a parameter (FloatOps)."
 },
 "C13": {
  "note": "Signed minima excluded; their behaviour with and without overflow checks is proved for every signed type."
 },
 "C15": {
  "note": "Proved in full: Spec/Laid.lean describes the texts of a tree with freely chosen layout, without maximal munch; parse_str accepts exactly these (c15_every_layout_is_read). Blanks inside quoted strings and heredocs, and in an object key that is an expression (kept as its text), are content, not layout."
 },
 "C26": {
  "note": "Totality is false (Null panics); exact answer proved in all cases without Null, and soundness of every answer."
 },
 "C27": {
  "note": "Exact, including the panic on Null and the loss for repeated labels."
 },
 "C28": {
  "note": "The documented behaviour is false; what the code does is proved for all inputs."
 },
 "C29": {
  "note": "Uniqueness as texts fails for mixed key kinds (c29_variants_clash)."
 },
 "C33": {
  "note": "The expected behaviour is false; exact behaviour proved."
 },
 "C38": {
  "note": "Expected behaviour is false (c38_counterexample); the exact place is proved for every append history with consistently used labels."
 },
 "C39": {
  "note": "Expected behaviour is false (c39_counterexample); exact surviving set proved."
 },
 "C41": {
  "note": "Expected behaviour is false; exact result proved."
 },
 "C45": {
  "note": "Expected behaviour (error) is false: panic, exactly characterised."
 },
 "C47": {
  "note": "Literals above i64::MAX cannot be deserialized even into u64 (c47_u64_dead)."
 },
 "C53": {
  "note": "Command-line parsing (clap), `{:#?}` rendering and the file system are parameters; the order of effects is what is proved."
 },
 "C54": {
  "note": "nom error values are modelled as chains of (input, kind)."
 },
 "C56": {
  "note": "Target types: (), bool, integers, f64, f32, String, &str, char, Option, Vec (also HashSet/BTreeSet, as the sequence of inserted elements), tuples, HashMap<String,T>, structs, newtypes, IgnoredAny, self-describing values (deserialize_any, as serde_json::Value or toml::Value), serde_bytes::ByteBuf, nested arbitrarily; serde's and serde_derive's visitors are transcribed (trusted)."
 },
 "C60": {
  "note": "Hash order is an arbitrary permutation of the entries."
 },
 "C61": {
  "note": "Numbers inside trees compare as in C12."
 },
 "C62": {
  "note": "Hash tables are modelled with buckets for an arbitrary hasher; object keys do not satisfy the Borrow contract (proved negatively)."
 },
 "C63": {
  "note": "Float formatting is a parameter with the documented shape of `to_string` (ShowsFloats)."
 },
 "C65": {
  "note": "Float texts as in C63."
 },
 "C66": {
  "note": "Agreement relation AgreeBody (Spec/Agree.lean) is stated on the two result types only, not on the grammars. CommonEntries in c66_common_documents restricts to what both grammars can express."
 },
 "C67": {
  "note": "Number writers are parameters with stated requirements; c67_writers_exist shows they exist."
 },
 "C68": {
  "note": "The rules (Spec/Reads.lean) mention no visitors, calls, fuel or hash order. Visitors of the standard types and derives are transcribed from serde 1.0.101 (trusted)."
 },
 "C69": {
  "note": "Alike (Spec/Alike.lean) is the relation on syntax trees; proved for every type of the C68 universe."
 },
 "C70": {
  "note": "f64 == is a parameter (assumed symmetric/transitive only where stated). Hypothesis: hash maps have no key twice, proved for everything from_str returns and kept by merge."
 },
 "C71": {
  "note": "Generative grammar Spec/OldLaid (texts built from entries with free layout); equivalence with the accepting grammar of C21 by induction both ways."
 },
 "C74": {
  "note": "Depth is the number of nested calls of the recursive parser; the size of a stack frame, and so the overflow itself, is not modelled."
 },
 "C75": {
  "note": "Exact characterisation of both error variants; depends on nom's return_error!/alt!/many0! not altering a Failure (trusted base)."
 },
 "C77": {
  "note": "std's Debug builders are transcribed; the table of printable characters, the escapes of ' and NUL, and the text of floats are parameters. That a float's text determines it (Rust prints the shortest text that reads back) is a hypothesis."
 },
 "C81": {
  "note": "The iff for blocks needs the text on lines of its own; a block whose only line is an attribute is a different form."
 },
 "C82": {
  "note": "The restriction to documents without indented heredocs in the converse is necessary: an example is given of one that aborts with LF and is read with CR LF."
 },
 "C83": {
  "note": "nom's exact!/eof! semantics trusted; the formatting of the message is nom's and not modelled"
 },
 "C84": {
  "note": "parts are lists of characters of the input (an aliasing claim about addresses is not expressible in the model); the whole, fraction and exponent texts of a number are parts of its own text by C10"
 },
 "C86": {
  "note": "That the fuzzers record a panic as a crash and end the process is part of afl.rs / honggfuzz-rs, which are not modelled; the messages of the build script are not modelled."
 },
 "C87": {
  "note": "Error versus Incomplete as the kind of failure: C95. body is characterised from both sides when what follows does not begin with a name; block_labels when what follows is not a quote (otherwise the unreadable label may be an error that stops the whole parser). DEFECT found: line_comment is hash_comment | hash_comment."
 },
 "C90": {
  "note": "Values read from the old and the new document are compared as results of deserialize; c90_anywhere is the statement for every depth and type."
 },
 "C91": {
  "note": "The visitor is that of a value type that accepts every visit_* call and keeps maps in the order given (as serde_json::Value with preserve_order)."
 },
 "C98": {
  "note": "serde_derive's generated code is transcribed and trusted. #[serde(flatten)], #[serde(default)] on the container and #[serde(skip)] are not modelled. A Default function is a constant here."
 },
 "C99": {
  "note": "Upper bounds with crude constants: measured counts are close to linear. Comparison with a tag counts as all its characters."
 },
 "C105": {
  "note": "Counterexample for scattered blocks: c105_not_if_scattered."
 }
}