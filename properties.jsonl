{"id": "C01", "title": "Validation accepts exactly JSON", "statement": "Parser::validate_json_bytes(b) returns Ok exactly when b is an RFC 8259 JSON text (valid UTF-8 inside strings, every \\u escape a scalar value or a high+low surrogate pair) nested at most 128 levels deep, and the returned JsonKind is the kind of the root value.", "quantifier": "every byte string b (of a length Rust permits for a slice)", "why_tests_cant": "The set of byte strings is infinite; test suites such as JSONTestSuite sample it, and acceptance of one more malformed text or rejection of one more valid one is invisible to them.", "anchors": ["src/parser.rs: Parser::validate_json_bytes, Parser::parse_bytes, read_tokens, read_object, read_array, Tokenizer::read_peek", "src/string.rs: HEX_OFFSET_TABLE, SAFE_STRING_BYTES_VERIFY_UTF8"]}
{"id": "C02", "title": "Parsed Value is the tree the text denotes", "statement": "When Value::from_json_bytes_with_config(b, config) returns Ok(v), v is the tree denoted by b under the grammar: same nesting, all array elements and all object entries (duplicates included) in source order, numbers and string bodies kept as the exact source bytes; conversely each text of the grammar that the config permits yields Ok.", "quantifier": "every byte string and every ParseConfig", "why_tests_cant": "Requires agreement between parser and grammar on all inputs; dropped, reordered or duplicated elements may depend on any combination of nesting and length.", "anchors": ["src/value.rs: Value::from_json_bytes_with_config, ValueParser", "src/parser.rs: Parser::parse_bytes"]}
{"id": "C03", "title": "allow_trailing_commas is exactly one optional comma", "statement": "With allow_trailing_commas set, the accepted texts are those of the grammar in which a non-empty array or object may end with one extra comma; without it no such text is accepted and the failure for an otherwise valid prefix is IllegalTrailingComma. `[,]`, `{,}` and doubled commas are rejected under both settings, and any text accepted without the option is accepted with it and yields the same Value.", "quantifier": "every byte string, every config", "why_tests_cant": "Both languages are infinite and the interplay with nesting cannot be enumerated.", "anchors": ["src/parser.rs: ParseConfig::allow_trailing_commas, read_object, read_array"]}
{"id": "C04", "title": "Recursion limit is exact", "statement": "With recursion_limit Some(n), a text is accepted iff it is accepted with no limit and its value nests arrays/objects at most n deep, yielding the same Value; a well-formed text nested deeper fails with RecursionLimitReached. Siblings do not consume depth.", "quantifier": "every byte string, every n, every config", "why_tests_cant": "Depth accounting is a property of every nesting history; an off-by-one or a missed restore after a sibling only shows for some shapes and depths.", "anchors": ["src/parser.rs: ParseState::begin_nest, ParseState::end_nest, ParseState::new, read_tokens"]}
{"id": "C05", "title": "Root type restriction", "statement": "With allow_all_types_at_root = false a text is accepted iff it is accepted with the option true and its root is an object or an array; when the root value is read but is a scalar the error is PayloadsShouldBeObjectOrArray at offset 0, whatever follows.", "quantifier": "every byte string and config", "why_tests_cant": "Ranges over all texts and configurations.", "anchors": ["src/parser.rs: Parser::parse_bytes, ParseConfig::strict"]}
{"id": "C06", "title": "&str and &[u8] entry points agree", "statement": "For every Rust string s, Value::from_json_with_config(s, c) and Value::from_json_bytes_with_config(s.as_bytes(), c) return the same result: same Value (including per-string metadata) or same error kind and offset. The same holds for every delegate and for the tokenizers.", "quantifier": "every valid UTF-8 string, every config, every delegate", "why_tests_cant": "The two paths use different lookup tables and different consumption of multi-byte sequences; agreement must hold for every placement of non-ASCII text.", "anchors": ["src/parser.rs: Tokenizer::read_string_from_source (GUARANTEED_UTF8)", "src/string.rs: SAFE_STRING_BYTES, SAFE_STRING_BYTES_VERIFY_UTF8"]}
{"id": "C07", "title": "All parse entry points agree", "statement": "Parser::validate_json_bytes_with_config, Value::from_json_bytes_with_config and Document::from_json_bytes_with_config succeed on the same inputs and fail with the same error kind and offset; on success the validated kind is the kind of the Value.", "quantifier": "every byte string and config", "why_tests_cant": "Three delegates drive the same parser through different is_empty bookkeeping; agreement must hold at every nesting depth and error point.", "anchors": ["src/parser.rs: impl ParseDelegate for ()", "src/value.rs: ValueParser", "src/doc.rs: impl ParseDelegate for &mut Nodes"]}
{"id": "C08", "title": "Document converts to the same Value", "statement": "If Document::from_json_bytes_with_config(b, c) is Ok(doc) then Value::from(doc) equals what Value::from_json_bytes_with_config(b, c) returns, and the conversion does not panic.", "quantifier": "every byte string and config", "why_tests_cant": "The flat encoding is patched in place while parsing; correctness depends on every nesting shape.", "anchors": ["src/doc.rs: From<GenericDocument> for Value, hydrate_value_from_node"]}
{"id": "C09", "title": "Document nodes are the pre-order flattening", "statement": "The nodes of a parsed Document are exactly the pre-order listing of the value: scalars map to one node, an array with n elements to Node::Array{length:n} followed by the elements' listings, an object with n entries to Node::Object{length:n} followed by n times a Node::String key and the value's listing.", "quantifier": "every byte string that parses", "why_tests_cant": "Lengths are incremented at indices recorded before nested nodes were appended; holds or fails per shape.", "anchors": ["src/doc.rs: Nodes::push_node, Nodes::extend_object, Nodes::extend_array"]}
{"id": "C10", "title": "Document iteration steps over whole values", "statement": "At any value position of a parsed document, DocumentIter::next_value returns exactly the Value at that position and leaves the iterator just after it; skip_next_value leaves it at the same place, next returns one node and moves past it, and none panics, in any series of these calls.", "quantifier": "every parsed document, every value position in it, every series of calls on its iterator", "why_tests_cant": "All documents, all positions.", "anchors": ["src/doc.rs: DocumentIter::next_value, DocumentIter::skip_next_value, Iterator::next for DocumentIter"]}
{"id": "C11", "title": "Bounded documents", "statement": "HeaplessDocument<N>::from_json_bytes(b) is Ok iff the text is accepted by validation and its node count is at most N (same nodes as Document); if validation accepts but there are more than N nodes the error kind is PaylodTooLarge; it never holds more than N nodes.", "quantifier": "every N, every byte string, every config", "why_tests_cant": "Every capacity against every document size and shape.", "anchors": ["src/doc.rs: NodeCollection for heapless::Vec, GenericDocument::from_json_bytes"]}
{"id": "C12", "title": "Parsing never panics, never reaches UB, always terminates", "statement": "For every byte string and config the parse entry points return Ok or Err: no unreachable!/expect/overflow panic, no out-of-range index, and each from_utf8_unchecked and char::from_u32_unchecked is called with valid data.", "quantifier": "every byte string, every config, the built-in delegates", "why_tests_cant": "Panics and undefined behaviour are absence properties over all inputs; fuzzing only samples.", "anchors": ["src/parser.rs: all unsafe blocks, unreachable!, JsonStringInfo::add_bytes", "src/doc.rs: extend_object, extend_array"]}
{"id": "C13", "title": "Tokenizer progress and bounds", "statement": "Each item produced by a Tokenizer (token or error) advances offset() by at least one; offset() never exceeds the source length; so iteration over n bytes ends after at most n items, whatever was called before, and once it returns None it keeps returning None.", "quantifier": "every source, every sequence of peek/next/next_or_eof calls", "why_tests_cant": "Quantifies over call histories and sources, including after errors.", "anchors": ["src/parser.rs: Tokenizer::next, Tokenizer::peek, Tokenizer::offset, ByteIterator"]}
{"id": "C14", "title": "peek predicts and does not consume", "statement": "peek() returns None iff next() would return None; calling peek any number of times does not change what next() returns; if next() yields Ok(token), peek's kind is that token's kind, and if peek says Unrecognized next() is an error at that byte.", "quantifier": "every source and every tokenizer state", "why_tests_cant": "All states reachable by any call history.", "anchors": ["src/parser.rs: Tokenizer::peek, Tokenizer::read_peek"]}
{"id": "C15", "title": "next_or_eof differs from next only at the end", "statement": "next_or_eof() returns Ok/Err exactly as next() returns Some(Ok/Err), with the same new offset, and returns Err(UnexpectedEof) at offset = source length when next() returns None.", "quantifier": "every source and tokenizer state", "why_tests_cant": "All states.", "anchors": ["src/parser.rs: Tokenizer::next_or_eof, Iterator for Tokenizer"]}
{"id": "C16", "title": "Tokenizer string tokens are always well formed", "statement": "Each Token::String yielded in any tokenizer state holds valid UTF-8, and decoding it (decoded, Display, comparison) never panics and never fabricates an invalid char.", "quantifier": "every source, every tokenizer offset reachable by any history (also after errors)", "why_tests_cant": "Decoding trusts the earlier validation ('already validated'); the two routines must agree on all strings.", "anchors": ["src/parser.rs: read_string_from_source, read_string_escape", "src/string.rs: Decoded::next"]}
{"id": "C17", "title": "Tracked lengths of parsed strings are right", "statement": "For a parsed JsonString, decoded_len() is the number of UTF-8 bytes of the decoded text, len() is the number of bytes of its JSON source, has_escapes is true iff the source contains a backslash, and is_empty() holds iff the decoded text is empty.", "quantifier": "every parsed string", "why_tests_cant": "Equality short-circuits on these lengths; one miscounted escape form makes equal strings unequal.", "anchors": ["src/string.rs: JsonStringInfo, JsonString::decoded_len, JsonString::len", "src/parser.rs: read_string_escape"]}
{"id": "C18", "title": "Decoding follows RFC 8259", "statement": "decoded() of a parsed string yields the characters RFC 8259 assigns: \\b is U+0008, \\f U+000C, \\n, \\r, \\t, \\\", \\\\, \\/ as usual, \\uXXXX the code point, a surrogate pair 0x10000 + (hi-0xD800)*0x400 + (lo-0xDC00), other characters themselves.", "quantifier": "every parsed string", "why_tests_cant": "About 1.1 million code points times all contexts; the tests use one plane-1 emoji pair and assert the code's own \\b.", "anchors": ["src/string.rs: Decoded::next, merge_surrogate_pair"]}
{"id": "C19", "title": "JsonString == &str means decoded equality", "statement": "For a JsonString obtained by parsing or by From<&str>/From<String>, (j == s) is true iff the decoded text of j is s.", "quantifier": "every JsonString and every str", "why_tests_cant": "Length shortcut plus zip comparison must be right for every pair.", "anchors": ["src/string.rs: PartialEq<str> for JsonString"]}
{"id": "C20", "title": "JsonString == JsonString means decoded equality", "statement": "j1 == j2 iff their decoded texts are equal, for any mix of representations (parsed with or without escapes, converted from raw text); so == is an equivalence relation and representation independent.", "quantifier": "every pair of JsonStrings", "why_tests_cant": "The claim quantifies over all pairs of spellings of the same text.", "anchors": ["src/string.rs: PartialEq<JsonString> for JsonString"]}
{"id": "C21", "title": "JsonString ordering is the code point order of decoded text", "statement": "cmp / partial_cmp of JsonStrings, and partial_cmp against &str, is the lexicographic order of decoded texts by code point (which is the order of str); it is a total order independent of representation.", "quantifier": "every pair / triple of JsonStrings", "why_tests_cant": "Mixes byte-wise str comparison with char-wise iteration; agreement is a theorem about UTF-8.", "anchors": ["src/string.rs: Ord for JsonString, PartialOrd<str> for JsonString"]}
{"id": "C22", "title": "Ord and Eq of JsonString agree", "statement": "j1.cmp(j2) == Equal iff j1 == j2 (the contract of Ord, needed by BTreeMap and sort/dedup).", "quantifier": "every pair of JsonStrings", "why_tests_cant": "All pairs of spellings.", "anchors": ["src/string.rs: Ord for JsonString, PartialEq for JsonString"]}
{"id": "C23", "title": "Hash is consistent with Eq", "statement": "Equal JsonStrings feed equal data to any Hasher (so HashMap lookups work for all spellings), and a JsonString hashes like the str it decodes to.", "quantifier": "every pair of equal JsonStrings, every Hasher", "why_tests_cant": "Hasher is a type parameter; only RandomState on one pair is tested.", "anchors": ["src/string.rs: Hash for JsonString"]}
{"id": "C24", "title": "Raw text round-trips through JSON", "statement": "For every str s, JsonString::from(s) renders (as_json, escape_if_needed, and inside Value::to_json) to a JSON string body which, when parsed, decodes to s again.", "quantifier": "every str", "why_tests_cant": "Every control character and its position matter; the unit test uses only U+0000 and the named escapes.", "anchors": ["src/string.rs: AsJson::next, From<&str> for JsonString, From<String> for JsonString"]}
{"id": "C25", "title": "Lengths of converted raw text", "statement": "For j = JsonString::from(s): j.decoded() yields s, j.decoded_len() == s.len(), j.len() is the number of bytes of its JSON rendering.", "quantifier": "every str", "why_tests_cant": "All characters; a per-character byte count error shows only for some ranges.", "anchors": ["src/string.rs: AsJson::next (add_bytes), JsonString::len, JsonString::decoded_len"]}
{"id": "C26", "title": "to_json minifies", "statement": "If Value::from_json(s) is Ok(v), v.to_json() is s with the whitespace outside string literals removed and with the commas then left right before a closing bracket removed (there are none unless the config allows trailing commas), byte for byte; so it is never longer than s.", "quantifier": "every accepted text", "why_tests_cant": "All texts; lossless preservation of numbers, escapes, duplicate keys and order.", "anchors": ["src/value.rs: Value::to_json, write_json_value"]}
{"id": "C27", "title": "to_json / parse round-trip", "statement": "For every v obtained by parsing, parsing v.to_json() (and to_json_pretty(), and to_json_pretty_custom with indentation/line ending made of JSON whitespace) with the same config yields a Value identical to v.", "quantifier": "every parsed value, every config it was accepted under, every whitespace indentation and line ending", "why_tests_cant": "All values; separator placement depends on lengths and nesting.", "anchors": ["src/value.rs: write_json_object, write_json_array, WriteState"]}
{"id": "C28", "title": "Pretty output is compact output plus whitespace", "statement": "Removing whitespace outside string literals from to_json_pretty_custom(i, l) (i and l JSON whitespace) gives to_json(); each non-empty container puts each element on its own line indented by its depth, empty containers are `[]`/`{}`-like with no line break.", "quantifier": "every Value whose strings/numbers are well formed, every whitespace i and l", "why_tests_cant": "All values.", "anchors": ["src/value.rs: WriteState::write, WriteState::new_line"]}
{"id": "C29", "title": "Writer failures propagate", "statement": "write_json_to(w) returns Ok iff every write to w succeeded, in which case w received exactly to_json(); if a write fails, nothing more is written after it and what w had received before is a prefix of to_json(). Same for the pretty forms.", "quantifier": "every Value, every fmt::Write implementation, every failure point", "why_tests_cant": "Each possible failure point is a crash point; writers are arbitrary.", "anchors": ["src/value.rs: write_json_to, pretty_write_json_to_custom, WriteState"]}
{"id": "C30", "title": "Object lookup by decoded key", "statement": "Object::get(k) / Value::get(k) return the value of the first entry whose decoded key is k, None if there is none (or not an object); get_mut and get_entry_mut address the same entry and a write through them changes that entry only.", "quantifier": "every object and key", "why_tests_cant": "All objects including duplicate and escaped keys.", "anchors": ["src/value.rs: Object::get, Object::get_mut, Object::get_entry_mut, Value::get"]}
{"id": "C31", "title": "Number tokens follow the grammar and are maximal", "statement": "A Token::Number holds the exact source slice, which matches -?(0|[1-9][0-9]*)(\\.[0-9]+)?([eE][+-]?[0-9]+)?, and it is the longest such slice at its position.", "quantifier": "every source and position", "why_tests_cant": "All digit/sign/dot/exponent sequences.", "anchors": ["src/parser.rs: read_number_from_source"]}
{"id": "C32", "title": "Integer accessors", "statement": "as_u8..as_u128/as_usize and as_i8..as_i128/as_isize on a parsed number return Some(n) iff the source is an integer literal without fraction or exponent whose value n is in range (unsigned: also without a minus sign); otherwise None. So the accessors agree with one another: a number that fits a type is the same number by every wider type of either signedness, and a positive one by the unsigned type of the same width.", "quantifier": "every JSON number and every integer type", "why_tests_cant": "All literals of any length, boundary values of each type.", "anchors": ["src/number.rs: impl_as_number!, JsonNumber::parse", "src/value.rs: impl_as_number!"]}
{"id": "C33", "title": "Error offsets are in the document", "statement": "Each error returned by a parse has 0 <= offset() <= source length.", "quantifier": "every failing input and config", "why_tests_cant": "All error paths on all inputs.", "anchors": ["src/error.rs: Error::offset", "src/parser.rs: every Err(Error { offset, .. })"]}
{"id": "C34", "title": "Truncation is detected", "statement": "If a document whose root is an object, array or string (or keyword) is accepted, each proper prefix that ends before the last byte of the root value is rejected.", "quantifier": "every accepted document and every cut point", "why_tests_cant": "Every crash/cut point of every document.", "anchors": ["src/parser.rs: Parser::parse_bytes"]}
{"id": "C35", "title": "Insignificant whitespace does not matter", "statement": "Two accepted texts produce identical Values if and only if they are equal after removing whitespace outside string literals and trailing commas, and the minified form of an accepted text is accepted.", "quantifier": "every pair of texts", "why_tests_cant": "All placements of whitespace.", "anchors": ["src/parser.rs: ByteIterator::skip_ws"]}
{"id": "C36", "title": "Delegate errors stop the parse and are reported", "statement": "If a delegate callback returns Err(e), no further callback is made and the parse returns ErrorKind::ErrorFromDelegate(e); ErrorFromDelegate is returned only then.", "quantifier": "every delegate, every input", "why_tests_cant": "Delegates are arbitrary user code; each callback is a failure point.", "anchors": ["src/parser.rs: read_tokens, read_object, read_array (map_err ErrorFromDelegate)"]}
{"id": "C37", "title": "Delegate callback protocol", "statement": "For an accepted text, a delegate whose callbacks succeed and whose is_empty answers are truthful receives exactly the bracketed pre-order sequence of callbacks for the denoted tree, and the result is its fold over that tree; acceptance and syntax errors do not depend on the delegate.", "quantifier": "every such delegate, every input", "why_tests_cant": "Delegates are arbitrary.", "anchors": ["src/parser.rs: ParseDelegate, read_tokens, read_object, read_array"]}
{"id": "C38", "title": "Single-value parsers", "statement": "JsonString::from_json(s) is Ok iff s is (whitespace-padded) one JSON string, and returns it; for a text whose first token begins another kind of value the error is ExpectedString. JsonNumber::from_json likewise with ExpectedNumber. Neither panics.", "quantifier": "every str", "why_tests_cant": "All texts; their delegates have unreachable!() bodies that must never be reached.", "anchors": ["src/string.rs: JsonString::from_json, StringParser", "src/number.rs: JsonNumber::from_json, NumberParser"]}
{"id": "C39", "title": "String views agree", "statement": "as_str() is Some(t), t being the decoded text, iff no decoding is needed (it is None exactly for JSON source that holds a backslash); decode_if_needed() is the decoded text, handing out what is stored if no decoding is needed and an owned copy otherwise; escape_if_needed() equals the collected as_json(), handing out what is stored if that is JSON source and an owned copy otherwise; as_json_str() is Some iff the representation is JSON; Display prints the decoded text. is_empty() holds, and len() is zero, exactly if the decoded text is empty.", "quantifier": "every JsonString", "why_tests_cant": "All strings and representations.", "anchors": ["src/string.rs: as_str, decode_if_needed, escape_if_needed, as_json, as_json_str, Display"]}
{"id": "C40", "title": "AnyStr ownership is invisible", "statement": "Owned and Borrowed AnyStr with the same text are equal, compare Equal, and hash alike; Borrow<str> is consistent with Eq/Ord/Hash.", "quantifier": "every pair of AnyStr", "why_tests_cant": "All texts.", "anchors": ["src/anystr.rs"]}
{"id": "C41", "title": "Value accessors and indexing", "statement": "as_object/as_array/as_string/as_number/as_bool/is_null are Some/true exactly for their variant; get_index(i) is the i-th element or None; Index panics exactly when the corresponding get returns None; get_index_mut writes exactly that element.", "quantifier": "every Value, index, key", "why_tests_cant": "All values.", "anchors": ["src/value.rs: Value::as_*, get_index, Index, IndexMut"]}
{"id": "C42", "title": "Config monotonicity", "statement": "Loosening a config (allowing trailing commas, raising or removing the recursion limit, allowing all root types) never rejects a previously accepted text and never changes the Value produced.", "quantifier": "every pair of configs ordered by permissiveness, every text", "why_tests_cant": "All texts and config pairs.", "anchors": ["src/parser.rs: ParseConfig"]}
{"id": "C43", "title": "JsonStringInfo packing", "statement": "JsonStringInfo::new(e, n) with n below the top bit reports has_escapes() == e and expected_length() == n; adding bytes never disturbs the flag while the total stays below the top bit, on 32- and 64-bit targets. Every JsonStringInfo is determined by its has_escapes() and expected_length(): == and Hash see those and nothing else, and Debug prints exactly those, so two of them print alike if and only if they are equal. What Hash feeds to a hasher is one usize-wide write of the bytes, in the target's order, of the number made of the length and the flag as top bit. The length given to new() is not checked: one that takes the top bit is read as an escape.", "quantifier": "every flag and length, both pointer widths", "why_tests_cant": "All machine words.", "anchors": ["src/string.rs: JsonStringInfo"]}
{"id": "C44", "title": "Value equality is equality of denoted content", "statement": "Two parsed Values compare == iff they have the same shape, number sources are identical and strings/keys decode to the same text; == on Values is an equivalence relation on parsed values.", "quantifier": "every pair of parsed values", "why_tests_cant": "All pairs.", "anchors": ["src/value.rs: derive(PartialEq) Value, Object, Entry"]}
{"id": "C45", "title": "Float accessors accept every JSON number", "statement": "as_f64/as_f32 of a parsed number are never None (the literal is always in the syntax Rust's float parser accepts).", "quantifier": "every JSON number", "why_tests_cant": "It ranges over all literals.", "anchors": ["src/number.rs: as_f32, as_f64"]}
{"id": "C46", "title": "Escape rendering is minimal and safe", "statement": "The JSON rendering of raw text contains no unescaped quote, backslash or control character, and text that needs no escaping is rendered unchanged and stored as borrowed JSON.", "quantifier": "every str", "why_tests_cant": "All characters.", "anchors": ["src/string.rs: AsJson::next, From<&str> for JsonString, SAFE_STRING_BYTES"]}
{"id": "C47", "title": "size_hint of the JSON rendering brackets what is left", "statement": "At every point of iterating over JsonString::as_json(), size_hint() = (lo, hi) satisfies lo <= n and n <= hi where n is the number of characters the iterator still yields. (False of the code: the hint is that of the unescaped characters, so text that needs escapes yields more than the upper bound; the lower bound always holds, both hold for strings kept as JSON source.)", "quantifier": "every obtainable JsonString and every point of the iteration", "why_tests_cant": "Ranges over all texts and all positions of the iterator.", "anchors": ["src/string.rs: impl Iterator for AsJson, size_hint"]}
{"id": "C48", "title": "Converting and rendering text never panics", "statement": "JsonString::from(&str), JsonString::from(String) and collecting as_json() of the result return normally. (False of the code for texts that need escapes and are longer than about a sixth, resp. a twelfth, of isize::MAX: the packed length overflows and unwrap/expect panics.)", "quantifier": "every text a str can hold, every pointer width", "why_tests_cant": "The failing texts are too long to allocate in a test; the safe bound is a universal statement.", "anchors": ["src/string.rs: From<&str>, From<String>, AsJson::next, JsonStringInfo::add_bytes, add_bytes_from_escape"]}
{"id": "C49", "title": "Built values read back from what is written", "statement": "For every Value a client puts together from parsed numbers, parsed strings and strings converted from text, and every form of writing (to_json, to_json_pretty, to_json_pretty_custom with JSON whitespace, Display), if the call returns a text then parsing that text, with a config that permits the depth and the root, returns Ok with a Value of the same shape and order, the same number sources, and strings and keys that decode to the same text. (False of the code: a string converted from text with a control character such as U+000B is written as a malformed escape, others as the wrong character.)", "quantifier": "all Values buildable through the API, all writing forms, all permitting configs", "why_tests_cant": "quantifies over all trees, strings and whitespace choices; the failing characters are a small subset a sample can miss", "anchors": ["src/value.rs: Value::to_json, to_json_pretty, to_json_pretty_custom, write_json_to", "src/string.rs: AsJson", "src/parser.rs: Parser::parse_json_bytes_with_config"]}
{"id": "C50", "title": "The tokenizer splits a source into JSON lexemes, and nothing is lost between them", "statement": "Every token the Tokenizer iterator returns was read from one lexeme of the JSON grammar (punctuation, keyword, number or string literal) that follows only whitespace after the previous token, numbers are read to their last character, and the token carries that lexeme; every lexeme preceded by whitespace and, for a number, followed by no character that could extend it, is returned as its token; when the stream ends without an error the lexemes, with the whitespace between them, are the whole source; and the tokens of an accepted text are its tokens in textual order.", "quantifier": "every byte or &str source, every position of the iterator", "why_tests_cant": "ranges over all sources and all positions; a mis-split shows only for particular neighbours", "anchors": ["src/parser.rs: Tokenizer, Tokenizer::next, Tokenizer::next_or_eof, Tokenizer::read_string_from_source, read_number_from_source, read_peek"]}
{"id": "C51", "title": "Texts compose and decompose", "statement": "If each of some texts parses, then [t1,t2,...] (at least one text, or none) parses, with any config that permits one more level of nesting, and yields the array of exactly their values in order; likewise {k1:t1,...} for key texts that parse as strings. Conversely every text that parses as an array or object is, apart from surrounding whitespace and a permitted trailing comma, such a join of texts each of which parses on its own to the corresponding element.", "quantifier": "all lists of texts, all configs, all accepted sources", "why_tests_cant": "an equation between the parser's results on infinitely many sources; errors in separator or nesting handling show only for particular neighbours or depths", "anchors": ["src/parser.rs: Parser::read_array, read_object, read_from_source", "src/value.rs: Value::from_json_with_config"]}
{"id": "C52", "title": "How large a bounded document must be", "statement": "A parsed Document or HeaplessDocument has at most (len+1)/2 nodes for a source of len bytes; HeaplessDocument<N> parses every text that Document parses and that is shorter than 2N bytes, with the same nodes; and with N at least len it behaves exactly as Document on every input, accepted or not (same nodes, or same error and offset).", "quantifier": "every source, config and capacity N", "why_tests_cant": "a bound for all sources; a rejected text can fill the collection before its error is met, which depends on the whole history of the parse", "anchors": ["src/doc.rs: GenericDocument::from_json_with_config, HeaplessDocument, NodeCollection::push, ParseDelegate for NodeCollection"]}
{"id": "C53", "title": "An error's kind and offset describe the source", "statement": "When parsing fails with an error that does not come from the delegate, its kind and offset are true of the source: UnexpectedEof / UnclosedString / UnclosedArray / UnclosedObject are at the end of the source; Unexpected(b) is at a byte b that starts no token, is a control character or deviates from a literal, or just before a punctuation byte b; ExpectedDigit, ExpectedDecimalDigit and ExpectedExponent follow '-', '.' and e/E/+/- where no digit stands; InvalidEscape and InvalidHexadecimal are at the offending byte of the escape; Utf8 is at the escape of half a surrogate pair or at the start of a run of non-ASCII bytes that is not UTF-8 (never the latter for &str); IllegalTrailingComma follows a comma and precedes a closing bracket and occurs only if trailing commas are disabled; and so on for every kind. Kinds that denote no syntax error never occur.", "quantifier": "every source (bytes or str), configuration, truthful delegate, document capacity, and every position and history of a tokenizer", "why_tests_cant": "Every malformed text, with the fault anywhere in it, must be described correctly; tests fix a handful of texts.", "anchors": ["src/parser.rs: Tokenizer, JsonParser::read_tokens, read_object, read_array, TokenizerInner::read_*", "src/error.rs: Error, ErrorKind"]}
{"id": "C54", "title": "Errors of &str sources are at character boundaries", "statement": "If parsing a &str into a Value or a growing document fails, the error's offset is a character boundary of the source, so source.split_at(error.offset) does not panic. The same holds of the first error of a tokenizer over a &str.", "quantifier": "every str, configuration, and every tokenizer history without an earlier error", "why_tests_cant": "Multi-byte characters can stand at any place of a malformed text.", "anchors": ["src/parser.rs: Tokenizer, JsonParser", "src/error.rs: Error::offset"]}
{"id": "C55", "title": "Malformed and incomplete texts can be told apart", "statement": "If parsing a &str fails with an error offset before the end of the text, no continuation of the text parses under the same configuration; so whenever a text can be continued to one that parses, it parses itself or its error is at its end. For byte slices the same holds except when the source ends within a run of non-ASCII bytes that is not (yet) UTF-8, reported as Utf8 at the start of that run.", "quantifier": "every text, continuation and configuration; Value and growing documents", "why_tests_cant": "Quantifies over all continuations of all rejected texts.", "anchors": ["src/parser.rs: JsonParser, Tokenizer", "src/error.rs: Error::offset"]}
{"id": "C56", "title": "Callbacks always form a traversal", "statement": "For any source and any ParseDelegate, however it answers or fails: the callbacks made by a successful parse are the bracketed pre-order traversal of some value and the result is what that traversal makes of the delegate; the callbacks made by a failing parse are a beginning of such a traversal. So begin/end calls nest properly, object_key and object_value pair up inside an object, array_value stands inside an array.", "quantifier": "every source, configuration, delegate implementation and initial delegate state", "why_tests_cant": "Quantifies over all implementations of a trait and all malformed texts.", "anchors": ["src/parser.rs: ParseDelegate, JsonParser::read_tokens, read_object, read_array"]}
{"id": "C57", "title": "Open containers and callbacks are bounded", "statement": "With recursion limit n, at no moment of any run, accepted, rejected or stopped by the delegate, are more than n containers open, and no container is closed that was not opened. Whatever the limit, a parse makes at most three callbacks per two bytes of source.", "quantifier": "every source, configuration, delegate and moment of the run", "why_tests_cant": "Holds at every intermediate point of every run, including malformed and adversarial texts.", "anchors": ["src/parser.rs: ParseState::begin_nest, end_nest, JsonParser::read_tokens, read_object, read_array"]}
{"id": "C58", "title": "What is told depends on the source only", "statement": "Of two delegates that answer object_is_empty and array_is_empty truthfully, one hears a beginning of what the other hears for the same source and configuration. If one never fails it hears at least as much as the other, and the other hears all of it unless one of its own callbacks fails.", "quantifier": "every source, configuration, pair of delegates and initial states", "why_tests_cant": "Relates two runs of arbitrary implementations of a trait.", "anchors": ["src/parser.rs: ParseDelegate, JsonParser::read_tokens, read_object, read_array"]}
{"id": "C59", "title": "The parser tells a delegate the tokens of the source", "statement": "If a parse with any delegate succeeds, the values, keys, beginnings and ends of containers that the delegate is told are, in order and with nothing left out or invented, exactly the tokens that iterating a Tokenizer over the same source yields until None, without the commas and colons. If the parse fails, for any reason, what was told is a beginning of such tokens.", "quantifier": "every source, configuration, delegate and initial state", "why_tests_cant": "Relates two independent consumers of arbitrary input: the parser and the public token iterator.", "anchors": ["src/parser.rs: Parser::parse_json, JsonParser::read_tokens, read_object, read_array", "src/tokenizer.rs: Tokenizer::next"]}
{"id": "C60", "title": "A printed error identifies position and kind", "statement": "The message an Error prints (error at OFFSET: DESCRIPTION) determines the error's offset and its kind, including the unexpected byte or the delegate's own error, whenever the delegate's errors print distinctly.", "quantifier": "every pair of errors, whatever sources, configurations and delegates they come from", "why_tests_cant": "Injectivity over all offsets, bytes, kinds and delegate errors; the crate's own test says it does not validate the messages.", "anchors": ["src/error.rs: impl Display for Error, impl Display for ErrorKind"]}
{"id": "C61", "title": "Byte sources that are accepted are UTF-8", "statement": "If parsing a &[u8] succeeds, with any delegate, the source as a whole is valid UTF-8 and the &str entry point gives the same result for that text. A tokenizer over bytes has, as long as no call returned an error, only passed over valid UTF-8.", "quantifier": "every byte source, configuration, delegate and series of tokenizer calls", "why_tests_cant": "UTF-8 is checked piecewise, per string literal, with unchecked conversions behind it; every placement of every malformed sequence must be caught.", "anchors": ["src/parser.rs: Tokenizer::read_string_from_source, Parser::parse_json_bytes", "src/string.rs: SAFE_STRING_BYTES_VERIFY_UTF8"]}
{"id": "C62", "title": "Editing values is editing plain data", "statement": "Values can be built and edited like plain data. Every value a client can have (parsed, converted, put together) stands for one tree of plain data (null, booleans, number sources, texts, lists, lists of entries), a parsed value for that of its text; conversions, Object::new, collecting entries and Entry::new give what was put in; a chain of get/get_index leads to a part exactly if the path leads to one in the data; and any series of edits through chains of get_mut/get_index_mut (assignment, push, remove, adding, renaming and removing entries) never panics, takes place exactly where it does on the data, and leaves the value standing for the data so edited. What is then written reads back as that data (given C49's condition on control characters).", "quantifier": "every value a client can put together, every path, every series of edits", "why_tests_cant": "Unboundedly many values, paths and histories of edits; duplicate keys, keys spelled with escapes and raw keys interact with lookups.", "anchors": ["src/value.rs: Value::get_mut, Value::get_index_mut, as_array_mut, as_object_mut, Object::get_mut, Object::get_entry_mut, From impls for Value, FromIterator for Object, Object::new, Entry::new"]}
{"id": "C63", "title": "Documents on collections a client implements", "statement": "GenericDocument on any NodeCollection that appends when its push reports success: if parsing succeeds, the collection holds exactly the pre-order nodes of the Value the text parses to, as Document would; if it fails, the error is the one Value parsing reports or has the kind a push returned; it panics only if a push did. If pushes never fail it agrees with Document on every text. Vec and heapless::Vec are such collections. The calls it makes on the collection (push, assignment by index) are decided by the source and the configuration: they are those that put down the nodes of a traversal in pre-order, up to the first push that fails.", "quantifier": "every collection implementation that keeps the contract, every source and configuration", "why_tests_cant": "The implementation of the collection is arbitrary client code, failing at arbitrary moments.", "anchors": ["src/doc.rs: NodeCollection, GenericDocument::from_json_with_config, Nodes"]}
{"id": "C64", "title": "Documents compare like the values they hold", "statement": "For two documents obtained by parsing (Document or HeaplessDocument, any texts and configs), doc1 == doc2 never panics and is true exactly if the Values the same texts parse to are ==, that is, have the same content: node by node comparison of the flat form is comparison of the trees. == is an equivalence relation on parsed documents.", "quantifier": "all pairs (triples) of sources, configs and capacities that parse", "why_tests_cant": "quantifies over all pairs of documents, however nested and however their strings are spelled", "anchors": ["src/doc.rs: GenericDocument, Nodes, Node (derived PartialEq)", "src/string.rs: PartialEq for JsonString", "src/value.rs: Value (derived PartialEq)"]}
{"id": "C65", "title": "Parsing copies no text", "statement": "Every string, object key and number of a value or document obtained by parsing, every literal a tokenizer returns however it is driven (after errors too), and every literal given to a delegate's callbacks in a parse that succeeds or fails, is a borrowed reference to its own part of the source: a number to exactly its literal, a string to exactly the bytes between its quotes. The parts do not overlap and stand in the order of the results, so all text held together is never larger than the source. JsonString::from_json and JsonNumber::from_json do the same.", "quantifier": "every source (text or bytes), every configuration, every document capacity, every sequence of tokenizer calls, every delegate and its state", "why_tests_cant": "it ranges over every source, every literal position and every history of tokenizer or delegate calls", "anchors": ["src/value.rs: Value::from_json*", "src/doc.rs: Document::from_json*", "src/parser.rs: Tokenizer, Parser::parse_with_config", "src/string.rs: JsonString::from_json", "src/number.rs: JsonNumber::from_json"]}
{"id": "C66", "title": "String iterators call by call, and Display on any formatter", "statement": "For every string a client can have, with text t: the iterator decoded() answers any number of calls of next with the characters of t one by one and with None from then on, never panicking; at any point of the iteration Display of the iterator makes one write_char call for each character still to come, up to the first call that fails, and returns whether one failed. Display of the string itself is that of a fresh decoded(). The iterator as_json() of a string whose rendering is r does the same with r, also when displayed in the middle of an escape.", "quantifier": "every obtainable string, every number of calls of next, every formatter and its state", "why_tests_cant": "it ranges over every string and escape, every point at which the iteration is interrupted, and every formatter, failing or not", "anchors": ["src/string.rs: Decoded (Iterator, Display)", "src/string.rs: AsJson (Iterator, Display)", "src/string.rs: Display for JsonString"]}
{"id": "C67", "title": "The parser is the tokenizer and a grammar over tokens", "statement": "A source parses to the Value v under a configuration exactly if iterating a Tokenizer over it yields, without an error and up to None, tokens that derive v in the context-free grammar of JSON over tokens (with an optional comma before a closing bracket of a non-empty container if trailing commas are allowed), v is within the recursion limit and its root is permitted. That grammar is unambiguous, the tokens of one value are never a proper beginning of those of another, and allowing trailing commas does not change what tokens mean.", "quantifier": "every source (text or bytes), every configuration, every Value, every token list", "why_tests_cant": "it equates two infinite languages and ranges over every way a source can be split into tokens", "anchors": ["src/parser.rs: Parser::read_tokens, read_object, read_array", "src/parser.rs: Tokenizer (Iterator)", "src/value.rs: Value::from_json_with_config"]}
{"id": "C68", "title": "A parse gives up at the first token that is wrong", "statement": "Whenever parsing or validating a source fails, there is a point up to which a Tokenizer over the same source yields tokens without an error and up to which the text is a beginning of some text the configuration admits (apart from what it demands of the root); and what stands at that point explains the error: no more tokens, a malformed token (the tokenizer's own error, with the documented renamings to UnclosedObject/UnclosedArray/ExpectedColon), a token of a kind the error kind blames, or a complete value that is of the wrong kind or followed by something. So errors inside strings and numbers are exactly the tokenizer's first error; for errors about a misplaced token everything before the offset can be completed; and a source without lexical faults that merely ends too early is a beginning of an admitted text.", "quantifier": "every source, configuration and error", "why_tests_cant": "the completion whose existence is claimed depends on every container still open; the tokens before the fault can be any sequence", "anchors": ["src/parser.rs: Parser::read_tokens", "src/parser.rs: Parser::read_object", "src/parser.rs: Parser::read_array", "src/parser.rs: Parser::parse_bytes", "src/parser.rs: Tokenizer::next_or_eof"]}
{"id": "C69", "title": "Errors and callbacks stand, whatever text follows", "statement": "If a parse (Value, Document, HeaplessDocument, validation or any ParseDelegate) fails with an error before the end of its source, it fails on every continuation of the source with the same error, kind and offset, and leaves the delegate in the same state. The callbacks a delegate receives for any source, accepted, rejected or stopped by the delegate, are the first callbacks it receives for every continuation. Excepted are continuations that change the last token: a source that ends with a digit continued by a digit, '.', 'e' or 'E', or a byte source that ends within a character.", "quantifier": "every source, continuation, configuration and delegate", "why_tests_cant": "Quantifies over all continuations of all sources and over arbitrary delegates.", "anchors": ["src/parser.rs: Parser::parse_bytes, Tokenizer", "src/parser.rs: ParseDelegate", "src/error.rs: Error::offset"]}
{"id": "C70", "title": "An option changes only the errors it is about", "statement": "If a parse fails under one ParseConfig, then under every looser one (trailing commas allowed, recursion limit raised or removed, any type allowed at the root) it fails with exactly the same error, kind and offset, leaving the delegate in the same state, unless the error is about an option that differs (IllegalTrailingComma where only the looser one allows trailing commas, RecursionLimitReached where the limits differ, PayloadsShouldBeObjectOrArray where only the looser one allows any type at the root). In that case, if parsing a Value still fails, it is at the same or a later place. Holds for any delegate, for Value and for documents.", "quantifier": "every input, every pair of configurations with one looser than the other, every delegate", "why_tests_cant": "The claim ranges over all failing inputs, all pairs of the infinitely many configurations and all delegates; a test only compares a few error messages.", "anchors": ["src/parser.rs: ParseConfig, Parser::parse_bytes, read_tokens, read_object, read_array, ParseState::begin_nest, end_nest", "src/value.rs: Value::from_json_with_config", "src/doc.rs: Document::from_json_with_config"]}
{"id": "C71", "title": "Parsing looks at the source a bounded number of times per byte", "statement": "Parsing takes work linear in the size of the source: a parse with any delegate under any ParseConfig, accepted or not, looks at a byte of the source (each ByteIterator access, including those that find the end, and each byte handed to core::str::from_utf8) at most 5 times for each byte up to the place where it stops, and twice more. For a Tokenizer, any sequence of calls to next, next_or_eof and peek, going on after errors and past the end, causes at most 5 accesses per byte up to offset(), and two more for each call that consumed nothing. There is no input that makes it look back over the source.", "quantifier": "every byte string, every configuration, every delegate (also failing ones), every sequence of tokenizer calls", "why_tests_cant": "A timing test sees one input; quadratic behaviour hides in shapes nobody thought of (runs of non-ASCII bytes, nested arrays, whitespace before a peek, errors).", "anchors": ["src/parser.rs: ByteIterator, Tokenizer::{next_or_eof, peek, read_string_from_source, read_number_from_source}, Parser::{parse_bytes, read_tokens, read_object, read_array}"]}
{"id": "C72", "title": "The recursion limit bounds the stack", "statement": "With recursion_limit = Some(n) no input makes parsing nest more than n + 1 recursive calls, with any delegate (129 with the default configuration); under any configuration it is at most one more than the number of '[' and '{' in the input. Parsing a Value (or the same text with any other delegate that accepts it), writing it (in any form, to any writer), turning a Document into a Value, skipping a value in a document, dropping a Value, printing it with Debug and comparing it with an equal one nest exactly as many calls as the value is high (its nesting depth, plus one if a deepest array or object is not empty), so what was parsed under a limit can be written, printed, compared, dropped, converted and skipped on the same stack. Without a limit every bounded stack is filled by some accepted input.", "quantifier": "every byte string, configuration, delegate, stack size, value, writer and list of nodes", "why_tests_cant": "The bound is a maximum over all inputs, including malformed ones; tests of the limit check which error is returned, not how deep calls nest on every path to it.", "anchors": ["src/parser.rs: Parser::{read_tokens, read_object, read_array}, ParseState::{begin_nest, end_nest}, ParseConfig::recursion_limit", "src/value.rs: Value::{write_json, write_json_value, write_json_object, write_json_array}", "src/doc.rs: hydrate_value_from_node, DocumentIter::skip_next_value", "src/value.rs: Value (derived PartialEq and Debug, drop glue)"]}
{"id": "C73", "title": "A parse is a list of callbacks that the source decides", "statement": "For every source and configuration there is one list of callbacks and one verdict, such that a parse with any delegate (whose emptiness and kind queries are truthful), from any state, makes exactly these callbacks in this order, passing to each what the earlier ones returned, up to the first that fails; that failure is the parse's error, at the offset the list gives. If none fails, the parse ends with the verdict: the value the last callback returned, or the error that parsing a Value reports. The list is the traversal of the parsed value, or the beginning of one.", "quantifier": "every byte string or str, configuration, delegate implementation and initial state", "why_tests_cant": "The delegate is arbitrary client code; a test fixes one delegate, and a callback missing or repeated only matters for a delegate whose state notices.", "anchors": ["src/parser.rs: Parser::{parse_bytes, read_tokens, read_object, read_array}, ParseDelegate"]}
{"id": "C74", "title": "The parser is a pushdown machine over the tokens", "statement": "A parse behaves as an explicit machine that takes the tokenizer's items one at a time and holds only what is wanted next (a value, an element, a key, a colon, a separator) and a stack of open arrays and objects. The machine decides, without looking at any value built so far, which callback is made after each token, the offset with which that callback's failure is reported (elements of arrays where they begin, root and object values and keys where the token before ended, array_value where the value ended, object_value after the colon, begin_* after the opening bracket, end_array also there, end_object after the closing bracket), and at which token the text is refused, with which error kind and offset. What any truthful delegate sees, what Value::parse returns and every error offset follow from it. With a delegate whose queries (object_is_empty, array_is_empty, kind_of) are arbitrary the same machine, asking the delegate exactly where an empty container or a root of a restricted kind has to be recognised, gives the same outcome and the same final delegate.", "quantifier": "every byte string or str, configuration, delegate implementation (with truthful queries for the callback list; any at all for the engine) and initial state", "why_tests_cant": "Tests compare single error offsets on single texts; that the recursive parser agrees with a machine of bounded control on every token sequence, including the offsets of delegates that fail at any callback, ranges over all texts and delegates.", "anchors": ["src/parser.rs: Parser::{parse_bytes, read_tokens, read_object, read_array}, Tokenizer::{next_or_eof, peek, offset}, ParseDelegate, ErrorKind"]}
{"id": "C75", "title": "Float accessors give the nearest float", "statement": "as_f64 and as_f32 of a parsed number return the float nearest to the number that the JSON literal stands for (integer part, fraction and exponent), ties to the even one, too large numbers to infinity, with the sign of the literal (also for zero). So the result does not depend on the spelling (100, 1E2 and 0.1e+3 agree), a literal that stands exactly for a float gives that float, integers up to 2^53 (2^24 for f32) are exact, and the order of numbers is kept. It holds for literals of at most 60000 bytes and for literals of any length whose exponent is below 65536 in absolute value; beyond that core cuts off exponents and a literal of the number 1 can give 0.", "quantifier": "every JSON number literal and every way to obtain a number from the crate", "why_tests_cant": "The literals are infinitely many, of any number of digits; tests compare a few values with their printed form.", "anchors": ["src/number.rs: JsonNumber::{as_f32, as_f64, parse}", "src/value.rs: Value::{as_f32, as_f64}"]}
{"id": "C76", "title": "What a delegate returns is opaque to the parser", "statement": "The parser makes no decision from the values, objects, arrays and keys that a delegate returns, nor from its state or errors, other than by asking the delegate (object_is_empty, array_is_empty, kind_of). So if two delegates answer alike (there are relations between their states, values, objects, arrays, keys and errors that every callback keeps), parses of the same source have the same outcome up to these relations: related values, or the same error of the parser, or related delegate errors at the same offset, with related final states. In particular a delegate with converted errors gives the converted outcome at the same offset, and an observer of the callbacks changes nothing.", "quantifier": "every two delegate implementations, relations between them, initial states, byte strings or strs, and configurations", "why_tests_cant": "It ranges over all pairs of delegates and all sources; a test instantiates one delegate.", "anchors": ["src/parser.rs: ParseDelegate, Parser::{parse_json_with_config, read_tokens, read_object, read_array}"]}
{"id": "C77", "title": "The calls made on a writer", "statement": "Writing a Value with write_json_to, pretty_write_json_to, pretty_write_json_to_custom or Display makes a series of calls on the destination that depends on the value and the form only: one write_str per token that is not a string, a write_str per quote and a write_char per character between quotes, one write_str per line ending and one per level of indentation. The pretty forms make as many calls as the compact form, plus one per line ending, plus the depth of each line, even if indentation and line ending are empty; at most depth + 1 more per line. No call is empty unless the caller's indentation or line ending is, so there are no more calls than characters. If rendering panics, the calls before the panic are the same for all destinations. A destination with a write_fmt of its own gets one write_fmt call per string instead, with the string between quotes, and the same write_str calls.", "quantifier": "every value, every fmt::Write implementation, every indentation and line ending", "why_tests_cant": "All values and all destinations; tests use String only.", "anchors": ["src/value.rs: write_json_value, WriteState", "src/string.rs: Display for AsJson"]}
{"id": "C78", "title": "Every value in a text has a text of its own, which can be replaced", "statement": "If a text is accepted as v and u is the value at some place in v (an element of an array or value of an object, at any depth), then the text is pre ++ b ++ post where b, which neither starts nor ends with whitespace, is accepted by itself as u; and for every text b' accepted as a value u', pre ++ b' ++ post is accepted as v with u' at that place and everything else unchanged, provided the recursion limit permits the new depth and the root kind is allowed. The same holds of the key and value of each entry of an object at once, and of two values of one array or object, whose texts do not overlap and stand in the order of the values.", "quantifier": "every source, configuration, place in the value read, and every replacement text", "why_tests_cant": "Splicing texts is how patch tools and templates edit JSON; that no surrounding text changes its meaning (a number running into the next token, a quote left open) must hold for every text, place and replacement.", "anchors": ["src/parser.rs: Parser::read_array, Parser::read_object, Parser::read_value", "src/value.rs: Value::from_json, Value::parse_with_config"]}
{"id": "C79", "title": "Debug output names everything, tells apart whatever differs, and is one visible line", "statement": "For every two values (and likewise for objects, entries, strings, AnyStrs, numbers, nodes, documents, document iterators, tokens, errors without a delegate's payload, and configurations), their {:?} texts are equal if and only if the two are identical - the spelling, whether a text is owned or borrowed, whether it is JSON or raw, the cached flag and length, and the order and number of entries included - and the same holds of their {:#?} texts. Two JsonKinds or two PeekableTokenKinds print alike only if they are the same. {:?} of a value, node, document, document iterator or token contains no newline and no other control character: each character is visible ASCII or one that core's tables call printable. Two errors that may hold a delegate's payload print alike if and only if their offsets are the same and their kinds are, or both hold payloads that print alike, whatever text a payload prints. What is printed is the Rust expression of the thing: the names of its variants, structs and fields, booleans, decimal numbers, quoted texts with core's escapes, on one line with {:?}, and with {:#?} one part per line, indented by four spaces a level with a comma after each part and brackets with nothing between them left closed.", "quantifier": "every pair of values, objects, entries, strings, numbers, nodes, documents, iterators, tokens, errors and configurations; both forms; whatever set of characters core holds to be printable; whatever text a delegate's payload prints", "why_tests_cant": "Assertion messages, snapshot tests and logs compare or show Debug text; that no text inside a string can imitate the layout around it (quotes, brackets, names, newlines, indentation) must hold for every string and every nesting.", "anchors": ["src/value.rs: Value, Object, Entry (derive Debug)", "src/string.rs: JsonString, StringContents, JsonStringInfo", "src/anystr.rs: AnyStr", "src/number.rs: JsonNumber", "src/doc.rs: Node, GenericDocument, Nodes, DocumentIter (derive Debug)", "src/parser.rs: Token, PeekableTokenKind, JsonKind, ParseConfig", "src/error.rs: Error, ErrorKind"]}
{"id": "C80", "title": "A tokenizer depends on what is left to read, and streams join", "statement": "Wherever a Tokenizer stands, after any calls and any errors, its further replies are those of a fresh Tokenizer on the rest of the source, with offset() and error offsets counted from there. As long as offset() is before the end of the source, every reply so far would have been the same if the source went on with any text; a token stands even at the end, unless it is a number that the text goes on with. Iterating over two sources joined yields the tokens of the first and then those of the second (unless a number at the end of the first is continued), and a tokenizer over accepted texts, each followed by a line feed, yields the tokens of their values text after text.", "quantifier": "all sources and all continuations, all series of calls (next, next_or_eof, peek) before and after, both tokenizers, any number of texts", "why_tests_cant": "A test compares particular splits of particular sources; independence of the past and of the future is a claim about every position of every source after every history of calls, errors included.", "anchors": ["src/parser.rs: Tokenizer, Tokenizer::next_or_eof, Tokenizer::peek, Tokenizer::offset, Iterator for Tokenizer, ByteIterator"]}
{"id": "C81", "title": "Reading a document back reserves exactly what it fills", "statement": "Value::from(document) and DocumentIter::next_value ask, for every array and object they return, for exactly as much capacity as that container then has elements, so none grows while it is filled. In all they ask for less room than the document has nodes, which is less than half the bytes of the text; any series of next, next_value and skip_next_value on one iterator stays within that bound.", "quantifier": "all accepted texts, configurations and capacities of the document, all positions of the iterator, all series of calls", "why_tests_cant": "Capacities requested are not observable from the values returned, and a test can only look at particular documents; that a length written in a node is never larger than what follows is an invariant of the parser over all texts.", "anchors": ["src/doc.rs: hydrate_value_from_node, From<GenericDocument> for Value, DocumentIter::next_value, DocumentIter::skip_next_value", "src/value.rs: Object::with_capacity"]}
{"id": "C82", "title": "Text in strings cannot change the structure of what is written", "statement": "For every value a client can put together, with any text whatsoever in its strings and keys, and every form of writing (compact, pretty, custom whitespace, Display): if what is written is accepted by a parser under any configuration, the value read has the same structure as the value written: the same containers with the same number of elements and entries in the same order, the same null, booleans and numbers, strings and keys at the same places. Strings kept as JSON source are read with the same source; strings kept as raw text are read character by character, each as itself or as the character its (wrong) escape says. What is written is accepted exactly if the value is within the recursion limit, its root is permitted and no raw text holds one of the nine control characters that are written with a letter past f. If it is within the recursion limit but such a character is there, the parser gives InvalidHexadecimal at the letter past f written for one.", "quantifier": "every value built from parsed and converted strings, every form of writing, every configuration and both source kinds", "why_tests_cant": "An injection is some text nobody thought of; the claim is about all texts in all positions of all values, including those the library is known to write wrongly.", "anchors": ["src/value.rs: Value::write_json_to, pretty_write_json_to_custom, to_json, to_json_pretty, Display", "src/string.rs: JsonString::as_json, AsJson::next", "src/parser.rs: Tokenizer::read_string_from_source, read_string_escape"]}
{"id": "C83", "title": "An error in a part of a text is the error of the text", "statement": "Every value, and every key, within an accepted text has a text of its own at a place where another text may be put. If the text put there is one the parser rejects by itself before its end, the whole is rejected with the same kind of error at the same byte of that part, whatever precedes and follows the place; if it is accepted by itself, the whole is accepted as the same value with that part replaced. By itself means with a recursion limit that counts from the place. Excepted are texts with something after a complete value, texts whose first token does not fit the place, and texts that end within a character.", "quantifier": "all accepted texts, all places of values and keys in them, all texts put there, every configuration and both source kinds", "why_tests_cant": "A test puts particular errors in particular places; the claim is about every text that is wrong in any way, in every context at every depth.", "anchors": ["src/parser.rs: Parser::read_from_source, read_tokens, read_array, read_object, Tokenizer::next, next_or_eof", "src/value.rs: Value::from_json_with_config, from_json_bytes_with_config"]}
{"id": "C84", "title": "What is decoded and written is bounded by what was read", "statement": "The text of a string parsed or converted from text has no more bytes than its JSON rendering, and the rendering at most six times as many as the text. The pretty form of any value that can be written is longer than the compact form by exactly one space per object entry, one line ending after the opening bracket of each non-empty container and after each element or entry, and the indentation of each of these lines by nesting depth; hence by at most the factor 2 + |line ending| + depth * |indentation|. So whatever text is parsed under a recursion limit n, to_json writes no more bytes than were read and to_json_pretty_custom at most 2 + |line ending| + n * |indentation| times as many (259 times for to_json_pretty with the default configuration); without a limit the growth of n nested arrays is quadratic, so the limit is what bounds it.", "quantifier": "every string, every value, every indentation and line ending, every source and configuration", "why_tests_cant": "A service that reformats untrusted texts relies on a worst case over all texts and depths; tests measure samples.", "anchors": ["src/value.rs: Value::to_json, to_json_pretty, to_json_pretty_custom, WriteState", "src/string.rs: AsJson, Decoded", "src/parser.rs: ParseConfig::recursion_limit"]}
{"id": "C85", "title": "Comparing tokens, errors and configurations", "statement": "token1 == token2, for tokens returned by Tokenizers over any sources after any calls, never panics and is true exactly if the two are of the same variant with the same boolean, the same number source or strings that decode to the same text; for tokens a client makes up from any strings, == never panics, is reflexive and symmetric and true only of tokens with the same content. So streams of tokens decide what Values do: if the tokens of two sources are == one by one and one is accepted, the other is accepted under the same configuration with a Value that is ==; and two texts accepted without trailing commas have == Values exactly if their tokens are == one by one. Two Errors are == exactly if offset, kind and payload are the same (with a delegate's errors compared by their own ==); JsonKinds, PeekableTokenKinds and ParseConfigs are == exactly if they are the same, and PeekableTokenKinds are hashed by one write of a word, different for different kinds.", "quantifier": "every two tokens from any tokenizers, every two sources and configurations, every two errors with any delegate error type, all kinds, both byte orders and pointer widths", "why_tests_cant": "All spellings of all strings, all pairs of texts, all delegate error types.", "anchors": ["src/parser.rs: Token, PeekableTokenKind, JsonKind, ParseConfig (derived PartialEq, Hash)", "src/error.rs: Error, ErrorKind (derived PartialEq)", "src/string.rs: PartialEq for JsonString"]}
{"id": "C86", "title": "One parse can feed two delegates", "statement": "A delegate that passes every callback on to two delegates, one after the other, gets from one parse what two parses would give: if each of the two parses returns a value, the one parse returns both and leaves both delegates in the same states; if only one of the two delegates fails, the parse fails with that delegate's error at the same offset; if the parser refuses the text, it refuses it with the same error in all three.", "quantifier": "every byte string or str, configuration, pair of delegate implementations (truthful where the configuration asks them) and initial states", "why_tests_cant": "Both delegates are arbitrary client code with state; a test fixes two of them and a text, and a callback repeated, skipped or made with the wrong operand shows only for a delegate that notices.", "anchors": ["src/parser.rs: Parser::{parse_bytes, read_tokens, read_object, read_array}, ParseDelegate"]}
{"id": "C87", "title": "A panicking callback ends the parse where it is", "statement": "If a callback of a delegate panics, that panic comes out of the parse, with the same payload, exactly when an error returned at the same place would have been returned: no callback is made after it, every callback before it had succeeded, the callbacks made until then are a beginning of those a delegate that never fails is told, and they have left behind the state that an error would leave. A parse with a delegate whose queries do not panic panics in no other way.", "quantifier": "every byte string or str, configuration, delegate implementation, state, and choice of which of its errors are panics", "why_tests_cant": "The delegate is arbitrary client code and may panic in any callback at any depth of any text; a parser that caught, delayed or replaced a panic, or made one more callback before passing it on, would be noticed only by a test that panics at that very place.", "anchors": ["src/parser.rs: Parser::{parse_bytes, read_tokens, read_object, read_array}, ParseDelegate"]}
{"id": "C88", "title": "Errors print on any formatter", "statement": "Displaying an Error makes the same write calls on every formatter, in the same order, whatever width, precision, fill or other options the format string asks for; their texts joined are what to_string() gives. A formatter that fails gets no further call and the failure is returned; what it got is a beginning of the text. The delegate's Display is used only for the delegate's own errors, after the prefix, with plain options, and however it ends (failure or panic) the printing ends so.", "quantifier": "every error, formatter, pattern of failures, set of options and Display implementation of the delegate's error", "why_tests_cant": "The crate's only test prints to a String that cannot fail and looks at nothing; formatters and the delegate's Display are client code, and a lost failure, or padding applied to a part only, shows only with a formatter that fails at that call or with those options.", "anchors": ["src/error.rs: impl Display for Error, impl Display for ErrorKind"]}
