# A Lean 4 model of khonsulabs/justjson — design

The first version of this file was written before the proofs (see the history); it is kept current.

## Trusted base

* Lean 4.33.0's kernel.
* The axioms `propext`, `Classical.choice` and `Quot.sound`, at most. The appendix lists them theorem by theorem. No axiom
  is added, nothing rests on compiled code; closed evaluations use `decide +kernel` or `rfl`, so the kernel does them.
* That the definitions in `lean/Verif/Model` say what the Rust source says. Each cites file and lines and names its
  simplifications.
* That the specifications in `lean/Verif/Spec` say what the English says. They do not use the parser or writer, and use
  the tokenizer only where a property is about its calls (`Spec/Tok.lean`: series of calls; `Spec/Machine.lean`, `Spec/Engine.lean`: the
  parser over the tokenizer's items) or about a counting copy of it (`Spec/Cost.lean`). They speak of bytes, of Lean's `Char` and of UTF-8 as in Lean core (`String.utf8EncodeChar`).
* The modelled behaviour of what the crate uses of core, alloc and heapless: `from_utf8`, `char::from_u32`, `char_indices`,
  byte slicing of `str`, `str::cmp`, `str::hash`, `checked_add`, integer `from_str`, float `from_str` (its syntax, and that it rounds to nearest),
  `Vec`, `heapless::Vec::push`, `fmt::Write` for `String`, `u8`/`usize` `Display`. `utf8Decode` (the model of `from_utf8`) is
  itself proved to accept exactly the encodings of texts.

## What is modelled

The library is a function of its input bytes plus user callbacks, so almost all of it is modelled, function by function, as
computable definitions.

| Rust | Lean |
|---|---|
| core facts | `Model/Utf8.lean`, `Model/Res.lean` |
| `error.rs` | `Model/Error.lean`; `Display` in `Model/Display.lean` |
| `string.rs`, `anystr.rs` | `Model/Str.lean` |
| `number.rs` | `Model/Number.lean` |
| `parser.rs`: `ByteIterator`, `Tokenizer` | `Model/Tokenizer.lean` |
| `parser.rs`: `Parser`, `ParseDelegate`, `ParseConfig`, `ParseState`, `()` as delegate | `Model/Parser.lean` |
| `value.rs`: `Value`, `Object`, `Entry`, `ValueParser`, accessors, conversions, equality | `Model/Value.lean` |
| `value.rs`: `WriteState`, `write_json*`, `to_json*`, `Display` | `Model/Write.lean` (writers with the provided `write_fmt`), `Model/WriteFmt.lean` (any implementation of `fmt::Write`) |
| `doc.rs` | `Model/Doc.lean` |
| `AsJson`, `Decoded` as iterators with their own state | `Model/Iter.lean` |
| tokenizer and parser with a count of bytes looked at | `Model/Cost.lean` |
| derived `PartialEq`/`Hash` of tokens, kinds, errors, configurations | `Model/Compare.lean` |

Every `fn` of `src/*.rs` outside the test modules lies in lines cited by a definition of the model.

Conventions

* A byte slice is `List UInt8`; the source slice is a parameter, an iterator's state is its offset (`Nat`).
* A Rust `str` is `List Char` (Lean's `Char` is Rust's `char`: the Unicode scalar values); its bytes are `utf8 s`.
  `from_utf8_unchecked` on invalid bytes and `from_u32_unchecked` on a non-scalar are *panic outcomes* of the model, so
  "never panics" covers these two sources of undefined behaviour. So are slice indices, `expect`, `unreachable!`, and
  arithmetic on the packed length word.
* `Result` with `&mut self` is the monad `M σ ε α = σ → Out σ ε α`, `Out = ok a s | err e s | panic p`. The state after an
  error is kept (tokenizers go on after errors).
* Unbounded loops and recursion take fuel. Running out is its own panic outcome, proved unreachable: that is termination.
* `&mut` into a part of a value is a function applied to that part (`modify…`).
* `usize` is `Nat`, except the packed `JsonStringInfo` word, which is modelled with its masks and `checked_add` for pointer
  width 32 or 64 (class `Arch`; every theorem holds for both).
* The input condition `Input g src` (`SliceFits`): at most `isize::MAX` bytes, Rust's own bound on slices, and for the
  `&str` entry points (`g = true`) that the bytes are UTF-8. It is the only condition on the source in the parsing theorems.
* Values given by a client are `Built` (strings `Obtainable`: parsed, or converted by `From<&str>`/`From<String>`; numbers
  parsed). `JsonString` and `JsonNumber` have private fields, so there are no others.
* A user delegate is a record of arbitrary functions that may fail (`Delegate`); a user `NodeCollection` likewise; a user `fmt::Write` is an arbitrary
  transition function; a user `Hasher` is two arbitrary functions.

## What is not modelled

* Allocation failure, memory, and time other than the number of bytes looked at (C71). The stack is modelled as the number of
  nested calls (C72), not in bytes.
* Derived `Debug` of the private `ParseState`, and of documents over a collection that does not print as a list; `Debug` with formatter options other than `#`, or on formatters that fail. (`Debug` of values, objects, entries, strings, numbers, nodes, documents, document iterators, tokens, errors, configurations and kinds is in `Model/Shown.lean`, with core's builders as documented and its table of printable characters and its text for `PhantomData` as parameters.) Core's algorithms for reading floats (fast path, Eisel-Lemire, slow path). The model reads sign, mantissa and exponent as core's `dec2flt` does, with its cut-off of long exponents, and then assumes what core documents, rounding to nearest (`FloatFormat.round`).
* Unwinding. A delegate's or collection's callback may return an error or panic; a panic is an outcome of the model. What the callbacks had done before it is given by C87 (the state an error there leaves); what the panicking callback itself had done, and destructors run by unwinding, are not modelled.
* Trait plumbing: lifetimes, generics, feature flags, `Deref`, `size_hint`/`ExactSizeIterator` other than of `AsJson`.

## Findings

Where the English property is false of the code, the theorem named `…_refuted` proves that, and a theorem ending in
`_partial` proves what holds; the conditions are exact (if and only if).

1. `\b` decodes to U+0007 (C18).
2. Surrogate pairs whose payload has bit 16 set lose 0x10000, e.g. U+20000 (`merge_surrogate_pair` uses `|`) (C18).
3. Control characters are written with the hexadecimal digits in the wrong order and, for a low nibble from 10 on, with a
   letter past `f`: U+000B as `\ul000`, which is not JSON (C24, C49).
4. U+0080–U+00FF are counted as one byte in the tracked lengths of converted text (C25).
5. `==` of JSON source with raw text also compares JSON lengths, so it is not decoded equality and not transitive (C20), and
   disagrees with `cmp` (C22).
6. Strings with escapes hash character by character, others at once: a hasher that sees the split tells equal strings apart
   (C23).
7. Converting a very long text that needs escapes panics once the counted length passes the packed word, and so does
   `as_json` on such text (it counts again) (C48).
8. The upper bound of `AsJson::size_hint` can be too small (C47).
9. `ExpectedDigit` and `ExpectedDecimalDigit` print the same message (C60); the message of `Unexpected` prints the byte as a
   number, and that of `UnclosedObject` shows doubled braces.

## How each property is modelled and proved

| Id | Model part | Method |
|---|---|---|
| C01 | `parseBytes` with `()` | lockstep of `()` with `ValueParser`, then C02 |
| C02 | `parseBytes` with `ValueParser` | soundness by induction on fuel, completeness by induction on derivations of the grammar, unambiguity by prefix-freeness |
| C03 | `allow_trailing_commas` | the grammar has the flag; corollaries of C02; validation and documents through C07 (Props/EntryConfig.lean) |
| C04 | `begin_nest`/`end_nest` | C02 carries `depth ≤ limit`; the error by a separate induction; validation and documents through C07 |
| C05 | root check | case analysis on the run; validation and documents through C07 |
| C06 | tokenizer with `GUARANTEED_UTF8` true/false | equality of the two string readers on UTF-8, lifted by congruence |
| C07 | three delegates | relational theorem over delegates |
| C08–C10 | `Nodes`, `hydrate`, iterators | "nodes = flattening of the open containers"; induction on values; for series of calls, induction over the calls |
| C11, C52 | `Nodes` with capacity | lockstep with failure, counting |
| C63 | `Nodes` on any collection | the fold of the callbacks over the denoted tree, for an arbitrary lawful collection |
| C64 | derived `PartialEq` of documents and nodes | listings compare node by node exactly as trees do, by induction on the value with any suffix |
| C65 | where the strings and numbers of results come from (`AnyStr::Borrowed`) | specification `Spec/Borrow.lean` (`Borrows`, `BorrowsFrom`: disjoint parts of the source, in order); induction on the grammar derivation, on tokenizer call lists, and the told-tokens theorem for delegates |
| C66 | `Decoded`, `AsJson` as iterators; `Display` of both and of `JsonString` on any `fmt::Write` (`Model/Iter.lean`) | `IterYields` relation from collecting, induction on calls; measures bound the fuel, invariant on the nibble counter |
| C67 | parser against tokenizer | grammar over tokens `Spec/Phrase.lean`; induction on the byte grammar one way, on the token grammar over the spelled-out source the other way; prefix-freeness by induction |
| C68 | `Spec/Viable`: `Completable` (a beginning of an admitted text), `Blames` (which token which error kind is about), `GaveUp` (how the error comes about at a point) | induction on the run carrying a completion of what has been read (`HoleAt`, `ElemsAt`, `MembersAt` in `Lemmas/Viable`); tokenizer error kinds by a compositional predicate on its monad |
| C69 | `parseBytes` with an arbitrary delegate, on a source and on a continuation of it | one induction over the two runs in lockstep: at every offset the same token is read on both sides or the source ended; `logged D` with the prefix order on the lists of calls |
| C70 | Two runs of the same parser over the same input under `cfg` and a looser `cfg'`, from states alike but for the remaining depth; the specification `Spec/Looser.lean` lists the errors that are about an option that differs. | Lockstep induction on the fuel (`run_looser`): every step gives the same result in alike states, or an error the difference is about; with a delegate that does not fail, nothing goes wrong before the place where a part of the parser began (`ahead_run`), which gives the order of the offsets. |
| C71 | `Model/Cost.lean`: the tokenizer and the parser once more, each loop as it is written in the code, one byte at a time, with a counter of the accesses to the source. `core::str::from_utf8` counts as one access per byte of its argument; copying, decoding and the work of the delegate are not counted. | A simulation (`Mirror`) shows at once that forgetting the counter gives `parseBytes`, and that each function keeps the counter below five times the offset plus a budget: a token that is not a number leaves three accesses to spare, two of which pay for the `peek` of an array. |
| C72 | `Model/Stack.lean`: the recursive functions of the crate (`read_tokens`, `write_json_value`, `hydrate_value_from_node`, `skip_next_value`, derived `==` and drop of `Value`), each with the number of nested calls that the stack has room for; one more is the outcome `Panic.stack`. | Induction on the fuel or on the value. `Need` says that a run has a threshold, below which the stack is full and above which it is the run on an unbounded stack; a `Gauge` relates results of a delegate to it. The bounds by the limit and by the brackets are an invariant on the remaining depth and the remaining source. |
| C73 | `Spec/Replay.lean`: callbacks made one after the other on a stack of what earlier ones returned. | `Lemmas/Replay.lean`: induction on the fuel of the reader; the list and the verdict are constructed without reference to the delegate, and every delegate's run follows the replay of the list. C63's exact calls replay that list on a collection. |
| C74 | `Spec/Machine.lean`: the items of the tokenizer, and a machine with a want and a stack of open containers that turns them into callbacks with offsets and an error. | `Lemmas/Machine.lean`: the machine from an offset on; `Lemmas/Replay.lean`: the same induction as C73 shows that the list and the verdict are the machine's, with the remaining depth equal to the limit less the height of the stack. `Spec/Engine.lean` is the machine for any delegate, untruthful ones too; `Lemmas/Engine.lean`: a part of the recursive parser drives the engine from its start to where it stops, by induction on the fuel. |
| C75 | `Model/Number.lean`: what core's `dec2flt` reads of the text, and rounding of a rational number to the bits of `f32`/`f64`. `Spec/Float.lean`: the rational number a literal stands for, the value of bits by IEEE 754, and when bits are nearest to a number. | `Lemmas/Float.lean`: the bits mean what IEEE 754 says; they count up through the values, so the rounded bits are nearest and no others are; `Props/Numbers.lean` computes what is read of a literal; a cut-off exponent of a literal of at most 60000 bytes gives infinity or zero, which is right. |
| C76 | `Spec/Opaque.lean`: two delegates tied by relations that every callback keeps; converted errors; observers. | `Lemmas/Opaque.lean`: by C74 both parses are runs of the engine over the same items; induction on the items with related stacks. `Lemmas/Flagged.lean`: where trailing commas are allowed any delegate is tied to a truthful one, which frees C37, C53, C58, C73 and C74 of the hypothesis there. The counter and the parser of `Value`s are tied as an example. |
| C77 | `Spec/Calls.lean`: the list of `write_str` and `write_char` calls for a value, compact and pretty, and how many lines and levels of indentation there are. | `Lemmas/Calls.lean`: the trace of calls of C29 is that list (induction on the value); counting and non-emptiness by induction. Writers with a `write_fmt` of their own: `Spec/WriteFmt.lean`, `Lemmas/WriteFmt.lean`, the same trace argument with one call of `write_fmt` per string. |
| C78 | Places are lists of indices (Spec/Place.lean: `partAt`, `replaceAt`, `nth`, `setNth`); the value read is `Model/Parser.lean`'s through the grammar of C01. | Induction on the grammar of elements and of members gives the text of each element, entry and pair of siblings with a replacement rule; induction on the place composes the steps. |
| C79 | The derives as trees of core's builders (Model/Shown.lean: `Shown`, `flat`, `lines`, `padText`, `escapeDebug`); which characters core prints as themselves is a parameter `plain` the theorems quantify over. | Both forms are rewritten as one renderer with an indentation level (`render_at`); words, quoted texts, items and fields are each uniquely readable in front of what can follow them (`at_split`), by induction on the tree; then the trees of the types are injective. Visible characters by induction on the tree. The text itself is given by a separate printer with names, fields and indentation level (Spec/Named.lean) and shown equal by induction on the value (`at_value`). Documents and their iterators (Props/NamedDoc.lean) hold whatever one-line text core prints for `PhantomData`: it cancels. A delegate's payload is an arbitrary text (Props/NamedParts.lean): the padding of `{:#?}` is injective (`shift_inj`), and what stands before and after the payload cancels. |
| C80 | The tokenizer of `Model/Tokenizer.lean` as a client calls it (`Spec/Tok.lean`); `Spec/Stream.lean`: histories further on in a source, streams of tokens, texts on lines. | `Lemmas/Window.lean`: each function of the tokenizer on a source `q` and on a source `p ++ q ++ t` containing it, by a relation that composes: the state only moves on, and if it stays before the end of `q`, or `t` is empty, the outcome is the same, shifted. Histories by induction over the calls. |
| C81 | `Model/Reserve.lean`: the readers of `Model/Doc.lean` written again with the capacities they ask for; `Spec/Reserve.lean`: the sizes of the containers of a value. | `Lemmas/Reserve.lean`: forgetting the capacities gives the readers of `Model/Doc.lean` (induction over fuel); on the listing of a value, the capacities are its sizes and their sum is less than its nodes (induction over values); series of calls by induction, each call moving past what it read. |
| C82 | Values and the writing of `Model/Write.lean`; `Spec/Written.lean`: what each character of raw text is read back as, values of the same structure. | The literals of an accepted output are the bodies as rendered (`strLits`), so each character was written as a valid item; then the output is spelled from the value with those items, and a text denotes one tree (`text_unique`). For where it is rejected, `Lemmas/Spoiled.lean`: the machine goes over what is written before the letter (induction on the layout). |
| C83 | The machine of `Spec/Machine.lean`, equal to the parser (C74); `Spec/Local.lean`: the configuration for a part, the errors about a first token. | `Lemmas/Local.lean`: the machine passes over whatever the grammar calls a value (induction on the grammar) and arrives at a place with as many open containers as the path is long (induction on the path); tokens of a part are the tokens of the whole, shifted; the runs on part and whole are related by a relation of their stacks; C69 for what follows the error. |
| C84 | The writers and strings of Model/Write.lean, Model/Str.lean; counts of line ends, indentation steps and entries by recursion on the value (Spec/Size.lean). | `C28_layout` gives the texts; byte lengths by mutual induction on value, elements and entries (`layout_size`), bounds likewise (`ends_le`, `steps_le`); strings item by item and character by character. |
| C85 | The derives as comparisons of discriminants and fields (`Model/Compare.lean`); `Spec/Compare.lean`: when two tokens say the same. | Case analysis with C20 for parsed strings; for streams, C67 reduces both sides to the grammar over tokens, and an induction on derivations carries a derivation over to equal tokens, and back from values of the same content where there are no trailing commas. |
| C86 | `Spec/Pair.lean`: the delegate that passes every callback on to two. | By C73 all three parses are replays of one list of callbacks; an induction on the list splits a step of the pair into a step of each (`replay_splits`), and folds of the pair project to folds of the first, so it is truthful if that is. |
| C87 | `Spec/Unwind.lean`: a delegate some of whose errors are panics instead, and one that catches its panics and returns them as errors. | A simulation of the two parses by induction on the fuel (`Lemmas/Unwind.lean`), where an error of the one that is a panic of the other ends both; C12 excludes other panics; C58 and C36 give what had been told. |
| C88 | `Model/ErrorFmt.lean`: the `Display` impls of error.rs as calls on a writer, with `write!` as core's `fmt::write` does it and a formatter's options. | Case analysis over kinds; sequencing of calls that may fail (`then_then`, `then_calls`). |
| C12 | every panic outcome | soundness of outcomes and a fuel bound |
| C13–C15, C50 | tokenizer as a state machine | per-call case lemma `tok_cases`; histories by induction over call lists |
| C16–C18 | string reader, `Decoded` | string items (plain, escape, `\u`, pair) |
| C19–C23 | `eq`, `cmp`, `hash` | the shapes a client's strings can have; UTF-8 order = code point order |
| C24, C25, C46–C48 | `AsJson`, `From<&str>` | induction over characters |
| C26–C29, C35, C49 | writer | the writer as a list of calls on the sink; layout and minifier specifications |
| C30, C41 | `Object`, `Value` accessors | list lemmas |
| C31, C32, C45 | numbers | grammar of literals, positional value |
| C33, C53–C55 | all error sites | a relation between kind, offset and source, kept along the run; viable prefixes |
| C34 | grammar | prefix-freeness |
| C36, C37, C56–C59 | arbitrary delegates | induction on fuel for arbitrary delegates; fold over the denoted tree; logs of calls |
| C38 | `StringParser`, `NumberParser` | run characterisation |
| C39, C40, C43, C44 | small functions | case analysis over shapes; induction on values |
| C42 | configs | corollary of C02 |
| C51 | grammar and parser | composition and decomposition of texts |
| C60 | `Display` | injectivity of decimal printing, case analysis over kinds |
| C61 | bytes entry points | induction on the grammar |
| C62 | accessors, conversions, edits | abstraction to plain data, one step then paths then sessions |

## Testing the theorems

`seeded/LOG.jsonl`: wrong programs, one per line. Each was made by editing the model in a scratch copy and rebuilding; the
line names the theorems that stopped proving and, where none did, the theorem tightened since.

## Instances

Each file of `lean/Verif/Props` ends with a section *Instances*, in which its theorems are applied to concrete cases, mostly the
text `exSrc` of `Props/Ex.lean`, which has every kind of value, white space, an escape and a character beyond ASCII, and the text
`exBad`, which is rejected. So every hypothesis is met by a case that is not trivial.

## Testing the model

`lean/Verif/Tests` runs the project's own tests on the model: every `#[test]` of `src` and `examples` (`Unit.lean`), the files
of `tests/jsonorg`, `tests/roundtrip` and `tests/JSONTestSuite` (`JsonOrg.lean`, `Suite1.lean`, `Suite2.lean`), each evaluated
by the kernel. Left out because of their size: `pass1.json` and the two files of 100 000 and more brackets. These are tests
that the model is faithful, not proofs of any property, and no claim in the manifest rests on them.

Comparing and hashing strings decode first in `Model/Str.lean`; `Model/Lazy.lean` models the code's own loops, which stop at
the first difference, and the two are proved equal (`Props/Lazy.lean`).

The loops of `Model/Tokenizer.lean` that skip a run of bytes at once are also modelled byte by byte in `Model/Cost.lean`, and
the two are proved equal (`Lemmas/Cost.lean`).

## Appendix: theorems and axioms

In parentheses the axioms: p = `propext`, c = `Classical.choice`, q = `Quot.sound`.

* C01 (proved) Validation accepts exactly JSON: `C01_validate_accepts_iff` (pcq), `C01_validate_str_accepts_iff` (pcq), `C01_validate_with_config_accepts_iff` (pcq)
* C02 (proved) Parsed Value is the tree the text denotes: `C02_value_is_denoted_tree` (pcq), `C02_value_complete` (pcq), `C02_text_unambiguous` (pcq), `C02_denotes_injective` (pcq), `C02_from_json_bytes` (pcq), `C02_from_json` (pcq)
* C03 (proved) allow_trailing_commas is exactly one optional comma: `C03_trailing_commas_grammar` (pcq), `C03_strict_implies_lenient` (pcq), `C03_only_difference_is_illegal_trailing_comma` (pq), `C03_illegal_trailing_comma` (pcq), `C03_allowing_trailing_commas` (pcq), `C03_validate_and_document` (pcq), `C03_configured_entry_points` (pcq), `C03_validate_and_document_difference` (pcq), `C03_commas` (pcq)
* C04 (proved) Recursion limit is exact: `C04_recursion_limit_exact` (pcq), `C04_too_deep` (pcq), `C04_too_deep_value` (pcq), `C04_default_limit` (pcq), `C04_without_limit` (pcq), `C04_validate_and_document` (pcq)
* C05 (proved) Root type restriction: `C05_root_restriction` (pcq), `C05_scalar_root_error` (pcq), `C05_strict` (pcq), `C05_strict_scalar` (pcq), `C05_validate_and_document` (pcq)
* C06 (proved) &str and &[u8] entry points agree: `C06_str_bytes_agree` (pcq), `C06_str_bytes_agree_delegate` (pcq), `C06_tokenizers_agree` (pcq)
* C07 (proved) All parse entry points agree: `C07_validate_agrees` (pcq), `C07_document_agrees` (pcq), `C07_plain_bytes_entry_points_agree` (pcq), `C07_plain_str_entry_points_agree` (pcq), `C07_configured_entry_points_agree` (pcq)
* C08 (proved) Document converts to the same Value: `C08_document_to_value` (pcq)
* C09 (proved) Document nodes are the pre-order flattening: `C09_nodes_are_preorder` (pcq), `C09_listing_injective` (pq)
* C10 (proved) Document iteration steps over whole values: `C10_next_and_skip` (pcq), `C10_every_position` (pcq), `C10_any_series_of_calls` (pcq)
* C11 (proved) Bounded documents: `C11_bounded_ok_iff` (pcq), `C11_too_large` (pcq), `C11_rejected` (pcq), `C11_capacity_respected` (pcq)
* C12 (proved) Parsing never panics, never reaches UB, always terminates: `C12_no_panic` (pcq), `C12_no_panic_any_delegate` (pcq)
* C13 (proved) Tokenizer progress and bounds: `C13_progress` (pcq), `C13_no_panic` (pcq), `C13_finitely_many_items` (pcq), `C13_fused` (pcq)
* C14 (proved) peek predicts and does not consume: `C14_peek_none_iff` (pcq), `C14_peek_does_not_consume` (pcq), `C14_peek_kind` (pcq), `C14_peek_unrecognized` (pcq)
* C15 (proved) next_or_eof differs from next only at the end: `C15_next_or_eof` (pcq)
* C16 (proved) Tokenizer string tokens are always well formed: `C16_token_strings_well_formed` (pcq), `C16_no_string_operation_panics` (pcq)
* C17 (proved) Tracked lengths of parsed strings are right: `C17_parsed_lengths` (pcq)
* C18 (partial) Decoding follows RFC 8259: `C18_decoded_items` (pcq), `C18_decoding_partial` (pcq), `C18_refuted` (pcq)
* C19 (proved) JsonString == &str means decoded equality: `C19_while_decoding` (pcq), `C19_eq_str` (pcq)
* C20 (partial) JsonString == JsonString means decoded equality: `C20_while_decoding_partial` (pcq), `C20_eq_partial` (pcq), `C20_eq_parsed` (pcq), `C20_eq_sound` (pcq), `C20_refuted` (p), `C20_not_transitive` (p)
* C21 (proved) JsonString ordering is the code point order of decoded text: `C21_while_decoding` (pcq), `C21_cmp_is_code_point_order` (pcq), `C21_cmp_str` (pcq), `C21_total_order` (pcq)
* C22 (partial) Ord and Eq of JsonString agree: `C22_ord_eq_partial` (pcq), `C22_exact_partial` (pcq), `C22_ord_eq_parsed` (pcq), `C22_refuted` (p)
* C23 (partial) Hash is consistent with Eq: `C23_while_decoding_partial` (pcq), `C23_hash_is_str_hash_partial` (pcq), `C23_hash_consistent_partial` (pcq), `C23_any_hasher_partial` (pcq), `C23_refuted` (p), `C23_exact_partial` (pcq)
* C24 (partial) Raw text round-trips through JSON: `C24_roundtrip_partial` (pcq), `C24_refuted` (pcq)
* C25 (partial) Lengths of converted raw text: `C25_lengths_partial` (pcq), `C25_exact_partial` (pcq), `C25_refuted` (p)
* C26 (proved) to_json minifies: `C26_to_json_any_config` (pcq), `C26_to_json_not_longer` (pcq), `C26_to_json_minifies` (pcq)
* C27 (proved) to_json / parse round-trip: `C27_to_json_roundtrip` (pcq), `C27_pretty_roundtrip` (pcq), `C27_pretty_default_roundtrip` (pcq)
* C28 (proved) Pretty output is compact output plus whitespace: `C28_layout` (pcq), `C28_pretty_minifies` (pcq)
* C29 (proved) Writer failures propagate: `C29_calls` (pq), `C29_failures` (pq), `C29_provided_write_fmt` (pq), `C29_write_fmt_failures` (pcq)
* C30 (proved) Object lookup by decoded key: `C30_get` (pcq), `C30_get_entry_mut` (pcq), `C30_get_mut` (pcq), `C30_write_read` (pcq), `C30_value_get` (pcq), `C30_value_get_mut` (pcq)
* C31 (proved) Number tokens follow the grammar and are maximal: `C31_number_tokens_maximal` (pcq)
* C32 (proved) Integer accessors: `C32_unsigned` (pcq), `C32_signed` (pcq), `C32_value` (p), `C32_agree` (pcq)
* C33 (proved) Error offsets are in the document: `C33_error_offset_in_bounds` (pcq), `C33_entry_points` (pcq)
* C34 (proved) Truncation is detected: `C34_truncation` (pcq), `C34_root_end` (pcq), `C34_truncation_validate` (pcq), `C34_truncation_document` (pcq)
* C35 (proved) Insignificant whitespace does not matter: `C35_same_value_iff` (pcq), `C35_whitespace_is_insignificant` (pcq), `C35_minified_accepted` (pcq)
* C36 (proved) Delegate errors stop the parse and are reported: `C36_delegate_error_stops` (pcq)
* C37 (proved) Delegate callback protocol: `C37_callback_protocol` (pcq), `C37_rejection_independent` (pcq), `C37_events` (pcq)
* C38 (proved) Single-value parsers: `C38_string_from_json` (pcq), `C38_number_from_json` (pcq), `C38_string_ok_iff` (pcq), `C38_number_ok_iff` (pcq), `C38_string_wrong_kind` (p), `C38_number_wrong_kind` (p)
* C39 (proved) String views agree: `C39_is_empty` (pcq), `C39_string_views` (pcq)
* C40 (proved) AnyStr ownership is invisible: `C40_ownership_invisible` (pcq)
* C41 (proved) Value accessors and indexing: `C41_accessors` (pq), `C41_accessors_mut` (pq), `C41_as_str` (pcq), `C41_get_index` (pq), `C41_get_index_mut` (pcq), `C41_index` (pcq), `C41_index_key` (pcq)
* C42 (proved) Config monotonicity: `C42_config_monotone` (pcq), `C42_validate_and_document` (pcq)
* C43 (proved) JsonStringInfo packing: `C43_flag_and_length` (pcq), `C43_hash` (pcq), `C43_new_unchecked` (pcq), `C43_debug` (pcq), `C43_debug_tells` (pcq), `C43_info_packing` (pcq), `C43_any_additions` (pcq)
* C44 (proved) Value equality is equality of denoted content: `C44_eq_parsed` (pcq), `C44_eq_of_texts` (pcq), `C44_equivalence` (pcq), `C44_eq_built` (pcq)
* C45 (proved) Float accessors accept every JSON number: `C45_float_some` (pcq), `C45_value` (pcq)
* C46 (proved) Escape rendering is minimal and safe: `C46_rendering_is_safe_and_minimal` (pcq), `C46_plain_text_is_kept` (pcq)
* C47 (partial) size_hint of the JSON rendering brackets what is left: `C47_exact_everywhere_partial` (pcq), `C47_lower_bound_partial` (pcq), `C47_json_source_partial` (pcq), `C47_exact_partial` (pcq), `C47_refuted` (p)
* C48 (partial) Converting and rendering text never panics: `C48_no_panic_partial` (pcq), `C48_refuted` (pcq), `C48_exact_partial` (pcq)
* C49 (partial) Built values read back from what is written: `C49_built_roundtrip_partial` (pcq), `C49_exact_partial` (pcq), `C49_refuted` (pcq)
* C50 (proved) The tokenizer splits a source into JSON lexemes, and nothing is lost between them: `C50_token_is_lexeme` (pcq), `C50_lexeme_is_token` (pcq), `C50_stream_covers_source` (pcq), `C50_tokens_of_text` (pcq)
* C51 (proved) Texts compose and decompose: `C51_array_of_texts` (pcq), `C51_object_of_texts` (pcq), `C51_array_decomposes` (pcq), `C51_object_decomposes` (pcq)
* C52 (proved) How large a bounded document must be: `C52_nodes_le_half` (pcq), `C52_half_suffices` (pcq), `C52_whole_is_unbounded` (pcq)
* C53 (proved) An error's kind and offset describe the source: `C53_error_describes_source` (pcq), `C53_validation` (pcq), `C53_document` (pcq), `C53_delegate` (pcq), `C53_tokenizer` (pcq), `C53_str_utf8` (pcq)
* C54 (proved) Errors of &str sources are at character boundaries: `C54_error_at_boundary` (pcq), `C54_document` (pcq), `C54_tokenizer` (pcq)
* C55 (proved) Malformed and incomplete texts can be told apart: `C55_malformed_stays_malformed` (pcq), `C55_malformed_stays_malformed_bytes` (pcq), `C55_prefix_error_at_end` (pcq), `C55_document` (pcq)
* C56 (proved) Callbacks always form a traversal: `C56_callbacks_bracketed` (pcq), `C56_success_is_traversal` (p)
* C57 (proved) Open containers and callbacks are bounded: `C57_open_containers_bounded` (pcq), `C57_callbacks_linear` (pcq)
* C58 (proved) What is told depends on the source only: `C58_source_decides` (pq), `C58_trailing_commas` (pcq), `C58_comparable` (pcq)
* C59 (proved) The parser tells a delegate the tokens of the source: `C59_tokens_told` (pcq)
* C60 (partial) A printed error identifies position and kind: `C60_messages_partial` (pcq), `C60_refuted` (pcq), `C60_position_and_byte` (pcq)
* C61 (proved) Byte sources that are accepted are UTF-8: `C61_parsed_bytes_are_utf8` (pcq), `C61_accepted_bytes_are_utf8` (pcq), `C61_consumed_is_utf8` (pcq)
* C62 (proved) Editing values is editing plain data: `C62_editing_session` (pcq), `C62_reading` (pcq), `C62_content` (pcq), `C62_parsed` (pcq), `C62_conversions` (pcq), `C62_written_reads_back` (pcq)
* C63 (proved) Documents on collections a client implements: `C63_any_collection` (pcq), `C63_infallible_collection` (pcq), `C63_crate_collections` (pq), `C63_exact_calls` (pcq)
* C64 (proved) Documents compare like the values they hold: `C64_document_eq` (pcq), `C64_equivalence` (pcq)
* C65 (proved) Parsing copies no text: `C65_value` (pcq), `C65_document` (pcq), `C65_tokenizer` (pcq), `C65_delegate` (pcq), `C65_total_size` (pcq), `C65_single` (pcq)
* C66 (proved) String iterators call by call, and Display on any formatter: `C66_decoded` (pcq), `C66_display` (pcq), `C66_as_json` (pq)
* C67 (proved) The parser is the tokenizer and a grammar over tokens: `C67_parser_is_tokenizer_and_grammar` (pcq), `C67_unambiguous` (p)
* C68 (proved) A parse gives up at the first token that is wrong: `C68_gives_up_at_first_wrong_token` (pcq), `C68_validation` (pcq), `C68_lexical_errors_are_the_tokenizers` (pcq), `C68_all_well_before_error` (pcq), `C68_unfinished` (pcq), `C68_root` (pcq), `C68_tokenizer_kinds` (pcq)
* C69 (proved) Errors and callbacks stand, whatever text follows: `C69_any_delegate` (pcq), `C69_error_stands` (pcq), `C69_error_stands_bytes` (pcq), `C69_document` (pcq), `C69_calls_stand` (pcq)
* C70 (proved) An option changes only the errors it is about: `C70_any_delegate` (pcq), `C70_value` (pcq), `C70_never_earlier` (pcq), `C70_document` (pcq)
* C71 (proved) Parsing looks at the source a bounded number of times per byte: `C71_counter_only_counts` (pq), `C71_parse_linear` (pq), `C71_entry_points` (pcq), `C71_tokenizer_counter_only_counts` (pq), `C71_tokenizer_linear` (pq)
* C72 (proved) The recursion limit bounds the stack: `C72_recursion_limit` (pq), `C72_default` (pq), `C72_brackets` (pq), `C72_parse_threshold` (pcq), `C72_value_exact` (pq), `C72_any_delegate_exact` (pq), `C72_height_is_depth` (pcq), `C72_no_limit_overflows` (pcq), `C72_write` (pq), `C72_write_exact` (pq), `C72_document_exact` (pq), `C72_skip_exact` (pq), `C72_eq` (pcq), `C72_eq_exact` (pcq), `C72_drop_exact` (pq), `C72_debug_exact` (pcq), `C72_limit_covers_all` (pcq)
* C73 (proved) A parse is a list of callbacks that the source decides: `C73_script` (pcq)
* C74 (proved) The parser is a pushdown machine over the tokens: `C74_machine` (pcq), `C74_value` (pcq), `C74_callback_offset` (pcq), `C74_any_delegate` (pcq)
* C75 (proved) Float accessors give the nearest float: `C75_nearest` (pcq), `C75_unique` (pcq), `C75_exact` (pcq), `C75_integer` (pcq), `C75_monotone` (pcq), `C75_value` (pcq), `C75_cut_off` (pcq)
* C76 (proved) What a delegate returns is opaque to the parser: `C76_opaque` (pcq), `C76_same_callbacks` (pcq), `C76_errors_convert` (pcq), `C76_observer` (pcq)
* C77 (proved) The calls made on a writer: `C77_calls` (pcq), `C77_panics` (pq), `C77_how_many` (pcq), `C77_at_most` (pcq), `C77_no_empty_call` (pcq), `C77_any_write_fmt` (pcq)
* C78 (proved) Every value in a text has a text of its own, which can be replaced: `C78_part` (pcq), `C78_entry` (pcq), `C78_order` (pcq)
* C79 (proved) Debug output names everything, tells apart whatever differs, and is one visible line: `C79_values` (pcq), `C79_strings` (pcq), `C79_numbers` (pcq), `C79_nodes` (pcq), `C79_tokens` (pcq), `C79_errors` (pcq), `C79_configs` (pcq), `C79_kinds` (pcq), `C79_one_line` (pcq), `C79_info` (pcq), `C79_text` (pcq), `C79_error_text` (pcq), `C79_config_text` (pcq), `C79_kind_text` (pcq), `C79_document_text` (pcq), `C79_documents` (pcq), `C79_documentIters` (pcq), `C79_document_one_line` (pcq), `C79_parts` (pcq), `C79_part_text` (pcq), `C79_error_kinds` (pcq), `C79_payload_text` (pcq), `C79_delegate_errors` (pcq)
* C80 (proved) A tokenizer depends on what is left to read, and streams join: `C80_fresh_on_the_rest` (pcq), `C80_replies_stand` (pcq), `C80_tokens_stand` (pcq), `C80_streams_join` (pcq), `C80_lines` (pcq)
* C81 (proved) Reading a document back reserves exactly what it fills: `C81_from_document` (pcq), `C81_next_value` (pcq), `C81_any_series_of_calls` (pcq), `C81_same_calls` (pq)
* C82 (proved) Text in strings cannot change the structure of what is written: `C82_structure_kept` (pcq), `C82_accepted_iff` (pcq), `C82_rejected_at` (pcq)
* C83 (proved) An error in a part of a text is the error of the text: `C83_error_in_place` (pcq), `C83_error_in_key` (pcq)
* C84 (proved) What is decoded and written is bounded by what was read: `C84_strings` (pcq), `C84_pretty_adds` (pcq), `C84_pretty_bound` (pcq), `C84_reformatted` (pcq), `C84_default` (pcq), `C84_without_limit` (pcq)
* C85 (proved) Comparing tokens, errors and configurations: `C85_tokens` (pcq), `C85_tokens_made_up` (pcq), `C85_equal_streams` (pcq), `C85_streams` (pcq), `C85_errors` (pcq), `C85_delegate_errors` (pcq), `C85_kinds` (pq), `C85_hash` (pcq)
* C86 (proved) One parse can feed two delegates: `C86_one_parse_for_two` (pcq), `C86_both_return` (pcq), `C86_one_fails` (pcq)
* C87 (proved) A panicking callback ends the parse where it is: `C87_panics_unwind` (pcq), `C87_where_it_panics` (pcq), `C87_told_before` (pcq)
* C88 (proved) Errors print on any formatter: `C88_any_formatter` (pcq), `C88_delegate_display` (pcq), `C88_kinds` (pcq), `C88_failures` (pcq)
