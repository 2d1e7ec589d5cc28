# urlstd in Lean 4: design of the model and of the proofs

The subject is `src/urlstd/parse.py` of miute/urlstd (one file, 4364 lines; about
1700 of them are code).  The model is a shallow embedding: small total computable
functions over lists of code points that follow the Python functions branch by
branch, exceptions as values, mutation as returned state.

## 1. What is modelled, and how

| Python | Lean | module |
|---|---|---|
| `str` | `Str = List Nat`, a list of code points (surrogates included) | `Py` |
| `bytes` | `Bytes = List Nat` | `Py` |
| exceptions | `Err` (one constructor per exception class that can occur) | `Py` |
| `int(text, base)` | `pyInt` (whitespace, sign, radix prefix, underscores, Unicode digits, `sys.set_int_max_str_digits`) | `Py` |
| `str.encode("utf-16","surrogatepass").decode("utf-16","replace")`, UTF-8 codec | `utf16Units`, `utf16Decode`, `utf8EncodeCP`, `utf8Decode` | `Codec` |
| `urllib.parse.quote/quote_plus/unquote_to_bytes` | `quoteFromBytes`, `quote`, `quotePlus`, `unquoteToBytes` | `Codec` |
| `string_percent_encode/decode`, `urlencode`, `parse_qsl` | same names in camel case | `Codec` |
| `IPv4Address`, `IPv6Address`, `IDNA`, `Host` | `ipv4Parse`, `ipv6Parse`, `domainToAscii`, `hostParse`, `hostSerialize`, ... | `Host` |
| `URLRecord` | `Rec`, `serializeUrl`, `shortenPath`, ... | `Record` |
| `BasicURLParser._parse_*`, `parse`, `parse_url` | `parseScheme`, ..., `run`, `basicParse`, `parseUrl` | `Parser` |
| the arguments of the log messages of `BasicURLParser` | `Note`, `stepNotes`, `parseNotes` | `Notes` |
| `URL`, `URLSearchParams`, `Origin`, `urlparse` | `URLObj`, `Op`, `applyOp`, `sp*`, `Origin`, `urlparse` | `Url` |
| `URLValidator`, `HostValidator`, `ValidityState`, `IDNA.domain_to_unicode` | `urlIsValid`, `hostIsValid`, `ValidityState`, ... | `Validator` |
| the path list of a record as a shared mutable object | `Heap`, statements, `execs` | `Heap` |
| programs over several `URL`, `URLSearchParams` and `URLRecord` objects | `Store`, `Cmd`, `Store.exec`, `Store.run` | `Store` |
| `URLSearchParams` as a collection, its constructor on sequences | `spOfSeq`, `spIndex`, `spKeys`, `spEq`, ... | `Collection` |
| iterators of `URLSearchParams`, slices | `IterState`, `IterState.run`, `spSlice` | `Iter` |
| `__repr__` of `URLRecord`, `URLSearchParams` and `URL`; `repr` of strings, integers, lists and tuples | `Rec.repr`, `spRepr`, `URLObj.repr`, `reprStr`, ... | `Repr` |

Every definition names the lines of `parse.py` it stands for. Some conventions:

* A call returns `Res α`: a value or an exception, and the calls of the logger. Setters
  return the exception together with the object they leave behind, so that "unchanged on failure" can be stated.
* `BasicURLParser.parse` walks over the input with an index. The model does the same (`run`, with a `Cur`
  holding the input and the position), with fuel; `C20_*` shows that the fuel never runs out and that the result does
  not depend on it. For proofs the same functions are given in suffix form (`Lemmas/Suffix*.lean`:
  state functions on "the rest of the input") and proved equal.
* A `URL` object is a record and the list of its query object (`URLObj`), because the
  code keeps both: `C48` is about their agreement. `Op` lists all setters and all mutating methods.
* CPython's `int()` accepts more than digits; `pyInt` models it in full, and several findings come from that.

Validation messages: every `log.info`/`log.error` call is modelled as one entry
(its error type) pushed on a `Log`, newest first, exactly like
`ValidityState.prepend`.  Message texts are not modelled, except where building
the text can itself raise (the integer-to-string digit limit, IPv4 only); the texts, parts and positions
that the messages of `BasicURLParser` show are modelled beside it (`Notes`, property C84).

External code is a parameter `Env`, universally quantified in every theorem:

* ICU `name_to_ascii` / `name_to_unicode`: arbitrary functions from (strict flag,
  domain) to (ICU failure | destination string and error bit set).  Theorems that
  need something of ICU say so in an explicit hypothesis (`IdnaOK`: a successful
  ToASCII result is ASCII and a fixed point of ToASCII), and an instance satisfying the
  hypothesis is exhibited.
* `sys.get_int_max_str_digits()`: a number, 0 = no limit.
* Unicode decimal digits and white space above ASCII as used by `int()`; Unicode `str.lower`.
* the IANA scheme registry (data file).
* whether a `validity=` argument was passed.

Legacy encodings are modelled as an arbitrary stateless per-character encoder
`Nat → Option Bytes`.

Not modelled: logging output (handlers, formatting of messages), `repr` of `Origin` and `ValidityState`,
stateful codecs (iso-2022-jp, utf-16 with BOM), blob URL entries (unused in the
code), identity of Python objects (except in the separate models `Heap` for C39, `Store` for C70 and `Iter` for C78),
memory and recursion limits, argument type errors.

## 2. Trusted base

* Lean's kernel, and the axioms `propext`, `Classical.choice`, `Quot.sound`. No theorem uses another axiom; section 6 lists
  the axioms of every theorem in the manifest (`scripts/axioms.sh` prints them). There is no `sorry`, `native_decide`, or `bv_decide`;
  `decide +kernel` is used for concrete cases (witnesses and examples) and runs in the kernel.
* The reading of `parse.py` recorded in the comments of the model.
* The reading of CPython's `int()`, UTF-8 and UTF-16 codecs, `str.split`, `str.lower` for ASCII, `list.sort`, and of
  `urllib.parse.quote*`/`unquote_to_bytes`, recorded in `Py` and `Codec`.
* The specifications in `Verif/Spec`: they are short, and written from the text of the URL Standard (July 2023) without the model's
  helpers. Someone who doubts a theorem should read its statement and these files, not the lemmas.

Evidence from the repository's copy of the web platform tests (tests, not proofs; the code itself was not run). They were
evaluated with an IDNA stand-in that lower-cases ASCII domains and refuses all others.

* The model on the 820 cases of `urltestdata.json`: 22 differences. 20 are domains that need a real IDNA library. The other
  2 are the empty reference against a `file` base, which the repository's own test report lists as failing (C36, C65).
* The model on 677 checks of `setters_tests.json`: only differences due to IDNA.
* The standard's machine and host parser of `Verif/Spec` on the 819 cases of `urltestdata.json` without lone surrogates: the 20
  differences due to IDNA, and no other.

## 3. Assumptions in theorems

All of them are hypotheses; `Verif/Spec/Example.lean` has an environment `exEnv` that meets them.

| name | meaning | why |
|---|---|---|
| `IsStr s` | the elements are code points, below 0x110000 | a Python string |
| `IsScalarStr s` | and no surrogates | inputs of the standard's algorithms are scalar-value strings |
| `EnvOK env` | the digit limit is 0 or at least 640 | CPython enforces this |
| `IdnaOK env` | ToASCII gives ASCII, is idempotent, and leaves digits and dots alone | only where a host is parsed twice (round trips) |
| `EncOK e` | the codec returns bytes | a Python codec |
| `NoRef e` | no character is encoded to bytes starting with `&#` | the code finds characters that the codec cannot encode by that prefix |
| `LongInput env n` | an input of length n can reach the digit limit | C21: the code raises a bare ValueError there |
| `Parsed`, `Reached` | the record or object comes from the parser or from a history of operations | nothing else is given to the code |
| `RegularHost`, `RegularOp`, `BareFile`, `PipeDrive`, `Deviant` | the exact places where the code departs from the standard | findings; each has a witness that the property is false there |

## 4. The specifications

| module | contents |
|---|---|
| `Spec/Text` | UTF-8, UTF-16, percent-decode, urlencoded parser and serializer, ASCII classes |
| `Spec/Host` | IPv4 and IPv6 parsers and serializers of the standard |
| `Spec/HostParser` | the standard's host parser, and the texts a run of the machine gives to it |
| `Spec/Url`, `Spec/Reference`, `Spec/Setter`, `Spec/History` | special schemes, component sets, reference resolution, what a setter may change, reachable objects |
| `Spec/Machine` | the basic URL parser, all 21 states, one code point per step; `Halts` is the run as a relation |
| `Spec/Reports`, `Spec/HostReports` | the validation errors of that machine, and of the host parser, in order |
| `Spec/Api` | the setters and the `URLSearchParams` methods of the standard, on top of the machine |
| `Spec/Serialize` | the serializers and getters of the standard, and the origin of a URL |
| `Spec/Store` | programs over several objects on values, without identities |
| `Spec/Collection` | the constructor of `URLSearchParams` with the Web IDL conversions |
| `Spec/Iter` | iterators over a list of pairs that is replaced meanwhile |
| `Spec/Rfc3986` | reference resolution and `remove_dot_segments` of RFC 3986, on strings |
| `Spec/Commute` | what each operation on a URL looks at and may change |
| `Spec/Anatomy` | the parts of a text behind "scheme://" and the URL with these parts |
| `Spec/Denote` | rules that say what every text denotes |
| `Spec/Notes` | what the position in a description of a validation error points at |
| `Spec/Generic` | the regular expression of RFC 3986, appendix B, and the parts of an authority |
| `Spec/Literal` | a reader for the literals of Python that `repr` writes |
| `Spec/Size` | the amount of text a program has given for an object |
| `Spec/PyInt` | what `int()` of Python reads, as a grammar with values, and the IPv4 addresses it makes |
| `Spec/Ascii` | ASCII character classes and decimal numerals, apart from those of the model |
| `Spec/Writing` | the standard's grammar of valid URL strings |
| `Spec/Params`, `Spec/Origin`, `Spec/Validity`, `Spec/Idna` | name/value lists, origins, consistent validity states, IDNA |

C65 to C69 are refinements: the model of the code is simulated against `Spec/Machine`, which does not share any function with it
except the data types. The other properties are consequences one can read without knowing the standard's algorithms; most of
them are proved directly from the model, so they do not depend on the reading of the standard.

## 5. Proof structure

* C01-C09: list and byte arithmetic (`Lemmas/Utf`, `Percent`, `Num`).
* C10-C19: positional arithmetic and loop invariants for the address parsers (`IPv4*`, `IPv6*`), cases of the host parser for an
  arbitrary IDNA library (`Host*`).
* C20: a rank on states; C21: no internal error from well-formed bases, for every state function (`Inv*`).
* C22-C28: one predicate `WF` on records that every state function preserves (`WF`, `WFStep`, `Parsed`).
* C29, C30: running the parser on the serialization of any `WF` record (`Eval`, `RoundTrip*`).
* C31-C38, C40, C41: rewriting lemmas in suffix form (`SchemeStart`, `Slashes`, `Reference`, `Encoding`, `Prepare`).
* C39: the state functions as statements on a heap; only cells allocated by the call are written (`Heap`).
* C42-C47: frame lemmas per setter, then induction on histories (`Setter*`, `History`, `OwnValue`). `Injective`: no parsed record
  has the serialization of a deviant one.
* C74, C75: the closed forms of the setters (`Again`, `Again2`).
* C90: the closed form of the host setter, taken apart at the end of the host (`Lemmas/HostText`).
* C91: read off the rules of C83, case by case (`Lemmas/Depend`); `asBase` in `Spec/Depend` is proved to be exactly what a base can contribute.
* C92: rules for assignments in `Spec/Assign` (inductive relations without states, positions or overrides); `Lemmas/Assign` proves soundness against the closed forms of the setters and totality.
* C93: closed forms of the setters; for credentials the length of the encoded text, which shrinks when a tab goes even if two surrogates become a pair (`Lemmas/Tabs`).
* C94: the rules of C83 that give an error all have an authority, or no usable base; the parts of an authority do not depend on what follows (`Lemmas/Refuse`).
* C95: C94 for the exception ValueError, with C88 for the numbers of an IPv4 address and, for the dotted part of an IPv6 address, an
  induction over the groups of the text: the loop is a fold, so a text and one with other groups behind a common beginning reach the
  same state (`Lemmas/IPv6e`). The exceptions to C14, C21, C56 and C61 are exact because of it.
* C96: one lemma says when the end of a group is accepted and what it does to the state, then two inductions over the groups, one for
  what is behind "::" and one for what is in front of it (`Lemmas/IPv6f`). The grammar (`Spec/IPv6Text`) also describes the standard's
  parser, which is a check of the transcription in `Spec/Host`.
* C97: C96, C88 and C95 put together along the branches of the host parser. The rules of C83, C92 and C94 mention the host parser; with
  C97 they do not depend on any function of the model.
* C98: a run without a validation error is an inductive relation (`Quiet`); for every state, in the order of the ranks, one lemma says
  that the relation holds exactly for the texts of one rule of the grammar (`Spec/ErrorFree`, `Lemmas/ErrorFree1`-`4`). The grammar
  takes the hosts as a parameter: first the model's host parser (`HostSilent`), then rules for all kinds of hosts (`Spec/SilentHost`),
  so that `C98_grammar` does not depend on any function of the model. `Lemmas/SchemeKept` follows the scheme through all states.
* C99: along the relation `Quiet` the record stays clean (`Lemmas/CleanUrl1`-`2`); the other direction writes the href of a clean record
  as a text of the grammar of C98 (`Lemmas/CleanUrl3`), with the hosts from the round trip (C18).
* C100: the grammar of C98 and the standard's grammar of valid URL strings are compared as grammars (`Lemmas/OddText`): the authority is the
  text up to the first "/", "?" or "#" in both, so the path is the same text, and the exceptions (`Spec/OddText`) are what the standard's
  path rules exclude. The valid hosts are a parameter of the standard's grammar; C72 and C98 say which hosts have no validation error.
* C101: both sides are given by the rules of C83. The text in front of the path of the base, with any other path, query and fragment, is
  under the same rule as the href itself (`Lemmas/Place`); the segments of the base that are written in front of the reference stay as they
  are when they are followed again (`Lemmas/Place2`), so the path is that of the rule for references (`Lemmas/Place3`, `Lemmas/Place4`).
* C102: both directions are given by the rules of C83. A pathname that begins with "//" is read as an authority; that the result is never
  the URL itself follows by counting slashes: the path of the result has at most as many segments as there are slashes behind the first two,
  the path of the URL as many as there are slashes.
* C103: scheme, host and port of an origin with the path "/" are a well-formed record (`originRec`), so C30 reads them back from the text and
  "/"; that the "/" may be left out is the rule of C83 for an empty path (`Lemmas/OriginText`).
* C104: every component of an intermediate state is that of the target or what the attributes show of the source (`copyRec`); such a mixture
  is well-formed (`wf_mixed`) as long as the schemes agree and both hosts are non-empty, and then each setter reads its text back
  (`copy_step`). File URLs have an invariant of their own (`FileCopy`): they take neither credentials nor ports. `C104_false` has a run for each omitted condition.
* C105: the text of a list of pairs has no character that the query state would encode, strip or drop (`search_text`), so the setter and
  `_update` compute the same record (`setSearch_list`). `C105_false` shows that the methods need percent-encoded names (C52) and that an
  opaque path may lose spaces on the way.
* C106: from the rules of C83. Following the segments of `d t` is following those of `d` and then those of `t` (`follow_append`), and the
  parent of the path for `d x` is the path after `d` (`parent_snoc`). `C106_false` shows the two excluded cases, a last segment ".."
  and a last segment "C|" of a file URL. The empty reference is missing, see C36.
* C107: false because of the Kelvin sign: `"s\u212aype".lower()` is "skype", so `is_valid_url_scheme` accepts a text that is no URL scheme
  (`C107_false`). `C107_exact` says that this is the only way, from two assumptions that are hypotheses of the theorem: `LowerOK` on
  `str.lower` (no character but U+212A becomes ASCII) and `RegistryOK` (the registered names are schemes; so are all of
  `uri-schemes-1.csv.gz` without the removed one). `C107_lower` needs neither, `C107_is_valid` shows that `is_valid` is not affected.
* C108: the parent of the first m segments are the first m - 1 (`parent_take`), then by induction from C83. A file URL with a port can only
  come from the setter (port 0, see C67); the reference loses it, which is why the hypothesis excludes it.
* C109: from C48 (both directions) and C07; the form is given by the standard's serializer with "~" unescaped (C09).
* C110: from C57 the records agree up to the upper bits of an IPv4 host, and every rule of C83 passes such a difference on (`denotes_sim`).
* C111: the rules of C92 pass a difference in the upper bits of an IPv4 host on (`assigns_sim`); C48 gives the search parameters; induction on the operations.
* C112: from C46 (exact), C85, C110 and C111.
* C113: the specification `Spec.IsURL` is equivalent to the invariant of the parser (`isURL_of_wf`, `wf_of_isURL`); the round trip of C30 gives the other inclusion, C46 (exact) the statement about histories, and the rules of C92 the assignments that lead to a deviant URL.
* C114: C85 gives one direction; for the other the serialization is written as a function of the attributes and of which parts are there.
* C76: the states behind "//" do not look at the base (`AnyBase`).
* C78: an iterator keeps its list object; a list object that is not current any more does not change (`Lemmas/Iter`).
* C79: every operation is shown to change what `writes` lists only, and to do so depending on what `reads` and `writes` list only
  (`Local` in `Lemmas/Commute`); that two such operations commute is then general.
* C80: the origin looks at scheme, host and port, or at the path of a blob URL up to spaces at its end; C42 and C40 say the rest.
* C81: one lemma per state from the authority on, for a text put together from its parts; `anatomy` finds the parts, and both
  directions are proved (`Lemmas/Anatomy`).
* C82: with C81, one theorem for each kind of input that begins with a scheme; the empty text behind "file:" against a file base is
  left out; it adds an empty segment, as the empty reference does (`C36_empty_reference_file`).
* C83: soundness of every rule from C81, C82 and lemmas about the relative states; completeness by taking any text apart
  (`Lemmas/Denote`). The host parser appears in the rules as it is in the model (C11-C18 are about it), UTF-8 is the encoding.
* C84: each state's descriptions forget to its log (`Lemmas/Notes`), lie between its start and its end and point at the fault
  (`Fine`, `Lemmas/Notes2`).
* C85: the serialization is cut at its delimiters by the regular expression of RFC 3986 (`Spec/Generic`), from the characters
  that well-formed records have in each part (`Lemmas/Generic`).
* C86: the reader of literals (`Spec/Literal`) is run on what `repr` writes (`Lemmas/Repr`); `Lemmas/ReprBig` is a family of
  IPv4 hosts with arbitrarily large numbers.
* C87: the rules of C83 bound the length of each part (`Lemmas/Size3`); for histories the query is measured by the text its pairs
  decode to, so that writing the search parameters back does not multiply (`Lemmas/Size4`). The growth of a domain in the IDNA
  library is a hypothesis, `IdnaFactor`.
* C88: `int()` is taken apart into white space, sign, prefix and groups (`Lemmas/PyInt`), then the loops of the address parser
  (`Lemmas/PyInt2`). The hypothesis `DelOK` says that DEL is neither a space nor a digit in Unicode. `Props/Exact` has the exact
  versions of C18, C30, C52 and C55.
* C89: host parsing is compared under two environments with the same libraries (`Lemmas/Settings`), then the rules of C83
  (`Lemmas/Settings2`).
* C77: the path states and the string algorithm of RFC 3986 (`Spec/Rfc3986`) both reduce to a fold over the segments
  (`rfcPieces` in `Lemmas/Rfc3986`).
* C48-C54: lists of pairs (`Params`); C55-C58: `Origin`; C59-C63: logs and validators (`Log`, `Recording`, `Validity`, `ValidHost`).
* C64: the parser commutes with combining surrogate pairs (`Surrogate*`); `C64_exact` shows that a pair in an opaque path
  always changes the result, so that it is the only exception.
* C65: a simulation; each chunk that a state function of the code reads at once is a sequence of
  steps of the machine (`Machine1`-`Machine5`; `BareFile` is the case where they differ). C66: `PyNumeral`, `HostParser`; `Deviant`, `Deviant2` for the exact versions of C11, C12 and C66. C67: `Api`, `ApiHost`, `QueryList`; `AsciiCount` and `ApiExact` for the exact version. C68: the same simulation with
  logs (`Reports1`-`Reports4`, `HostReports`). C69: `Serialize`.
* C70: the objects refine the values; the invariant is that records do not share path lists and that a query object writes to the
  record of the URL that holds it (`Store`). C71: `Collection`. C72: `Domain`.
* C73: from each state the parser runs to the end without recording anything on the text that the grammar of `Spec/Writing` allows
  there (`Writing1`-`Writing4`, `OpaqueText`).

Properties that are false of the code keep their statement in `properties.jsonl`. They have a theorem `Cnn_false_*` with a
witness, and theorems `Cnn_*_partial` for the rest; their notes in `MANIFEST.json` say what is missing.

Wrong programs: `scripts/seed.py` edits the model in a scratch copy, rebuilds, replaces every proof that fails by `sorry`
and reads off with `#print axioms` which property theorems fell. `seeded/LOG.jsonl` has the results. Where possible
a witness shows that the statement became false, so that the failure is not just a fragile proof.

## 6. Axioms per theorem

<!-- axioms: written by scripts/design_axioms.py -->
* propext, Classical.choice, Quot.sound (393): `C01_utf8_round_trip`, `C01_utf8_round_trip_scalar`, `C01_utf8_encode_is_utf8`, `C02_utf8_decode_scalar`, `C02_utf8_decode_stable`, `C02_utf8_decode_is_standard`, `C03_percent_encode_alphabet`, `C03_percent_encode_exact`, `C04_percent_decode_encode`, `C05_percent_encode_idempotent`, `C06_percent_decode_is_standard`, `C07_parse_qsl_urlencode`, `C07_parse_qsl_urlencode_scalar`, `C08_parse_qsl_is_standard`, `C09_urlencode_exact`, `C09_urlencode_is_standard_partial`, `C09_exact`, `C10_ipv4_round_trip`, `C10_ipv4_serialization_ends_in_number`, `C10_ipv4_serialize_injective`, `C11_parts_partial`, `C11_exact`, `C11_unbounded`, `C12_accepts`, `C12_exact`, `C12_ends_in_a_number_partial`, `C12_ipv4_parse_partial`, `C12_exclusion_exact`, `C13_ipv6_round_trip`, `C13_ipv6_serialize_injective`, `C13_ipv6_standard_reads`, `C14_false_value_error`, `C14_ipv6_result`, `C14_ipv6_errors`, `C14_ipv6_parse_error_only_partial`, `C14_exact`, `C15_ipv6_standard_partial`, `C15_exact`, `C15_triple`, `C15_quad`, `C16_ipv6_compress`, `C17_domain_no_forbidden`, `C17_empty_only_for_empty`, `C17_bracketed`, `C18_exact`, `C18_host_round_trip_partial`, `C18_host_serialization_fixed`, `C19_opaque_host_chars`, `C19_opaque_host_decodes`, `C20_loop_terminates`, `C20_no_infinite_run`, `C20_basicParse_is_loop`, `C21_errors`, `C21_no_internal_error`, `C21_only_URLParseError_partial`, `C21_short_input_partial`, `C21_false_valueError`, `C21_exact`, `C22_scheme_normalized`, `C23_special_has_host`, `C23_opaque_is_bare`, `C24_port`, `C25_bare_without_host`, `C26_segments`, `C27_href_printable`, `C28_query`, `C28_fragment`, `C29_href_fixed_point`, `C29_url_href`, `C30_exact`, `C30_components`, `C30_record_partial`, `C31_tabs_newlines_ignored`, `C31_base_tabs_newlines_ignored`, `C32_surrounding_space_ignored`, `C32_base_surrounding_space_ignored`, `C33_scheme_case`, `C34_backslash_is_slash`, `C34_any_backslash_is_slash`, `C35_absolute_ignores_base`, `C35_absolute_ignores_base_string`, `C36_exact`, `C36_empty_reference_partial`, `C36_empty_reference_file`, `C37_fragment_reference`, `C38_query_reference`, `C39_base_unchanged`, `C40_path_reference_keeps_authority`, `C41_agreeing_encodings`, `C41_encoding_affects_query_only`, `C41_query_printable`, `C42_own_component_only`, `C42_path_only_stripped`, `C42_protocol_port`, `C43_cannot_have`, `C43_protocol_special`, `C44_failed_host_exact`, `C44_failed_assignment_partial`, `C44_failed_host`, `C45_guarantees_partial`, `C45_printable`, `C45_bare_partial`, `C45_exact`, `C46_href_fixed_point_partial`, `C46_exact`, `C46_not_file_partial`, `C47_plain`, `C47_tail_partial`, `C47_own_value_partial`, `C47_exact`, `C48_params_of_search`, `C48_params_standard`, `C48_search_of_params`, `C49_set_new`, `C49_set_replaces`, `C49_set`, `C50_delete_name`, `C50_delete_value`, `C51_get_all`, `C51_get`, `C51_has_contains`, `C51_append`, `C51_append_other`, `C52_append_exact`, `C52_has_iff`, `C52_stored_pair_partial`, `C52_after_append_partial`, `C52_append_has_name`, `C53_sort_stable`, `C53_sort_unique`, `C54_round_trip`, `C56_blob`, `C56_false_valueError`, `C56_blob_partial`, `C56_exact`, `C57_equivalence`, `C57_exclude_fragments_iff`, `C57_equal_components`, `C58_reassemble_partial`, `C58_reassemble_exact`, `C59_consistent_partial`, `C59_always`, `C60_verdict`, `C60_valid`, `C60_valid_can_parse`, `C60_negative_recorded`, `C61_exact`, `C61_predicts_partial`, `C61_raises_partial`, `C61_exact_partial`, `C62_exact`, `C62_false_int_syntax`, `C62_dotted_valid`, `C62_valid_partial`, `C62_host`, `C62_valid_parses`, `C63_opaque_units`, `C64_surrogates_partial`, `C64_base_surrogates_partial`, `C64_setters`, `C64_exact`, `C65_exact_partial`, `C65_parser_partial`, `C65_bare_file`, `C65_string_base_partial`, `C65_machine_halts`, `C65_override_halts`, `C65_any_length_partial`, `C66_host_exact`, `C66_parser_exact_partial`, `C66_host_parser_partial`, `C66_parser_partial`, `C67_operation_partial`, `C67_determined_partial`, `C67_standard_host_partial`, `C67_determined`, `C67_exact`, `C67_standard_exact`, `C68_host_reports_partial`, `C68_parsed_host_partial`, `C68_host_exact`, `C68_machine_partial`, `C68_machine_exact`, `C68_parsed_partial`, `C68_any_partial`, `C68_verdict_partial`, `C68_string_base_partial`, `C69_ipv6`, `C69_serialize`, `C69_getters`, `C69_origin_partial`, `C69_origin_own_partial`, `C69_origin_determined`, `C69_origin_exact`, `C70_values`, `C70_frame`, `C70_new`, `C70_live`, `C70_lists`, `C71_sequence`, `C71_dict`, `C71_string`, `C71_copy`, `C71_contains`, `C71_equality`, `C71_add`, `C71_slice`, `C71_slice_range`, `C72_domain`, `C72_domain_total`, `C72_domain_standard_partial`, `C72_false_host`, `C72_host_sound_partial`, `C72_host_complete_partial`, `C72_accepted_partial`, `C72_opaque_exact`, `C72_host_exact`, `C72_accepted_exact`, `C72_opaque_grammar_partial`, `C73_base_exact`, `C73_no_errors_partial`, `C73_valid_partial`, `C73_false_opaque_base`, `C73_false_converse`, `C74_twice`, `C75_last_wins`, `C75_tail_partial`, `C75_tail_exact`, `C75_or_no_effect`, `C75_port`, `C75_host_partial`, `C75_host`, `C75_set`, `C76_slashes_ignore_base`, `C76_href_ignores_base`, `C76_url`, `C76_resolved`, `C76_exact`, `C77_exact`, `C77_resolution_partial`, `C78_url`, `C78_entries_partial`, `C78_entries_rebound`, `C79_commute`, `C79_web`, `C80_operation`, `C80_history`, `C80_reference`, `C81_parts`, `C81_absolute`, `C81_any`, `C82_tail`, `C82_opaque`, `C82_rooted`, `C82_special`, `C82_same_scheme`, `C82_file_host`, `C82_file_drive`, `C82_file_rooted`, `C82_file_plain`, `C82_file_relative`, `C82_file_same`, `C83_denotes`, `C83_unique`, `C83_object_base`, `C83_text_base`, `C84_same_errors`, `C84_points`, `C84_points_setter`, `C84_order`, `C84_text`, `C85_split`, `C85_at`, `C85_dots`, `C85_href_determines`, `C86_str`, `C86_printable`, `C86_record_partial`, `C86_params`, `C86_record_raises`, `C86_reached`, `C86_url_partial`, `C86_false_valueError`, `C87_parse`, `C87_resolve`, `C87_host`, `C87_history`, `C87_sharp`, `C88_number`, `C88_ends`, `C88_parse`, `C88_host`, `C89_within_limits`, `C89_accepted_partial`, `C89_unlimited_exact`, `C90_host_and_port`, `C90_no_digits`, `C90_without_port`, `C90_hostname_ignores_port`, `C90_file`, `C91_common`, `C91_absolute`, `C91_hash`, `C91_asBase`, `C91_fragment`, `C91_query`, `C91_scheme`, `C91_dot`, `C92_assign`, `C92_unique`, `C92_total`, `C93_never`, `C93_exact`, `C94_authority`, `C94_refused`, `C94_rest`, `C94_no_authority`, `C94_reference`, `C95_host`, `C95_text`, `C95_call`, `C95_constructor`, `C95_can_parse`, `C95_recording`, `C96_grammar`, `C96_value`, `C96_host`, `C96_standard`, `C97_ipv6`, `C97_host`, `C97_unique`, `C98_exact`, `C98_scheme`, `C98_is_valid`, `C98_base`, `C98_brackets`, `C98_opaque_host`, `C98_host`, `C98_grammar`, `C98_is_valid_grammar`, `C99_kept`, `C99_exact`, `C99_href`, `C99_is_valid`, `C99_false_encoding`, `C100_exact`, `C100_is_valid`, `C100_odd`, `C100_standard`, `C101_reference`, `C101_file`, `C101_opaque`, `C101_filePlace`, `C101_rest`, `C102_root`, `C102_file`, `C102_self`, `C102_scheme`, `C103_null`, `C103_same`, `C103_same_partial`, `C103_url`, `C103_base`, `C104_copy`, `C104_href`, `C104_file`, `C105_operation`, `C105_text`, `C105_every_list`, `C106_compose`, `C106_tail`, `C106_objects`, `C107_lower`, `C107_exact`, `C107_scheme_partial`, `C107_is_valid`, `C108_up`, `C108_times`, `C108_root`, `C109_exact`, `C109_settled`, `C109_changed`, `C110_fragment`, `C110_base`, `C111_lockstep`, `C112_reload`, `C112_exact`, `C113_image`, `C113_text`, `C113_alone`, `C113_history`, `C113_reachable`, `C114_exact`
* propext, Quot.sound (50): `C06_percent_decode_no_triplet`, `C10_ipv4_serialize_dotted`, `C11_ipv4_in_range_partial`, `C11_host_ipv4_in_range_partial`, `C16_ipv6_no_compress`, `C16_ipv6_cases`, `C19_opaque_host_rejects`, `C39_result_independent`, `C50_delete_number`, `C52_false`, `C53_sort_sorted`, `C55_refl_exact`, `C55_same_origin`, `C55_same_origin_equivalence`, `C55_same_origin_domain`, `C55_same_origin_domain_symm_trans`, `C55_same_origin_domain_refl_partial`, `C55_coincide`, `C56_tuple`, `C56_opaque`, `C56_string`, `C57_equals_href`, `C57_exclude_fragments`, `C58_components`, `C59_ipv4`, `C59_host`, `C60_failure_recorded`, `C60_scheme`, `C63_ipv6`, `C63_opaque`, `C65_false_file`, `C66_false_host`, `C67_false_port_zero`, `C67_false_search`, `C67_false_append`, `C67_false_delete`, `C68_false_host`, `C68_false_drive`, `C69_ipv4`, `C69_false_origin`, `C71_index`, `C72_false_domain`, `C73_false_ipv6`, `C77_false_empty_file`, `C78_keys_values`, `C78_all`, `C90_every_text`, `C103_false`, `C105_false`, `C107_false`
* propext (32): `C08_parse_qsl_append`, `C08_parse_qsl_empty`, `C09_false_tilde`, `C11_false_out_of_range`, `C12_false_number_syntax`, `C15_false_ipv6_syntax`, `C18_false_ipv4_overflow`, `C30_false_ipv4_overflow`, `C36_false_file`, `C42_params_unchanged`, `C43_opaque_path`, `C44_false_host`, `C45_false_port_zero`, `C46_false`, `C47_false`, `C47_false_deviant`, `C58_false`, `C58_no_fragments`, `C59_false_valueError`, `C59_ipv6`, `C61_false_raises`, `C64_false`, `C71_keys_values`, `C72_false_accepted`, `C75_false`, `C78_false`, `C79_dependent`, `C89_false`, `C101_place`, `C104_false`, `C106_false`, `C114_false`
* none (2): `C53_sort_perm`, `C55_false_empty_domain`
* propext, Classical.choice (1): `C87_fed`
<!-- end -->
