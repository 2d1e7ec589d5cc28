{
 "C09": {
  "status": "partial",
  "note": "False as stated: '~' is not escaped (C09_false_tilde). Exact behaviour for every input is C09_urlencode_exact; C09_exact: equality with the standard's serializer holds if and only if no name or value contains '~'."
 },
 "C11": {
  "status": "partial",
  "note": "False as stated: '256.256' gives 2^32+256 (C11_false_out_of_range), and there is no bound at all (C11_unbounded). Proved unless the last part and an earlier part both exceed 255; C11_exact says exactly which accepted texts give a 32-bit address."
 },
 "C12": {
  "status": "partial",
  "note": "False as stated: Python's int() accepts '1_0', '+1', '-0', '0x0x1', '00o7' (C12_false_number_syntax), and '256.256' is accepted. Everything that the standard accepts is accepted with the same result (C12_accepts). C12_exact: the two differ exactly on the texts that the code takes for a number or an address although a part is a numeral of Python only or a part before the last exceeds 255."
 },
 "C14": {
  "status": "partial",
  "note": "False as stated: an IPv4 part longer than sys.get_int_max_str_digits() raises ValueError (C14_false_value_error). Eight 16-bit pieces and absence of index errors are proved for every input; IPv6AddressParseError as the only error is proved for texts within the digit limit. C14_exact says for exactly which texts ValueError is raised."
 },
 "C15": {
  "status": "partial",
  "note": "False as stated: ':::1' and '1.2.3.4::' are accepted and '1:2:3:4:5:6:7::' is rejected (C15_false_ipv6_syntax). Proved for all other texts. C15_exact: the difference occurs exactly for the texts of these three kinds that one of the two accepts; C15_triple and C15_quad say how the code reads the first two kinds."
 },
 "C18": {
  "status": "partial",
  "note": "False as stated: '256.256' gives an IPv4 number 2^32+256 whose serialization is read as 256 (C18_false_ipv4_overflow). C18_exact: numbers of more than 32 bits are the only exception. The serialization is a fixed point for all hosts."
 },
 "C21": {
  "status": "partial",
  "note": "False as stated: a port or number with more digits than sys.get_int_max_str_digits() raises a bare ValueError (C21_false_valueError). Proved for every input: every exception is URLParseError (or a subclass) or that ValueError, and the latter only for inputs longer than the limit; with no limit set, or within it, the full statement holds. C21_exact says for exactly which texts ValueError is raised."
 },
 "C30": {
  "status": "partial",
  "note": "False as stated: 'http://256.256/' has an IPv4 host of 2^32+256, which reads back as 256 (C30_false_ipv4_overflow). Proved for every parsed URL up to reducing an IPv4 host to 32 bits; C30_exact: such hosts are the only exception."
 },
 "C36": {
  "status": "partial",
  "note": "False as stated for 'file' bases (C36_false_file): an empty reference appends an empty path segment there. Proved for every other scheme (C36_empty_reference_partial); the exact behaviour for 'file' bases is C36_empty_reference_file; C36_exact puts both together as an equivalence."
 },
 "C44": {
  "status": "partial",
  "note": "False for the host setter (C44_false_host): the host is assigned before a bad port raises. Proved for every other operation and every exception (C44_failed_assignment_partial). Exact for host (C44_failed_host_exact): the object is as it was, unless the text is a host, a colon and a refused port number, and then it is as after the assignment of the host to hostname."
 },
 "C45": {
  "status": "partial",
  "note": "False in one respect (C45_false_port_zero): the port 0 is falsy in the code, so the host can become empty or the scheme 'file' while the port stays. Everything else is proved for all histories (C45_guarantees_partial, C45_printable); the missing part is proved for ports other than 0 (C45_bare_partial). The exception is exact: port 0 with no host, an empty host or the scheme \"file\" (C45_exact)."
 },
 "C46": {
  "status": "partial",
  "note": "False for four kinds of URLs reached through the protocol or host setter (C46_false): port 0 with an empty host or scheme 'file', and 'file' URLs with the host 'localhost' or a first segment like 'C|'. Proved for every other reachable URL (C46_href_fixed_point_partial; for schemes other than 'file' C46_not_file_partial). C46_exact: href is a fixed point exactly for the URLs that are not of these kinds."
 },
 "C52": {
  "status": "partial",
  "note": "False (C52_false): has, get, get_all percent-decode the name they are given, and append percent-decodes the value while has does not; stored names or values containing an escape are not found. Proved for names and values without escapes (C52_stored_pair_partial, C52_after_append_partial); C52_has_iff says exactly what has() returns, and C52_append_exact when a pair just appended is found."
 },
 "C55": {
  "status": "partial",
  "note": "False only for an origin whose domain is the empty string (C55_false_empty_domain, C55_refl_exact), which is not same origin-domain with itself. Everything else is proved: is_same_origin is an equivalence relation, is_same_origin_domain is symmetric and transitive, and reflexive for every other domain; they coincide on origins of URLs."
 },
 "C56": {
  "status": "partial",
  "note": "False for blob URLs whose path exceeds CPython's limit on the digits of a number (C56_false_valueError): origin raises ValueError. Proved for every other record (C56_tuple, C56_opaque, C56_blob_partial); C56_blob covers all blob URLs including the exception. C56_exact says for exactly which URLs it raises."
 },
 "C57": {
  "status": "proved",
  "note": ""
 },
 "C58": {
  "status": "partial",
  "note": "False where urllib's components cannot tell an empty from an absent query, fragment or parameter part (C58_false). Proved otherwise (C58_reassemble_partial); C58_components and C58_no_fragments hold without exception. C58_reassemble_exact: it fails in exactly these cases."
 },
 "C59": {
  "status": "partial",
  "note": "False for calls that end in the ValueError of CPython's digit limit (C59_false_valueError: one error type more than descriptions). Proved for every sequence of operations in which no call ends in that exception (C59_consistent_partial). For every history whatever C59_always says what remains: valid is true exactly when no error type is listed, descriptions and counted errors agree, and each failed call adds at most one uncounted error type. C59_ipv4, C59_ipv6 and C59_host say exactly which calls of the address and host parsers spoil a consistent state."
 },
 "C61": {
  "status": "partial",
  "note": "False: can_parse can raise ValueError where URL() succeeds (C61_false_raises). Proved: whenever it returns, the answer is right; it raises only ValueError and only for overlong input; exact for all other input. C61_exact says for exactly which texts it fails to answer."
 },
 "C62": {
  "status": "partial",
  "note": "False: int() accepts signs, underscores, white space and non-ASCII digits (C62_false_int_syntax). Proved: dotted decimals are valid and host parsing returns the address; the converse for texts without those characters; every accepted text parses as an address without a validation error; C62_exact says exactly which texts are accepted."
 },
 "C47": {
  "status": "partial",
  "note": "False when the host is null, the query or the fragment is the empty string (C47_false), and for the deviant URLs of C46 (C47_false_deviant). Proved: protocol, username, password, port for every reachable object; all attributes outside those cases. C47_exact: outside of the deviant URLs the exceptions are exact, i.e. href changes if and only if one of them applies."
 },
 "C64": {
  "status": "partial",
  "note": "False for a surrogate pair in an opaque path: BasicURLParser._parse_opaque_path encodes character by character, so each half becomes U+FFFD (C64_false). C64_surrogates_partial proves the claim for every input and base whenever the resulting path is not opaque, and for every input whose surrogate pairs all lie after the first ? or #. C64_exact shows that these are exactly the inputs for which it holds: a pair in an opaque path always changes the result. C64_setters proves it for every setter."
 },
 "C65": {
  "status": "partial",
  "note": "The parser's result equals the outcome of the standard's character-by-character state machine for every scalar-value input, every parsed base and every encoding, with the code's host parser as host parser (C66 relates that one to the standard). False for the empty input and for \"file:\" against a file URL (C65_false_file: an empty path segment is appended); also excluded are inputs longer than sys.get_int_max_str_digits(). C65_bare_file proves what both do in the file case, so that it is exactly the place where they differ. C65_any_length_partial: accepted texts of any length agree, unless the host is of the kind of C89. C65_exact_partial says so as an equivalence. C65_machine_halts and C65_override_halts: the standard's machine ends on every input, with one result, whatever the host parser, base, encoding and override."
 },
 "C66": {
  "status": "partial",
  "note": "False where C12 and C15 are (C66_false_host). C66_host_exact: host parsing of a scalar-value text differs from the standard's host parser over the same IDNA library exactly on the texts of OddHost. C66_parser_exact_partial: where C65 holds, the URL parser and the standard's state machine with the standard's host parser agree on an input if and only if no such text is handed to the host parser, or neither accepts the input."
 },
 "C67": {
  "status": "partial",
  "note": "False as stated; four witnesses C67_false_*: host/hostname/protocol on a URL with port 0, search with tabs or newlines, names and values with percent escapes or '~', delete with a numeric value. C67_exact says exactly which operations disagree (Spec.Odd), for every reachable object and all strings without surrogates: a scheme setter that turns a special URL on port 0 into a file URL, a host setter that empties the host beside port 0, search with a tab or newline, append with an escape, set and delete where decoding the name or value changes the list, delete of a pair by a number, and '~' anywhere in the resulting list; all other operations agree. C67_determined: the standard's outcome is unique. C67_standard_exact has the standard's host parser for every operation that hands it no deviating text."
 },
 "C68": {
  "status": "partial",
  "note": "False as stated; witnesses C68_false_host (an opaque host with two faults is reported once, an out-of-range IPv4 address gets an extra undefined error, an IPv6 address with two faults is reported for the second) and C68_false_drive ('|' of a drive letter in place of a file host is reported in addition). Proved: otherwise the recorded errors are the standard's in order, with the code's host parser for every input (C68_machine_partial) and with the standard's host parser and its errors for every input that parses (C68_parsed_partial); whether there is any error always agrees (C68_any_partial); is_valid answers true exactly when the standard's parser succeeds without a validation error and the scheme is registered (C68_verdict_partial, C68_string_base_partial). C68_machine_exact and C68_host_exact: the lists are equal exactly outside of these differences (for hosts, those not in brackets). The exclusions of C65 and C66 apply."
 },
 "C69": {
  "status": "partial",
  "note": "C69_ipv4, C69_ipv6, C69_serialize and C69_getters hold without exception. The origin of a blob URL is parsed from its path, so C69_false_origin inherits the deviating hosts of C66 and the digit limit of C56; C69_origin_partial covers everything else. C69_origin_exact says exactly for which blob URLs the origin is not the standard's (a host of C66 in a path that is an http or https URL for one of the two); C69_origin_own_partial that it always is if the host parser is the code's; C69_origin_determined that the standard gives exactly one."
 },
 "C72": {
  "status": "partial",
  "note": "The verdict on domains is characterised exactly by the error bits (C72_domain, C72_domain_total). With the standard's definitions the claim is false: ToUnicode is run on the domain instead of its ASCII form (C72_false_domain), a domain that ends in a number is not accepted and Python numerals are (C72_false_host), and a valid domain whose ASCII form ends in a number is not accepted by host parsing (C72_false_accepted). The partial theorems exclude these cases and those of C12 and C15. C72_host_exact, C72_opaque_exact and C72_accepted_exact say exactly which texts these cases are."
 },
 "C73": {
  "status": "partial",
  "note": "Proved for hosts that the validators and the host parser agree on (valid domains whose last label int() does not read as a number, dotted IPv4 addresses, IPv6 addresses outside of C15, opaque hosts), for ports within CPython's limit of digits. False for a relative reference to a base with an opaque path (the standard's grammar allows it and its parser rejects it, C73_false_opaque_base) and for the IPv6 addresses of C15 (C73_false_ipv6). C73_base_exact: on texts with silent hosts, exactly the references to an opaque base other than a bare fragment are excepted. The converse is not claimed; C73_false_converse shows that it is false, and C98 says exactly which texts are parsed without a validation error. The converse: C100 says exactly which texts without a validation error are no valid URL strings."
 },
 "C75": {
  "status": "partial",
  "note": "False for search and hash on an opaque path that ends in spaces, which assigning the empty text strips for good, and for host, where a text without port keeps the port of the first (C75_false). Proved for username, password, pathname and search_params.set without exception; for search and hash exactly when it holds (C75_tail_exact); for href, port and hostname: the second wins or has no effect either way (C75_or_no_effect), with the texts that do have an effect on port (C75_port); for host additionally: the second wins except for the port, which it leaves as it is, and emptying the host of a URL that is not special depends on whether there is a port (C75_host, all texts)."
 },
 "C77": {
  "status": "partial",
  "note": "False for the empty reference against a file URL, whose path gets an additional slash (C77_false_empty_file; the defect of C36). Proved for every other reference of the statement. C77_exact says so as an equivalence."
 },
 "C78": {
  "status": "partial",
  "note": "False for keys and values, which iterate over a copy, and for entries after an assignment to href or search, which gives search_params a new list (C78_false). Proved for entries otherwise (C78_entries_partial, C78_all); C78_entries_rebound and C78_keys_values say exactly what happens in the other cases, C78_url holds without exception."
 },
 "C86": {
  "status": "partial",
  "note": "False in one respect: with a limit on the digits of converted integers (CPython's default) the record of \"http://0100...0.256\" (an IPv4 number that is too large, see C11) and a blob URL with a long port in its path (see C56) have no representation, ValueError is raised (C86_false_valueError). When this happens is said exactly (C86_record_raises, C86_url_partial); whenever a representation is returned, everything claimed holds."
 },
 "C89": {
  "status": "partial",
  "note": "False in one respect (C89_false): is_ends_in_a_number takes a ValueError of int() for \"not a number\", so a host whose last part is a number with a sign or underscores and more digits than the limit is a domain for the limited interpreter and an IPv4 address (or a failure) for the other. C89_within_limits proves the claim for every text within both limits; C89_accepted_partial that two accepting interpreters otherwise agree; C89_unlimited_exact that an unlimited interpreter agrees with an accepting one exactly if the host is not of that kind."
 },
 "C103": {
  "status": "partial",
  "note": "False for IPv4 addresses of 2^32 or more (C18): http://256.256 and http://0.0.1.0 have the same origin text but not the same origin (C103_false). C103_same says for all URLs when the texts are equal; C103_same_partial is the statement without such addresses. C103_null and C103_url hold as stated, C103_base with that exception."
 },
 "C107": {
  "status": "partial",
  "note": "False as stated: value.lower() turns the Kelvin sign U+212A into 'k', so 'sKype' written with it is accepted although it is no URL scheme and the parser refuses it (C107_false). C107_exact: this is the only exception; C107_scheme_partial: every accepted text without that sign is a URL scheme; C107_is_valid: the verdict of is_valid for a parsed URL is not affected."
 }
}
