{
 "claims": [
  {
   "property": "C01",
   "status": "proved",
   "theorems": [
    "Urlstd.Props.C01_utf8_round_trip",
    "Urlstd.Props.C01_utf8_round_trip_scalar",
    "Urlstd.Props.C01_utf8_encode_is_utf8"
   ],
   "note": ""
  },
  {
   "property": "C02",
   "status": "proved",
   "theorems": [
    "Urlstd.Props.C02_utf8_decode_scalar",
    "Urlstd.Props.C02_utf8_decode_stable",
    "Urlstd.Props.C02_utf8_decode_is_standard"
   ],
   "note": ""
  },
  {
   "property": "C03",
   "status": "proved",
   "theorems": [
    "Urlstd.Props.C03_percent_encode_alphabet",
    "Urlstd.Props.C03_percent_encode_exact"
   ],
   "note": ""
  },
  {
   "property": "C04",
   "status": "proved",
   "theorems": [
    "Urlstd.Props.C04_percent_decode_encode"
   ],
   "note": ""
  },
  {
   "property": "C05",
   "status": "proved",
   "theorems": [
    "Urlstd.Props.C05_percent_encode_idempotent"
   ],
   "note": ""
  },
  {
   "property": "C06",
   "status": "proved",
   "theorems": [
    "Urlstd.Props.C06_percent_decode_is_standard",
    "Urlstd.Props.C06_percent_decode_no_triplet"
   ],
   "note": ""
  },
  {
   "property": "C07",
   "status": "proved",
   "theorems": [
    "Urlstd.Props.C07_parse_qsl_urlencode",
    "Urlstd.Props.C07_parse_qsl_urlencode_scalar"
   ],
   "note": ""
  },
  {
   "property": "C08",
   "status": "proved",
   "theorems": [
    "Urlstd.Props.C08_parse_qsl_is_standard",
    "Urlstd.Props.C08_parse_qsl_append",
    "Urlstd.Props.C08_parse_qsl_empty"
   ],
   "note": ""
  },
  {
   "property": "C09",
   "status": "partial",
   "theorems": [
    "Urlstd.Props.C09_false_tilde",
    "Urlstd.Props.C09_urlencode_exact",
    "Urlstd.Props.C09_urlencode_is_standard_partial",
    "Urlstd.Props.C09_exact"
   ],
   "note": "False as stated: '~' is not escaped (C09_false_tilde). Exact behaviour for every input is C09_urlencode_exact; C09_exact: equality with the standard's serializer holds if and only if no name or value contains '~'."
  },
  {
   "property": "C10",
   "status": "proved",
   "theorems": [
    "Urlstd.Props.C10_ipv4_serialize_dotted",
    "Urlstd.Props.C10_ipv4_round_trip",
    "Urlstd.Props.C10_ipv4_serialization_ends_in_number",
    "Urlstd.Props.C10_ipv4_serialize_injective"
   ],
   "note": ""
  },
  {
   "property": "C11",
   "status": "partial",
   "theorems": [
    "Urlstd.Props.C11_parts_partial",
    "Urlstd.Props.C11_exact",
    "Urlstd.Props.C11_unbounded",
    "Urlstd.Props.C11_false_out_of_range",
    "Urlstd.Props.C11_ipv4_in_range_partial",
    "Urlstd.Props.C11_host_ipv4_in_range_partial"
   ],
   "note": "False as stated: '256.256' gives 2^32+256 (C11_false_out_of_range), and there is no bound at all (C11_unbounded). Proved unless the last part and an earlier part both exceed 255; C11_exact says exactly which accepted texts give a 32-bit address."
  },
  {
   "property": "C12",
   "status": "partial",
   "theorems": [
    "Urlstd.Props.C12_accepts",
    "Urlstd.Props.C12_exact",
    "Urlstd.Props.C12_false_number_syntax",
    "Urlstd.Props.C12_ends_in_a_number_partial",
    "Urlstd.Props.C12_ipv4_parse_partial",
    "Urlstd.Props.C12_exclusion_exact"
   ],
   "note": "False as stated: Python's int() accepts '1_0', '+1', '-0', '0x0x1', '00o7' (C12_false_number_syntax), and '256.256' is accepted. Everything that the standard accepts is accepted with the same result (C12_accepts). C12_exact: the two differ exactly on the texts that the code takes for a number or an address although a part is a numeral of Python only or a part before the last exceeds 255."
  },
  {
   "property": "C13",
   "status": "proved",
   "theorems": [
    "Urlstd.Props.C13_ipv6_round_trip",
    "Urlstd.Props.C13_ipv6_serialize_injective",
    "Urlstd.Props.C13_ipv6_standard_reads"
   ],
   "note": ""
  },
  {
   "property": "C14",
   "status": "partial",
   "theorems": [
    "Urlstd.Props.C14_false_value_error",
    "Urlstd.Props.C14_ipv6_result",
    "Urlstd.Props.C14_ipv6_errors",
    "Urlstd.Props.C14_ipv6_parse_error_only_partial",
    "Urlstd.Props.C14_exact"
   ],
   "note": "False as stated: an IPv4 part longer than sys.get_int_max_str_digits() raises ValueError (C14_false_value_error). Eight 16-bit pieces and absence of index errors are proved for every input; IPv6AddressParseError as the only error is proved for texts within the digit limit. C14_exact says for exactly which texts ValueError is raised."
  },
  {
   "property": "C15",
   "status": "partial",
   "theorems": [
    "Urlstd.Props.C15_false_ipv6_syntax",
    "Urlstd.Props.C15_ipv6_standard_partial",
    "Urlstd.Props.C15_exact",
    "Urlstd.Props.C15_triple",
    "Urlstd.Props.C15_quad"
   ],
   "note": "False as stated: ':::1' and '1.2.3.4::' are accepted and '1:2:3:4:5:6:7::' is rejected (C15_false_ipv6_syntax). Proved for all other texts. C15_exact: the difference occurs exactly for the texts of these three kinds that one of the two accepts; C15_triple and C15_quad say how the code reads the first two kinds."
  },
  {
   "property": "C16",
   "status": "proved",
   "theorems": [
    "Urlstd.Props.C16_ipv6_compress",
    "Urlstd.Props.C16_ipv6_no_compress",
    "Urlstd.Props.C16_ipv6_cases"
   ],
   "note": ""
  },
  {
   "property": "C17",
   "status": "proved",
   "theorems": [
    "Urlstd.Props.C17_domain_no_forbidden",
    "Urlstd.Props.C17_empty_only_for_empty",
    "Urlstd.Props.C17_bracketed"
   ],
   "note": ""
  },
  {
   "property": "C18",
   "status": "partial",
   "theorems": [
    "Urlstd.Props.C18_exact",
    "Urlstd.Props.C18_false_ipv4_overflow",
    "Urlstd.Props.C18_host_round_trip_partial",
    "Urlstd.Props.C18_host_serialization_fixed"
   ],
   "note": "False as stated: '256.256' gives an IPv4 number 2^32+256 whose serialization is read as 256 (C18_false_ipv4_overflow). C18_exact: numbers of more than 32 bits are the only exception. The serialization is a fixed point for all hosts."
  },
  {
   "property": "C19",
   "status": "proved",
   "theorems": [
    "Urlstd.Props.C19_opaque_host_chars",
    "Urlstd.Props.C19_opaque_host_rejects",
    "Urlstd.Props.C19_opaque_host_decodes"
   ],
   "note": ""
  },
  {
   "property": "C20",
   "status": "proved",
   "theorems": [
    "Urlstd.Props.C20_loop_terminates",
    "Urlstd.Props.C20_no_infinite_run",
    "Urlstd.Props.C20_basicParse_is_loop"
   ],
   "note": ""
  },
  {
   "property": "C21",
   "status": "partial",
   "theorems": [
    "Urlstd.Props.C21_errors",
    "Urlstd.Props.C21_no_internal_error",
    "Urlstd.Props.C21_only_URLParseError_partial",
    "Urlstd.Props.C21_short_input_partial",
    "Urlstd.Props.C21_false_valueError",
    "Urlstd.Props.C21_exact"
   ],
   "note": "False as stated: a port or number with more digits than sys.get_int_max_str_digits() raises a bare ValueError (C21_false_valueError). Proved for every input: every exception is URLParseError (or a subclass) or that ValueError, and the latter only for inputs longer than the limit; with no limit set, or within it, the full statement holds. C21_exact says for exactly which texts ValueError is raised."
  },
  {
   "property": "C22",
   "status": "proved",
   "theorems": [
    "Urlstd.Props.C22_scheme_normalized"
   ],
   "note": ""
  },
  {
   "property": "C23",
   "status": "proved",
   "theorems": [
    "Urlstd.Props.C23_special_has_host",
    "Urlstd.Props.C23_opaque_is_bare"
   ],
   "note": ""
  },
  {
   "property": "C24",
   "status": "proved",
   "theorems": [
    "Urlstd.Props.C24_port"
   ],
   "note": ""
  },
  {
   "property": "C25",
   "status": "proved",
   "theorems": [
    "Urlstd.Props.C25_bare_without_host"
   ],
   "note": ""
  },
  {
   "property": "C26",
   "status": "proved",
   "theorems": [
    "Urlstd.Props.C26_segments"
   ],
   "note": ""
  },
  {
   "property": "C27",
   "status": "proved",
   "theorems": [
    "Urlstd.Props.C27_href_printable"
   ],
   "note": ""
  },
  {
   "property": "C28",
   "status": "proved",
   "theorems": [
    "Urlstd.Props.C28_query",
    "Urlstd.Props.C28_fragment"
   ],
   "note": ""
  },
  {
   "property": "C29",
   "status": "proved",
   "theorems": [
    "Urlstd.Props.C29_href_fixed_point",
    "Urlstd.Props.C29_url_href"
   ],
   "note": ""
  },
  {
   "property": "C30",
   "status": "partial",
   "theorems": [
    "Urlstd.Props.C30_exact",
    "Urlstd.Props.C30_false_ipv4_overflow",
    "Urlstd.Props.C30_components",
    "Urlstd.Props.C30_record_partial"
   ],
   "note": "False as stated: 'http://256.256/' has an IPv4 host of 2^32+256, which reads back as 256 (C30_false_ipv4_overflow). Proved for every parsed URL up to reducing an IPv4 host to 32 bits; C30_exact: such hosts are the only exception."
  },
  {
   "property": "C31",
   "status": "proved",
   "theorems": [
    "Urlstd.Props.C31_tabs_newlines_ignored",
    "Urlstd.Props.C31_base_tabs_newlines_ignored"
   ],
   "note": ""
  },
  {
   "property": "C32",
   "status": "proved",
   "theorems": [
    "Urlstd.Props.C32_surrounding_space_ignored",
    "Urlstd.Props.C32_base_surrounding_space_ignored"
   ],
   "note": ""
  },
  {
   "property": "C33",
   "status": "proved",
   "theorems": [
    "Urlstd.Props.C33_scheme_case"
   ],
   "note": ""
  },
  {
   "property": "C34",
   "status": "proved",
   "theorems": [
    "Urlstd.Props.C34_backslash_is_slash",
    "Urlstd.Props.C34_any_backslash_is_slash"
   ],
   "note": ""
  },
  {
   "property": "C35",
   "status": "proved",
   "theorems": [
    "Urlstd.Props.C35_absolute_ignores_base",
    "Urlstd.Props.C35_absolute_ignores_base_string"
   ],
   "note": ""
  },
  {
   "property": "C36",
   "status": "partial",
   "theorems": [
    "Urlstd.Props.C36_exact",
    "Urlstd.Props.C36_false_file",
    "Urlstd.Props.C36_empty_reference_partial",
    "Urlstd.Props.C36_empty_reference_file"
   ],
   "note": "False as stated for 'file' bases (C36_false_file): an empty reference appends an empty path segment there. Proved for every other scheme (C36_empty_reference_partial); the exact behaviour for 'file' bases is C36_empty_reference_file; C36_exact puts both together as an equivalence."
  },
  {
   "property": "C37",
   "status": "proved",
   "theorems": [
    "Urlstd.Props.C37_fragment_reference"
   ],
   "note": ""
  },
  {
   "property": "C38",
   "status": "proved",
   "theorems": [
    "Urlstd.Props.C38_query_reference"
   ],
   "note": ""
  },
  {
   "property": "C39",
   "status": "proved",
   "theorems": [
    "Urlstd.Props.C39_base_unchanged",
    "Urlstd.Props.C39_result_independent"
   ],
   "note": ""
  },
  {
   "property": "C40",
   "status": "proved",
   "theorems": [
    "Urlstd.Props.C40_path_reference_keeps_authority"
   ],
   "note": ""
  },
  {
   "property": "C41",
   "status": "proved",
   "theorems": [
    "Urlstd.Props.C41_agreeing_encodings",
    "Urlstd.Props.C41_encoding_affects_query_only",
    "Urlstd.Props.C41_query_printable"
   ],
   "note": ""
  },
  {
   "property": "C42",
   "status": "proved",
   "theorems": [
    "Urlstd.Props.C42_own_component_only",
    "Urlstd.Props.C42_path_only_stripped",
    "Urlstd.Props.C42_protocol_port",
    "Urlstd.Props.C42_params_unchanged"
   ],
   "note": ""
  },
  {
   "property": "C43",
   "status": "proved",
   "theorems": [
    "Urlstd.Props.C43_opaque_path",
    "Urlstd.Props.C43_cannot_have",
    "Urlstd.Props.C43_protocol_special"
   ],
   "note": ""
  },
  {
   "property": "C44",
   "status": "partial",
   "theorems": [
    "Urlstd.Props.C44_failed_host_exact",
    "Urlstd.Props.C44_false_host",
    "Urlstd.Props.C44_failed_assignment_partial",
    "Urlstd.Props.C44_failed_host"
   ],
   "note": "False for the host setter (C44_false_host): the host is assigned before a bad port raises. Proved for every other operation and every exception (C44_failed_assignment_partial). Exact for host (C44_failed_host_exact): the object is as it was, unless the text is a host, a colon and a refused port number, and then it is as after the assignment of the host to hostname."
  },
  {
   "property": "C45",
   "status": "partial",
   "theorems": [
    "Urlstd.Props.C45_false_port_zero",
    "Urlstd.Props.C45_guarantees_partial",
    "Urlstd.Props.C45_printable",
    "Urlstd.Props.C45_bare_partial",
    "Urlstd.Props.C45_exact"
   ],
   "note": "False in one respect (C45_false_port_zero): the port 0 is falsy in the code, so the host can become empty or the scheme 'file' while the port stays. Everything else is proved for all histories (C45_guarantees_partial, C45_printable); the missing part is proved for ports other than 0 (C45_bare_partial). The exception is exact: port 0 with no host, an empty host or the scheme \"file\" (C45_exact)."
  },
  {
   "property": "C46",
   "status": "partial",
   "theorems": [
    "Urlstd.Props.C46_false",
    "Urlstd.Props.C46_href_fixed_point_partial",
    "Urlstd.Props.C46_exact",
    "Urlstd.Props.C46_not_file_partial"
   ],
   "note": "False for four kinds of URLs reached through the protocol or host setter (C46_false): port 0 with an empty host or scheme 'file', and 'file' URLs with the host 'localhost' or a first segment like 'C|'. Proved for every other reachable URL (C46_href_fixed_point_partial; for schemes other than 'file' C46_not_file_partial). C46_exact: href is a fixed point exactly for the URLs that are not of these kinds."
  },
  {
   "property": "C47",
   "status": "partial",
   "theorems": [
    "Urlstd.Props.C47_false",
    "Urlstd.Props.C47_false_deviant",
    "Urlstd.Props.C47_plain",
    "Urlstd.Props.C47_tail_partial",
    "Urlstd.Props.C47_own_value_partial",
    "Urlstd.Props.C47_exact"
   ],
   "note": "False when the host is null, the query or the fragment is the empty string (C47_false), and for the deviant URLs of C46 (C47_false_deviant). Proved: protocol, username, password, port for every reachable object; all attributes outside those cases. C47_exact: outside of the deviant URLs the exceptions are exact, i.e. href changes if and only if one of them applies."
  },
  {
   "property": "C48",
   "status": "proved",
   "theorems": [
    "Urlstd.Props.C48_params_of_search",
    "Urlstd.Props.C48_params_standard",
    "Urlstd.Props.C48_search_of_params"
   ],
   "note": ""
  },
  {
   "property": "C49",
   "status": "proved",
   "theorems": [
    "Urlstd.Props.C49_set_new",
    "Urlstd.Props.C49_set_replaces",
    "Urlstd.Props.C49_set"
   ],
   "note": ""
  },
  {
   "property": "C50",
   "status": "proved",
   "theorems": [
    "Urlstd.Props.C50_delete_name",
    "Urlstd.Props.C50_delete_value",
    "Urlstd.Props.C50_delete_number"
   ],
   "note": ""
  },
  {
   "property": "C51",
   "status": "proved",
   "theorems": [
    "Urlstd.Props.C51_get_all",
    "Urlstd.Props.C51_get",
    "Urlstd.Props.C51_has_contains",
    "Urlstd.Props.C51_append",
    "Urlstd.Props.C51_append_other"
   ],
   "note": ""
  },
  {
   "property": "C52",
   "status": "partial",
   "theorems": [
    "Urlstd.Props.C52_append_exact",
    "Urlstd.Props.C52_false",
    "Urlstd.Props.C52_has_iff",
    "Urlstd.Props.C52_stored_pair_partial",
    "Urlstd.Props.C52_after_append_partial",
    "Urlstd.Props.C52_append_has_name"
   ],
   "note": "False (C52_false): has, get, get_all percent-decode the name they are given, and append percent-decodes the value while has does not; stored names or values containing an escape are not found. Proved for names and values without escapes (C52_stored_pair_partial, C52_after_append_partial); C52_has_iff says exactly what has() returns, and C52_append_exact when a pair just appended is found."
  },
  {
   "property": "C53",
   "status": "proved",
   "theorems": [
    "Urlstd.Props.C53_sort_perm",
    "Urlstd.Props.C53_sort_sorted",
    "Urlstd.Props.C53_sort_stable",
    "Urlstd.Props.C53_sort_unique"
   ],
   "note": ""
  },
  {
   "property": "C54",
   "status": "proved",
   "theorems": [
    "Urlstd.Props.C54_round_trip"
   ],
   "note": ""
  },
  {
   "property": "C55",
   "status": "partial",
   "theorems": [
    "Urlstd.Props.C55_refl_exact",
    "Urlstd.Props.C55_same_origin",
    "Urlstd.Props.C55_same_origin_equivalence",
    "Urlstd.Props.C55_same_origin_domain",
    "Urlstd.Props.C55_false_empty_domain",
    "Urlstd.Props.C55_same_origin_domain_symm_trans",
    "Urlstd.Props.C55_same_origin_domain_refl_partial",
    "Urlstd.Props.C55_coincide"
   ],
   "note": "False only for an origin whose domain is the empty string (C55_false_empty_domain, C55_refl_exact), which is not same origin-domain with itself. Everything else is proved: is_same_origin is an equivalence relation, is_same_origin_domain is symmetric and transitive, and reflexive for every other domain; they coincide on origins of URLs."
  },
  {
   "property": "C56",
   "status": "partial",
   "theorems": [
    "Urlstd.Props.C56_tuple",
    "Urlstd.Props.C56_opaque",
    "Urlstd.Props.C56_blob",
    "Urlstd.Props.C56_false_valueError",
    "Urlstd.Props.C56_blob_partial",
    "Urlstd.Props.C56_string",
    "Urlstd.Props.C56_exact"
   ],
   "note": "False for blob URLs whose path exceeds CPython's limit on the digits of a number (C56_false_valueError): origin raises ValueError. Proved for every other record (C56_tuple, C56_opaque, C56_blob_partial); C56_blob covers all blob URLs including the exception. C56_exact says for exactly which URLs it raises."
  },
  {
   "property": "C57",
   "status": "proved",
   "theorems": [
    "Urlstd.Props.C57_equals_href",
    "Urlstd.Props.C57_equivalence",
    "Urlstd.Props.C57_exclude_fragments",
    "Urlstd.Props.C57_exclude_fragments_iff",
    "Urlstd.Props.C57_equal_components"
   ],
   "note": ""
  },
  {
   "property": "C58",
   "status": "partial",
   "theorems": [
    "Urlstd.Props.C58_false",
    "Urlstd.Props.C58_reassemble_partial",
    "Urlstd.Props.C58_reassemble_exact",
    "Urlstd.Props.C58_components",
    "Urlstd.Props.C58_no_fragments"
   ],
   "note": "False where urllib's components cannot tell an empty from an absent query, fragment or parameter part (C58_false). Proved otherwise (C58_reassemble_partial); C58_components and C58_no_fragments hold without exception. C58_reassemble_exact: it fails in exactly these cases."
  },
  {
   "property": "C59",
   "status": "partial",
   "theorems": [
    "Urlstd.Props.C59_false_valueError",
    "Urlstd.Props.C59_consistent_partial",
    "Urlstd.Props.C59_always",
    "Urlstd.Props.C59_ipv4",
    "Urlstd.Props.C59_ipv6",
    "Urlstd.Props.C59_host"
   ],
   "note": "False for calls that end in the ValueError of CPython's digit limit (C59_false_valueError: one error type more than descriptions). Proved for every sequence of operations in which no call ends in that exception (C59_consistent_partial). For every history whatever C59_always says what remains: valid is true exactly when no error type is listed, descriptions and counted errors agree, and each failed call adds at most one uncounted error type. C59_ipv4, C59_ipv6 and C59_host say exactly which calls of the address and host parsers spoil a consistent state."
  },
  {
   "property": "C60",
   "status": "proved",
   "theorems": [
    "Urlstd.Props.C60_verdict",
    "Urlstd.Props.C60_valid",
    "Urlstd.Props.C60_valid_can_parse",
    "Urlstd.Props.C60_failure_recorded",
    "Urlstd.Props.C60_negative_recorded",
    "Urlstd.Props.C60_scheme"
   ],
   "note": ""
  },
  {
   "property": "C61",
   "status": "partial",
   "theorems": [
    "Urlstd.Props.C61_exact",
    "Urlstd.Props.C61_false_raises",
    "Urlstd.Props.C61_predicts_partial",
    "Urlstd.Props.C61_raises_partial",
    "Urlstd.Props.C61_exact_partial"
   ],
   "note": "False: can_parse can raise ValueError where URL() succeeds (C61_false_raises). Proved: whenever it returns, the answer is right; it raises only ValueError and only for overlong input; exact for all other input. C61_exact says for exactly which texts it fails to answer."
  },
  {
   "property": "C62",
   "status": "partial",
   "theorems": [
    "Urlstd.Props.C62_exact",
    "Urlstd.Props.C62_false_int_syntax",
    "Urlstd.Props.C62_dotted_valid",
    "Urlstd.Props.C62_valid_partial",
    "Urlstd.Props.C62_host",
    "Urlstd.Props.C62_valid_parses"
   ],
   "note": "False: int() accepts signs, underscores, white space and non-ASCII digits (C62_false_int_syntax). Proved: dotted decimals are valid and host parsing returns the address; the converse for texts without those characters; every accepted text parses as an address without a validation error; C62_exact says exactly which texts are accepted."
  },
  {
   "property": "C63",
   "status": "proved",
   "theorems": [
    "Urlstd.Props.C63_opaque_units",
    "Urlstd.Props.C63_ipv6",
    "Urlstd.Props.C63_opaque"
   ],
   "note": ""
  },
  {
   "property": "C64",
   "status": "partial",
   "theorems": [
    "Urlstd.Props.C64_false",
    "Urlstd.Props.C64_surrogates_partial",
    "Urlstd.Props.C64_base_surrogates_partial",
    "Urlstd.Props.C64_setters",
    "Urlstd.Props.C64_exact"
   ],
   "note": "False for a surrogate pair in an opaque path: BasicURLParser._parse_opaque_path encodes character by character, so each half becomes U+FFFD (C64_false). C64_surrogates_partial proves the claim for every input and base whenever the resulting path is not opaque, and for every input whose surrogate pairs all lie after the first ? or #. C64_exact shows that these are exactly the inputs for which it holds: a pair in an opaque path always changes the result. C64_setters proves it for every setter."
  },
  {
   "property": "C65",
   "status": "partial",
   "theorems": [
    "Urlstd.Props.C65_exact_partial",
    "Urlstd.Props.C65_false_file",
    "Urlstd.Props.C65_parser_partial",
    "Urlstd.Props.C65_bare_file",
    "Urlstd.Props.C65_string_base_partial",
    "Urlstd.Props.C65_machine_halts",
    "Urlstd.Props.C65_override_halts",
    "Urlstd.Props.C65_any_length_partial"
   ],
   "note": "The parser's result equals the outcome of the standard's character-by-character state machine for every scalar-value input, every parsed base and every encoding, with the code's host parser as host parser (C66 relates that one to the standard). False for the empty input and for \"file:\" against a file URL (C65_false_file: an empty path segment is appended); also excluded are inputs longer than sys.get_int_max_str_digits(). C65_bare_file proves what both do in the file case, so that it is exactly the place where they differ. C65_any_length_partial: accepted texts of any length agree, unless the host is of the kind of C89. C65_exact_partial says so as an equivalence. C65_machine_halts and C65_override_halts: the standard's machine ends on every input, with one result, whatever the host parser, base, encoding and override."
  },
  {
   "property": "C66",
   "status": "partial",
   "theorems": [
    "Urlstd.Props.C66_host_exact",
    "Urlstd.Props.C66_parser_exact_partial",
    "Urlstd.Props.C66_false_host",
    "Urlstd.Props.C66_host_parser_partial",
    "Urlstd.Props.C66_parser_partial"
   ],
   "note": "False where C12 and C15 are (C66_false_host). C66_host_exact: host parsing of a scalar-value text differs from the standard's host parser over the same IDNA library exactly on the texts of OddHost. C66_parser_exact_partial: where C65 holds, the URL parser and the standard's state machine with the standard's host parser agree on an input if and only if no such text is handed to the host parser, or neither accepts the input."
  },
  {
   "property": "C67",
   "status": "partial",
   "theorems": [
    "Urlstd.Props.C67_false_port_zero",
    "Urlstd.Props.C67_false_search",
    "Urlstd.Props.C67_false_append",
    "Urlstd.Props.C67_false_delete",
    "Urlstd.Props.C67_operation_partial",
    "Urlstd.Props.C67_determined_partial",
    "Urlstd.Props.C67_standard_host_partial",
    "Urlstd.Props.C67_determined",
    "Urlstd.Props.C67_exact",
    "Urlstd.Props.C67_standard_exact"
   ],
   "note": "False as stated; four witnesses C67_false_*: host/hostname/protocol on a URL with port 0, search with tabs or newlines, names and values with percent escapes or '~', delete with a numeric value. C67_exact says exactly which operations disagree (Spec.Odd), for every reachable object and all strings without surrogates: a scheme setter that turns a special URL on port 0 into a file URL, a host setter that empties the host beside port 0, search with a tab or newline, append with an escape, set and delete where decoding the name or value changes the list, delete of a pair by a number, and '~' anywhere in the resulting list; all other operations agree. C67_determined: the standard's outcome is unique. C67_standard_exact has the standard's host parser for every operation that hands it no deviating text."
  },
  {
   "property": "C68",
   "status": "partial",
   "theorems": [
    "Urlstd.Props.C68_false_host",
    "Urlstd.Props.C68_host_reports_partial",
    "Urlstd.Props.C68_parsed_host_partial",
    "Urlstd.Props.C68_host_exact",
    "Urlstd.Props.C68_false_drive",
    "Urlstd.Props.C68_machine_partial",
    "Urlstd.Props.C68_machine_exact",
    "Urlstd.Props.C68_parsed_partial",
    "Urlstd.Props.C68_any_partial",
    "Urlstd.Props.C68_verdict_partial",
    "Urlstd.Props.C68_string_base_partial"
   ],
   "note": "False as stated; witnesses C68_false_host (an opaque host with two faults is reported once, an out-of-range IPv4 address gets an extra undefined error, an IPv6 address with two faults is reported for the second) and C68_false_drive ('|' of a drive letter in place of a file host is reported in addition). Proved: otherwise the recorded errors are the standard's in order, with the code's host parser for every input (C68_machine_partial) and with the standard's host parser and its errors for every input that parses (C68_parsed_partial); whether there is any error always agrees (C68_any_partial); is_valid answers true exactly when the standard's parser succeeds without a validation error and the scheme is registered (C68_verdict_partial, C68_string_base_partial). C68_machine_exact and C68_host_exact: the lists are equal exactly outside of these differences (for hosts, those not in brackets). The exclusions of C65 and C66 apply."
  },
  {
   "property": "C69",
   "status": "partial",
   "theorems": [
    "Urlstd.Props.C69_ipv4",
    "Urlstd.Props.C69_ipv6",
    "Urlstd.Props.C69_serialize",
    "Urlstd.Props.C69_getters",
    "Urlstd.Props.C69_origin_partial",
    "Urlstd.Props.C69_origin_own_partial",
    "Urlstd.Props.C69_false_origin",
    "Urlstd.Props.C69_origin_determined",
    "Urlstd.Props.C69_origin_exact"
   ],
   "note": "C69_ipv4, C69_ipv6, C69_serialize and C69_getters hold without exception. The origin of a blob URL is parsed from its path, so C69_false_origin inherits the deviating hosts of C66 and the digit limit of C56; C69_origin_partial covers everything else. C69_origin_exact says exactly for which blob URLs the origin is not the standard's (a host of C66 in a path that is an http or https URL for one of the two); C69_origin_own_partial that it always is if the host parser is the code's; C69_origin_determined that the standard gives exactly one."
  },
  {
   "property": "C70",
   "status": "proved",
   "theorems": [
    "Urlstd.Props.C70_values",
    "Urlstd.Props.C70_frame",
    "Urlstd.Props.C70_new",
    "Urlstd.Props.C70_live",
    "Urlstd.Props.C70_lists"
   ],
   "note": ""
  },
  {
   "property": "C71",
   "status": "proved",
   "theorems": [
    "Urlstd.Props.C71_sequence",
    "Urlstd.Props.C71_dict",
    "Urlstd.Props.C71_string",
    "Urlstd.Props.C71_copy",
    "Urlstd.Props.C71_index",
    "Urlstd.Props.C71_keys_values",
    "Urlstd.Props.C71_contains",
    "Urlstd.Props.C71_equality",
    "Urlstd.Props.C71_add",
    "Urlstd.Props.C71_slice",
    "Urlstd.Props.C71_slice_range"
   ],
   "note": ""
  },
  {
   "property": "C72",
   "status": "partial",
   "theorems": [
    "Urlstd.Props.C72_domain",
    "Urlstd.Props.C72_domain_total",
    "Urlstd.Props.C72_false_domain",
    "Urlstd.Props.C72_domain_standard_partial",
    "Urlstd.Props.C72_false_host",
    "Urlstd.Props.C72_host_sound_partial",
    "Urlstd.Props.C72_host_complete_partial",
    "Urlstd.Props.C72_false_accepted",
    "Urlstd.Props.C72_accepted_partial",
    "Urlstd.Props.C72_opaque_exact",
    "Urlstd.Props.C72_host_exact",
    "Urlstd.Props.C72_accepted_exact",
    "Urlstd.Props.C72_opaque_grammar_partial"
   ],
   "note": "The verdict on domains is characterised exactly by the error bits (C72_domain, C72_domain_total). With the standard's definitions the claim is false: ToUnicode is run on the domain instead of its ASCII form (C72_false_domain), a domain that ends in a number is not accepted and Python numerals are (C72_false_host), and a valid domain whose ASCII form ends in a number is not accepted by host parsing (C72_false_accepted). The partial theorems exclude these cases and those of C12 and C15. C72_host_exact, C72_opaque_exact and C72_accepted_exact say exactly which texts these cases are."
  },
  {
   "property": "C73",
   "status": "partial",
   "theorems": [
    "Urlstd.Props.C73_base_exact",
    "Urlstd.Props.C73_no_errors_partial",
    "Urlstd.Props.C73_valid_partial",
    "Urlstd.Props.C73_false_opaque_base",
    "Urlstd.Props.C73_false_ipv6",
    "Urlstd.Props.C73_false_converse"
   ],
   "note": "Proved for hosts that the validators and the host parser agree on (valid domains whose last label int() does not read as a number, dotted IPv4 addresses, IPv6 addresses outside of C15, opaque hosts), for ports within CPython's limit of digits. False for a relative reference to a base with an opaque path (the standard's grammar allows it and its parser rejects it, C73_false_opaque_base) and for the IPv6 addresses of C15 (C73_false_ipv6). C73_base_exact: on texts with silent hosts, exactly the references to an opaque base other than a bare fragment are excepted. The converse is not claimed; C73_false_converse shows that it is false, and C98 says exactly which texts are parsed without a validation error. The converse: C100 says exactly which texts without a validation error are no valid URL strings."
  },
  {
   "property": "C74",
   "status": "proved",
   "theorems": [
    "Urlstd.Props.C74_twice"
   ],
   "note": ""
  },
  {
   "property": "C75",
   "status": "partial",
   "theorems": [
    "Urlstd.Props.C75_false",
    "Urlstd.Props.C75_last_wins",
    "Urlstd.Props.C75_tail_partial",
    "Urlstd.Props.C75_tail_exact",
    "Urlstd.Props.C75_or_no_effect",
    "Urlstd.Props.C75_port",
    "Urlstd.Props.C75_host_partial",
    "Urlstd.Props.C75_host",
    "Urlstd.Props.C75_set"
   ],
   "note": "False for search and hash on an opaque path that ends in spaces, which assigning the empty text strips for good, and for host, where a text without port keeps the port of the first (C75_false). Proved for username, password, pathname and search_params.set without exception; for search and hash exactly when it holds (C75_tail_exact); for href, port and hostname: the second wins or has no effect either way (C75_or_no_effect), with the texts that do have an effect on port (C75_port); for host additionally: the second wins except for the port, which it leaves as it is, and emptying the host of a URL that is not special depends on whether there is a port (C75_host, all texts)."
  },
  {
   "property": "C76",
   "status": "proved",
   "theorems": [
    "Urlstd.Props.C76_slashes_ignore_base",
    "Urlstd.Props.C76_href_ignores_base",
    "Urlstd.Props.C76_url",
    "Urlstd.Props.C76_resolved",
    "Urlstd.Props.C76_exact"
   ],
   "note": ""
  },
  {
   "property": "C77",
   "status": "partial",
   "theorems": [
    "Urlstd.Props.C77_exact",
    "Urlstd.Props.C77_false_empty_file",
    "Urlstd.Props.C77_resolution_partial"
   ],
   "note": "False for the empty reference against a file URL, whose path gets an additional slash (C77_false_empty_file; the defect of C36). Proved for every other reference of the statement. C77_exact says so as an equivalence."
  },
  {
   "property": "C78",
   "status": "partial",
   "theorems": [
    "Urlstd.Props.C78_url",
    "Urlstd.Props.C78_false",
    "Urlstd.Props.C78_entries_partial",
    "Urlstd.Props.C78_entries_rebound",
    "Urlstd.Props.C78_keys_values",
    "Urlstd.Props.C78_all"
   ],
   "note": "False for keys and values, which iterate over a copy, and for entries after an assignment to href or search, which gives search_params a new list (C78_false). Proved for entries otherwise (C78_entries_partial, C78_all); C78_entries_rebound and C78_keys_values say exactly what happens in the other cases, C78_url holds without exception."
  },
  {
   "property": "C79",
   "status": "proved",
   "theorems": [
    "Urlstd.Props.C79_commute",
    "Urlstd.Props.C79_web",
    "Urlstd.Props.C79_dependent"
   ],
   "note": ""
  },
  {
   "property": "C80",
   "status": "proved",
   "theorems": [
    "Urlstd.Props.C80_operation",
    "Urlstd.Props.C80_history",
    "Urlstd.Props.C80_reference"
   ],
   "note": ""
  },
  {
   "property": "C81",
   "status": "proved",
   "theorems": [
    "Urlstd.Props.C81_parts",
    "Urlstd.Props.C81_absolute",
    "Urlstd.Props.C81_any"
   ],
   "note": ""
  },
  {
   "property": "C82",
   "status": "proved",
   "theorems": [
    "Urlstd.Props.C82_tail",
    "Urlstd.Props.C82_opaque",
    "Urlstd.Props.C82_rooted",
    "Urlstd.Props.C82_special",
    "Urlstd.Props.C82_same_scheme",
    "Urlstd.Props.C82_file_host",
    "Urlstd.Props.C82_file_drive",
    "Urlstd.Props.C82_file_rooted",
    "Urlstd.Props.C82_file_plain",
    "Urlstd.Props.C82_file_relative",
    "Urlstd.Props.C82_file_same"
   ],
   "note": ""
  },
  {
   "property": "C83",
   "status": "proved",
   "theorems": [
    "Urlstd.Props.C83_denotes",
    "Urlstd.Props.C83_unique",
    "Urlstd.Props.C83_object_base",
    "Urlstd.Props.C83_text_base"
   ],
   "note": ""
  },
  {
   "property": "C84",
   "status": "proved",
   "theorems": [
    "Urlstd.Props.C84_same_errors",
    "Urlstd.Props.C84_points",
    "Urlstd.Props.C84_points_setter",
    "Urlstd.Props.C84_order",
    "Urlstd.Props.C84_text"
   ],
   "note": ""
  },
  {
   "property": "C85",
   "status": "proved",
   "theorems": [
    "Urlstd.Props.C85_split",
    "Urlstd.Props.C85_at",
    "Urlstd.Props.C85_dots",
    "Urlstd.Props.C85_href_determines"
   ],
   "note": ""
  },
  {
   "property": "C86",
   "status": "partial",
   "theorems": [
    "Urlstd.Props.C86_str",
    "Urlstd.Props.C86_printable",
    "Urlstd.Props.C86_record_partial",
    "Urlstd.Props.C86_params",
    "Urlstd.Props.C86_record_raises",
    "Urlstd.Props.C86_reached",
    "Urlstd.Props.C86_url_partial",
    "Urlstd.Props.C86_false_valueError"
   ],
   "note": "False in one respect: with a limit on the digits of converted integers (CPython's default) the record of \"http://0100...0.256\" (an IPv4 number that is too large, see C11) and a blob URL with a long port in its path (see C56) have no representation, ValueError is raised (C86_false_valueError). When this happens is said exactly (C86_record_raises, C86_url_partial); whenever a representation is returned, everything claimed holds."
  },
  {
   "property": "C87",
   "status": "proved",
   "theorems": [
    "Urlstd.Props.C87_parse",
    "Urlstd.Props.C87_resolve",
    "Urlstd.Props.C87_host",
    "Urlstd.Props.C87_history",
    "Urlstd.Props.C87_fed",
    "Urlstd.Props.C87_sharp"
   ],
   "note": ""
  },
  {
   "property": "C88",
   "status": "proved",
   "theorems": [
    "Urlstd.Props.C88_number",
    "Urlstd.Props.C88_ends",
    "Urlstd.Props.C88_parse",
    "Urlstd.Props.C88_host"
   ],
   "note": ""
  },
  {
   "property": "C89",
   "status": "partial",
   "theorems": [
    "Urlstd.Props.C89_false",
    "Urlstd.Props.C89_within_limits",
    "Urlstd.Props.C89_accepted_partial",
    "Urlstd.Props.C89_unlimited_exact"
   ],
   "note": "False in one respect (C89_false): is_ends_in_a_number takes a ValueError of int() for \"not a number\", so a host whose last part is a number with a sign or underscores and more digits than the limit is a domain for the limited interpreter and an IPv4 address (or a failure) for the other. C89_within_limits proves the claim for every text within both limits; C89_accepted_partial that two accepting interpreters otherwise agree; C89_unlimited_exact that an unlimited interpreter agrees with an accepting one exactly if the host is not of that kind."
  },
  {
   "property": "C90",
   "status": "proved",
   "theorems": [
    "Urlstd.Props.C90_host_and_port",
    "Urlstd.Props.C90_no_digits",
    "Urlstd.Props.C90_without_port",
    "Urlstd.Props.C90_hostname_ignores_port",
    "Urlstd.Props.C90_file",
    "Urlstd.Props.C90_every_text"
   ],
   "note": ""
  },
  {
   "property": "C91",
   "status": "proved",
   "theorems": [
    "Urlstd.Props.C91_common",
    "Urlstd.Props.C91_absolute",
    "Urlstd.Props.C91_hash",
    "Urlstd.Props.C91_asBase",
    "Urlstd.Props.C91_fragment",
    "Urlstd.Props.C91_query",
    "Urlstd.Props.C91_scheme",
    "Urlstd.Props.C91_dot"
   ],
   "note": ""
  },
  {
   "property": "C92",
   "status": "proved",
   "theorems": [
    "Urlstd.Props.C92_assign",
    "Urlstd.Props.C92_unique",
    "Urlstd.Props.C92_total"
   ],
   "note": ""
  },
  {
   "property": "C93",
   "status": "proved",
   "theorems": [
    "Urlstd.Props.C93_never",
    "Urlstd.Props.C93_exact"
   ],
   "note": ""
  },
  {
   "property": "C94",
   "status": "proved",
   "theorems": [
    "Urlstd.Props.C94_authority",
    "Urlstd.Props.C94_refused",
    "Urlstd.Props.C94_rest",
    "Urlstd.Props.C94_no_authority",
    "Urlstd.Props.C94_reference"
   ],
   "note": ""
  },
  {
   "property": "C95",
   "status": "proved",
   "theorems": [
    "Urlstd.Props.C95_host",
    "Urlstd.Props.C95_text",
    "Urlstd.Props.C95_call",
    "Urlstd.Props.C95_constructor",
    "Urlstd.Props.C95_can_parse",
    "Urlstd.Props.C95_recording"
   ],
   "note": ""
  },
  {
   "property": "C96",
   "status": "proved",
   "theorems": [
    "Urlstd.Props.C96_grammar",
    "Urlstd.Props.C96_value",
    "Urlstd.Props.C96_host",
    "Urlstd.Props.C96_standard"
   ],
   "note": ""
  },
  {
   "property": "C97",
   "status": "proved",
   "theorems": [
    "Urlstd.Props.C97_ipv6",
    "Urlstd.Props.C97_host",
    "Urlstd.Props.C97_unique"
   ],
   "note": ""
  },
  {
   "property": "C98",
   "status": "proved",
   "theorems": [
    "Urlstd.Props.C98_exact",
    "Urlstd.Props.C98_scheme",
    "Urlstd.Props.C98_is_valid",
    "Urlstd.Props.C98_base",
    "Urlstd.Props.C98_brackets",
    "Urlstd.Props.C98_opaque_host",
    "Urlstd.Props.C98_host",
    "Urlstd.Props.C98_grammar",
    "Urlstd.Props.C98_is_valid_grammar"
   ],
   "note": ""
  },
  {
   "property": "C99",
   "status": "proved",
   "theorems": [
    "Urlstd.Props.C99_kept",
    "Urlstd.Props.C99_exact",
    "Urlstd.Props.C99_href",
    "Urlstd.Props.C99_is_valid",
    "Urlstd.Props.C99_false_encoding"
   ],
   "note": ""
  },
  {
   "property": "C100",
   "status": "proved",
   "theorems": [
    "Urlstd.Props.C100_exact",
    "Urlstd.Props.C100_is_valid",
    "Urlstd.Props.C100_odd",
    "Urlstd.Props.C100_standard"
   ],
   "note": ""
  },
  {
   "property": "C101",
   "status": "proved",
   "theorems": [
    "Urlstd.Props.C101_reference",
    "Urlstd.Props.C101_file",
    "Urlstd.Props.C101_opaque",
    "Urlstd.Props.C101_place",
    "Urlstd.Props.C101_filePlace",
    "Urlstd.Props.C101_rest"
   ],
   "note": ""
  },
  {
   "property": "C102",
   "status": "proved",
   "theorems": [
    "Urlstd.Props.C102_root",
    "Urlstd.Props.C102_file",
    "Urlstd.Props.C102_self",
    "Urlstd.Props.C102_scheme"
   ],
   "note": ""
  },
  {
   "property": "C103",
   "status": "partial",
   "theorems": [
    "Urlstd.Props.C103_null",
    "Urlstd.Props.C103_same",
    "Urlstd.Props.C103_same_partial",
    "Urlstd.Props.C103_false",
    "Urlstd.Props.C103_url",
    "Urlstd.Props.C103_base"
   ],
   "note": "False for IPv4 addresses of 2^32 or more (C18): http://256.256 and http://0.0.1.0 have the same origin text but not the same origin (C103_false). C103_same says for all URLs when the texts are equal; C103_same_partial is the statement without such addresses. C103_null and C103_url hold as stated, C103_base with that exception."
  },
  {
   "property": "C104",
   "status": "proved",
   "theorems": [
    "Urlstd.Props.C104_copy",
    "Urlstd.Props.C104_href",
    "Urlstd.Props.C104_file",
    "Urlstd.Props.C104_false"
   ],
   "note": ""
  },
  {
   "property": "C105",
   "status": "proved",
   "theorems": [
    "Urlstd.Props.C105_operation",
    "Urlstd.Props.C105_text",
    "Urlstd.Props.C105_every_list",
    "Urlstd.Props.C105_false"
   ],
   "note": ""
  },
  {
   "property": "C106",
   "status": "proved",
   "theorems": [
    "Urlstd.Props.C106_compose",
    "Urlstd.Props.C106_tail",
    "Urlstd.Props.C106_objects",
    "Urlstd.Props.C106_false"
   ],
   "note": ""
  },
  {
   "property": "C107",
   "status": "partial",
   "theorems": [
    "Urlstd.Props.C107_lower",
    "Urlstd.Props.C107_exact",
    "Urlstd.Props.C107_scheme_partial",
    "Urlstd.Props.C107_false",
    "Urlstd.Props.C107_is_valid"
   ],
   "note": "False as stated: value.lower() turns the Kelvin sign U+212A into 'k', so 'sKype' written with it is accepted although it is no URL scheme and the parser refuses it (C107_false). C107_exact: this is the only exception; C107_scheme_partial: every accepted text without that sign is a URL scheme; C107_is_valid: the verdict of is_valid for a parsed URL is not affected."
  },
  {
   "property": "C108",
   "status": "proved",
   "theorems": [
    "Urlstd.Props.C108_up",
    "Urlstd.Props.C108_times",
    "Urlstd.Props.C108_root"
   ],
   "note": ""
  },
  {
   "property": "C109",
   "status": "proved",
   "theorems": [
    "Urlstd.Props.C109_exact",
    "Urlstd.Props.C109_settled",
    "Urlstd.Props.C109_changed"
   ],
   "note": ""
  },
  {
   "property": "C110",
   "status": "proved",
   "theorems": [
    "Urlstd.Props.C110_fragment",
    "Urlstd.Props.C110_base"
   ],
   "note": ""
  },
  {
   "property": "C111",
   "status": "proved",
   "theorems": [
    "Urlstd.Props.C111_lockstep"
   ],
   "note": ""
  },
  {
   "property": "C112",
   "status": "proved",
   "theorems": [
    "Urlstd.Props.C112_reload",
    "Urlstd.Props.C112_exact"
   ],
   "note": ""
  },
  {
   "property": "C113",
   "status": "proved",
   "theorems": [
    "Urlstd.Props.C113_image",
    "Urlstd.Props.C113_text",
    "Urlstd.Props.C113_alone",
    "Urlstd.Props.C113_history",
    "Urlstd.Props.C113_reachable"
   ],
   "note": ""
  },
  {
   "property": "C114",
   "status": "proved",
   "theorems": [
    "Urlstd.Props.C114_exact",
    "Urlstd.Props.C114_false"
   ],
   "note": ""
  }
 ]
}