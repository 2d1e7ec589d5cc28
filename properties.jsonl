{"id": "C01", "title": "UTF-8 encode/decode round trip", "statement": "utf8_decode(utf8_encode(s)) returns s with every surrogate pair combined into the code point it denotes and every unpaired surrogate replaced by U+FFFD; in particular it returns s itself when s contains no surrogates.", "quantifier": "every Python str (any sequence of code points 0..0x10FFFF, surrogates included)", "why_tests_cant": "There are unboundedly many strings; the interesting cases are arbitrary mixtures of paired and unpaired surrogates with code points of every UTF-8 length.", "anchors": ["src/urlstd/parse.py:utf8_encode", "src/urlstd/parse.py:utf8_decode"]}
{"id": "C02", "title": "utf8_decode always yields a scalar-value string", "statement": "utf8_decode never raises, and its result contains no surrogate and no code point above U+10FFFF; re-encoding and decoding the result changes nothing.", "quantifier": "every byte sequence, well-formed or not", "why_tests_cant": "Malformed byte sequences are unbounded in number and interact (truncation followed by valid lead bytes, overlong forms, encoded surrogates).", "anchors": ["src/urlstd/parse.py:utf8_decode"]}
{"id": "C03", "title": "Percent-encoding output alphabet", "statement": "Every character of utf8_percent_encode(s, safe) is an ASCII letter or digit, one of '_.-~', an ASCII member of safe, or belongs to an escape '%XX' with two upper-case hex digits; with space_as_plus a space comes out as '+'.", "quantifier": "every string s, every safe set, both values of space_as_plus", "why_tests_cant": "Quantifies over all strings and all safe sets.", "anchors": ["src/urlstd/parse.py:string_percent_encode", "src/urlstd/parse.py:utf8_percent_encode"]}
{"id": "C04", "title": "Percent-encode/percent-decode round trip", "statement": "If safe does not contain '%', string_percent_decode(utf8_percent_encode(s, safe)) == utf8_encode(s); so encoding loses nothing.", "quantifier": "every string s and every safe set without '%'", "why_tests_cant": "Needs all strings and all safe sets, including strings that already contain '%' followed by hex digits.", "anchors": ["src/urlstd/parse.py:string_percent_encode", "src/urlstd/parse.py:string_percent_decode"]}
{"id": "C05", "title": "Percent-encoding is idempotent when '%' is safe", "statement": "If safe contains '%' then utf8_percent_encode(utf8_percent_encode(s, safe), safe) == utf8_percent_encode(s, safe). This is what lets components already in a URL be re-assigned or re-parsed without double escaping.", "quantifier": "every string s and every safe set containing '%'", "why_tests_cant": "All strings and safe sets.", "anchors": ["src/urlstd/parse.py:utf8_percent_encode", "src/urlstd/parse.py:SAFE_PATH_PERCENT_ENCODE_SET"]}
{"id": "C06", "title": "string_percent_decode implements the standard's percent-decode", "statement": "string_percent_decode(s) equals the URL Standard's 'percent-decode' of the UTF-8 encoding of s: scanning left to right, '%' followed by two hex digits yields that byte, everything else is copied. A string without such a triplet is unchanged.", "quantifier": "every string s", "why_tests_cant": "The implementation splits on '%', the standard scans byte by byte; agreement must hold for every arrangement of '%' signs.", "anchors": ["src/urlstd/parse.py:string_percent_decode"]}
{"id": "C07", "title": "urlencode/parse_qsl round trip", "statement": "parse_qsl(utf8_encode(urlencode(pairs))) == pairs, up to replacement of unpaired surrogates by U+FFFD.", "quantifier": "every finite sequence of (name, value) string pairs, including empty names, empty values and values containing '&', '=', '+', '%'", "why_tests_cant": "Unbounded lists of unbounded strings over all code points.", "anchors": ["src/urlstd/parse.py:urlencode", "src/urlstd/parse.py:parse_qsl"]}
{"id": "C08", "title": "parse_qsl implements the standard's urlencoded parser", "statement": "parse_qsl(b) equals the URL Standard's application/x-www-form-urlencoded parser; parse_qsl(a + b'&' + b) == parse_qsl(a) + parse_qsl(b); empty sequences between '&' are ignored.", "quantifier": "every byte sequence", "why_tests_cant": "All byte sequences.", "anchors": ["src/urlstd/parse.py:parse_qsl"]}
{"id": "C09", "title": "urlencode implements the standard's urlencoded serializer", "statement": "urlencode(pairs) leaves exactly ASCII alphanumerics and '*', '-', '.', '_' unescaped, maps space to '+', and percent-encodes every other byte.", "quantifier": "every finite sequence of pairs", "why_tests_cant": "All characters in all positions.", "anchors": ["src/urlstd/parse.py:urlencode", "src/urlstd/parse.py:SAFE_URLENCODED_PERCENT_ENCODE_SET"]}
{"id": "C10", "title": "IPv4 serialize/parse round trip", "statement": "Parsing the dotted-decimal serialization of a 32-bit IPv4 address yields the same address, and different addresses have different serializations.", "quantifier": "every integer n with 0 <= n < 2**32", "why_tests_cant": "2**32 addresses.", "anchors": ["src/urlstd/parse.py:IPv4Address.parse", "src/urlstd/parse.py:IPv4Address.serialize", "src/urlstd/parse.py:Host.serialize"]}
{"id": "C11", "title": "An IPv4 host is a 32-bit number", "statement": "Whenever host parsing returns an IPv4 address, the integer lies in [0, 2**32).", "quantifier": "every host string", "why_tests_cant": "Depends on arbitrary combinations of part counts and part sizes.", "anchors": ["src/urlstd/parse.py:IPv4Address.parse"]}
{"id": "C12", "title": "IPv4 parsing follows the standard", "statement": "Host strings are classified as ending in a number, and parsed as IPv4, exactly as the URL Standard's 'ends in a number checker' and 'IPv4 parser' prescribe.", "quantifier": "every ASCII host string", "why_tests_cant": "All strings; the deviations come from corner cases of the number syntax accepted by the implementation language.", "anchors": ["src/urlstd/parse.py:IPv4Address.parse", "src/urlstd/parse.py:IPv4Address._parse_ipv4_number", "src/urlstd/parse.py:IPv4Address.is_ends_in_a_number"]}
{"id": "C13", "title": "IPv6 serialize/parse round trip", "statement": "Parsing the serialization of an IPv6 address yields the same eight pieces; so different addresses have different serializations.", "quantifier": "every 8-tuple of integers in [0, 2**16)", "why_tests_cant": "2**128 addresses; the position and length of zero runs interact with the compression.", "anchors": ["src/urlstd/parse.py:IPv6Address.parse", "src/urlstd/parse.py:IPv6Address.serialize"]}
{"id": "C14", "title": "IPv6 parsing returns eight 16-bit pieces or an IPv6 parse error", "statement": "IPv6 parsing of any string either raises IPv6AddressParseError or returns exactly eight integers in [0, 2**16); it never fails with an index error.", "quantifier": "every string", "why_tests_cant": "All strings; out-of-range indices would only appear for particular colon/dot arrangements.", "anchors": ["src/urlstd/parse.py:IPv6Address.parse"]}
{"id": "C15", "title": "IPv6 parsing follows the standard", "statement": "IPv6 parsing accepts exactly the strings the URL Standard's IPv6 parser accepts, with the same value.", "quantifier": "every string", "why_tests_cant": "All strings.", "anchors": ["src/urlstd/parse.py:IPv6Address.parse"]}
{"id": "C16", "title": "IPv6 serialization compresses exactly the first longest zero run", "statement": "The serialization writes pieces in lower-case hex without leading zeros, and replaces by '::' exactly the first of the longest runs of two or more zero pieces, if there is one.", "quantifier": "every 8-tuple of 16-bit pieces", "why_tests_cant": "2**128 addresses.", "anchors": ["src/urlstd/parse.py:IPv6Address.serialize"]}
{"id": "C17", "title": "Domains produced by host parsing contain no forbidden code point", "statement": "When host parsing in special mode returns a string that is not empty, it contains no forbidden domain code point and does not end in a number; bracketed input yields an IPv6 address or an error.", "quantifier": "every host string and every behaviour of the IDNA library", "why_tests_cant": "All host strings, including percent-encoded ones, and all IDNA outputs.", "anchors": ["src/urlstd/parse.py:Host.parse"]}
{"id": "C18", "title": "Host serialize/parse round trip", "statement": "Host.parse(Host.serialize(h), m) == h for every host h that Host.parse(_, m) returns.", "quantifier": "every host string, both modes m, every IDNA library whose ToASCII output is ASCII and a fixed point of ToASCII", "why_tests_cant": "All hosts.", "anchors": ["src/urlstd/parse.py:Host.parse", "src/urlstd/parse.py:Host.serialize"]}
{"id": "C19", "title": "Opaque hosts are printable ASCII without forbidden host code points", "statement": "When host parsing in non-special mode returns a string, it consists of printable ASCII characters none of which is a forbidden host code point; input containing a forbidden host code point is rejected.", "quantifier": "every host string", "why_tests_cant": "All strings over all code points.", "anchors": ["src/urlstd/parse.py:Host.parse", "src/urlstd/parse.py:Host._parse_opaque_host"]}
{"id": "C20", "title": "URL parsing terminates", "statement": "Every call of the URL parser returns or raises after finitely many state transitions.", "quantifier": "every input string, base URL, encoding, target record and state override", "why_tests_cant": "Non-termination cannot be observed by a finite test.", "anchors": ["src/urlstd/parse.py:BasicURLParser.parse"]}
{"id": "C21", "title": "URL parsing raises only URLParseError", "statement": "parse_url(s, base) either returns a record or raises URLParseError (or one of its subclasses); it never raises AssertionError, IndexError, AttributeError, TypeError or a bare ValueError.", "quantifier": "every input string and every base URL obtained from the parser", "why_tests_cant": "All inputs; internal failures hide in unusual combinations of base and input.", "anchors": ["src/urlstd/parse.py:BasicURLParser.parse", "src/urlstd/parse.py:parse_url"]}
{"id": "C22", "title": "Scheme of a parsed URL is normalized", "statement": "The scheme of every parsed URL starts with a lower-case ASCII letter and continues with lower-case ASCII letters, digits, '+', '-' or '.'.", "quantifier": "every input and every base obtained from the parser", "why_tests_cant": "All inputs.", "anchors": ["src/urlstd/parse.py:BasicURLParser._parse_scheme"]}
{"id": "C23", "title": "Special URLs always have a host and a non-opaque, non-empty path", "statement": "A parsed URL with a special scheme has a host, which is non-empty unless the scheme is 'file', and a list path with at least one segment; an opaque path only occurs with a null host and no credentials and port.", "quantifier": "every input and every base obtained from the parser", "why_tests_cant": "All inputs and all bases.", "anchors": ["src/urlstd/parse.py:BasicURLParser.parse", "src/urlstd/parse.py:BasicURLParser._parse_host", "src/urlstd/parse.py:BasicURLParser._parse_path"]}
{"id": "C24", "title": "Ports are in range and never the scheme's default", "statement": "The port of a parsed URL is None or an integer in [0, 65535] different from the default port of the URL's scheme.", "quantifier": "every input and every base obtained from the parser", "why_tests_cant": "All inputs.", "anchors": ["src/urlstd/parse.py:BasicURLParser._parse_port"]}
{"id": "C25", "title": "No credentials or port without a host", "statement": "A parsed URL whose host is None or empty, or whose scheme is 'file', has empty username and password and no port.", "quantifier": "every input and every base obtained from the parser", "why_tests_cant": "All inputs.", "anchors": ["src/urlstd/parse.py:BasicURLParser._parse_authority", "src/urlstd/parse.py:BasicURLParser._parse_host"]}
{"id": "C26", "title": "Path segments are normalized", "statement": "No segment of a parsed URL's list path contains '/', '?', '#', a space or a non-ASCII character, and none is a single-dot or double-dot segment (in any percent-encoded spelling); segments of special URLs contain no backslash.", "quantifier": "every input and every base obtained from the parser", "why_tests_cant": "All inputs; dot segments can be created by encodings, backslashes, tabs removed from the input and relative resolution.", "anchors": ["src/urlstd/parse.py:BasicURLParser._parse_path"]}
{"id": "C27", "title": "href is printable ASCII", "statement": "The serialization of every parsed URL consists of ASCII characters in the range U+0020..U+007E, with spaces only inside an opaque path.", "quantifier": "every input, base and encoding, provided the IDNA library returns ASCII domains", "why_tests_cant": "All inputs over all code points.", "anchors": ["src/urlstd/parse.py:URLRecord.serialize_url", "src/urlstd/parse.py:BasicURLParser.parse"]}
{"id": "C28", "title": "Queries and fragments contain no delimiter or unsafe character", "statement": "A parsed URL's query contains no '#', '\"', '<', '>', space or non-ASCII character (nor a single quote if the URL is special) and its fragment no '\"', '<', '>', '`', space or non-ASCII character.", "quantifier": "every input, base and encoding", "why_tests_cant": "All inputs, all encodings.", "anchors": ["src/urlstd/parse.py:BasicURLParser._parse_query", "src/urlstd/parse.py:BasicURLParser._parse_fragment"]}
{"id": "C29", "title": "href is a fixed point of parsing", "statement": "For every URL u obtained by parsing, parsing u.href (without a base) succeeds and yields a URL with the same href.", "quantifier": "every input, base and encoding; every IDNA library whose ToASCII output is ASCII and a fixed point of ToASCII", "why_tests_cant": "All inputs; violations are exactly the cases nobody thought of.", "anchors": ["src/urlstd/parse.py:BasicURLParser.parse", "src/urlstd/parse.py:URLRecord.serialize_url"]}
{"id": "C30", "title": "Parsing href recovers every component", "statement": "For every URL record u obtained by parsing, parsing u.href yields a record equal to u in every component (scheme, username, password, host, port, path, query, fragment).", "quantifier": "same as the previous property", "why_tests_cant": "All inputs.", "anchors": ["src/urlstd/parse.py:BasicURLParser.parse", "src/urlstd/parse.py:URLRecord.serialize_url"]}
{"id": "C31", "title": "ASCII tabs and newlines in the input are ignored", "statement": "Parsing a string gives the same result as parsing it with every tab, line feed and carriage return removed.", "quantifier": "every input string whatever the positions and number of these characters, every base", "why_tests_cant": "All strings, all positions.", "anchors": ["src/urlstd/parse.py:BasicURLParser.parse"]}
{"id": "C32", "title": "Leading and trailing C0 controls and spaces are ignored", "statement": "Adding any number of C0 control or space characters before or after an input string does not change the parse result.", "quantifier": "every input string, every prefix and suffix of C0 control or space characters, every base", "why_tests_cant": "All strings.", "anchors": ["src/urlstd/parse.py:BasicURLParser.parse"]}
{"id": "C33", "title": "Schemes are case-insensitive", "statement": "Changing the letter case of the scheme at the start of an input string does not change the parsed URL.", "quantifier": "every input string of the form scheme ':' rest, every base", "why_tests_cant": "All strings.", "anchors": ["src/urlstd/parse.py:BasicURLParser._parse_scheme"]}
{"id": "C34", "title": "Backslash equals slash in special URLs", "statement": "For an input that starts with a special scheme, replacing backslashes by slashes before the query and fragment does not change the parsed URL.", "quantifier": "every input string with a special scheme, every base", "why_tests_cant": "All strings.", "anchors": ["src/urlstd/parse.py:BasicURLParser._parse_path", "src/urlstd/parse.py:BasicURLParser._parse_host", "src/urlstd/parse.py:BasicURLParser._parse_authority"]}
{"id": "C35", "title": "Absolute URLs ignore the base", "statement": "An input that starts with a scheme that is not special, or that differs from the base's scheme, parses to the same result with any base as without a base.", "quantifier": "every such input string, every base", "why_tests_cant": "All inputs and bases.", "anchors": ["src/urlstd/parse.py:BasicURLParser._parse_scheme", "src/urlstd/parse.py:parse_url"]}
{"id": "C36", "title": "The empty reference denotes the base without its fragment", "statement": "Parsing the empty string against a base whose path is not opaque yields the base URL with the fragment removed.", "quantifier": "every base URL obtained from the parser", "why_tests_cant": "All bases.", "anchors": ["src/urlstd/parse.py:BasicURLParser._parse_relative", "src/urlstd/parse.py:BasicURLParser._parse_file"]}
{"id": "C37", "title": "A fragment-only reference changes only the fragment", "statement": "Parsing '#f' against any base yields the base with its fragment replaced by the percent-encoded f, also when the base has an opaque path.", "quantifier": "every fragment string, every base URL obtained from the parser", "why_tests_cant": "All fragments and bases.", "anchors": ["src/urlstd/parse.py:BasicURLParser._parse_no_scheme", "src/urlstd/parse.py:BasicURLParser._parse_fragment"]}
{"id": "C38", "title": "A query-only reference changes only query and fragment", "statement": "Parsing '?q' (q without '#') against a base whose path is not opaque yields the base with its query replaced by the percent-encoded q and no fragment.", "quantifier": "every query string, every base URL obtained from the parser with a non-opaque path", "why_tests_cant": "All queries and bases.", "anchors": ["src/urlstd/parse.py:BasicURLParser._parse_relative", "src/urlstd/parse.py:BasicURLParser._parse_file", "src/urlstd/parse.py:BasicURLParser._parse_query"]}
{"id": "C39", "title": "Parsing never modifies the base", "statement": "After parse_url(s, base) - successful or not - the base record has the same components as before; later changes to the result do not affect the base.", "quantifier": "every input, every base record, every later modification of the result's path", "why_tests_cant": "Aliasing of the mutable path list would only show for particular inputs followed by particular mutations.", "anchors": ["src/urlstd/parse.py:BasicURLParser._parse_relative", "src/urlstd/parse.py:BasicURLParser._parse_file", "src/urlstd/parse.py:URLRecord.shorten_path"]}
{"id": "C40", "title": "Path references cannot escape the base's authority", "statement": "A reference that starts with a single slash, or with a character that is not '/', '\\\\', ':' or part of a scheme, resolves to a URL with the base's scheme, credentials, host and port, however many '..' segments it contains.", "quantifier": "every such reference and every non-file base obtained from the parser with a non-opaque path", "why_tests_cant": "All references, any number of '..' segments.", "anchors": ["src/urlstd/parse.py:BasicURLParser._parse_relative", "src/urlstd/parse.py:BasicURLParser._parse_relative_slash", "src/urlstd/parse.py:URLRecord.shorten_path"]}
{"id": "C41", "title": "The encoding affects only the query of special, non-WebSocket URLs", "statement": "Parsing with another encoding changes nothing but the query component, and not even that for non-special, ws and wss URLs; the resulting query is still printable ASCII; two encodings that agree on the characters of the input give the same result.", "quantifier": "every input, base and stateless legacy encoding", "why_tests_cant": "All inputs and all encodings.", "anchors": ["src/urlstd/parse.py:BasicURLParser._parse_query", "src/urlstd/parse.py:string_percent_encode"]}
{"id": "C42", "title": "Each setter changes only its own component", "statement": "Assigning to a component attribute of a URL leaves all other components unchanged (host may also set the port, protocol may drop a port that becomes the default, search and hash removal may strip trailing spaces from an opaque path).", "quantifier": "every URL obtained from the parser, every setter, every assigned string, also when the setter raises", "why_tests_cant": "All URLs times all strings.", "anchors": ["src/urlstd/parse.py:URL.hash", "src/urlstd/parse.py:URL.host", "src/urlstd/parse.py:URL.hostname", "src/urlstd/parse.py:URL.password", "src/urlstd/parse.py:URL.pathname", "src/urlstd/parse.py:URL.port", "src/urlstd/parse.py:URL.protocol", "src/urlstd/parse.py:URL.search", "src/urlstd/parse.py:URL.username"]}
{"id": "C43", "title": "Setters have no effect where the component is not allowed", "statement": "host, hostname and pathname have no effect on URLs with an opaque path; username, password and port have no effect on URLs that cannot have them; protocol never switches between special and non-special schemes.", "quantifier": "every URL obtained from the parser, every assigned string", "why_tests_cant": "All URLs and strings.", "anchors": ["src/urlstd/parse.py:URL.host", "src/urlstd/parse.py:URL.hostname", "src/urlstd/parse.py:URL.pathname", "src/urlstd/parse.py:URL.username", "src/urlstd/parse.py:URL.password", "src/urlstd/parse.py:URL.port", "src/urlstd/parse.py:URL.protocol"]}
{"id": "C44", "title": "A setter that raises leaves the URL unchanged", "statement": "If assigning to an attribute raises URLParseError, every attribute of the URL object reads the same as before the assignment.", "quantifier": "every URL obtained from the parser, every setter, every assigned string", "why_tests_cant": "All URLs and strings.", "anchors": ["src/urlstd/parse.py:URL.href", "src/urlstd/parse.py:URL.host", "src/urlstd/parse.py:URL.port", "src/urlstd/parse.py:URL.protocol"]}
{"id": "C45", "title": "Every history of setter and search_params calls keeps the URL well formed", "statement": "After any sequence of attribute assignments and search_params mutations the URL still satisfies the guarantees for parsed URLs (normalized scheme, host present for special schemes, port in range and not default, no credentials or port without host, normalized path, printable ASCII).", "quantifier": "every starting URL and every finite sequence of operations", "why_tests_cant": "Unbounded histories.", "anchors": ["src/urlstd/parse.py:URL", "src/urlstd/parse.py:URLSearchParams._update"]}
{"id": "C46", "title": "href stays a fixed point of parsing under every history", "statement": "After any sequence of attribute assignments and search_params mutations, parsing url.href succeeds and gives a URL with the same href.", "quantifier": "every starting URL and every finite sequence of operations", "why_tests_cant": "Unbounded histories.", "anchors": ["src/urlstd/parse.py:URL", "src/urlstd/parse.py:URLRecord.serialize_url"]}
{"id": "C47", "title": "Assigning a component its own value changes nothing", "statement": "url.x = url.x leaves href unchanged for x in username, password, host, hostname, port, pathname, search, hash, protocol and href.", "quantifier": "every URL obtained from the parser", "why_tests_cant": "All URLs.", "anchors": ["src/urlstd/parse.py:URL"]}
{"id": "C48", "title": "search and search_params never disagree", "statement": "After any sequence of operations on a URL object and on its search_params, list(url.search_params) equals the list obtained by parsing url.search.", "quantifier": "every starting URL and every finite sequence of operations", "why_tests_cant": "Unbounded histories mixing both interfaces.", "anchors": ["src/urlstd/parse.py:URL.search", "src/urlstd/parse.py:URL.search_params", "src/urlstd/parse.py:URLSearchParams._update", "src/urlstd/parse.py:URLSearchParams.attach"]}
{"id": "C49", "title": "URLSearchParams.set replaces the first and removes the others", "statement": "After set(n, v) exactly one pair has the (decoded) name n, it has value v and stands where the first pair of that name stood (or at the end if there was none), and all other pairs are unchanged and in order.", "quantifier": "every parameter list, name and value", "why_tests_cant": "All lists; the in-place deletion loop must be right for every arrangement of duplicates.", "anchors": ["src/urlstd/parse.py:URLSearchParams.set"]}
{"id": "C50", "title": "URLSearchParams.delete removes exactly the matching pairs", "statement": "delete(n) removes all and only pairs named n; delete(n, v) all and only pairs named n with value v; the order of the others is kept.", "quantifier": "every parameter list, name and optional value", "why_tests_cant": "All lists; deletion while iterating backwards must be right for every arrangement.", "anchors": ["src/urlstd/parse.py:URLSearchParams.delete"]}
{"id": "C51", "title": "append, get, get_all, has and 'in' agree", "statement": "get returns the first value of get_all or None if it is empty; has(n) and 'n in params' are true exactly when get(n) is not None; append adds the pair at the end, so get_all(n) afterwards is the previous get_all(n) plus v.", "quantifier": "every parameter list, name and value", "why_tests_cant": "All lists.", "anchors": ["src/urlstd/parse.py:URLSearchParams.append", "src/urlstd/parse.py:URLSearchParams.get", "src/urlstd/parse.py:URLSearchParams.get_all", "src/urlstd/parse.py:URLSearchParams.has", "src/urlstd/parse.py:URLSearchParams.__contains__"]}
{"id": "C52", "title": "A stored pair can be found under its own name and value", "statement": "For every pair (n, v) that iteration over the parameters returns, has(n) and has(n, v) are true and v is in get_all(n); after append(n, v), has(n, v) is true.", "quantifier": "every parameter list obtained from any constructor or history", "why_tests_cant": "All lists and strings.", "anchors": ["src/urlstd/parse.py:URLSearchParams.has", "src/urlstd/parse.py:URLSearchParams.get", "src/urlstd/parse.py:URLSearchParams.append"]}
{"id": "C53", "title": "URLSearchParams.sort is a stable sort by UTF-16 code units", "statement": "sort() permutes the pairs so that names are in non-decreasing order of their UTF-16 code unit sequences, and pairs with equal names keep their relative order.", "quantifier": "every parameter list", "why_tests_cant": "All lists; code unit order differs from code point order.", "anchors": ["src/urlstd/parse.py:URLSearchParams.sort", "src/urlstd/parse.py:u16len"]}
{"id": "C54", "title": "URLSearchParams string round trip", "statement": "URLSearchParams(str(p)) == p, URLSearchParams(p) == p and URLSearchParams('?' + str(p)) == p.", "quantifier": "every URLSearchParams object p however obtained", "why_tests_cant": "All lists.", "anchors": ["src/urlstd/parse.py:URLSearchParams.__init__", "src/urlstd/parse.py:URLSearchParams.__str__"]}
{"id": "C55", "title": "Same-origin comparisons are equivalence relations", "statement": "is_same_origin is reflexive, symmetric and transitive, and so is is_same_origin_domain; on origins of URLs the two coincide.", "quantifier": "all origins", "why_tests_cant": "All triples of origins.", "anchors": ["src/urlstd/parse.py:Origin.is_same_origin", "src/urlstd/parse.py:Origin.is_same_origin_domain"]}
{"id": "C56", "title": "Origin of a URL", "statement": "The origin is (scheme, host, port) for ftp, http, https, ws and wss, opaque ('null') for every other scheme except blob, and for blob URLs the origin of the URL in the path if that is http(s), otherwise opaque.", "quantifier": "every URL record", "why_tests_cant": "All records.", "anchors": ["src/urlstd/parse.py:URLRecord.origin", "src/urlstd/parse.py:URL.origin"]}
{"id": "C57", "title": "URL equality is equality of href", "statement": "URL equality is an equivalence relation, u == v exactly when u.href == v.href, and with exclude_fragments two URLs differing only in their fragment are equal. Equal URLs have the same scheme, credentials, port, path, query, fragment and host, where only the number of an IPv4 host may differ by a multiple of 2^32.", "quantifier": "all URLs", "why_tests_cant": "All pairs and triples of URLs.", "anchors": ["src/urlstd/parse.py:URLRecord.equals", "src/urlstd/parse.py:URL.equals"]}
{"id": "C58", "title": "urlparse splits the same URL", "statement": "The components of urlparse(s) reassemble to the serialization of parse_url(s): netloc is user:password@host:port, path and params rejoin to the path, query and fragment are the record's; with allow_fragments=False the fragment is appended to the last non-empty of path, params and query and nothing is lost.", "quantifier": "every input and base", "why_tests_cant": "All inputs.", "anchors": ["src/urlstd/parse.py:urlparse"]}
{"id": "C59", "title": "ValidityState is consistent", "statement": "After any sequence of validation calls: valid is true exactly when validation_errors is 0, and error_types and descriptions have exactly validation_errors entries.", "quantifier": "every sequence of operations on a ValidityState", "why_tests_cant": "Unbounded histories.", "anchors": ["src/urlstd/parse.py:ValidityState", "src/urlstd/parse.py:_Logger"]}
{"id": "C60", "title": "Validity verdict agrees with the recorded errors and with parsability", "statement": "URLValidator.is_valid(s, base) returns exactly validity.valid; if it is true then URL.can_parse(s, base) is true and the URL's scheme is registered; every parse failure records at least one validation error. is_valid_url_scheme(s) of an ASCII text never raises and is true exactly when s, with its letters in lower case, is a registered scheme and not empty.", "quantifier": "every input string and base", "why_tests_cant": "All inputs: some failure path might forget to record.", "anchors": ["src/urlstd/parse.py:URLValidator.is_valid", "src/urlstd/parse.py:URL.can_parse", "src/urlstd/parse.py:_Logger.error"]}
{"id": "C61", "title": "can_parse predicts the URL constructor", "statement": "URL.can_parse(s, base) is true exactly when URL(s, base) does not raise, and never raises itself.", "quantifier": "every input string and base", "why_tests_cant": "All inputs.", "anchors": ["src/urlstd/parse.py:URL.can_parse", "src/urlstd/parse.py:URL.__init__"]}
{"id": "C62", "title": "Valid IPv4-address strings are exactly dotted decimals", "statement": "HostValidator.is_valid_ipv4_address(s) is true exactly when s is four decimal numbers 0..255 without leading zeros joined by dots; host parsing then returns that address.", "quantifier": "every string", "why_tests_cant": "All strings.", "anchors": ["src/urlstd/parse.py:HostValidator.is_valid_ipv4_address"]}
{"id": "C63", "title": "Valid IPv6 and opaque host strings are accepted by host parsing", "statement": "If is_valid_ipv6_address(a) then host parsing of '[a]' succeeds; if is_valid_opaque_host(h) then host parsing of h in non-special mode succeeds without recording a validation error. A text that does not begin with '[' is a valid opaque-host string exactly when it is one or more URL units without forbidden host code points.", "quantifier": "every string", "why_tests_cant": "All strings.", "anchors": ["src/urlstd/parse.py:HostValidator.is_valid_ipv6_address", "src/urlstd/parse.py:HostValidator.is_valid_opaque_host"]}
{"id": "C64", "title": "Surrogate pairs are equivalent to the character they denote", "statement": "Parsing a string that spells supplementary characters as two surrogate code points gives the same URL as parsing the string with real supplementary characters, and unpaired surrogates behave as U+FFFD.", "quantifier": "every input string", "why_tests_cant": "All strings.", "anchors": ["src/urlstd/parse.py:utf8_encode", "src/urlstd/parse.py:string_percent_encode", "src/urlstd/parse.py:BasicURLParser._parse_opaque_path"]}
{"id": "C65", "title": "The parser's states follow the URL Standard", "statement": "parse_url(s, base) gives the result of the URL Standard's basic URL parser (July 2023) run character by character.", "quantifier": "every input string, every base", "why_tests_cant": "All inputs.", "anchors": ["src/urlstd/parse.py:BasicURLParser.parse"]}
{"id": "C66", "title": "Host parsing follows the URL Standard", "statement": "Host.parse(s, is_not_special) gives the result of the URL Standard's host parser, and parse_url(s, base) the result of the standard's basic URL parser run with that host parser.", "quantifier": "every host string in both modes; every input and base; every IDNA library", "why_tests_cant": "All strings and all behaviours of the IDNA library.", "anchors": ["src/urlstd/parse.py:Host.parse", "src/urlstd/parse.py:IDNA.domain_to_ascii", "src/urlstd/parse.py:BasicURLParser.parse"]}
{"id": "C67", "title": "Setters and search_params methods follow the URL Standard", "statement": "Every attribute setter of URL (href, protocol, username, password, host, hostname, port, pathname, search, hash) and every mutating method of url.search_params (append, delete, set, sort) leaves the URL and the list of its query object exactly as the URL Standard's algorithm of the same name does, and raises exactly when the standard's basic URL parser returns failure.", "quantifier": "every URL object reachable by any history of operations, every operation and argument", "why_tests_cant": "All reachable objects and all argument strings.", "anchors": ["src/urlstd/parse.py:URL", "src/urlstd/parse.py:URLSearchParams", "src/urlstd/parse.py:BasicURLParser.parse"]}
{"id": "C68", "title": "Validation errors and is_valid follow the URL Standard", "statement": "While parsing, the code records exactly the validation errors that the URL Standard's URL parser and host parser report, in the same order, and URLValidator.is_valid answers true exactly when the standard's parser succeeds without a validation error and the scheme is a registered one.", "quantifier": "every input string, every base, every host string, every IDNA library", "why_tests_cant": "All inputs; the recorded errors depend on every step of the parser.", "anchors": ["src/urlstd/parse.py:BasicURLParser.parse", "src/urlstd/parse.py:Host.parse", "src/urlstd/parse.py:URLValidator.is_valid"]}
{"id": "C69", "title": "Serializers and getters follow the URL Standard", "statement": "The host, path and URL serializers and the getters href, protocol, username, password, host, hostname, port, pathname, search, hash and origin return exactly the strings that the URL Standard's serializers and getters define, including the compression of IPv6 addresses, the \"/.\" before a path that starts with an empty segment, and the origin of blob URLs.", "quantifier": "every URL object reachable by any history of operations, every record the parser returns, every IPv4 and IPv6 address", "why_tests_cant": "All reachable objects, all 2^128 IPv6 addresses and 2^32 IPv4 addresses.", "anchors": ["src/urlstd/parse.py:URL", "src/urlstd/parse.py:URLRecord.serialize_url", "src/urlstd/parse.py:URLRecord.origin", "src/urlstd/parse.py:Host.serialize", "src/urlstd/parse.py:IPv6Address.serialize"]}
{"id": "C70", "title": "URL, URLSearchParams and URLRecord objects are independent of each other", "statement": "A program that uses any number of URL, URLSearchParams and URLRecord objects, URLs and records serving as bases of others, gets the same exceptions and sees the same values as if every variable held a value of its own: an operation on one object changes no other object, except that url.search_params and its URL always change together (also after the URL's href was assigned) and that a URLSearchParams made from a record writes to that record.", "quantifier": "every program: every finite sequence of constructions, setters, search parameter methods and base URL uses, over any number of objects", "why_tests_cant": "Sharing of mutable objects shows only in particular sequences of operations on several objects; there are infinitely many of them.", "anchors": ["src/urlstd/parse.py:URL.__init__", "src/urlstd/parse.py:URLSearchParams.attach", "src/urlstd/parse.py:URLSearchParams._update", "src/urlstd/parse.py:BasicURLParser.parse", "src/urlstd/parse.py:parse_url"]}
{"id": "C71", "title": "URLSearchParams constructors and collection protocol", "statement": "URLSearchParams built from a sequence of pairs, a dictionary, a string or another URLSearchParams holds exactly the pairs that the URL Standard's constructor prescribes (names and values converted to scalar-value strings, a repeated dictionary name at its first place with its last value, one leading '?' dropped); a sequence with an element that is not a pair is refused. Iteration, len, indexing with positive and negative integers and slices, keys, values, 'in', == and + agree with each other.", "quantifier": "every argument, every list of pairs, every integer index", "why_tests_cant": "All lists of pairs of Unicode strings including lone surrogates, where distinct dictionary keys become equal, and all integer indices.", "anchors": ["src/urlstd/parse.py:URLSearchParams.__init__", "src/urlstd/parse.py:URLSearchParams.__getitem__", "src/urlstd/parse.py:URLSearchParams.__eq__", "src/urlstd/parse.py:URLSearchParams.keys"]}
{"id": "C72", "title": "Validity of domains and host strings follows the URL Standard", "statement": "HostValidator.is_valid_domain answers true exactly for the valid domains of the URL Standard (strict domain to ASCII succeeds and ToUnicode records no error), never raises, and records an error exactly with a negative answer. HostValidator.is_valid answers true exactly for the valid host strings of the standard. HostValidator.is_valid_opaque_host answers true exactly for the valid opaque-host strings of the standard. A valid domain is accepted by host parsing without a validation error and becomes its ASCII form.", "quantifier": "every string, every IDNA library and every combination of its error bits", "why_tests_cant": "All strings and all error bits of the IDNA library, which depend on its version of Unicode.", "anchors": ["src/urlstd/parse.py:HostValidator.is_valid", "src/urlstd/parse.py:HostValidator.is_valid_domain", "src/urlstd/parse.py:IDNA.domain_to_ascii", "src/urlstd/parse.py:IDNA.domain_to_unicode", "src/urlstd/parse.py:HostValidator.is_valid_opaque_host"]}
{"id": "C73", "title": "Valid URL strings are parsed without validation errors", "statement": "A valid URL string of the URL Standard (the writing grammar: absolute-URL strings with registered syntax of special, file and other schemes, relative-URL strings with a base, queries and fragments) is parsed by parse_url without a validation error, and the record has the scheme that the string names or else the scheme of the base; BasicURLParser state functions and URLValidator.is_valid therefore say yes to every such string with a registered scheme.", "quantifier": "every string of the grammar, every base URL, every IDNA library with the assumed laws", "why_tests_cant": "The grammar derives infinitely many strings, and each of them runs through a different sequence of parser states.", "anchors": ["src/urlstd/parse.py:URLValidator.is_valid", "src/urlstd/parse.py:BasicURLParser", "src/urlstd/parse.py:parse_url", "src/urlstd/parse.py:Host.parse"]}
{"id": "C74", "title": "Performing an assignment twice is performing it once", "statement": "For every attribute x of a URL and every text v, performing url.x = v a second time has the outcome of the first time, exception included, and leaves the URL and its search_params as they are after the first; the same holds for search_params.set, delete and sort.", "quantifier": "every URL object, every attribute and every text", "why_tests_cant": "All objects and all texts, including those that raise half-way.", "anchors": ["src/urlstd/parse.py:URL", "src/urlstd/parse.py:URLSearchParams", "src/urlstd/parse.py:BasicURLParser.parse"]}
{"id": "C75", "title": "The last assignment wins", "statement": "Of two assignments url.x = v; url.x = w, where the second takes effect, the second alone decides: exception, URL and search_params are as if only url.x = w had been performed; the same holds for two calls of search_params.set with the same name.", "quantifier": "every URL object, x in href, username, password, host, port, pathname, search, hash, all texts v and w", "why_tests_cant": "All pairs of texts and all objects.", "anchors": ["src/urlstd/parse.py:URL", "src/urlstd/parse.py:URLSearchParams.set", "src/urlstd/parse.py:potentially_rstrip_from_opaque_path"]}
{"id": "C76", "title": "The href of a URL does not depend on a base", "statement": "A text that starts with a scheme and \"://\" has the same result with every base as without one, and so has url.href after any history of the URL: URL(url.href, base) is URL(url.href). What parse_url gives for any text and base therefore resolves to itself against every base, with every ASCII-compatible encoding; after modifications this holds for exactly the URLs whose href is a fixed point of parsing (C46).", "quantifier": "every URL object after every history, every base URL or base string, every ASCII-compatible encoding", "why_tests_cant": "All pairs of URLs and bases, in particular bases with the same special scheme, which take other parser states.", "anchors": ["src/urlstd/parse.py:parse_url", "src/urlstd/parse.py:BasicURLParser._parse_scheme", "src/urlstd/parse.py:BasicURLParser._parse_special_relative_or_authority", "src/urlstd/parse.py:URL.__init__"]}
{"id": "C77", "title": "Relative references are resolved as in RFC 3986", "statement": "For a base URL whose path is not opaque and a reference that consists of path, query and fragment, parse_url(reference, base) keeps scheme, credentials, host and port of the base, and has the path, query and fragment that the algorithm of RFC 3986, section 5.2 (merge paths, remove dot segments) computes from the base and the percent-encoded reference. The reference is free of what the URL standard reads differently by design: backslashes for special schemes, percent-encoded dots, drive letters in file URLs, ignored characters.", "quantifier": "every base URL that parsing gives, every reference", "why_tests_cant": "Reference resolution combines arbitrary base paths with arbitrary sequences of segments and dot segments; the RFC's table of examples is a sample.", "anchors": ["src/urlstd/parse.py:BasicURLParser._parse_relative", "src/urlstd/parse.py:BasicURLParser._parse_relative_slash", "src/urlstd/parse.py:BasicURLParser._parse_file", "src/urlstd/parse.py:BasicURLParser._parse_file_slash", "src/urlstd/parse.py:BasicURLParser._parse_path", "src/urlstd/parse.py:URLRecord.shorten_path"]}
{"id": "C78", "title": "Iterating over search parameters is live", "statement": "An iterator over the entries, keys or values of url.search_params that has yielded n items yields next the item at position n of the parameters as they are at that time, whatever assignments to the URL and calls of search_params methods happened since, and ends when there is none, for good. Iterators do not affect the URL.", "quantifier": "every URL object, every program of setters, search_params methods, iterator creations and calls of next, any number of iterators", "why_tests_cant": "All interleavings of modifications and iterator steps.", "anchors": ["src/urlstd/parse.py:URLSearchParams.__iter__", "src/urlstd/parse.py:URLSearchParams.entries", "src/urlstd/parse.py:URLSearchParams.keys", "src/urlstd/parse.py:URLSearchParams.values", "src/urlstd/parse.py:URLSearchParams.attach"]}
{"id": "C79", "title": "Operations that do not interfere commute", "statement": "Two operations on a URL (assignments to its attributes, changes of its search parameters) such that neither may change what the other looks at or may change can be performed in either order: each has the same outcome, exception included, whether or not the other one came first, and the object is the same in the end. For URLs with a special scheme other than \"file\" this covers any two different attributes among hash, search (with the parameters), pathname, hostname, port, username and password. Which attributes interfere is tabulated; scheme and port, credentials and the host of a non-special URL, path and a missing host, and query and fragment of an opaque path do.", "quantifier": "every reachable URL object, every pair of operations with arbitrary arguments", "why_tests_cant": "All pairs of operations with all texts on all URLs, including assignments that raise half-way.", "anchors": ["src/urlstd/parse.py:URL.hash", "src/urlstd/parse.py:URL.host", "src/urlstd/parse.py:URL.hostname", "src/urlstd/parse.py:URL.password", "src/urlstd/parse.py:URL.pathname", "src/urlstd/parse.py:URL.port", "src/urlstd/parse.py:URL.protocol", "src/urlstd/parse.py:URL.search", "src/urlstd/parse.py:URL.username", "src/urlstd/parse.py:URLSearchParams._update"]}
{"id": "C80", "title": "Only scheme, host and port assignments affect the origin", "statement": "Assignments to username, password, pathname, search and hash and changes of the search parameters, in any order and number and with any text, exceptions on the way included, leave the origin of a URL as it is; this includes blob URLs, whose origin is read from their path. Resolving a reference that consists of a path, a query or a fragment against a base that is neither a file nor a blob URL and has no opaque path succeeds, and the result has the origin of the base.", "quantifier": "every URL object, every history of such operations, every reference", "why_tests_cant": "An injection that moves a URL to another origin would be one text among all texts in all histories.", "anchors": ["src/urlstd/parse.py:URLRecord.origin", "src/urlstd/parse.py:URL.origin", "src/urlstd/parse.py:URL.username", "src/urlstd/parse.py:URL.password", "src/urlstd/parse.py:URL.pathname", "src/urlstd/parse.py:URL.search", "src/urlstd/parse.py:URL.hash", "src/urlstd/parse.py:BasicURLParser.parse"]}
{"id": "C81", "title": "The parts of a URL with an authority are found where they belong", "statement": "For an input \"scheme://\" (any scheme but \"file\", with any number of further slashes or backslashes if the scheme is special) followed by any text: the text can be taken apart in exactly one way into userinfo, host, port, path, query and fragment (the userinfo extends to the last \"@\" of the authority, the port begins at the first \":\" outside brackets behind it, the authority ends at the first slash, \"?\" or \"#\"), and the result of parsing is the URL with these parts: username and password split at the first \":\" and percent-encoded, the host as the host parser says, the port as a number without leading zeros and omitted if it is the default, the path with dot segments followed, query and fragment percent-encoded. Parsing fails exactly if host or port are refused or a required host is missing, and with their error. A base has no influence.", "quantifier": "every scheme, every text without tabs and newlines that does not end with a control or space, every base", "why_tests_cant": "A parser that takes the host from a different place than the specification (an \"@\" or \"\\\\\" or bracket in an unexpected place) differs on texts nobody thought of.", "anchors": ["src/urlstd/parse.py:BasicURLParser.parse", "src/urlstd/parse.py:BasicURLParser._parse_authority", "src/urlstd/parse.py:BasicURLParser._parse_host", "src/urlstd/parse.py:BasicURLParser._parse_port", "src/urlstd/parse.py:BasicURLParser._parse_path_start", "src/urlstd/parse.py:BasicURLParser._parse_path", "src/urlstd/parse.py:BasicURLParser._parse_query", "src/urlstd/parse.py:BasicURLParser._parse_fragment"]}
{"id": "C82", "title": "File URLs and URLs without an authority are taken apart where they should be", "statement": "Every text consists in exactly one way of a path, a query and a fragment. Behind a scheme that is not special, a text without slash at the start is an opaque path with query and fragment and a text with one slash is a path without host; neither can fail. Behind a special scheme other than \"file\" any number of slashes or backslashes, even none, is as good as two unless the base has the same scheme; against such a base a text that does not begin with two slashes is resolved as if the scheme were not there. Behind \"file:\", two slashes begin a host that ends at the next slash, \"?\" or \"#\" (empty and \"localhost\" are the same, a drive letter belongs to the path); one slash begins a path with the host and, unless it has its own, the drive letter of a file base; no slash begins a path that is relative to a file base, or to the root for any other base; a query or fragment alone keeps the path of a file base.", "quantifier": "every scheme of the kind, every text without tabs and newlines that does not end with a control or space, every base", "why_tests_cant": "Which text ends up as host, drive letter or path depends on the number and direction of slashes, on the scheme and on the base; all combinations with all texts.", "anchors": ["src/urlstd/parse.py:BasicURLParser._parse_scheme", "src/urlstd/parse.py:BasicURLParser._parse_file", "src/urlstd/parse.py:BasicURLParser._parse_file_slash", "src/urlstd/parse.py:BasicURLParser._parse_file_host", "src/urlstd/parse.py:BasicURLParser._parse_special_relative_or_authority", "src/urlstd/parse.py:BasicURLParser._parse_path_or_authority", "src/urlstd/parse.py:BasicURLParser._parse_opaque_path"]}
{"id": "C83", "title": "What a text denotes is given by rules, one result for every text", "statement": "URL parsing as a whole is the relation that a small set of rules defines. Each rule puts a text together from its parts (scheme, slashes, userinfo, host, port, path, query, fragment) and says which URL, or which failure, this is, against which base: a scheme that is \"file\", another special scheme equal to that of the base or not, a scheme that is not special with two, one or no slashes, and references without a scheme against no base, a base with an opaque path, a file base and any other base. For every text exactly one result follows from the rules, and it is what parsing returns, once leading and trailing controls and spaces, and all tabs and newlines, are taken away. The base can be any URL object, whatever was done to it, or a text that is parsed first.", "quantifier": "every string, no base or every base with a list as path if its scheme is special (proved of every URL object and every parsed text)", "why_tests_cant": "A test compares single results with expected ones; that no text falls outside of the cases or under two of them is a statement about all texts and bases.", "anchors": ["src/urlstd/parse.py:BasicURLParser.parse", "src/urlstd/parse.py:BasicURLParser._parse_scheme", "src/urlstd/parse.py:BasicURLParser._parse_no_scheme", "src/urlstd/parse.py:BasicURLParser._parse_relative", "src/urlstd/parse.py:BasicURLParser._parse_relative_slash", "src/urlstd/parse.py:BasicURLParser._parse_file", "src/urlstd/parse.py:parse_url"]}
{"id": "C84", "title": "Descriptions of validation errors point at the fault", "statement": "Every validation error that the URL parser records has one description, in the same order. A description that shows a position shows the text beside it (the input without controls and spaces around it and without tabs and newlines; for a setter the value without tabs and newlines), and at this position there is what the error is about: the \"@\" for credentials, the backslash for a reverse solidus, the code point that is not a URL unit or the \"%\" that is not followed by two hexadecimal digits, what follows \":\" instead of \"//\" or the superfluous slash, the Windows drive letter; the part that is shown is the text at this position. Positions never decrease. A description without a position shows the input, with or without these characters, unless it is about the host.", "quantifier": "every input, base, encoding and record; every state override a setter uses", "why_tests_cant": "The position is kept by increments, decrements and buffer lengths in twenty states; an off-by-one shows only for the inputs that take the path concerned.", "anchors": ["src/urlstd/parse.py:BasicURLParser.parse", "src/urlstd/parse.py:BasicURLParser._parse_authority", "src/urlstd/parse.py:BasicURLParser._parse_path", "src/urlstd/parse.py:BasicURLParser._parse_query", "src/urlstd/parse.py:BasicURLParser._parse_fragment", "src/urlstd/parse.py:BasicURLParser._parse_file_host", "src/urlstd/parse.py:BasicURLParser._parse_special_authority_ignore_slashes", "src/urlstd/parse.py:BasicURLParser._parse_special_authority_slashes", "src/urlstd/parse.py:ValidityState.prepend"]}
{"id": "C85", "title": "Generic URI parsers and the attributes agree about href", "statement": "The regular expression of RFC 3986 (appendix B) splits the href of every URL object into what its attributes say: the scheme, an authority if and only if the URL has a host, the pathname (with \"/.\" in front exactly if the URL has no host and the pathname begins with two slashes), the query and the fragment. The authority, read by the rule of section 3.2, consists of the username, the password, the hostname and the port, and has at most one \"@\". Removing dot segments from the path in href gives the pathname. So href determines every other attribute: two URL objects with the same href agree in all of them, in their origin and in their search parameters, even if their records differ.", "quantifier": "every URL object, after every history of operations", "why_tests_cant": "Parser differentials (one program checks the host, another one connects) come from rare combinations of delimiters in some component; only a proof covers all components after all histories.", "anchors": ["src/urlstd/parse.py:URLRecord.serialize_url", "src/urlstd/parse.py:URL.href", "src/urlstd/parse.py:URL.hostname", "src/urlstd/parse.py:Host.serialize", "src/urlstd/parse.py:URL.origin"]}
{"id": "C86", "title": "repr shows the object", "statement": "The representation of a URL record is an expression that gives this record back: reading the literals in it yields the same scheme, credentials, host (a string, a number or eight numbers), port, path, query and fragment, with None where the attribute is None. In the same way that of a URLSearchParams object yields its pairs and that of a URL its eleven attributes. Whatever the strings contain (quotes, backslashes, controls, line breaks, characters beyond ASCII), a representation consists of printable characters, and it can be made for every object.", "quantifier": "every record of Python strings (proved of every URL object after every history), every list of pairs, every URL object; every choice of printable characters beyond ASCII", "why_tests_cant": "That text in a component cannot end its literal early and pass for another component (log injection) holds for all strings or is worth nothing; the exception appears only with numbers of thousands of digits.", "anchors": ["src/urlstd/parse.py:URLRecord.__repr__", "src/urlstd/parse.py:URLSearchParams.__repr__", "src/urlstd/parse.py:URL.__repr__"]}
{"id": "C87", "title": "A URL is at most linear in the text it was made from", "statement": "The href of a URL that is parsed without a base is at most twelve times as long as the input, and a reference adds at most twelve times its length and seven characters to the href of its base. No sequence of calls makes it grow faster: after any history of constructors, setters and search parameter operations, href is at most twelve times as long as all strings given so far, counting one more character per call. So reading the query into parameters and writing it back, sorting, or setting an attribute again and again never multiplies the length (no exponential or quadratic growth). Twelve is the smallest such factor. If the IDNA library lengthens domains by a larger factor, that factor takes its place.", "quantifier": "all inputs, all bases that are URL objects, all histories of operations, every factor from twelve up that bounds the IDNA library", "why_tests_cant": "Resource bounds are about all inputs and all sequences of calls; each single conversion may triple its text, and that repeated conversions do not compound is no property of one test case.", "anchors": ["src/urlstd/parse.py:parse_url", "src/urlstd/parse.py:URL.href", "src/urlstd/parse.py:utf8_percent_encode", "src/urlstd/parse.py:urlencode", "src/urlstd/parse.py:Host.serialize"]}
{"id": "C88", "title": "Exactly which texts are IPv4 addresses", "statement": "What Python's int() reads (white space, a sign, a radix prefix, groups of digits with single underscores, digits of any script, CPython's limit on decimal digits) is a grammar with values. By it, a part of a host has a value: in base 16 behind \"0x\" (which alone is 0), in base 8 behind \"0\", otherwise in base 10. A host is taken for an IPv4 address if and only if its last part consists of digits or has a value. Such a text is the address n if and only if it has at most four parts, every part has a value, the values fit (no value but the last is above 255 unless the last is, too, and the last is below 256 to the number of bytes left), n is what they combine to, and no number has to be put into an error description that CPython refuses to write. It raises a ValueError if and only if that happens, and IPv4AddressParseError otherwise. The host parser returns the IPv4 address n for exactly the texts whose domain, after percent-decoding and IDNA, is one of these and has no forbidden code point.", "quantifier": "all strings, every Unicode database (DEL being neither space nor digit), every limit on digits, recording of validation errors on or off, every IDNA library", "why_tests_cant": "Filters against server-side request forgery have to know every spelling of an address; an equivalence says that there are no others, which no list of spellings can.", "anchors": ["src/urlstd/parse.py:IPv4Address.parse", "src/urlstd/parse.py:IPv4Address._parse_ipv4_number", "src/urlstd/parse.py:IPv4Address.is_ends_in_a_number", "src/urlstd/parse.py:Host.parse"]}
{"id": "C89", "title": "What a text denotes does not depend on the settings of the interpreter", "statement": "Two interpreters have the same IDNA library and Unicode database, but may have different limits for the conversion of digits (sys.set_int_max_str_digits) and may or may not record validation errors. For every text and base: if the text is within both limits, parsing gives the same record or the same exception. If both accept the text, whatever its length, the records are the same. An interpreter without a limit accepts everything that one with a limit accepts, with the same result: the limit can only reject.", "quantifier": "all inputs, all bases, all limits, recording on or off, every IDNA library and Unicode database", "why_tests_cant": "Tests run with one setting. A host that is a domain for one process and an IPv4 address for another is a way around allow lists, and shows only for numbers longer than the limit.", "anchors": ["src/urlstd/parse.py:IPv4Address.is_ends_in_a_number", "src/urlstd/parse.py:IPv4Address._parse_ipv4_number", "src/urlstd/parse.py:IPv6Address.parse", "src/urlstd/parse.py:BasicURLParser.parse", "src/urlstd/parse.py:parse_url"]}
{"id": "C90", "title": "`host` is `hostname` and `port` in one", "statement": "On a URL whose scheme is not \"file\", url.host = b + ':' + r, where b is a host (no character that ends an authority, colons in brackets only, not only tabs and newlines), is url.hostname = b followed by url.port = r, if r is not empty; if r does not begin with a digit, it is url.hostname = b alone. If what follows the host is empty or begins with a character that ends the authority, host and hostname both do what assigning b to hostname does. hostname ignores a text with a port, and a port without a host is an error for both. On a \"file\" URL the two setters do the same for every text. Every text is of one of these forms once tabs and newlines are dropped.", "quantifier": "every URL object obtained by parsing and operations, all hosts b and rests r (for file URLs all objects and texts)", "why_tests_cant": "The setters share one state machine with state overrides, and differ in where each override stops it; the equation is over all hosts, rests and URLs, exceptions and partial effects included.", "anchors": ["src/urlstd/parse.py:URL.host", "src/urlstd/parse.py:URL.hostname", "src/urlstd/parse.py:URL.port", "src/urlstd/parse.py:BasicURLParser.parse"]}
{"id": "C91", "title": "What a reference takes from its base", "statement": "The result of parse_url(text, base) depends on the base only through what the reference needs: a text that starts with two slashes takes the scheme; one that starts with a slash takes credentials, host and port as well (of a \"file\" URL the host and the drive letter); one with any other path takes the path up to its last slash in addition; one that has only a query takes the whole path; and only one that has neither path nor query takes the query. The fragment of a base never matters. A text with a scheme that is not the special scheme of the base has the result it has without a base. Two bases give the same result for every text if and only if they are the same apart from the fragment (and from what a \"file\" URL or a URL with an opaque path cannot pass on), and \"#\" shows all this. A base and its directory, i.e. what \".\" refers to, give the same result for every reference with a path.", "quantifier": "all texts and all bases (records whose path is not opaque if the scheme is special, as for every URL object), UTF-8", "why_tests_cant": "It is a claim about pairs of parses with two bases that differ in unboundedly many ways; a leak of a component of the base (e.g. a port or a drive letter kept too long) shows only for certain combinations of scheme, reference and base.", "anchors": ["src/urlstd/parse.py:BasicURLParser.parse", "src/urlstd/parse.py:URLRecord", "src/urlstd/parse.py:parse_url"]}
{"id": "C92", "title": "What an assignment does is given by rules", "statement": "Every assignment of a text to href, protocol, username, password, host, hostname, port, pathname, search or hash of a URL object, whatever its past, does exactly what one of a list of rules says, and the rules never contradict each other. A rule takes the text apart (a scheme up to the first colon; a host up to a colon outside brackets or the end of the authority; the digits at the front; segments between slashes) and names the exception, if any, and the URL afterwards: e.g. a scheme replaces another one only if both are special or none is, \"file\" gets no credentials and no port and a \"file\" URL without a host stays one; host with a port sets both, hostname ignores such a text; a URL without a host has no credentials and no port; \"localhost\" is no host of a \"file\" URL; an opaque path cannot be replaced. Tabs and newlines do not count except in credentials, for the question whether the text is empty, and in front of the mark of search and hash. The search parameters are those of the query after an assignment to search or a successful one to href, and untouched otherwise.", "quantifier": "all URL objects reached by any history of operations, all ten attributes, all texts, all digit limits and host-parser environments", "why_tests_cant": "The setters run the state machine of the parser with a state override; which states are left early and which components they have changed by then depends on the scheme, the other components and the text together. Tests sample a few of these combinations; the rules cover all of them and give the exact result.", "anchors": ["src/urlstd/parse.py:URL", "src/urlstd/parse.py:BasicURLParser.parse"]}
{"id": "C93", "title": "When tabs and newlines in an assigned text matter", "statement": "An assignment to an attribute of a URL does the same (exception, URL and search parameters) as the assignment of the text without tabs, line feeds and carriage returns, except in these cases, in which it never does the same: the text contains one and is assigned to username or password of a URL that can have them (they are encoded); a text of nothing else is assigned to port of a URL that has a port (the port stays, while the empty text removes it); the text is assigned to search or hash, begins with one, and the first other character is the \"?\" or \"#\" that would be taken off, or there is none.", "quantifier": "all URL objects, all ten attributes, all texts (surrogates included)", "why_tests_cant": "It is an exact condition on pairs of executions over all texts: tests show single exceptions but neither that there are no others nor that each of them changes the result for every text (e.g. for surrogates which become a pair when the tab between them goes).", "anchors": ["src/urlstd/parse.py:URL", "src/urlstd/parse.py:BasicURLParser.parse", "src/urlstd/parse.py:utf8_percent_encode"]}
{"id": "C94", "title": "Why a text is no URL: only scheme, base and authority decide", "statement": "URL parsing fails for these reasons only, and whenever one of them holds: the text has no scheme, and there is no base, or the base has an opaque path and the text does not begin with '#'; or there is an authority - behind 'scheme://', behind any number of slashes or none if the scheme is special and not that of the base, behind two slashes in a reference - and in it the host is missing although the scheme is special, or a userinfo or port is given; or the host parser refuses the host, with its exception; or the port has other characters than digits, is above 65535, or has more digits than the interpreter converts (ValueError). So path, query, fragment and encoding never decide whether a text is accepted: two texts that are equal up to the end of the authority are both accepted or both refused with the same exception. A text with a scheme that is not special and no '//' behind it is always accepted, and so is every reference without scheme and leading '//' if the path of the base is not opaque.", "quantifier": "every string, every encoding, no base or every base with a list as path if its scheme is special (proved of every URL object and every parsed text)", "why_tests_cant": "The claim excludes failures for all paths, queries and fragments, of any length and content, and lists all reasons; tests show single texts that fail or do not.", "anchors": ["src/urlstd/parse.py:BasicURLParser.parse", "src/urlstd/parse.py:Host.parse", "src/urlstd/parse.py:parse_url"]}
{"id": "C95", "title": "Exactly when a bare ValueError escapes", "statement": "A call of parse_url, URL() or URL.can_parse raises ValueError instead of URLParseError (or of returning False) for these texts and no others: the text has an authority whose host is an IPv6 address in brackets with a group that is a dotted IPv4 address of two to four decimal numbers without leading zeros, one of them with more digits than the interpreter converts, and in front of it groups that would be accepted with two pieces instead of this one; or, with a special scheme, the host becomes a domain that ends in a number, has at most four parts that are all numbers, one of which is too long to be written in decimal, and these numbers do not fit into an address or, in can_parse, one of them is above 255; or the host is accepted and the port consists of more digits than the interpreter converts. With a base that is a text, this holds of the base, or the base is parsed and it holds of the reference. can_parse raises whenever the constructor raises ValueError, but not conversely.", "quantifier": "every string, every base (none, string, record or URL object), every encoding, every digit limit", "why_tests_cant": "Both directions over all texts and limits: that nothing else raises ValueError cannot be tested, and the overlong numbers of the positive cases can stand in any group, part or port.", "anchors": ["src/urlstd/parse.py:IPv6Address.parse", "src/urlstd/parse.py:IPv4Address.parse", "src/urlstd/parse.py:Host.parse", "src/urlstd/parse.py:BasicURLParser.parse", "src/urlstd/parse.py:URL.can_parse", "src/urlstd/parse.py:parse_url"]}
{"id": "C96", "title": "A grammar of the IPv6 addresses that are accepted", "statement": "IPv6Address.parse accepts exactly the texts of this grammar, with the value it gives. A group is one to four hexadecimal digits, one piece, or a dotted IPv4 address of four decimal numbers below 256 without leading zeros, two pieces. An address is groups with single colons between them that have eight pieces together; or groups or nothing, '::', and groups or nothing, with at most seven pieces together (at most six if nothing follows the '::'), where '::' stands for as many zeros as are missing; or ':::' and groups with at most six pieces, with zeros in front. A text has at most one value by it. In brackets these texts are exactly the hosts that are IPv6 addresses. The standard's addresses are those of the grammar that have no ':::' at the start and no dot before a colon, and in addition seven groups of hexadecimal digits followed by '::'.", "quantifier": "every string, both kinds of scheme", "why_tests_cant": "It is an equivalence over all strings between a loop with a state of five variables and a grammar without a state; tests compare single texts.", "anchors": ["src/urlstd/parse.py:IPv6Address.parse", "src/urlstd/parse.py:Host.parse"]}
{"id": "C97", "title": "What a host denotes, and which exception it raises, by rules", "statement": "Host.parse is the function that these rules define. A text that begins with '[' denotes the IPv6 address of the grammar of C96 if it ends in ']' and is one between; otherwise it raises IPv6AddressParseError, or ValueError if a group is a dotted address with too many digits at a place where two pieces fit. Any other text that is not empty is, in a URL that is not special, its own percent-encoding with the C0 control set, or raises HostParseError if it has a forbidden host code point. In a special URL it is percent-decoded, decoded as UTF-8 and given to the IDNA library: IDNAError if this fails, HostParseError if it reports an error other than one of hyphens or lengths, if the result is empty or if it has a forbidden domain code point; a domain that does not end in a number is the host; one that does is the IPv4 address of C88, or raises IPv4AddressParseError, or ValueError if a number cannot be written out. For every text and kind of scheme exactly one result follows from the rules.", "quantifier": "every string, special or not, every IDNA library, every Unicode database (DEL being neither space nor digit), recording on or off, every digit limit from 640", "why_tests_cant": "The rules cover all hosts, with every exception, and are shown to be complete and consistent; tests look at single hosts and mostly at whether, not why, one is refused.", "anchors": ["src/urlstd/parse.py:Host.parse", "src/urlstd/parse.py:IDNA.domain_to_ascii", "src/urlstd/parse.py:IPv4Address.parse", "src/urlstd/parse.py:IPv6Address.parse"]}
{"id": "C98", "title": "A grammar of the texts that are parsed without a validation error", "statement": "parse_url records no validation error, and returns a URL, exactly for the texts of this grammar: nothing is to be stripped or removed from the text; it is a scheme, ':' and what follows, or, without a scheme, a reference to a base. What follows is '//' and an authority, or else a path of URL units that does not begin with '//', with an optional query and fragment of URL units; a special scheme needs the '//', and a base with an opaque path takes a fragment only. An authority is a host without validation errors, not empty in a special URL, with no userinfo, an optional port of digits up to 65535, and a path; in a file URL it is an optional host that is no drive letter. The URL has the scheme that the text names, or that of the base, and URLValidator.is_valid says yes exactly to the texts of the grammar whose scheme is registered. Hosts in brackets are the IPv6 addresses of C96; other hosts behind a scheme that is not special are texts of URL units without forbidden host code points; other hosts behind a special scheme are those for which the IDNA library has a name without forbidden domain code points that is no IPv4 address, or at most four numbers up to 255, without leading zeros, that int reads in base ten.", "quantifier": "all strings, all bases, all encodings, all IDNA libraries; C73 is one direction of it for the standard's own grammar", "why_tests_cant": "Both directions quantify over all strings: a validation error that is forgotten in one state, or recorded in one state too many, shows on infinitely many inputs and on none of a finite sample that does not reach the state.", "anchors": ["src/urlstd/parse.py:URLValidator.is_valid", "src/urlstd/parse.py:parse_url", "src/urlstd/parse.py:BasicURLParser.parse", "src/urlstd/parse.py:BasicURLParser._parse_authority", "src/urlstd/parse.py:BasicURLParser._parse_file_host", "src/urlstd/parse.py:BasicURLParser._parse_scheme", "src/urlstd/parse.py:Host.parse", "src/urlstd/parse.py:IPv4Address.parse"]}
{"id": "C99", "title": "Which URLs have an href without a validation error", "statement": "The href of a URL that the parser returned is parsed without a validation error, against any base, exactly if the URL has no credentials, its path, query and fragment consist of URL units, and so does its host if the scheme is not special and the host is no IPv6 address. A text that is parsed without a validation error, with UTF-8 and against no base or a base of this kind, gives such a URL: so its href is parsed without a validation error too, and URLValidator.is_valid says yes to the href of every text to which it says yes. With another encoding this is false: the second byte of a character can be that of a backslash, which a query keeps.", "quantifier": "all records that parse_url can return, by any chain of bases and encodings; all strings and bases; every IDNA library whose results are stable under a second application", "why_tests_cant": "The equivalence quantifies over all records the parser can return; a percent-encode set that keeps one character too many, or a serializer that writes something that has to be reported, breaks it on URLs that a sample need not have.", "anchors": ["src/urlstd/parse.py:URLRecord.serialize_url", "src/urlstd/parse.py:URLValidator.is_valid", "src/urlstd/parse.py:BasicURLParser.parse", "src/urlstd/parse.py:string_percent_encode", "src/urlstd/parse.py:Host.parse"]}
{"id": "C100", "title": "Which texts without a validation error are no valid URL strings", "statement": "A text that parse_url takes without a validation error is a valid URL string of the standard, with the hosts that have no validation error as its valid hosts, exactly if it is none of these: the path behind an authority begins with an empty segment ('http://h//x'); the path of a file URL with a host begins with a drive letter and '/' ('file://h/C:/x', or '/C:/x' against a base 'file://h/'); a file URL has neither host nor path ('file://'); what follows the scheme and ':' begins with a scheme and ':' itself ('urn:isbn:1'). To exactly these texts, and to valid URL strings, URLValidator.is_valid says yes if the scheme is registered; none of these texts is a valid URL string, whatever the valid hosts are.", "quantifier": "all strings, all bases, all encodings, all IDNA libraries", "why_tests_cant": "The two sides are a grammar and the parser's silence; that they differ on these texts and on no others is a statement about every string.", "anchors": ["src/urlstd/parse.py:URLValidator.is_valid", "src/urlstd/parse.py:parse_url", "src/urlstd/parse.py:BasicURLParser.parse"]}
{"id": "C101", "title": "Resolving a reference is putting it behind a part of the base's href", "statement": "For a base URL that its own href gives back (C30) the result of parse_url for a reference is the result, without a base, of one text: a part of the href of the base, as a generic URI parser splits it (RFC 3986, appendix B), and the reference. The part is the scheme and ':' if the reference begins with two slashes; all in front of the path if it begins with one; the href up to the last slash of the path if the reference has another path; up to the end of the path if it begins with '?'; up to the end of the query if it begins with '#' or is empty. A file URL keeps its drive letter unless the reference has one; the empty reference to it is excepted (C36). To a URL with an opaque path this applies for fragments. Every reference has exactly one such place. So if the href of a URL begins with such a part, the rest is a reference to this URL.", "quantifier": "all records that parse_url can return and that their href gives back, all strings; every IDNA library whose results are stable under a second application", "why_tests_cant": "Two runs of the parser, one with a base and one without, have to agree for every base and every reference, whatever dot segments, backslashes, drive letters and empty segments there are; a state that copies one component too many or too few shows only for certain pairs.", "anchors": ["src/urlstd/parse.py:BasicURLParser.parse", "src/urlstd/parse.py:parse_url", "src/urlstd/parse.py:URLRecord.serialize_url", "src/urlstd/parse.py:URLRecord.shorten_path"]}
{"id": "C102", "title": "pathname + search + hash leads back to the URL", "statement": "For a URL that parse_url can return, whose path is a list and not empty and whose scheme is not 'file', the text pathname + search + hash, resolved against any URL with the same scheme, credentials, host and port, gives the URL back if and only if its pathname does not begin with '//', and neither its query nor its fragment is the empty string. For file URLs with the same host the same holds, with one more condition: if the path of the base begins with a drive letter, that of the URL does too. Against the URL itself, an empty query does not matter if the pathname is empty. The href without its scheme, of a URL with a host, resolved against any URL with the same scheme gives the URL back exactly when its host is not an IPv4 address of 2^32 or more (C30).", "quantifier": "all records that parse_url can return, all bases with the same authority (scheme); every IDNA library whose results are stable under a second application", "why_tests_cant": "Applications store this text and resolve it later; the tests hold single URLs. The converse direction says that nothing else than these cases goes wrong and that these always do, for whatever path follows '//', including those whose host the parser refuses.", "anchors": ["src/urlstd/parse.py:URL.pathname", "src/urlstd/parse.py:URL.search", "src/urlstd/parse.py:URL.hash", "src/urlstd/parse.py:URL.href", "src/urlstd/parse.py:BasicURLParser.parse", "src/urlstd/parse.py:parse_url"]}
{"id": "C103", "title": "The origin text stands for the origin", "statement": "URL.origin is 'null' if and only if the origin is opaque. Two URLs whose origins are not opaque have the same origin text if and only if is_same_origin holds. The origin text of such a URL is itself a URL: URL(u.origin) succeeds, its href is that text and a '/', its path is '/', it has no credentials, query and fragment, and its origin is that text again. As a base, it can stand for a URL without credentials that has this origin and is no blob URL: every reference that begins with a slash (and every absolute URL) has the same result.", "quantifier": "all URL objects obtained by URL(...) and any sequence of assignments and operations, including blob URLs; every IDNA library whose results are stable under a second application", "why_tests_cant": "Programs compare the texts instead of the Origin objects and pass u.origin on as a base. Whether two different tuples can be written alike (port against IPv6, host with a port in it, blob URLs whose path is parsed on the way) is a statement about all pairs of URLs; the test data has single ones.", "anchors": ["src/urlstd/parse.py:Origin.__str__", "src/urlstd/parse.py:Origin.is_same_origin", "src/urlstd/parse.py:URLRecord.origin", "src/urlstd/parse.py:URL.origin", "src/urlstd/parse.py:parse_url"]}
{"id": "C104", "title": "A URL can be copied attribute by attribute", "statement": "Let o and p be URLs with a non-empty host, both with a special scheme or both without, and neither a file URL. Assigning p.protocol = o.protocol and then, in any order and with any repetitions, p.username, p.password, p.hostname, p.port, p.pathname, p.search and p.hash (and p.host, p.protocol again if wanted) from o raises no exception, and afterwards all these attributes, host, and search_params are those of o. href is that of o too, if and only if o has no empty query and no empty fragment. Each of the conditions is needed. The same holds for two file URLs, whatever their hosts, that are none of the deviant ones of C46.", "quantifier": "all pairs of URL objects obtained by URL(...) and any sequence of assignments and operations; all orders and repetitions of the assignments; every IDNA library whose results are stable under a second application", "why_tests_cant": "The setters look at components other than their own (the scheme for default ports and query encoding, the host for credentials, the path for the host); that no intermediate state of any order gets in the way is a statement about all pairs of URLs and all sequences.", "anchors": ["src/urlstd/parse.py:URL.protocol", "src/urlstd/parse.py:URL.username", "src/urlstd/parse.py:URL.password", "src/urlstd/parse.py:URL.host", "src/urlstd/parse.py:URL.hostname", "src/urlstd/parse.py:URL.port", "src/urlstd/parse.py:URL.pathname", "src/urlstd/parse.py:URL.search", "src/urlstd/parse.py:URL.hash"]}
{"id": "C105", "title": "Operations on search_params are assignments to search", "statement": "append, delete, set and sort of url.search_params have exactly the effect on the URL that url.search = str(list) has, list being the new list of pairs. For every list of pairs of strings without surrogates, assigning its text to search, with or without '?', makes it the list of search_params. Every such list can also be made by the methods alone: deleting the names that are there and appending the pairs, percent-encoded with any set that encodes '%', gives it; if the path is not opaque (and there was something to do) the URL is the same as after the assignment to search.", "quantifier": "all URL objects obtained by URL(...) and any sequence of assignments and operations; all lists of pairs of strings without surrogates; all percent-encode sets that contain '%'", "why_tests_cant": "The two ways run through different code (update of the attached record against the query state of the parser with its own percent-encoding); that they meet for every list, e.g. with '%', '+', '&', '=' or an empty name in it, is a statement about all lists.", "anchors": ["src/urlstd/parse.py:URLSearchParams.append", "src/urlstd/parse.py:URLSearchParams.delete", "src/urlstd/parse.py:URLSearchParams.set", "src/urlstd/parse.py:URLSearchParams.sort", "src/urlstd/parse.py:URL.search", "src/urlstd/parse.py:utf8_percent_encode"]}
{"id": "C106", "title": "References compose", "statement": "Going from a base to the reference 'd x' (d empty or ending with a slash, x a last segment that is no dot segment) and from the resulting URL to the relative path t, with any query and fragment, gives the URL that 'd t' with that query and fragment gives from the base. A reference of a query or fragment alone changes these in the first reference, whatever its path. With file URLs it is required that x is not a drive letter and that t does not begin with one.", "quantifier": "all bases whose path is not opaque, all texts d, x, t, queries and fragments, with any tabs, newlines and surrounding spaces in the three inputs", "why_tests_cant": "Relates three runs of the parser for unboundedly many paths; dot segments in d and t, backslashes of special schemes and drive letters of file URLs interact with shortening the path, and the excluded cases (dot segment last, drive letter last) really differ.", "anchors": ["src/urlstd/parse.py:BasicURLParser._parse_relative", "src/urlstd/parse.py:BasicURLParser._parse_path", "src/urlstd/parse.py:BasicURLParser._parse_file", "src/urlstd/parse.py:URLRecord.shorten_path", "src/urlstd/parse.py:parse_url"]}
{"id": "C107", "title": "is_valid_url_scheme accepts URL schemes only", "statement": "URLValidator.is_valid_url_scheme(value) is true exactly when value is a registered URL scheme in any case of its letters; in particular every accepted text is a URL-scheme string of the URL standard (a letter followed by letters, digits, '+', '-' and '.'), i.e. one that the parser reads as a scheme.", "quantifier": "all texts, ASCII or not; all registries of schemes; every str.lower that turns no character but the Kelvin sign into ASCII", "why_tests_cant": "The code compares value.lower(), which works on all of Unicode; whether there is any text outside ASCII that becomes a registered scheme is a question about all texts, and the one character that makes it happen (U+212A) is in no test.", "anchors": ["src/urlstd/parse.py:URLValidator.is_valid_url_scheme", "src/urlstd/parse.py:URLValidator.is_valid"]}
{"id": "C108", "title": "Going up", "statement": "Resolving '../' n times in a row is the same as resolving '../' repeated n times once. The result has the first max(k - 1 - n, 0) of the k segments of the path and a trailing slash, no query and no fragment, and is otherwise the base; so after k - 1 steps one is at the root and stays there. In a file URL whose path begins with a drive letter this segment is never removed.", "quantifier": "all n >= 1 and all bases whose path is not opaque (file URLs without port and credentials)", "why_tests_cant": "The number of steps and the length of the path are unbounded; the claim that one never leaves the drive or gets above the root is about all of them.", "anchors": ["src/urlstd/parse.py:URLRecord.shorten_path", "src/urlstd/parse.py:BasicURLParser._parse_path", "src/urlstd/parse.py:BasicURLParser._parse_relative", "src/urlstd/parse.py:BasicURLParser._parse_file"]}
{"id": "C109", "title": "Operations on search_params rewrite the whole search", "statement": "After append, delete, set or sort on url.search_params, url.search is as before exactly if the list of pairs is as before and url.search was empty or '?' followed by what the serializer makes of some non-empty list of pairs of strings without surrogates. In particular a search in any other form ('?a', '?a=%41', '?&') is changed by every such call, even by deleting a name that is not there; and after one call it is in that form for good.", "quantifier": "all URL objects obtained by URL(...) and any sequence of assignments and operations; all operations on search_params", "why_tests_cant": "'Exactly' is about all searches and all operations: neither that every other form is changed nor that none of the produced forms is can be found by examples.", "anchors": ["src/urlstd/parse.py:URLSearchParams._update", "src/urlstd/parse.py:URLSearchParams.sort", "src/urlstd/parse.py:URLSearchParams.delete", "src/urlstd/parse.py:URLSearchParams.set", "src/urlstd/parse.py:URLSearchParams.append"]}
{"id": "C110", "title": "Equal URLs are interchangeable as bases", "statement": "If u == v, or just u.equals(v, exclude_fragments=True), then for every text s, URL(s, u) and URL(s, v) raise the same exception, or both succeed and are equal, fragments included, with the same search parameters.", "quantifier": "all texts; all URL objects, after any history of operations", "why_tests_cant": "Equality compares href, resolution uses the record: records with the same href may differ (an IPv4 host of more than 32 bits), and the claim is about every such pair and every text.", "anchors": ["src/urlstd/parse.py:URL.equals", "src/urlstd/parse.py:URLRecord.equals", "src/urlstd/parse.py:URL", "src/urlstd/parse.py:BasicURLParser._parse_relative", "src/urlstd/parse.py:BasicURLParser._parse_file"]}
{"id": "C111", "title": "Equal URLs stay equal whatever is done with both", "statement": "If u == v, and the same assignments and operations on search_params are done with both, in whatever order and number, then each of them raises the same exception or none for both, and afterwards u == v again, with the same search parameters.", "quantifier": "all sequences of the fourteen mutating operations with all texts, failing ones included; all URL objects, after any history of operations", "why_tests_cant": "Equality compares href, setters look at the record, and records with the same href may differ; the claim is about all pairs and all histories, by a simulation that every operation preserves.", "anchors": ["src/urlstd/parse.py:URL.equals", "src/urlstd/parse.py:URLRecord.equals", "src/urlstd/parse.py:URL", "src/urlstd/parse.py:URLSearchParams", "src/urlstd/parse.py:BasicURLParser.parse"]}
{"id": "C112", "title": "Nothing is lost when a URL is stored as its href", "statement": "For a URL object u that is not one of the deviant ones of C46, URL(u.href) gives an object v that cannot be told from u: if the same operations are done with both, the same exceptions are raised, and afterwards all attributes, the search parameters and the origin agree; used as bases they fail in the same way or lead to URLs that agree again in all of these. For the deviant ones, and only for them, URL(u.href) fails or gives an object with other attributes.", "quantifier": "all URL objects, after any history of operations; all further histories of operations; all texts resolved against the objects", "why_tests_cant": "u and v may have different records (an IPv4 host of more than 32 bits is stored as it is), and the claim is about everything that may be done with them later.", "anchors": ["src/urlstd/parse.py:URL", "src/urlstd/parse.py:URLRecord.serialize_url", "src/urlstd/parse.py:URLRecord.equals", "src/urlstd/parse.py:BasicURLParser.parse"]}
{"id": "C113", "title": "Exactly these records are URLs", "statement": "The records the parser returns are exactly those that meet these conditions: a scheme in lower case; credentials, segments, query and fragment without a character of the standard's percent-encode set for them; a host that the host parser gives back when it reads what is written for it; a port up to 65535 that is not the scheme's default; no credentials and no port without a host, with the empty host or with scheme 'file'; a host (not empty except for 'file') and a list path with a segment if the scheme is special; not the host 'localhost' and no drive letter with '|' if the scheme is 'file'; no dot segments and no slash in a segment; a path that is not empty if there is no host; an opaque path only without a host, not beginning with a slash and not ending in a space at the end of the URL. Each of these records is what the parser makes of its serialization, so bases and encodings add none. A record that operations have produced meets the conditions unless and only unless it is one of the deviant ones of C46. The records of all URL objects, whatever their past, are exactly those that meet the conditions with this relaxation: the ones on 'localhost' and drive letters fall away, and the port 0 may stay with the empty host or scheme 'file'; each of them can be reached with at most two assignments to a parsed URL.", "quantifier": "all records, parsed or not (with IPv4 hosts below 2^32, see C11); all texts, bases and encodings; all histories of operations", "why_tests_cant": "The claim is an equality of two infinite sets: tests can show neither that no condition is missing nor that none is too strong.", "anchors": ["src/urlstd/parse.py:BasicURLParser.parse", "src/urlstd/parse.py:URLRecord", "src/urlstd/parse.py:URLRecord.serialize_url", "src/urlstd/parse.py:URL"]}
{"id": "C114", "title": "The attributes determine the URL up to empty parts", "statement": "The converse of C85: two URL objects have the same href if and only if protocol, username, password, hostname, port, pathname, search and hash agree, and the two agree in whether there is a host, a query and a fragment at all. The latter conditions cannot be left out: for each of the three there are two URLs that agree in all these attributes and are not equal ('a:/x' and 'a:///x', 'http://h/' and 'http://h/?', 'http://h/' and 'http://h/#').", "quantifier": "all pairs of URL objects, after all histories of operations", "why_tests_cant": "The claim says that no two of infinitely many URLs share their attributes except in three ways; a test compares the pairs somebody thought of.", "anchors": ["src/urlstd/parse.py:URLRecord.serialize_url", "src/urlstd/parse.py:URL.href", "src/urlstd/parse.py:URL.protocol", "src/urlstd/parse.py:URL.username", "src/urlstd/parse.py:URL.password", "src/urlstd/parse.py:URL.hostname", "src/urlstd/parse.py:URL.port", "src/urlstd/parse.py:URL.pathname", "src/urlstd/parse.py:URL.search", "src/urlstd/parse.py:URL.hash"]}
