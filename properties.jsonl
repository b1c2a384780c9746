{"id": "C01", "title": "BER parsing is total", "statement": "Calling parse_ber, parse_ber_recursive, parse_ber_any_r, parse_ber_any_with_tag_r or parse_ber_any on any byte slice returns either Ok or Err: it never panics (no out-of-range index, failed assert, or arithmetic underflow) and its loops always finish.", "quantifier": "every byte slice, every max_depth, every tag", "why_tests_cant": "The input space is unbounded and hostile; fuzzing samples it, and termination of the indefinite-length loop cannot be observed by a finite run.", "anchors": ["src/ber/parser.rs: parse_ber, parse_ber_recursive, ber_skip_object_content, ber_get_object_content", "src/ber/wrap_any.rs: parse_ber_any_r, parse_ber_any_with_tag_r, parse_ber_any, try_berobject_from_any"]}
{"id": "C02", "title": "DER parsing is total", "statement": "Calling parse_der, parse_der_recursive or der_read_element_content on any byte slice (and any already parsed header) returns Ok or Err; it never panics and always terminates.", "quantifier": "every byte slice, every max_depth, every header value", "why_tests_cant": "Index expressions such as i[0], data[len-2] and i[..l] are guarded by conditions spread over several functions; only a proof covers every combination of header and data.", "anchors": ["src/der/parser.rs: parse_der, parse_der_recursive, der_read_element_content, der_read_content_bitstring, der_read_element_content_as"]}
{"id": "C03", "title": "Typed and content-level parsers are total", "statement": "parse_ber_with_tag / parse_der_with_tag (hence every parse_ber_xxx / parse_der_xxx), ber_read_element_content_as, der_read_element_content_as, parse_ber_content, parse_der_content, parse_*_slice, parse_*_i32/i64/u32/u64 and BerObject::try_from(Any) never panic and always terminate, even when the caller supplies a tag, length or constructed flag unrelated to the data.", "quantifier": "every byte slice, tag, length (definite or indefinite), constructed flag, depth; every Any value", "why_tests_cant": "The content-level API takes a caller-chosen length; the cross product of lengths, tags and slices is infinite.", "anchors": ["src/ber/parser.rs: parse_ber_with_tag, ber_read_element_content_as, parse_ber_content, parse_ber_slice, parse_ber_u64", "src/der/parser.rs: parse_der_with_tag, der_read_element_content_as, parse_der_slice", "src/ber/ber.rs: TryFrom<Any>"]}
{"id": "C04", "title": "Combinators add no panic and no endless loop", "statement": "If the user closure never panics and always terminates, then so do parse_ber_container, parse_ber_sequence_of(_v), parse_ber_set_of(_v), parse_*_sequence_defined(_g), parse_*_set_defined(_g), parse_*_tagged_explicit(_g), parse_*_tagged_implicit(_g), parse_ber_optional and the DER counterparts; in particular a closure that consumes nothing cannot make the SEQUENCE OF loop spin forever.", "quantifier": "every byte slice, every closure (any output and error type)", "why_tests_cant": "Quantifies over all user closures, including ones that do not consume input.", "anchors": ["src/ber/multi.rs: parse_ber_container, parse_ber_sequence_of_v, parse_ber_set_of_v", "src/der/multi.rs: parse_der_container", "src/ber/tagged.rs: parse_ber_tagged_explicit_g", "src/ber/parser.rs: parse_ber_optional"]}
{"id": "C05", "title": "Returned remainder is a strict suffix", "statement": "When a BER or DER object parser succeeds, the remaining slice is a suffix of the input and at least two bytes were consumed, so a caller looping on the remainder always makes progress and never re-reads or skips bytes.", "quantifier": "every byte slice, every max_depth, generic and tag-specific parsers", "why_tests_cant": "A single example can only show one split; progress of every caller loop needs it for all inputs.", "anchors": ["src/ber/parser.rs: parse_ber, parse_ber_with_tag", "src/der/parser.rs: parse_der, parse_der_with_tag"]}
{"id": "C06", "title": "Definite-length framing is exact", "statement": "If the header announces a definite length L and the parser succeeds, then exactly header-octets + L bytes are consumed, and content exposed as a slice (parse_ber_any, parse_ber_slice, container closures) is exactly those L bytes.", "quantifier": "every byte slice whose header has a definite length; every closure", "why_tests_cant": "Off-by-one framing errors show only at particular lengths (127/128/255/256/65536...), unbounded many.", "anchors": ["src/ber/parser.rs: ber_get_object_content, ber_skip_object_content, parse_ber_slice", "src/ber/wrap_any.rs: parse_ber_any", "src/ber/multi.rs: parse_ber_container"]}
{"id": "C07", "title": "Header decoding agrees with X.690 8.1.2-8.1.3", "statement": "ber_read_element_header succeeds exactly on inputs starting with identifier octets (low or high tag number form of at most five subsequent octets) followed by short, long (1 to 126 octets, value below 2^64) or - for constructed encodings - indefinite length octets, and returns the class, constructed bit, tag, length and raw tag bytes written there. The DER variant accepts the same except the indefinite form.", "quantifier": "every byte slice", "why_tests_cant": "Needs equivalence with a grammar over all byte strings, both directions.", "anchors": ["src/ber/parser.rs: ber_read_element_header", "src/der/parser.rs: der_read_element_header"]}
{"id": "C08", "title": "Different tag numbers decode to different tags", "statement": "Two identifier-octet strings that encode different tag numbers (as unbounded integers) never yield the same Tag.", "quantifier": "every pair of byte slices with parsable headers", "why_tests_cant": "Requires a comparison over all pairs of encodings; overflow happens only on long tags.", "anchors": ["src/ber/parser.rs: ber_read_element_header"]}
{"id": "C09", "title": "Indefinite-length content ends at its own end-of-contents octets", "statement": "For a constructed element with indefinite length holding any sequence of well-formed elements (nested arbitrarily, within the depth limit), followed by 00 00, the content handed over is exactly the concatenation of the inner elements and the remainder starts right after the matching 00 00; nothing other than 00 00 ends the content.", "quantifier": "every well-formed indefinite-length encoding; every byte slice for the converse", "why_tests_cant": "Nested indefinite encodings form an unbounded family; confusion of the terminator with lookalike elements is an adversarial case.", "anchors": ["src/ber/parser.rs: ber_skip_object_content, ber_get_object_content"]}
{"id": "C10", "title": "Trailing data does not influence a successful parse", "statement": "If parsing slice i succeeds with remainder r and object o, then parsing i followed by any bytes t succeeds with remainder r followed by t and the same object o.", "quantifier": "every byte slice, every appended byte slice, every depth; generic and tag-specific BER and DER parsers", "why_tests_cant": "Quantifies over all continuations of all inputs.", "anchors": ["src/ber/parser.rs: parse_ber, parse_ber_with_tag", "src/der/parser.rs: parse_der, parse_der_with_tag"]}
{"id": "C11", "title": "Truncated input is reported as Incomplete", "statement": "If an input is accepted consuming n bytes, then every prefix shorter than n is answered with Err(Incomplete): never with success and never with a definitive error, so streaming callers can retry after reading more.", "quantifier": "every accepted input, every cut point", "why_tests_cant": "Every cut point of every valid message has to be considered.", "anchors": ["src/ber/parser.rs: parse_ber, parse_ber_with_tag", "src/der/parser.rs: parse_der", "src/ber/multi.rs: parse_ber_container"]}
{"id": "C12", "title": "Incomplete(n) never asks for more than is needed", "statement": "When a parser answers Incomplete(Size(n)) there is no way to complete the element with fewer than n additional bytes.", "quantifier": "every byte slice, every extension", "why_tests_cant": "Relates one run to all possible longer inputs.", "anchors": ["src/ber/parser.rs: parse_ber", "src/der/parser.rs: der_read_element_content_as", "src/ber/wrap_any.rs: try_read_berobjectcontent_as"]}
{"id": "C13", "title": "Recursion limit is exact for SEQUENCE/SET nesting", "statement": "An object returned by parse_ber_recursive(i, d) has nesting depth at most d; and an input accepted with some limit is, with limit d, accepted with the same result iff its nesting depth is at most d, and otherwise rejected with BerMaxDepth.", "quantifier": "every byte slice, every pair of limits", "why_tests_cant": "Holds for every limit and nesting structure; tests check one limit and one shape.", "anchors": ["src/ber/wrap_any.rs: parse_ber_any_r, try_berobject_from_any"]}
{"id": "C14", "title": "Indefinite-length nesting is bounded", "statement": "Elements with more than 50 levels of nested indefinite-length encodings are always rejected; raising the limit of a content-level parser never changes a successful result.", "quantifier": "every byte slice, every limit", "why_tests_cant": "Unbounded nesting structures.", "anchors": ["src/ber/parser.rs: ber_skip_object_content, ber_get_object_content, MAX_RECURSION"]}
{"id": "C15", "title": "Objects larger than the size limit are refused", "statement": "A header announcing a definite length above 4294967295 is refused with InvalidLength, without asking for more data, by every parsing entry point.", "quantifier": "every byte slice, every such length", "why_tests_cant": "Test inputs of that size are impractical and each entry point has its own path.", "anchors": ["src/ber/parser.rs: MAX_OBJECT_SIZE, parse_ber, parse_ber_with_tag", "src/ber/wrap_any.rs: try_read_berobjectcontent_as", "src/der/parser.rs: parse_der_recursive"]}
{"id": "C16", "title": "BOOLEAN semantics", "statement": "parse_ber_bool accepts exactly BOOLEAN elements with one content octet and returns true iff that octet is non-zero; parse_der_bool accepts only 00 and ff.", "quantifier": "every byte slice", "why_tests_cant": "All 256 values, all lengths, all length forms.", "anchors": ["src/ber/parser.rs: parse_ber_bool", "src/der/parser.rs: parse_der_bool", "src/ber/wrap_any.rs: try_berobject_from_any"]}
{"id": "C17", "title": "as_u64 / as_u32 are exact", "statement": "For INTEGER content bytes b, as_u64 (as_u32) returns Ok(v) iff the two's complement value of b is v and 0 <= v < 2^64 (2^32); negative values give IntegerNegative; larger values give IntegerTooLarge; any number of leading zero octets is allowed.", "quantifier": "every content byte string", "why_tests_cant": "Unbounded length integers and boundary values.", "anchors": ["src/ber/ber.rs: as_u64, as_u32", "src/ber/integer.rs: decode_array_uint8, decode_array_uint4, remove_zeroes"]}
{"id": "C18", "title": "as_i64 / as_i32 are exact", "statement": "For INTEGER content bytes b, as_i64 (as_i32) returns Ok(v) iff the two's complement value of b is v and v fits in i64 (i32); otherwise IntegerTooLarge.", "quantifier": "every content byte string", "why_tests_cant": "Boundary values around 2^31, 2^63 and redundant sign octets.", "anchors": ["src/ber/ber.rs: as_i64, as_i32", "src/ber/integer.rs: decode_array_int8, decode_array_int4"]}
{"id": "C19", "title": "One-step and two-step unsigned integer parsing agree", "statement": "On primitive universal INTEGER elements, parse_ber_u64 / parse_ber_u32 return the same number and remainder as parse_ber_integer followed by as_u64 / as_u32.", "quantifier": "every byte slice", "why_tests_cant": "Two independent implementations must agree on all inputs.", "anchors": ["src/ber/parser.rs: parse_ber_u64, parse_ber_u32, parse_ber_integer", "src/ber/ber.rs: as_u64, as_u32"]}
{"id": "C20", "title": "as_bigint / as_biguint are exact", "statement": "as_bigint returns the two's complement value of the content bytes for any length; as_biguint returns the same number when it is non-negative and IntegerNegative otherwise.", "quantifier": "every content byte string", "why_tests_cant": "Unbounded integers.", "anchors": ["src/ber/ber.rs: as_bigint, as_biguint"]}
{"id": "C21", "title": "BIT STRING to integer conversion is exact", "statement": "as_u64 on a BIT STRING with u unused bits and data bytes d returns the big-endian number formed by the first 8*len(d)-u bits; it returns InvalidLength if u exceeds the bit count and IntegerTooLarge iff more than 64 bits remain; as_u32 additionally rejects values above u32::MAX.", "quantifier": "every data byte string, every unused-bits value 0..255", "why_tests_cant": "All alignments and unused-bits values, including above 7.", "anchors": ["src/ber/parser.rs: bitstring_to_u64", "src/ber/ber.rs: as_u64, as_u32"]}
{"id": "C22", "title": "BitStringObject::is_set reads the right bit", "statement": "is_set(n) is true iff bit n, counting from the most significant bit of the first data byte, exists and is one; it is false for every n past the end.", "quantifier": "every data byte string, every n", "why_tests_cant": "All positions and lengths.", "anchors": ["src/ber/ber.rs: BitStringObject::is_set"]}
{"id": "C23", "title": "ENUMERATED decoding", "statement": "A primitive ENUMERATED element is accepted iff its content, read as an unsigned big-endian number, fits in 32 bits (leading zero octets allowed), and Enum(v) carries exactly that number.", "quantifier": "every content byte string", "why_tests_cant": "Unbounded lengths with leading zeros.", "anchors": ["src/ber/wrap_any.rs: try_berobject_from_any", "src/ber/parser.rs: parse_ber_enum"]}
{"id": "C24", "title": "String contents are verified and verbatim", "statement": "When a NumericString, PrintableString, VisibleString, IA5String or UTF8String is returned, as_slice and as_str expose exactly the content bytes of the element, and all bytes belong to the declared alphabet (digits and space; the PrintableString set; 0x20..0x7f; ASCII; well-formed UTF-8).", "quantifier": "every byte slice", "why_tests_cant": "Any content; alphabets are large.", "anchors": ["src/ber/wrap_any.rs: try_berobject_from_any, from_obj! STRING", "src/ber/ber.rs: as_str, as_slice"]}
{"id": "C25", "title": "BMPString is well-formed UTF-16", "statement": "A BMPString is accepted iff primitive, of even length and with correctly paired surrogates; the bytes are exposed verbatim.", "quantifier": "every content byte string", "why_tests_cant": "Any mixture of surrogates.", "anchors": ["src/ber/wrap_any.rs: try_berobject_from_any"]}
{"id": "C26", "title": "Raw contents are exposed verbatim", "statement": "For INTEGER, OCTET STRING, OBJECT IDENTIFIER, RELATIVE-OID, UniversalString, BIT STRING (after its first octet) and unknown elements the value exposed by as_slice (or the Oid bytes) is byte for byte the element content.", "quantifier": "every byte slice", "why_tests_cant": "Any content.", "anchors": ["src/ber/wrap_any.rs: try_berobject_from_any", "src/ber/ber.rs: as_slice, as_oid"]}
{"id": "C27", "title": "Content variant agrees with the header", "statement": "In every object returned by parse_ber or parse_der (at every nesting level) the content variant is the one named by the universal tag in the header, and elements of other classes (or universal tags without mapping) are Unknown carrying the same header.", "quantifier": "every byte slice, every node of the result tree; for parse_der (also inside a composition): date parsers that never answer UnknownTag, which parse_der would take for an unknown tag", "why_tests_cant": "Every tag at every depth.", "anchors": ["src/ber/wrap_any.rs: try_berobject_from_any", "src/der/parser.rs: der_read_element_content_recursive", "src/ber/ber.rs: BerObjectContent::tag"]}
{"id": "C28", "title": "DER BOOLEAN is canonical", "statement": "parse_der and parse_der_bool never return a BOOLEAN whose content octet was other than 00 or ff.", "quantifier": "every byte slice", "why_tests_cant": "All octets and header forms.", "anchors": ["src/der/parser.rs: der_read_element_content_as"]}
{"id": "C29", "title": "DER INTEGER is minimal", "statement": "parse_der and parse_der_integer accept an INTEGER only if it has at least one content octet and its first nine bits are neither all zero nor all one.", "quantifier": "every byte slice; for parse_der (also inside a composition): date parsers that never answer UnknownTag, which parse_der would take for an unknown tag", "why_tests_cant": "All lengths and octet patterns.", "anchors": ["src/der/parser.rs: der_read_element_content_as, parse_der_integer"]}
{"id": "C30", "title": "DER BIT STRING padding", "statement": "A BIT STRING returned by parse_der or parse_der_bitstring has at most 7 unused bits, all unused bits are zero, and a bit string without data octets has no unused bits.", "quantifier": "every byte slice; for parse_der (also inside a composition): date parsers that never answer UnknownTag, which parse_der would take for an unknown tag", "why_tests_cant": "All unused-bit counts and last octets.", "anchors": ["src/der/parser.rs: der_read_content_bitstring"]}
{"id": "C31", "title": "DER times end with Z", "statement": "UTCTime and GeneralizedTime are accepted by parse_der only if the last content octet is the letter Z; an empty content is rejected with MissingTimeZone.", "quantifier": "every byte slice", "why_tests_cant": "All contents.", "anchors": ["src/der/parser.rs: der_read_element_content_as"]}
{"id": "C32", "title": "DER strings are primitive", "statement": "parse_der never returns a BIT STRING or a character string type from a constructed encoding.", "quantifier": "every byte slice", "why_tests_cant": "All string tags and encodings.", "anchors": ["src/der/parser.rs: der_read_element_content_as"]}
{"id": "C33", "title": "DER rejects indefinite lengths at the outermost level", "statement": "parse_der, parse_der_with_tag and the DER container combinators never accept an outermost element with indefinite length.", "quantifier": "every byte slice, every closure", "why_tests_cant": "All inputs.", "anchors": ["src/der/parser.rs: parse_der", "src/der/multi.rs: parse_der_container"]}
{"id": "C34", "title": "DER strictness reaches nested elements", "statement": "Every element nested inside a SEQUENCE or SET returned by parse_der satisfies the same DER rules as the outermost element (no indefinite length, canonical BOOLEAN, minimal INTEGER, zero padding bits).", "quantifier": "every byte slice, every nesting level", "why_tests_cant": "Needs a statement about all nodes of all results.", "anchors": ["src/der/parser.rs: parse_der, der_read_element_content_recursive", "src/ber/wrap_any.rs: try_berobject_from_any"]}
{"id": "C35", "title": "DER encodings are unique", "statement": "Two different byte strings are never both accepted in full by parse_der as objects with equal headers and content.", "quantifier": "every pair of byte slices", "why_tests_cant": "Quantifies over pairs of inputs.", "anchors": ["src/der/parser.rs: parse_der, der_read_element_header"]}
{"id": "C36", "title": "DER is a restriction of BER", "statement": "If parse_der accepts an input then parse_ber accepts it too, with the same remainder and the same object; likewise parse_der_with_tag and parse_ber_with_tag.", "quantifier": "every byte slice, tag, depth; for parse_der (also inside a composition): date parsers that never answer UnknownTag, which parse_der would take for an unknown tag", "why_tests_cant": "Two code paths must agree everywhere.", "anchors": ["src/der/parser.rs: parse_der_recursive, parse_der_with_tag", "src/ber/parser.rs: parse_ber_recursive, parse_ber_with_tag"]}
{"id": "C37", "title": "SEQUENCE OF / SET OF return all elements in order", "statement": "parse_ber_sequence_of_v(f) (and set_of, DER versions, and the BerObject-returning versions) succeeds with vector v iff the content is entirely split into consecutive pieces parsed by f in that order; leftover bytes or a failing element make it fail.", "quantifier": "every byte slice, every element parser", "why_tests_cant": "Quantifies over element parsers and over all contents.", "anchors": ["src/ber/multi.rs: parse_ber_sequence_of_v, parse_ber_set_of_v", "src/der/multi.rs: parse_der_sequence_of_v, parse_der_set_of_v"]}
{"id": "C38", "title": "Containers isolate the closure", "statement": "parse_*_container / *_defined_g hand the closure exactly the content bytes and the header, the closure cannot read past the element, bytes it leaves unread are ignored, and the remainder returned is the input after the element whatever the closure returns as its own remainder.", "quantifier": "every byte slice, every closure", "why_tests_cant": "Quantifies over closures.", "anchors": ["src/ber/multi.rs: parse_ber_container, parse_ber_sequence_defined_g", "src/der/multi.rs: parse_der_container"]}
{"id": "C39", "title": "EXPLICIT tags are checked", "statement": "parse_*_tagged_explicit_g(n, f) runs f only for constructed, non-universal elements with tag number n, on exactly the content bytes; a universal class, another number or a primitive encoding gives respectively UnexpectedClass, UnexpectedTag, ConstructExpected.", "quantifier": "every byte slice, tag, closure", "why_tests_cant": "Quantifies over closures and inputs.", "anchors": ["src/ber/tagged.rs: parse_ber_tagged_explicit_g", "src/der/tagged.rs: parse_der_tagged_explicit_g"]}
{"id": "C40", "title": "IMPLICIT tags are checked", "statement": "parse_*_tagged_implicit_g(n, f) runs f only for non-universal elements with tag number n.", "quantifier": "every byte slice, tag, closure", "why_tests_cant": "Quantifies over closures and inputs.", "anchors": ["src/ber/tagged.rs: parse_ber_tagged_implicit_g", "src/der/tagged.rs: parse_der_tagged_implicit_g"]}
{"id": "C41", "title": "Optional parsers never fail and never consume on absence", "statement": "parse_ber_optional(f) and parse_ber_explicit_optional never return an error; if f fails the remainder is the whole input and the object is Optional(None); if f succeeds the remainder is f's and the object wraps f's object with the same header.", "quantifier": "every byte slice, every closure", "why_tests_cant": "Quantifies over closures.", "anchors": ["src/ber/parser.rs: parse_ber_optional, parse_ber_explicit_optional", "src/der/parser.rs: parse_der_explicit_optional"]}
{"id": "C42", "title": "Tag-specific parsers accept only universal elements", "statement": "parse_ber_xxx / parse_der_xxx (e.g. parse_ber_integer) accept only elements of class Universal with the tag of the type.", "quantifier": "every byte slice, every type", "why_tests_cant": "All identifier octets.", "anchors": ["src/ber/parser.rs: parse_ber_with_tag", "src/der/parser.rs: parse_der_with_tag"]}
{"id": "C43", "title": "Definite/indefinite indifference", "statement": "Re-encoding the outer framing of a constructed BER element from definite to indefinite form (same content of well-formed elements, 00 00 appended) does not change the parsed children.", "quantifier": "every list of well-formed encoded elements", "why_tests_cant": "All contents.", "anchors": ["src/ber/parser.rs: ber_get_object_content", "src/ber/wrap_any.rs: try_berobject_from_any"]}
{"id": "C44", "title": "Length octets round trip and are minimal", "statement": "For every length below 2^64 the encoder writes length octets that the header parser decodes to the same length, and no shorter definite form exists.", "quantifier": "every length below 2^64", "why_tests_cant": "2^64 values.", "anchors": ["src/ber/serialize.rs: encode_length", "src/ber/parser.rs: ber_read_element_header"]}
{"id": "C45", "title": "Header encode/parse round trip", "statement": "For every header with tag number at most 30 (and constructed if indefinite), parsing the output of ber_encode_header gives back class, constructed bit, tag and length; for larger tag numbers the encoder panics instead of producing wrong bytes.", "quantifier": "every header, every following byte string", "why_tests_cant": "All classes, tags and lengths.", "anchors": ["src/ber/serialize.rs: ber_encode_header", "src/ber/parser.rs: ber_read_element_header"]}
{"id": "C46", "title": "Serialize then parse is the identity on well-formed objects", "statement": "For every well-formed object tree (headers matching contents, tags at most 30, valid strings, nesting at most the limit), parse_ber(to_vec(o) ++ rest) returns rest and an object equal to o up to the recomputed length fields.", "quantifier": "every well-formed object tree, every suffix", "why_tests_cant": "Unbounded trees.", "anchors": ["src/ber/serialize.rs: BerObject::to_vec, ber_encode_object", "src/ber/parser.rs: parse_ber"]}
{"id": "C47", "title": "Parse then serialize then parse is stable", "statement": "If parse_ber accepts an input and all tags are at most 30, to_vec succeeds on the result, and parsing its output gives an equal object (up to length and raw tag fields) with nothing left over; serializing again gives the same bytes.", "quantifier": "every byte slice accepted by parse_ber", "why_tests_cant": "All accepted inputs including non-minimal and indefinite encodings.", "anchors": ["src/ber/serialize.rs: BerObject::to_vec", "src/ber/parser.rs: parse_ber"]}
{"id": "C48", "title": "Tagged encoders invert tagged parsers", "statement": "ber_encode_tagged_explicit followed by parse_ber_tagged_explicit_g returns the inner object and class; ber_encode_tagged_implicit followed by parse_ber_tagged_implicit_g with the content parser of the type returns the inner content.", "quantifier": "every well-formed object, tag at most 30, non-universal class", "why_tests_cant": "Unbounded trees.", "anchors": ["src/ber/serialize.rs: ber_encode_tagged_explicit, ber_encode_tagged_implicit", "src/ber/tagged.rs: parse_ber_tagged_explicit_g, parse_ber_tagged_implicit_g"]}
{"id": "C49", "title": "Serializer output length is consistent", "statement": "Every length field written by to_vec equals the number of content bytes that follow it, at every level, independently of the length stored in the object headers.", "quantifier": "every object tree without tag above 30", "why_tests_cant": "Unbounded trees.", "anchors": ["src/ber/serialize.rs: ber_encode_object, ber_encode_object_content"]}
{"id": "C50", "title": "Reference iteration and indexing", "statement": "ref_iter on a SEQUENCE or SET yields exactly its children in order and nothing for other objects; obj[i] is the i-th child and panics exactly when the object is not a SEQUENCE/SET with more than i children.", "quantifier": "every object, every index, any number of next() calls", "why_tests_cant": "All sizes and positions.", "anchors": ["src/ber/ber.rs: BerObjectRefIterator::next, Index"]}
{"id": "C51", "title": "Consuming iteration yields the children", "statement": "into_iter on a SEQUENCE or SET yields exactly its children in order; on any other object it yields the object itself once.", "quantifier": "every object, any number of next() calls", "why_tests_cant": "All sizes, including the empty one.", "anchors": ["src/ber/ber.rs: BerObjectIntoIterator::next"]}
{"id": "C52", "title": "Visitor visits each SEQUENCE/SET descendant once, in order, with its depth", "statement": "Visit::run_at(o, d) calls visit_ber on o at depth d, then the type-specific method once, then recursively on each child at depth d+1, in order; the sequence of calls is the pre-order listing of the tree.", "quantifier": "every object tree, every start depth", "why_tests_cant": "Unbounded trees.", "anchors": ["src/ber/visit.rs: visit_ber_bfs, Visit::run, Visit::run_at"]}
{"id": "C53", "title": "visit_ber is called for every object", "statement": "As documented, visit_ber is called for every object of the tree, including the ones wrapped in Tagged and Optional.", "quantifier": "every object tree", "why_tests_cant": "Unbounded trees.", "anchors": ["src/ber/visit.rs: Visit, visit_ber_bfs"]}
{"id": "C54", "title": "Mutable visitor", "statement": "VisitMut walks the tree in the same order as Visit as long as the callbacks do not change structure; with callbacks that change nothing the object is unchanged; a change made by visit_ber_mut to an object is seen by the rest of the traversal of that object.", "quantifier": "every object tree, every visitor", "why_tests_cant": "Quantifies over visitors.", "anchors": ["src/ber/visit_mut.rs: visit_ber_bfs_mut"]}
{"id": "C55", "title": "Pretty-printer flags behave as a set", "statement": "After any history of set_flag / unset_flag calls, is_flag_set(f) holds iff the last call about f was set_flag (or f was initially set and never touched).", "quantifier": "every finite history of calls", "why_tests_cant": "Histories are unbounded.", "anchors": ["src/ber/print.rs: set_flag, unset_flag, is_flag_set, next_indent"]}
{"id": "C56", "title": "BerObject::try_from(Any) agrees with parse_ber", "statement": "For every Any produced by parse_ber_any on an input, BerObject::try_from(any) gives the same object as parse_ber on that input.", "quantifier": "every byte slice", "why_tests_cant": "Two code paths must agree on all inputs.", "anchors": ["src/ber/ber.rs: TryFrom<Any>", "src/ber/wrap_any.rs: parse_ber_any"]}
{"id": "C57", "title": "OID macro encodes components in base 128", "statement": "For every list of components (of any size), the octets produced for the components after the first two (or all of them for relative OIDs) decode, by the X.690 8.19 rule, to exactly those components, with no leading 0x80 octet.", "quantifier": "every list of natural numbers of any size", "why_tests_cant": "Arbitrary precision integers.", "anchors": ["der-oid-macro/src/lib.rs: encode_components"]}
{"id": "C58", "title": "OID macro encodes the two first arcs", "statement": "For every pair of first arcs allowed by X.660 (0.x and 1.x with x < 40, 2.x with any x) the macro produces the X.690 8.19.4 encoding of 40*a+b, and it rejects any other pair at compile time.", "quantifier": "every pair of arcs", "why_tests_cant": "Infinitely many pairs.", "anchors": ["der-oid-macro/src/lib.rs: encode_components"]}
{"id": "C59", "title": "Custom error types do not change acceptance", "statement": "Running the container, sequence, set and tagged combinators with a user error type gives the same Ok results, the same Incomplete answers and errors at the same places as with BerError, with errors mapped through From<BerError> and ParseError::from_error_kind.", "quantifier": "every byte slice, every closure, every error type", "why_tests_cant": "Quantifies over error types.", "anchors": ["src/ber/multi.rs: parse_ber_container, parse_ber_sequence_of_v", "src/ber/tagged.rs: parse_ber_tagged_explicit_g"]}
{"id": "C60", "title": "from_obj builds a consistent header", "statement": "BerObject::from_obj(c) has class Universal, the tag of c, the constructed flag exactly for SEQUENCE and SET, and for every well-formed untagged content the result serializes to an element that parse_ber maps back to c.", "quantifier": "every content value", "why_tests_cant": "All contents.", "anchors": ["src/ber/ber.rs: BerObject::from_obj, from_seq, from_set, from_int_slice", "src/ber/serialize.rs: to_vec"]}
{"id": "C61", "title": "parse_ber computes exactly the BER denotation", "statement": "parse_ber / parse_ber_recursive (any depth limit) succeed with remainder r and object o if and only if the input is one BER element e followed by r, the header of o is the header of e, and the contents octets of e denote the content of o (value of each primitive type, list of inner elements for SEQUENCE and SET, raw octets otherwise); the denotation is unique. The typed functions parse_ber_xxx satisfy the same with the class ignored.", "quantifier": "every byte slice, every depth limit, every tag, every result tree", "why_tests_cant": "both directions over infinitely many inputs and arbitrarily nested trees", "anchors": ["src/ber/parser.rs:618-641", "src/ber/wrap_any.rs:13-192", "src/ber/parser.rs:14-68"]}
{"id": "C62", "title": "Every node of a parsed tree comes from one contiguous piece of the input", "statement": "Every object at any nesting level of a tree returned by parse_ber is what parse_ber returns, with empty remainder, on one contiguous piece of the consumed input.", "quantifier": "every byte slice, every depth limit, every node of the result tree", "why_tests_cant": "unbounded nesting and inputs; tests look at a few levels of a few files", "anchors": ["src/ber/wrap_any.rs:79-192", "src/ber/parser.rs:618-641"]}
{"id": "C63", "title": "parse_der computes exactly the restricted denotation", "statement": "parse_der (any positive depth limit) succeeds with remainder r and object o if and only if the input is one definite-length element of at most MAX_OBJECT_SIZE contents octets followed by r, and either its class is not universal and o keeps the contents raw, or the contents octets satisfy the DER rules of the tag (BOOLEAN 00/ff, INTEGER not empty and without nine leading zero bits, BIT STRING padding, times ending with Z) and denote the content of o. Likewise parse_der_xxx.", "quantifier": "every byte slice, every positive depth limit, every tag, every result tree; for parse_der (also inside a composition): date parsers that never answer UnknownTag, which parse_der would take for an unknown tag", "why_tests_cant": "both directions over infinitely many inputs", "anchors": ["src/der/parser.rs:29-82", "src/der/parser.rs:481-607"]}
{"id": "C64", "title": "Each typed parser accepts exactly its own type", "statement": "parse_ber_bool, parse_ber_integer, ... (and the parse_der_ versions) succeed exactly on elements whose tag number is the universal number of the type of their name and whose contents octets denote a value of that type, and return that variant; any other tag number gives UnexpectedTag with both numbers; no two of the functions accept the same input.", "quantifier": "every byte slice, every typed parser, every result", "why_tests_cant": "infinitely many inputs for each of the typed functions; tests use one or two inputs per function", "anchors": ["src/ber/parser.rs:249-443", "src/der/parser.rs:86-299"]}
{"id": "C65", "title": "Accessors succeed exactly on their variant", "statement": "as_bool, as_oid, as_optional, as_tagged, as_bitstring, as_sequence, as_set, as_str and their BerObject versions return the stored value exactly when the content is of their variant, and BerTypeError otherwise; a value returned by as_str is also what as_slice returns.", "quantifier": "every content value", "why_tests_cant": "every variant with every payload", "anchors": ["src/ber/ber.rs:230-310", "src/ber/ber.rs:521-640"]}
{"id": "C66", "title": "Equality of objects is an equivalence relation", "statement": "== on objects is reflexive, symmetric and transitive.", "quantifier": "all triples of objects", "why_tests_cant": "triples of arbitrarily nested objects with and without raw tags", "anchors": ["src/ber/ber.rs:25-100"]}
{"id": "C67", "title": "as_bitslice gives the bits of the data, most significant first", "statement": "as_bitslice of a BIT STRING is the list of all bits of its data octets, most significant first, and bit n is what is_set(n) tells; for other contents it is the bits of as_slice.", "quantifier": "every content, every bit index", "why_tests_cant": "unbounded strings and indexes", "anchors": ["src/ber/ber.rs:275-278", "src/ber/ber.rs:571-575", "src/ber/ber.rs:858-874"]}
{"id": "C68", "title": "Without the flag Recursive nested objects are not printed", "statement": "When the flag Recursive is not set, the text of the pretty printer does not depend on objects nested in the printed one.", "quantifier": "every object, all flags and indentations", "why_tests_cant": "a statement on pairs of arbitrary trees", "anchors": ["src/ber/print.rs:15-18", "src/ber/print.rs:102-197"]}
{"id": "C69", "title": "Layout of the pretty printer", "statement": "With the flag Recursive the text is the concatenation, in pre-order, of one piece for each object reached through SEQUENCE, SET and tags (and one for each closing bracket), each preceded by indent + depth * increment spaces and, with ShowHeader, by the header of its object.", "quantifier": "every object tree, all flags, indentations and increments", "why_tests_cant": "arbitrary trees and parameters; the tests only print without comparing", "anchors": ["src/ber/print.rs:66-197"]}
{"id": "C70", "title": "Every printed object starts a line", "statement": "In the text of the pretty printer every object and every closing bracket starts a line.", "quantifier": "every object tree, all flags, indentations and increments", "why_tests_cant": "the tests print and compare nothing", "anchors": ["src/ber/print.rs:102-197"]}
{"id": "C71", "title": "Wide strings are printed as their characters", "statement": "A BMPString (UniversalString) with well-formed UTF-16 (UTF-32) contents is printed as its characters in UTF-8 between quotes; other contents give the error text; BMPStrings returned by the parser are always printed as characters.", "quantifier": "every sequence of characters, every byte string", "why_tests_cant": "all sequences of Unicode scalar values, including surrogate pairs", "anchors": ["src/ber/print.rs:112-134", "src/ber/print.rs:158-159"]}
{"id": "C72", "title": "Native integer parsers", "statement": "parse_ber_u32/u64 and parse_ber_i32/i64 return, on a primitive element with tag number 2, its two's complement value exactly when it fits the type, however many redundant octets there are, and otherwise IntegerNegative or IntegerTooLarge; parse_der_* accept exactly the minimally encoded ones that fit. They agree with parsing followed by as_i64/as_i32 except for values 2^63..2^64-1 (2^31..2^32-1), and for negative numbers that fit but are written with more than eight (four) octets.", "quantifier": "every input", "why_tests_cant": "all contents lengths and values; tests use a handful of numbers", "anchors": ["src/ber/parser.rs:562-591", "src/der/parser.rs:372-399", "src/ber/integer.rs:1-60"]}
{"id": "C73", "title": "Text of the OID macro", "statement": "The procedural macro accepts exactly numerals separated by dots (white space around them allowed), with an optional prefix 'rel ', whose components encode_components accepts; its expansion is an array expression of exactly the octets of the OID; it panics at compile time on anything else.", "quantifier": "every argument text", "why_tests_cant": "all texts, numerals of any size and any number of components", "anchors": ["der-oid-macro/src/lib.rs:65-90"]}
{"id": "C74", "title": "Closures with state", "statement": "The combinators call an FnMut closure with state on the successive remainders, in order, once for each element and never after a failure; the container, defined, tagged and optional combinators call it once, or not at all when header or tag are refused. When its answers do not depend on its state they are as for a pure closure.", "quantifier": "every state type, every stateful closure that never answers a longer remainder, every input", "why_tests_cant": "all closures and states; tests use pure closures", "anchors": ["src/ber/multi.rs:68-77", "src/ber/multi.rs:220-232", "src/ber/multi.rs:293-300", "src/ber/multi.rs:444-455", "src/ber/multi.rs:514-530", "src/der/multi.rs:69-78", "src/der/multi.rs:515-534", "src/ber/parser.rs:538-555"]}
{"id": "C75", "title": "Methods of BerObject", "statement": "The accessors of an object answer from its stored content (not its header); the class queries are exclusive and exhaustive and an object is primitive exactly when not constructed; the assertions succeed exactly when the query agrees and name what was expected and found; for a parsed object and every object inside it these answers are those of the first octet of its element; an object built from a header and a content has exactly these; an object built from a content is universal with the content's tag and constructed exactly for SEQUENCE and SET.", "quantifier": "every object, every content, every input of the object parsers", "why_tests_cant": "all objects and all inputs; tests call a few accessors on a few literals", "anchors": ["src/ber/ber.rs:113-118", "src/ber/ber.rs:228-380", "src/ber/ber.rs:391-395", "src/ber/ber.rs:876-880"]}
{"id": "C76", "title": "Parsed trees are linear in the input", "statement": "For every object returned by the BER and DER object parsers, two octets per object of the tree plus the octets its payload points to add up to at most the octets consumed; an object nested k levels deep needs 2k octets of headers around it.", "quantifier": "every input, every parser and depth limit", "why_tests_cant": "a bound over all inputs; a test measures single inputs", "anchors": ["src/ber/parser.rs:618-641", "src/der/parser.rs:29-82", "src/ber/wrap_any.rs:24-140"]}
{"id": "C77", "title": "The example program dump-der", "statement": "On a file that starts with an object the program terminates, prints every object of the tree once in pre-order followed by the objects that can be read from the data of OCTET STRINGs and unknown elements, with balanced braces and deeper indentation inside them; every printed object is an element of the file, and there is at most one for every two octets. It panics exactly when the file does not start with an object.", "quantifier": "every file contents", "why_tests_cant": "all files and all nestings of encapsulated data; the example has no tests", "anchors": ["examples/dump-der.rs:14-49", "examples/dump-der.rs:52-69", "examples/dump-der.rs:84-95"]}
{"id": "C78", "title": "Parsing reads a linear number of headers", "statement": "parse_ber with recursion limit d makes at most (d+1)/2 header reads for each octet consumed (25.5 with the default limit), one more on failure; likewise parse_der and the typed parsers. The factor is reached up to a constant: j nested SEQUENCEs of indefinite length around k NULLs cost exactly (j+1)(k+j) header reads, because contents are skipped again at each level.", "quantifier": "every input, every recursion limit; every k and every j up to 49", "why_tests_cant": "a bound on the running time for all inputs", "anchors": ["src/ber/parser.rs:14-68", "src/ber/wrap_any.rs:24-192", "src/der/parser.rs:29-82", "src/der/parser.rs:481-583"]}
{"id": "C79", "title": "Numeric accessors on every content", "statement": "as_u64 answers exactly the number the content stands for (INTEGER value, used bits of a BIT STRING, ENUMERATED) when it fits, as_u32 answers what as_u64 answers when that is below 2^32 (no truncation, also for ENUMERATED), every other content is refused with BerTypeError, and the four errors occur exactly in the named cases; as_i32/as_i64/as_bigint/as_biguint read INTEGER only (BerValueError); accessors agree where several answer, up to the wrap of the signed ones.", "quantifier": "every object, every content variant", "why_tests_cant": "The accessors are total functions of unbounded contents; agreement is a statement about pairs of functions over all of them.", "anchors": ["src/ber/ber.rs: as_u64, as_u32, as_i64, as_i32, as_bigint, as_biguint", "src/ber/parser.rs: bitstring_to_u64"]}
{"id": "C80", "title": "Trees edited by a mutable visitor", "statement": "A VisitMut implementation whose visit_ber_mut writes nothing and whose SEQUENCE and SET callbacks keep the list changes values only: headers, variants, order and number of objects, times, UTF8String and OCTET STRING stay as they were; a callback that replaces values by a function yields exactly the tree with that function applied; if the new values are well-formed for their types the edited tree is serialized with correct lengths and reading it back gives the edited tree.", "quantifier": "every visitor, every replacement function, every tree", "why_tests_cant": "Higher-order statement over all visitors and replacement functions, all trees.", "anchors": ["src/ber/visit_mut.rs: visit_ber_bfs_mut, VisitMut::run_at", "src/ber/serialize.rs: BerObject::to_vec", "src/ber/parser.rs: parse_ber"]}
{"id": "C81", "title": "The answer to every truncated input", "statement": "parse_ber answers Incomplete(n) exactly on the inputs that the grammar of BER leaves unfinished with n octets missing for the next step (one for an identifier or length octet, the rest of the length octets, the rest of the contents octets, of the innermost element that is cut), and InvalidTag on those cut inside a long tag number; the byte strings that can be continued to an element are characterised by the grammar; every proper prefix of an element has exactly one answer and gets it; the number asked for is at least one and never more than what is missing; but Incomplete does not promise that a continuation exists.", "quantifier": "every byte string, every cut point, every depth budget", "why_tests_cant": "An equivalence over all byte strings, with nesting of indefinite lengths of any width.", "anchors": ["src/ber/parser.rs: parse_ber, parse_ber_recursive", "src/ber/wrap_any.rs: parse_ber_any_r"]}
{"id": "C82", "title": "A reader of a stream that follows the hints", "statement": "A program that starts with no input and, as long as the answer is Incomplete(n), reads n octets more, ends with the parser's answer to the element at the head of the stream, after reading exactly the octets of that element and none of what follows, in at most as many steps as octets; a stream that ends inside the element is never taken for an element or an error. This holds for elements without a cut inside a long tag number, among them all elements of definite length with a one-octet identifier; with a long tag number the program fails.", "quantifier": "every element, every continuation of the stream, every depth budget", "why_tests_cant": "Induction over the reads of a loop for all elements and all streams.", "anchors": ["src/ber/parser.rs: parse_ber, parse_ber_recursive", "README.md: DER parser design"]}
{"id": "C83", "title": "Documents that survive parsing and serializing", "statement": "to_vec applied to the object returned by parse_ber or parse_der gives back the octets that were read if and only if these are canonical: one-octet identifier, shortest definite length, BOOLEAN 00 or ff, NULL empty, ENUMERATED without leading zero octet, times as the serializer writes them, at every level of SEQUENCE and SET. Canonical encodings are unique (equal objects, equal octets) and everything to_vec writes for a well-formed tree is canonical. Canonical in this sense is not DER: ENUMERATED zero and end-of-contents are changed, and parse_der accepts other input.", "quantifier": "every accepted input, every depth limit, every remainder; for parse_der (also inside a composition): date parsers that never answer UnknownTag, which parse_der would take for an unknown tag", "why_tests_cant": "An equivalence over all documents, by induction on the nesting.", "anchors": ["src/ber/serialize.rs: BerObject::to_vec", "src/ber/parser.rs: parse_ber", "src/der/parser.rs: parse_der"]}
{"id": "C84", "title": "The error of every rejected BER input", "statement": "parse_ber_recursive answers Err::Error(e) exactly for the inputs that a specification, written from the grammar and the error codes, rejects with e: bad identifier or length octets, too many nested indefinite lengths, contents that do not fit the type, the first member at fault in a SEQUENCE or SET, depth exceeded. Every input is accepted, incomplete or rejected, only one of these, with one answer. Err::Failure and Incomplete(Unknown) never occur.", "quantifier": "every input, every depth limit, every behaviour of the date parsers", "why_tests_cant": "The error code of every byte string, including nested ones, against an independent specification.", "anchors": ["src/ber/parser.rs: parse_ber, ber_skip_object_content", "src/ber/wrap_any.rs: try_berobject_from_any"]}
{"id": "C85", "title": "The answer of parse_der to every input it does not accept", "statement": "parse_der_recursive answers Err::Error(e) exactly for the inputs specified to be rejected with e (header, size limit, the DER rule that is broken, contents rejected by BER) and Incomplete(n) exactly for the inputs specified as cut; every input is accepted, incomplete or rejected and only one of these. A cut element of universal class is answered with its whole length, an empty BIT STRING depends on the octet after it.", "quantifier": "every input, every depth limit including 0; acceptance for date parsers that never answer UnknownTag", "why_tests_cant": "The answer to every byte string against an independent specification.", "anchors": ["src/der/parser.rs: parse_der_recursive, der_read_element_content_as, der_read_content_bitstring"]}
{"id": "C86", "title": "The answers of the functions for one type", "statement": "parse_ber_with_tag and the parse_ber_* functions built on it, and parse_der_with_tag with parse_der_*, answer Err::Error(e) exactly for the inputs specified to be rejected with e (header, wrong tag number, length over MAX_OBJECT_SIZE, broken DER rule, contents that do not fit) and Incomplete(n) exactly for those specified as cut. Err::Failure and Incomplete(Unknown) never occur. On a length over MAX_OBJECT_SIZE with missing contents the four readers disagree (three different answers).", "quantifier": "every input, every tag number, every behaviour of the date parsers", "why_tests_cant": "The answer to every byte string against an independent specification.", "anchors": ["src/ber/parser.rs: parse_ber_with_tag, parse_ber_bool .. parse_ber_utctime", "src/der/parser.rs: parse_der_with_tag, parse_der_bool .. parse_der_utctime"]}
{"id": "C87", "title": "All answers of the native integer functions", "statement": "parse_ber_u32/u64/i32/i64 and parse_der_u32/u64/i32/i64 answer every input as a table says: Incomplete with the missing octets, the error of the header, UnexpectedTag, ConstructUnexpected, the DER rule broken, IntegerNegative, IntegerTooLarge, or the value of the two's complement. In BER the tag is examined first; in DER the form and the rules on the contents come before the tag.", "quantifier": "every input, every width of at least one octet", "why_tests_cant": "All inputs are covered, including elements of other types and any length.", "anchors": ["src/ber/parser.rs: parse_ber_u32, parse_ber_u64, parse_ber_i32, parse_ber_i64", "src/der/parser.rs: parse_der_u32, parse_der_u64, parse_der_i32, parse_der_i64"]}
{"id": "C88", "title": "All answers of the container combinators", "statement": "When the input does not start with an element, parse_*_container, parse_*_sequence_defined_g, parse_*_set_defined_g, parse_*_sequence_of(_v), parse_*_set_of(_v), parse_*_tagged_explicit_g and parse_*_tagged_implicit_g give the answer specified for that input, whatever the closure: Incomplete(n) for a cut header or cut elements inside an indefinite length, the header's error, Error(Eof) for cut contents of known length. Every input is one or the other. parse_*_sequence_of and parse_*_set_of then read items one after the other; the answer is determined by the first position where no item is read: all items at the end of the contents, Failure(e) for a rejected item, Error(Eof) for a cut item, Error(Many0) for an item without octets.", "quantifier": "every input, closure, error type, BER and DER", "why_tests_cant": "The closure is arbitrary and every input is covered.", "anchors": ["src/ber/multi.rs: parse_ber_container, parse_ber_sequence_of_v, parse_ber_set_of_v", "src/der/multi.rs: parse_der_container, parse_der_sequence_of_v, parse_der_set_of_v", "src/ber/tagged.rs: parse_ber_tagged_explicit_g, parse_ber_tagged_implicit_g"]}
{"id": "C89", "title": "All answers of the content-level functions", "statement": "parse_ber_content, parse_ber_content2, parse_der_content and parse_der_content2 (ber_read_element_content_as, der_read_element_content_as), given any header, tag, depth and input, accept exactly the inputs that start with delimited contents standing for a value of the type (following the DER rules for the DER functions), and answer every other input as specified: Incomplete with the whole length for cut contents of known length, InvalidLength over the size limit, BerMaxDepth without levels, ConstructExpected for a primitive header with indefinite length, IndefiniteLengthUnexpected in DER, or the error of the contents. Err::Failure never occurs.", "quantifier": "every input, header, tag number, depth, behaviour of the date parsers", "why_tests_cant": "Headers, lengths and contents are arbitrary and need not come from a parser.", "anchors": ["src/ber/parser.rs: parse_ber_content, parse_ber_content2, ber_read_element_content_as", "src/ber/wrap_any.rs: try_read_berobjectcontent_as", "src/der/parser.rs: parse_der_content, der_read_element_content_as"]}
{"id": "C90", "title": "IMPLICIT types are read like the types themselves", "statement": "[tag] IMPLICIT T, read with parse_ber_tagged_implicit_g(tag, parse_ber_content(T)), accepts exactly the elements with that tag number whose contents stand for a value of T, in definite or indefinite form.", "quantifier": "every input, tag number, type", "why_tests_cant": "All elements, nesting and forms of length; the repository has no test of an IMPLICIT tag with indefinite length.", "anchors": ["src/ber/tagged.rs: parse_ber_tagged_implicit, parse_ber_tagged_implicit_g", "src/der/tagged.rs: parse_der_tagged_implicit_g", "src/ber/parser.rs: parse_ber_content"]}
{"id": "C91", "title": "All answers of parse_ber_any_with_tag_r", "statement": "parse_ber_any_with_tag_r accepts exactly the inputs that start with an element of the wanted tag number (of any class) that denotes an object within the depth limit. A limit of 0 rejects everything with BerMaxDepth. The element is delimited first, then its tag number is compared, then its contents are read: the error is the first of these that fails, and Incomplete is answered exactly for a cut element. On known universal types it agrees with parse_ber_with_tag; contents of another class are kept unread.", "quantifier": "every input, tag number, depth limit", "why_tests_cant": "All inputs, with and without errors, and every order of checks.", "anchors": ["src/ber/wrap_any.rs: parse_ber_any_with_tag_r"]}
{"id": "C92", "title": "Exact output of raw and tagged serialization", "statement": "ber_encode_object_raw writes the header as it is given (shortest form of the given length, right or wrong; 80 for the indefinite length and no end-of-contents octets) and the contents octets; with the right length it writes what ber_encode_object writes; a SEQUENCE or SET written with the indefinite length and followed by 00 00 is read back. ber_encode_tagged_explicit writes a constructed element around the object, ber_encode_tagged_implicit replaces class and tag number and keeps the form. All panic exactly when a tag number above 30 is to be written. A Tagged content is written as EXPLICIT by the outer header, an Optional content without the inner header.", "quantifier": "every header, content, object, class, tag number", "why_tests_cant": "The objects and lengths are arbitrary.", "anchors": ["src/ber/serialize.rs: ber_encode_object_raw, ber_encode_tagged_explicit, ber_encode_tagged_implicit, ber_encode_object_content"]}
{"id": "C93", "title": "Text of printed headers and values", "statement": "The pretty printer writes, for each header, class and tag number in brackets, + for a constructed encoding, and the length (a decimal numeral without leading zeroes, or Indefinite); and for each value without nested objects the name of its type and the value in parentheses, character strings in quotation marks except for T61String and VideotexString.", "quantifier": "every header and value, whatever the text written by other crates", "why_tests_cant": "The repository's tests print objects and check nothing.", "anchors": ["src/ber/print.rs: dbg_header, impl fmt::Debug for PrettyBer"]}
{"id": "C94", "title": "Printed text is unambiguous", "statement": "Inputs that are printed the same by as_pretty hold the same number of objects: a value cannot imitate the text of other objects.", "quantifier": "every pair of DER inputs", "why_tests_cant": "It is about pairs of arbitrary inputs; one that breaks it must be constructed.", "anchors": ["src/ber/print.rs: impl fmt::Debug for PrettyBer"]}
{"id": "C95", "title": "One header read per object of definite length", "statement": "A successful parse_ber, parse_der, parse_ber_with_tag or parse_der_with_tag reads at least one header for every object of the result, and exactly one for each if no object of the result has the indefinite length: the repeated reading counted by C78 is caused by indefinite lengths only.", "quantifier": "every accepted input, every depth limit; for parse_der (also inside a composition): date parsers that never answer UnknownTag, which parse_der would take for an unknown tag", "why_tests_cant": "The number of header reads is not observable in the results and the trees are arbitrary.", "anchors": ["src/ber/wrap_any.rs: try_berobject_from_any", "src/ber/parser.rs: ber_skip_object_content, ber_get_object_content", "src/der/parser.rs: der_read_element_content_recursive"]}
{"id": "C96", "title": "Composed parsers accept exactly the type they describe", "statement": "A parser made by nesting the combinators of the library (any element, typed element, choice of typed elements, SEQUENCE OF, SET OF, SEQUENCE and SET with a list of components, EXPLICIT, IMPLICIT, OPTIONAL, EXPLICIT OPTIONAL), in BER or DER version, accepts exactly the octets that are an encoding of the described type, gives the described object and leaves what follows; all other octets are answered with an error. A SEQUENCE OF or SET OF an optional type accepts nothing.", "quantifier": "every composition (any nesting, any list lengths, any tag numbers), every input, both rule sets; for parse_der (also inside a composition): date parsers that never answer UnknownTag, which parse_der would take for an unknown tag", "why_tests_cant": "The compositions are unbounded; the repository tests a handful of them on one input each.", "anchors": ["src/ber/multi.rs", "src/der/multi.rs", "src/ber/tagged.rs", "src/der/tagged.rs", "src/ber/parser.rs: parse_ber_optional, parse_ber_explicit_optional", "tests/der_parser.rs: test_der_seq_dn_defined"]}
{"id": "C97", "title": "Composed parsers return, read a prefix, and ignore what follows", "statement": "A parser made by nesting the combinators of the library never panics and never loops; its remainder is an end of the input; unless it is optional at the outside it reads at least two octets and octets appended to the input change neither value nor amount read.", "quantifier": "every composition, every input, both rule sets", "why_tests_cant": "Unbounded compositions and inputs; termination cannot be tested.", "anchors": ["src/ber/multi.rs", "src/der/multi.rs", "src/ber/tagged.rs", "src/der/tagged.rs", "src/ber/parser.rs"]}
{"id": "C98", "title": "The DER version of a composed parser is a restriction of the BER version", "statement": "Whatever the DER version of a composition accepts, the BER version accepts with the same remainder and an equal object.", "quantifier": "every composition, every input; for parse_der (also inside a composition): date parsers that never answer UnknownTag, which parse_der would take for an unknown tag", "why_tests_cant": "Relates two parsers on unbounded compositions and inputs.", "anchors": ["src/ber/multi.rs", "src/der/multi.rs", "src/ber/tagged.rs", "src/der/tagged.rs", "src/ber/parser.rs: parse_ber_optional"]}
{"id": "C99", "title": "What the documentation says about defined sequences", "statement": "The documentation of parse_*_sequence_defined and parse_*_set_defined says that nom's all_consuming around the closure ensures that all the content is parsed, and that a defined sequence with many1(complete(f)) is the same as the sequence-of with f.", "quantifier": "every closure, every input, both rule sets", "why_tests_cant": "Relates two parsers on all inputs and for all closures; the doc tests run one input.", "anchors": ["src/ber/multi.rs: parse_ber_sequence_defined, parse_ber_set_defined, parse_ber_container (documentation)", "src/der/multi.rs: the same"]}
{"id": "C100", "title": "The text written by dump-der", "statement": "The example program writes, for the files of its command line in order, each read in the mode of the last option before it, one line per object (indentation of two blanks per level, header, value), lines with braces around the objects found inside data, and a warning with the extra octets in hexadecimal; it stops with a panic at the first file that cannot be read or does not start with an object, and otherwise ends normally.", "quantifier": "every command line, every file system contents", "why_tests_cant": "all files and all argument lists; the example has no tests", "anchors": ["examples/dump-der.rs:14-49", "examples/dump-der.rs:52-69", "examples/dump-der.rs:71-98", "src/ber/print.rs:103-197"]}
{"id": "C101", "title": "Length octets are the sender's option at every level", "statement": "Two BER elements that differ only in length octets, at any level of SEQUENCE and SET (number of length octets, and definite or indefinite form with end-of-contents octets), are read alike by parse_ber: both are refused or both are accepted, each consumes exactly its own octets, the trees are the same apart from the lengths stored in headers, and the two objects are equal for Rust's ==.", "quantifier": "every element, every re-encoding of its lengths at every level, every recursion bound, everything that follows", "why_tests_cant": "combinations of length forms grow exponentially with the number of nodes; tests fix one form", "anchors": ["src/ber/parser.rs:618-623", "src/ber/wrap_any.rs:13-57", "src/ber/wrap_any.rs:58-180", "src/ber/ber.rs:25-33"]}
{"id": "C102", "title": "Every DER document is accepted", "statement": "Every octet string that is a DER encoding according to X.690 (fewest identifier and length octets, contents octets as required for each type, SEQUENCE and SET nested to any finite depth within the recursion bound) is accepted by parse_der, whole and without remainder; parse_ber accepts it too.", "quantifier": "every DER document, everything that follows it, every recursion bound, every behaviour of the date and string libraries; for parse_der (also inside a composition): date parsers that never answer UnknownTag, which parse_der would take for an unknown tag", "why_tests_cant": "DER documents are an infinite set; tests contain a few certificates and hand-written values", "anchors": ["src/der/parser.rs:29-54", "src/der/parser.rs:481-583", "src/ber/wrap_any.rs:58-192"]}
{"id": "C103", "title": "DER documents are reproduced by parsing and serializing", "statement": "Reading a DER document (X.690) with parse_der and writing the object with to_vec gives the same octets, and two DER documents that are read as the same object are the same octets.", "quantifier": "every DER document, everything that follows it, every behaviour of the date and string libraries; for parse_der (also inside a composition): date parsers that never answer UnknownTag, which parse_der would take for an unknown tag", "why_tests_cant": "DER documents are an infinite set; the serialization tests check one value per type", "anchors": ["src/der/parser.rs:29-54", "src/ber/serialize.rs:12-222"]}
{"id": "C104", "title": "What parsing forgets", "statement": "Two inputs accepted by parse_ber give the same tree, apart from lengths and raw tags in headers, exactly if they are the same element apart from the sender's options: identifier octets for the same tag number, length octets and length forms at every level, octets for BOOLEAN true, leading zeros of enumerated values, forms of one time, and contents of NULL and end-of-contents.", "quantifier": "every pair of accepted inputs, every recursion bound, everything that follows, every behaviour of the date and string libraries; for parse_der (also inside a composition): date parsers that never answer UnknownTag, which parse_der would take for an unknown tag", "why_tests_cant": "a statement about all pairs of inputs; tests compare single inputs with expected results", "anchors": ["src/ber/parser.rs:618-641", "src/ber/wrap_any.rs:58-192"]}
{"id": "C105", "title": "An error is final", "statement": "If parse_ber, parse_der or a function for one type answers Err::Error to an input, it gives the same error to every continuation of the input. False for an input that ends inside a tag number, which is called invalid; true for all others, and only such inputs can be accepted later.", "quantifier": "every rejected input, every continuation of it, every recursion bound, every tag number, every behaviour of the date and string libraries", "why_tests_cant": "quantifies over all continuations of all rejected inputs; tests give each parser one complete input", "anchors": ["src/ber/parser.rs:233-245", "src/ber/parser.rs:618-641", "src/der/parser.rs:29-85"]}
{"id": "C106", "title": "What parse_der accepts is DER", "statement": "An element accepted by parse_der obeys the Distinguished Encoding Rules. False; an accepted element is DER exactly if none of a complete list of faults occurs in it: identifier or length octets that could be shorter, constructed strings and numbers, primitive EXTERNAL, EMBEDDED PDV and CHARACTER STRING, end-of-contents octets, INTEGER with nine leading ones, BIT STRING without bits but with unused ones, NULL with contents, broken OBJECT IDENTIFIER, ENUMERATED not minimal, other forms of times, DELETE in a VisibleString, UniversalString of a length not divisible by four, BMPString with surrogate pairs, and, in members of a SEQUENCE or SET only, non-minimal INTEGER, other BOOLEAN, unused bits that are ones or too many, indefinite lengths. Each fault is shown to be accepted.", "quantifier": "every input accepted by parse_der or parse_ber, every recursion bound, every behaviour of the date and string libraries; for parse_der: date parsers that never answer UnknownTag, which parse_der would take for an unknown tag", "why_tests_cant": "completeness of a list of faults quantifies over all accepted encodings; tests show single faults", "anchors": ["src/der/parser.rs:29-31", "src/der/parser.rs:248-366", "src/ber/parser.rs:366-454"]}
{"id": "C107", "title": "Members of a SET are in DER order", "statement": "The members of a SET accepted by parse_der are in the order that DER requires for SET (by tag) or SET OF (by encoding). False: the order is not looked at. A SEQUENCE or SET is accepted exactly if its contents octets are a list of elements that parse_ber accepts one by one, and every permutation of the members of an accepted one is accepted, with the children permuted alike.", "quantifier": "every SEQUENCE or SET of definite length, every permutation of its members, every recursion bound, everything that follows, every behaviour of the date and string libraries; for parse_der (also inside a composition): date parsers that never answer UnknownTag, which parse_der would take for an unknown tag", "why_tests_cant": "quantifies over all lists of members and all their permutations", "anchors": ["src/ber/parser.rs:366-454", "src/der/parser.rs:248-304", "src/ber/parser.rs:287-310"]}
{"id": "C108", "title": "Composed parsers read what to_vec writes", "statement": "What a parser composed of the functions of the library read is read again, by the same parser, from what to_vec writes for it. False with absent options, which are written as 00 00. Every value of the described type without absent options is written and read back, whatever follows, up to stored lengths and raw tags; and what was read is such a value.", "quantifier": "every composition of the combinators (any depth), BER and DER, every input, every value of the described type, everything that follows, every behaviour of the date and string libraries; for parse_der (also inside a composition): date parsers that never answer UnknownTag, which parse_der would take for an unknown tag", "why_tests_cant": "quantifies over all compositions of parsers and all their values", "anchors": ["src/ber/serialize.rs:116-208", "src/ber/multi.rs:34-165", "src/ber/tagged.rs:38-182", "src/ber/parser.rs:455-465", "src/ber/parser.rs:538-555"]}
{"id": "C109", "title": "All answers of composed parsers", "statement": "A parser composed of the functions of the library answers every input that it does not accept with exactly one error, the one given by a specification by recursion over the composition: the first part that is not accepted decides, items of SEQUENCE OF and SET OF turn errors into Failure and missing octets into Error(Eof), optional parts never fail. Failure comes from SEQUENCE OF and SET OF only.", "quantifier": "every composition of the combinators (any depth), BER and DER, every input, every behaviour of the date and string libraries; for parse_der (also inside a composition): date parsers that never answer UnknownTag, which parse_der would take for an unknown tag", "why_tests_cant": "quantifies over all compositions of parsers and all wrong inputs; the error of an outer parser depends on faults at any depth", "anchors": ["src/ber/multi.rs:34-165", "src/ber/multi.rs:259-388", "src/ber/multi.rs:514-530", "src/der/multi.rs:515-534", "src/ber/tagged.rs:38-182", "src/der/tagged.rs:39-184", "src/ber/parser.rs:233-245", "src/ber/parser.rs:455-465", "src/ber/parser.rs:538-555", "src/der/parser.rs:70-82"]}
{"id": "C110", "title": "A request for more input can be met", "statement": "If a composed parser answers Incomplete, some octets put after the input get another answer, so a reader of streams does not wait forever. False for SEQUENCE and SET with a list of components and for tags: a component cut by the end of the contents is answered with Incomplete whatever follows. For these the request can be met exactly if the element is not complete; for the other parsers always.", "quantifier": "every composition of the combinators (any depth), BER and DER, every input, all octets that follow; for parse_der (also inside a composition): date parsers that never answer UnknownTag, which parse_der would take for an unknown tag", "why_tests_cant": "the negative side quantifies over all continuations of an input, the positive side over all inputs that are cut", "anchors": ["src/ber/multi.rs:514-530", "src/der/multi.rs:515-534", "src/ber/multi.rs:68-77", "src/ber/multi.rs:157-165", "src/ber/tagged.rs:81-104", "src/ber/tagged.rs:243-259"]}
{"id": "C111", "title": "Machine words", "statement": "On 32-bit and 64-bit targets, with overflow checks or without, the computations with usize give what they give with unbounded numbers: reading a BIT STRING as a number, iterating, visiting and writing length octets. False for BIT STRINGs of 2^(bits-3) octets or more: the count of the bits overflows, so that with overflow checks as_u64 and as_u32 panic, and without them the answer is the one for the data cut down to its length modulo 2^(bits-3): on a 32-bit target, 512 MiB of zero bits read as the number zero. Iterators and visitors are right for fewer than 2^bits calls and depths below 2^bits, which covers every object that parse_ber returns.", "quantifier": "every word size, both settings of the overflow checks, every content, every number of calls, every tree, every visitor and starting depth", "why_tests_cant": "tests run on one target, and the overflow needs half a gigabyte of data; the theorem covers all sizes and word widths", "anchors": ["src/ber/parser.rs:76-99", "src/ber/ber.rs:466-519", "src/ber/ber.rs:780-826", "src/ber/visit.rs:124-177", "src/ber/serialize.rs:13-36"]}
{"id": "C112", "title": "Nesting of recursive calls", "statement": "Whatever the input, the functions of the crate never have more than 101 activations of recursive functions open at one time: the parsers with recursion limit d at most d+51 (attained), on an accepted input as many as the returned object is deep (at most 50 more with indefinite lengths), the visitor and the printer one for each level of the object and the serializer two. False for as_i64, as_i32, as_u64 and as_u32: remove_zeroes calls itself once for each leading zero octet of an INTEGER, without limit, and parse_ber (and parse_der, inside a SEQUENCE) accepts such an INTEGER of any length; at most two calls if the INTEGER has no superfluous leading octets.", "quantifier": "every byte string, every recursion limit, every object tree, visitor and printer setting, every number of leading zeros; for parse_der (also inside a composition): date parsers that never answer UnknownTag, which parse_der would take for an unknown tag", "why_tests_cant": "a stack overflow depends on the longest chain of calls over all inputs; a test shows only the chain of its input", "anchors": ["src/ber/integer.rs:7-18", "src/ber/ber.rs:412-519", "src/ber/parser.rs:14-68", "src/ber/wrap_any.rs:79-192", "src/der/parser.rs:47-82", "src/der/parser.rs:481-583", "src/ber/serialize.rs:56-208", "src/ber/visit.rs:124-177", "src/ber/print.rs:103-197"]}
{"id": "C113", "title": "Serialization into any writer", "statement": "The encoding functions write into any output the octets to_vec returns, after what is there already; an object is written with exactly two writes, the identifier and length octets and then the contents, both of which are made in buffers of the output's own type first; an output with room for a fixed number of octets gets all of them if they fit and otherwise answers BufferTooSmall. False for outputs that take the octets in pieces, which the contract of Write allows: whenever one write takes less than it was offered the answer is BufferTooSmall, although the output would take the rest.", "quantifier": "every object, header, content and tag, every output type (initial state, write function, as_ref), every capacity", "why_tests_cant": "tests write into a Vec, which takes everything; the functions are generic over the output, so the claim ranges over all types a caller can supply", "anchors": ["src/ber/serialize.rs:13-36", "src/ber/serialize.rs:42-54", "src/ber/serialize.rs:70-114", "src/ber/serialize.rs:116-172", "src/ber/serialize.rs:181-222"]}
{"id": "C114", "title": "Printing into any formatter", "statement": "The pretty printer writes into any core::fmt::Write a beginning of the text that format! would give, all of it if it answers Ok; it stops at the first piece that is refused and then answers Err. It panics exactly if the indentation of a printed object overflows usize or exceeds the widths that core::fmt accepts, so format!(\"{:?}\", p) does not return for every object and setting; it does if no printed object is too far to the right. Without overflow checks an overflowing indentation wraps and a member is printed to the left of its container.", "quantifier": "every object, flags, indentation and increment, every output (states, answers, cutting of the text into pieces), every word size, with and without overflow checks, every limit of widths", "why_tests_cant": "the error branches are taken only with outputs that refuse text, at each of the writes of a tree of any shape; tests print into strings and standard output", "anchors": ["src/ber/print.rs:66-73", "src/ber/print.rs:81-101", "src/ber/print.rs:103-197"]}
{"id": "C115", "title": "Documents in a row", "statement": "Octet strings that a parser of the library accepts whole (parse_ber, parse_der, the functions for one type, or any composition that is not optional at the outside), written one after the other, are read back one by one as the same objects whatever follows; no other list of accepted octet strings has the same octets, and none is the beginning of another. Well-formed objects written one after the other with to_vec are read back by parse_ber. A reader of a stream that calls parse_ber and fetches as many octets as are asked for, if no document has a tag number in several octets (C82), gets the documents one by one and fetches nothing behind the last.", "quantifier": "every list of accepted octet strings (any number), every composition, BER and DER, everything that follows", "why_tests_cant": "unambiguous division is a statement about all pairs of lists of octet strings; tests read a few fixed files with one or two objects", "anchors": ["src/ber/parser.rs:639-641", "src/der/parser.rs:29-31", "src/lib.rs:40-51"]}
{"id": "C116", "title": "The functions for one type and the functions for any type agree", "statement": "On an element of the universal class whose type the library reads and whose length is below 2^32, and on inputs where no header can be read, parse_ber answers exactly as parse_ber_with_tag for its tag and parse_der exactly as parse_der_with_tag: same object, same remaining octets, same error. The only difference is the hint in Incomplete for BER contents of definite length that are cut short: parse_ber names the missing octets, parse_ber_with_tag the whole length. Each condition is needed: other classes, unread types and larger lengths are answered differently.", "quantifier": "every input, every tag number, every kind of answer; for parse_der (also inside a composition): date parsers that never answer UnknownTag, which parse_der would take for an unknown tag", "why_tests_cant": "agreement of two code paths on all inputs including every malformed one; the tests call one of the two per input", "anchors": ["src/ber/parser.rs:233-245", "src/ber/parser.rs:639-641", "src/ber/wrap_any.rs:24-76", "src/der/parser.rs:29-31", "src/der/parser.rs:70-82", "src/der/parser.rs:557-583"]}
{"id": "C117", "title": "What the programs of the documentation and of the tests accept", "statement": "For the programs written with the library in its documentation (MyObject by sequence, set and container; [2] EXPLICIT and IMPLICIT INTEGER as u32, with map_res and with the generic functions; [2] IMPLICIT OCTET STRING; BER and DER versions) and in tests/constructed.rs (MyStruct with and without eof, with a checked tag, and Name), the accepted inputs and the values of the user's types are exactly those of the described ASN.1 type up to what the library does not look at: the class (other than universal or not, for explicit tags), the constructed bit of the SEQUENCE, SET, INTEGER and OCTET STRING, and what follows the fields. unwrap never panics. The map_res and generic versions differ only on integers out of range: NomError(MapRes) against the error of as_u32. Octets after the fields are ignored unless eof is called. The Name program refuses no SEQUENCE: it drops the first entry that is not an attribute and everything after it.", "quantifier": "every input, BER and DER, every tag number; for parse_der (also inside a composition): date parsers that never answer UnknownTag, which parse_der would take for an unknown tag", "why_tests_cant": "each documented program is run on one input; the set of accepted inputs and the errors on all others need a proof", "anchors": ["src/ber/multi.rs:197-206", "src/ber/multi.rs:421-430", "src/ber/multi.rs:488-500", "src/der/multi.rs:198-207", "src/ber/tagged.rs:21-26", "src/ber/tagged.rs:63-69", "src/ber/tagged.rs:150-158", "src/ber/tagged.rs:196-201", "src/ber/tagged.rs:222-231", "tests/constructed.rs:25-53", "tests/constructed.rs:244-272"]}
{"id": "C118", "title": "Every program written with the library returns, keeps to its input, and depends only on the octets it reads", "statement": "For every program composed of the parsing functions of the library (BER and DER, at any depth limit), its container, sequence, set, explicit, implicit and of-combinators, nom's opt, alt, many0, complete, cut, all_consuming, eof, map and map_res, sequencing with values and code of the user on values: the program neither panics nor loops if the user's own code on the values that reach it does not; the remaining input is a suffix of the input; and if absence and end of input are asked about only inside containers, the value does not depend on what follows the octets read. Schema compositions, parse_myobject and parse_name are such programs.", "quantifier": "every program of the language, every error type of the user, every input", "why_tests_cant": "the programs of users are not known to the tests; the property is about all of them", "anchors": ["src/ber/multi.rs:68-77", "src/ber/multi.rs:220-232", "src/ber/multi.rs:514-530", "src/ber/tagged.rs:81-104", "src/ber/tagged.rs:243-259", "src/ber/parser.rs:538-555", "src/der/multi.rs:515-534"]}
{"id": "C119", "title": "Every program written with the library accepts and refuses exactly what its meaning says", "statement": "Each program of C118 has a meaning, written as relations between octets and values by recursion over the program and without parsers: what it accepts, with which value and rest, and what it refuses, with which error. The program answers Ok exactly as the meaning gives, and Err exactly as it refuses, for every error type of the user. If the user's own code neither panics nor loops, the meaning has exactly one answer to every input.", "quantifier": "every program of the language (any composition of all functions and combinators, with code of the user in between), every error type, every input; for parse_der (also inside a composition): date parsers that never answer UnknownTag, which parse_der would take for an unknown tag", "why_tests_cant": "there are infinitely many programs and for each infinitely many inputs; the errors of nested combinators are not tested at all", "anchors": ["src/ber/multi.rs:68-77", "src/ber/multi.rs:220-232", "src/ber/multi.rs:514-530", "src/der/multi.rs:515-534", "src/ber/tagged.rs:81-104", "src/ber/tagged.rs:243-259", "src/ber/parser.rs:538-555", "src/ber/parser.rs:562-601", "src/der/parser.rs:372-409", "src/der/parser.rs:553-583"]}
{"id": "C120", "title": "Error codes", "statement": "Each function has a list of the error codes it can answer with; every code of the list is the answer to some input and no other code occurs (apart from codes of the date library). Every code except BerMaxDepth has its cause in one element, which is found in the input by going through SEQUENCE, SET and indefinite lengths only. The statements of the change log about error codes hold: indefinite lengths only in constructed form (else ConstructExpected), contents of private elements never looked at, BerMaxDepth for depth 0, InvalidTag only for malformed tag numbers, UnexpectedTag names expected and found tag, IntegerTooLarge for every INTEGER that does not fit, and an indefinite length in DER is IndefiniteLengthUnexpected.", "quantifier": "every input, every depth limit, every tag number, every closure and error type, every date library", "why_tests_cant": "that a code does not occur, and where its cause is, are statements about all rejected inputs; the tests look at a few of them and mostly only at the variant", "anchors": ["CHANGELOG.md:80-104", "CHANGELOG.md:120-121", "CHANGELOG.md:176-177", "src/ber/parser.rs:144-152", "src/ber/wrap_any.rs:58-106", "src/der/parser.rs:47-82", "src/der/parser.rs:481-583", "src/ber/multi.rs:514-530", "src/ber/parser.rs:538-601"]}
{"id": "C121", "title": "Every BER document is accepted", "statement": "parse_ber accepts every document of the Basic Encoding Rules (X.690 clause 8: any length form, indefinite lengths, primitive or constructed form where the type allows it) and stops at its end.", "quantifier": "every BER document of less than 2^64 octets, every depth limit, every following octet string, every date library", "why_tests_cant": "BER leaves the sender the choice of length octets, of the indefinite form and of segments at every level, so each value has infinitely many encodings; the tests contain few of them", "anchors": ["src/ber/parser.rs:604-641", "src/ber/wrap_any.rs:24-29", "src/ber/wrap_any.rs:79-191", "README.md:13-28"]}
{"id": "C122", "title": "Accepted input is BER", "statement": "What parse_ber_recursive accepts is a document of the Basic Encoding Rules; where this fails the fault is one of a list: identifier octets in a longer form, contents or form not allowed for the type, an end-of-contents other than 00 00, or one of these in a member.", "quantifier": "every input, every depth limit, every date library", "why_tests_cant": "a statement about all accepted inputs; tests show that some wrong inputs are refused, never that all are, and cannot show that a list of exceptions is complete", "anchors": ["src/ber/parser.rs:604-641", "src/ber/wrap_any.rs:24-29", "src/ber/wrap_any.rs:79-191"]}
{"id": "C123", "title": "The value of a BER document comes through", "statement": "From every BER encoding of an abstract value (truth value, whole number, bits, octets, arcs, code points, date, list of values, tagged octets) parse_ber makes an object whose accessors (as_bool, as_bigint, as_u64, as_i64, is_set, as_slice, as_oid, as_str, as_sequence, as_set ...) answer with that value at every level, and stops at the end of the encoding; parse_der gives the same value wherever it accepts.", "quantifier": "every value, every BER encoding of it of less than 2^64 octets, every depth limit, every following octet string, every date library; for parse_der (also inside a composition): date parsers that never answer UnknownTag, which parse_der would take for an unknown tag", "why_tests_cant": "values are unbounded (numbers, strings, nesting), and each has infinitely many BER encodings; a test compares a few encodings with expected objects, not the meaning of all of them", "anchors": ["src/ber/parser.rs:604-641", "src/ber/wrap_any.rs:24-29", "src/ber/wrap_any.rs:79-191", "src/ber/ber.rs:412-629", "src/ber/ber.rs:689-728", "src/ber/ber.rs:860-867", "src/der/parser.rs:29-60"]}
{"id": "C124", "title": "Parsing and writing keep the value", "statement": "An object that parse_ber makes from an encoding of an abstract value is written by to_vec as an encoding of the same value.", "quantifier": "every value, every BER encoding of it of less than 2^64 octets, every depth limit, every following octet string, every date library", "why_tests_cant": "a round trip in a test compares octets or objects; that the meaning of all possible documents is kept although the octets change (indefinite lengths, long lengths, truth values) is a statement about infinitely many of them", "anchors": ["src/ber/parser.rs:604-641", "src/ber/wrap_any.rs:79-191", "src/ber/serialize.rs:13-78", "src/ber/serialize.rs:113-226"]}
{"id": "C125", "title": "Objects built for a value are written as its DER encoding", "statement": "An object that a program builds for an abstract value with from_obj, from_int_slice, from_seq, from_set, From and from_header_and_content has the value, is written by to_vec as the DER encoding of the value (the only one), and is read back from there with the value by parse_ber and parse_der; every DER encoding is written so by some such object.", "quantifier": "every value, every object built for it, every DER encoding of it of less than 2^64 octets, every following octet string, every date library; for parse_der (also inside a composition): date parsers that never answer UnknownTag, which parse_der would take for an unknown tag", "why_tests_cant": "values are unbounded in size and nesting; a test compares a few written objects with expected octets, and cannot show that no value is written as the encoding of another one or that no second DER encoding exists", "anchors": ["src/ber/ber.rs:113-153", "src/ber/ber.rs:384-395", "src/ber/ber.rs:632-664", "src/ber/serialize.rs:13-78", "src/ber/serialize.rs:113-226", "src/ber/parser.rs:604-641", "src/der/parser.rs:29-60"]}
{"id": "C126", "title": "Every program on truncated input and on streams", "statement": "A program composed of the functions of the library that asks about absence and the end of the input only inside containers accepts no proper beginning of octets it has read, and neither panics nor loops on one. If it calls only functions without closures outside of containers, it asks for more octets there (or calls a tag number that is cut an invalid tag), and a reader that starts with nothing and fetches what it is asked for gets the value when it has fetched exactly its octets. The functions that hand contents to a closure can be used so with indefinite lengths, and with no element of known length that has contents, whatever the closure does.", "quantifier": "every program, every code of the user between the calls, every error type, every accepted input, every cut point, every stream, every date library; for parse_der (also inside a composition): date parsers that never answer UnknownTag, which parse_der would take for an unknown tag", "why_tests_cant": "programs, inputs and cut points are unbounded; a test tries some programs on some prefixes and cannot exclude a beginning that is accepted with another value, or a request for octets that never come", "anchors": ["src/ber/multi.rs:514-530", "src/der/multi.rs:515-534", "src/ber/multi.rs:68-77", "src/ber/multi.rs:220-232", "src/ber/tagged.rs:81-104", "src/ber/tagged.rs:243-259", "src/ber/parser.rs:116-184", "src/ber/parser.rs:562-641", "src/der/parser.rs:29-60", "src/der/parser.rs:553-632"]}
{"id": "C127", "title": "Composed parsers read the values of their ASN.1 type", "statement": "A parser composed of the functions of the library for an ASN.1 type (universal types, CHOICE, SEQUENCE, SET, SEQUENCE OF, SET OF, EXPLICIT and IMPLICIT tags, OPTIONAL, nested in any way) reads every encoding of a value of this type, BER or DER, up to its end, and the accessors of the object answer with the value, component by component, if what may follow an OPTIONAL component has other tags than it.", "quantifier": "every type, every value, every encoding of less than 2^32 octets, every following octets, BER and DER, every date library; for parse_der (also inside a composition): date parsers that never answer UnknownTag, which parse_der would take for an unknown tag", "why_tests_cant": "types, values and encodings are unbounded; a test reads some values of a few types, and the confusion of tags of different classes shows only with particular types and contents", "anchors": ["src/ber/multi.rs:34-39", "src/ber/multi.rs:157-232", "src/ber/multi.rs:259-264", "src/ber/multi.rs:380-388", "src/der/multi.rs:35-40", "src/der/multi.rs:158-166", "src/ber/tagged.rs:38-104", "src/ber/tagged.rs:170-259", "src/der/tagged.rs:39-54", "src/der/tagged.rs:172-184", "src/ber/parser.rs:233-245", "src/ber/parser.rs:455-465", "src/ber/parser.rs:538-555", "src/der/parser.rs:70-82", "src/ber/ber.rs:430-567"]}
{"id": "C128", "title": "Objects built for a value of an ASN.1 type are written as an encoding of it and read back by the parser of the type", "statement": "An object that a program builds for a value of an ASN.1 type (SEQUENCE, SET, SEQUENCE OF and SET OF of such objects, explicit tags, implicit tags over the contents of another object, OPTIONAL components wrapped, bare or left out) is serialized without error, the octets encode the value in the type, in BER and DER, and the parser composed for the type reads them back with the value, component by component, up to their end and whatever follows.", "quantifier": "every type, every value of it, every object built for it with any lengths and raw tags in the headers of tagged objects, every following octets, BER and DER, every date library; for parse_der (also inside a composition): date parsers that never answer UnknownTag, which parse_der would take for an unknown tag", "why_tests_cant": "types, values and objects are unbounded; a test writes some objects of a few types", "anchors": ["src/ber/serialize.rs:70-223", "src/ber/ber.rs:113-153", "src/ber/ber.rs:384-395", "src/ber/multi.rs:157-232", "src/ber/tagged.rs:38-104", "src/ber/tagged.rs:170-259", "src/ber/parser.rs:233-245", "src/ber/parser.rs:538-555"]}
{"id": "C129", "title": "Composed parsers read a number of headers linear in the input and in the type", "statement": "A parser composed of the combinators of the library reads at most 25.5 headers for each of its parts and each octet of the input (one octet more on failure), however the parts are nested, repeated, optional or alternatives; after a success that read something only the octets read count, so SEQUENCE OF does not pay twice. The factor for the parts is reached up to a constant: k absent optional components in front of an element of indefinite length with n NULLs read n + 2 headers each, since every attempt looks for the end of the element before it looks at the tag.", "quantifier": "every composition, every input, BER and DER; every k and n", "why_tests_cant": "compositions and inputs are unbounded; timing tests measure some inputs and cannot show that no input is slower", "anchors": ["src/ber/multi.rs:68-77", "src/ber/multi.rs:157-232", "src/ber/multi.rs:514-530", "src/der/multi.rs:515-534", "src/ber/tagged.rs:38-104", "src/ber/tagged.rs:170-259", "src/ber/parser.rs:14-68", "src/ber/parser.rs:538-555"]}
{"id": "C130", "title": "Octets copied by the serializer", "statement": "to_vec writes, in all its buffers together, exactly as many octets as the length of the result and the lengths of the encodings of all objects written with a header added up (every octet once when it is made and once for each object around it); so at most h + 1 for each octet of the result if the object has h levels, and at most d + 1 for an object returned by a parser with recursion limit d (51 by default). For objects that a program builds there is no linear bound: k + 1 SEQUENCEs inside each other give at most 10 (k + 1) octets and copy at least (k + 1)(k + 4).", "quantifier": "every object that can be written, every recursion limit, every input, every k, every date library", "why_tests_cant": "objects are unbounded in size and nesting; a test measures some objects and cannot exclude a blow-up on others", "anchors": ["src/ber/serialize.rs:42-74", "src/ber/serialize.rs:116-172", "src/ber/serialize.rs:197-225"]}
{"id": "C131", "title": "Header reads with indefinite lengths, exactly", "statement": "If parse_ber, parse_ber_with_tag, parse_der or parse_der_with_tag succeeds and only SEQUENCE and SET objects of the result have an indefinite length, then the header of each object was read once for the object and once more for each object of the unbroken run of indefinite-length objects around it, each end-of-contents marker likewise, and nothing else was read: the number of reads is known exactly from the result. For n indefinite SEQUENCEs around a NULL it is (n + 1)^2.", "quantifier": "every input, every recursion limit, every tag, every date library (for parse_der: one that never answers UnknownTag)", "why_tests_cant": "inputs and their nesting are unbounded; a test counts reads on some inputs and cannot give a formula for all", "anchors": ["src/ber/parser.rs:14-68", "src/ber/wrap_any.rs:24-76", "src/ber/wrap_any.rs:147-163", "src/der/parser.rs:47-82", "src/der/parser.rs:481-583"]}
{"id": "C132", "title": "Repetition with arbitrary closures", "statement": "The repetition of parse_*_sequence_of_v and parse_*_set_of_v, with any closure (with captured state, and also one that answers with remainders longer than its input): either it ends after finitely many calls, with values, answer and final state determined by the calls, or the calls go on for ever, and not both; it answers exactly in the first case, with the answer that the last call determines. A closure that never answers with a longer remainder is called at most once for each contents octet and once more, so it always ends.", "quantifier": "every closure, every type of state, every state, every input, every error type", "why_tests_cant": "closures are arbitrary functions with state; a test runs some, and cannot tell a long loop from an endless one", "anchors": ["src/ber/multi.rs:68-77", "src/ber/multi.rs:293-300", "src/der/multi.rs:69-78", "src/der/multi.rs:294-301"]}
{"id": "C133", "title": "Times after serialization", "statement": "An object that parse_ber returned and to_vec wrote is accepted by parse_ber again exactly if every time in it can be read in its written form, and then only the times can differ. With a date library like asn1-rs (UTCTime has two digits for the year, times are displayed as YYYYMMDDhhmmss, milliseconds, Z): if the object contains a UTCTime anywhere, the octets that to_vec wrote are never accepted; a GeneralizedTime is accepted but its zone becomes Z without changing the hour, and its milliseconds are written without leading zeroes, so that 50 ms come back as 500 ms. The object survives exactly if it contains no UTCTime and every GeneralizedTime in it has zone Z and milliseconds that are absent, zero, or at least 100. asn1-rs as modelled is such a library: of a UTCTime with Z, with or without seconds, and of a displayed GeneralizedTime it takes exactly those with month at most 12, day at most 31, hour at most 23, minutes and seconds at most 59; it refuses others with InvalidValue and the tag of the type, and characters that are not visible with StringInvalidCharset. It takes a difference from UTC without comparing its hours and minutes with anything, with the sign on the hours alone; three digits after a full stop or comma are milliseconds; four are taken only at the end of the contents, for up to 9999 milliseconds. A GeneralizedTime without seconds is taken with Z after the minutes, and refused with nothing after them.", "quantifier": "every input, every object parse_ber returns, every date library (first sentence), every date library that reads and writes like asn1-rs (rest); serialized forms below 2^64 octets, milliseconds below 1000; for parse_der (also inside a composition): date parsers that never answer UnknownTag, which parse_der would take for an unknown tag", "why_tests_cant": "the tests never serialize a time; the trees, the times and the zones are unbounded", "anchors": ["src/ber/serialize.rs:63-68", "src/ber/serialize.rs:139-146", "src/ber/wrap_any.rs:121-124", "src/ber/wrap_any.rs:168-171", "tests/der_parser.rs:294-333"]}
{"id": "C134", "title": "Parsed objects lie in the input", "statement": "With slices as ranges of addresses: parse_ber, parse_der, their forms with a recursion limit and their forms with an expected tag give what they give for the octets alone, with the same errors; the subtraction of two positions in ber_get_object_content and the cuts at the difference never panic. The octets of a returned object are not copied: the raw tag of each object is the start of its element, the contents follow the length octets and are as many as announced, byte strings are the whole contents (of a BIT STRING, all but the first octet), the members of a SEQUENCE or SET lie one after the other and fill its contents, an indefinite length adds exactly the two last octets, and the remainder begins where the element ends. All slices of the object are parts of the input, disjoint, in the order of the fields. The same octets at another address in another memory give the same object moved: nothing outside the input is read. The closure of a container is given exactly the contents octets.", "quantifier": "every memory, every slice in it, every recursion limit, every expected tag, every date library, every closure, every error type", "why_tests_cant": "tests compare values, not addresses; inputs, nestings and addresses are unbounded", "anchors": ["src/ber/parser.rs:14-68", "src/ber/wrap_any.rs:24-29", "src/ber/wrap_any.rs:58-192", "src/der/parser.rs:47-82", "src/der/parser.rs:481-607", "src/ber/multi.rs:514-530", "src/der/multi.rs:515-534"]}
{"id": "C135", "title": "Targets with fewer address bits", "statement": "On targets with 64 bits or more, parse_ber, parse_der, their forms with a recursion limit and their forms with an expected tag are the functions of the other properties. On a target with at least 32 bits and for an input that fits into its memory they return, accept the same inputs with the same object and remainder, and answer with the same error, except that an announced length that does not fit a usize is InvalidLength, where 64 bits lead to a request for so many octets that the input would not fit, or to BerMaxDepth, or (for the forms with an expected tag) to UnexpectedTag. There are inputs for each of the differences, and a program with nom's opt that accepts an input with 32 bits and not with 64.", "quantifier": "every input shorter than the address space, every word of 32 bits or more, every recursion limit, every expected tag, every date library", "why_tests_cant": "tests run on one target; lengths of 2^32 and more, at every nesting, are not tried", "anchors": ["src/ber/parser.rs:11-68", "src/ber/parser.rs:144-152", "src/ber/parser.rs:233-245", "src/ber/parser.rs:618-620", "src/ber/wrap_any.rs:24-29", "src/ber/wrap_any.rs:58-192", "src/der/parser.rs:47-82", "src/der/parser.rs:481-583"]}
{"id": "C136", "title": "Size of a parsed object that is written again", "statement": "If the lengths of all objects of a parsed object are definite, and none is end-of-contents or a time, to_vec writes at most as many octets as were read. In general it writes at most j + K octets more for each object of the tree, if times are displayed with at most K octets more than were read (K at least 1), where j is 0 for less than 128 octets written, 1 for less than 256, 2 for less than 2^16, and so on up to 8; so the size grows by a constant factor at most. For a date library like asn1-rs K is 4 and the factor is 7. Each of the conditions is needed: end-of-contents 00 00 is written with three octets, a UTCTime of eleven octets with fifteen, and an indefinite OCTET STRING of 65540 octets with 65541.", "quantifier": "every input, every object returned by parse_ber, parse_der and their forms with a recursion limit or an expected tag, every date library", "why_tests_cant": "a bound on the size for every object; the tests write a few small objects, and the growth of an indefinite object needs 2^16 octets", "anchors": ["src/ber/serialize.rs:13-36", "src/ber/serialize.rs:63-78", "src/ber/serialize.rs:116-178", "src/ber/serialize.rs:197-222", "src/ber/parser.rs:11-68"]}
{"id": "C137", "title": "Size of the printed text", "statement": "The recursive pretty printer writes as many octets as the objects of the tree printed one by one without their members, each indented by the increment for its level. The text of a parsed object has at most F octets for each octet that was read, if F is at least A and at least the indentation of the innermost objects plus B plus 60, where other crates write at most A octets for each octet of contents (A at least 5) and B octets besides. For parse_ber the innermost objects are 49 levels below the root at most, so the text is linear in the input. Without such a limit it is not: if 10 (k + 1) is less than 2^64, parse_ber_recursive with limit k + 1 accepts an input of at most 10 (k + 1) octets whose object is printed with at least inc k (k + 1) octets.", "quantifier": "every object, every setting with the Recursive flag, with and without headers, every input for the parsed objects, every date library, every text of other crates within the bounds", "why_tests_cant": "a bound on the text for every object; the tests print a few small objects", "anchors": ["src/ber/print.rs:32-34", "src/ber/print.rs:66-73", "src/ber/print.rs:81-101", "src/ber/print.rs:103-197"]}
{"id": "C138", "title": "Programs on targets with fewer address bits", "statement": "On targets with 64 bits or more every program written with the library means what it means in the other properties. On a target with at least 32 bits and for an input that fits into its memory, every composed parser (SEQUENCE OF, SET OF, SEQUENCE, SET, tags, optional elements, alternatives) accepts the same inputs with the same object and remainder, and returns. The same holds for every program in which opt, alt and many0 are applied to parsers whose kind of error does not depend on the target (for example complete of a function of the library, or a second alternative that refuses what the first refuses for the target), elements of *_of_v are read from the input, and no header is read without its contents; three grades of programs say whether the kind of the error (Incomplete, Error, Failure) is the same, or can change from Incomplete to Error, or is open. Each of the conditions is needed: there are programs that accept on one target and not on the other for a header alone, for opt, for alt, for many0, for opt of a sequence_of, and for elements read from other octets.", "quantifier": "every program, every composed parser, every input shorter than the address space, every word of 32 bits or more, every error type, every date library", "why_tests_cant": "tests run on one target and on chosen programs; the claim is about all programs, and about lengths of 2^32 and more at every place", "anchors": ["src/ber/multi.rs:68-77", "src/ber/multi.rs:220-232", "src/ber/multi.rs:514-530", "src/der/multi.rs:515-534", "src/ber/tagged.rs:81-104", "src/ber/tagged.rs:243-259", "src/ber/parser.rs:116-118", "src/ber/parser.rs:538-601", "src/der/parser.rs:372-409"]}
{"id": "C139", "title": "Objects of composed parsers lie in the input", "statement": "With slices as ranges of addresses, every composition of the parsers (any object, a type, alternatives, SEQUENCE OF, SET OF, SEQUENCE, SET, explicit and implicit tags, optional elements, optional explicit tags) gives what it gives for the octets alone, with the same errors, and returns. The octets of a returned object are not copied: each component lies where the composition says, the elements of a SEQUENCE OF fill its contents, the components of a SEQUENCE and the object of an explicit tag lie one after the other from the start of the contents, the contents of an implicit tag of definite length are all of the contents, an absent element takes no octets, and the remainder begins where the element ends. All slices of the object are parts of the input, disjoint, in the order of the fields. The same octets at another address in another memory give the same object moved. A SEQUENCE or SET read by a composition has a built header that does not tell where it was.", "quantifier": "every composition, every memory, every slice in it, every date library, BER and DER", "why_tests_cant": "tests compare values of a few compositions, not addresses; compositions, inputs and addresses are unbounded", "anchors": ["src/ber/multi.rs:68-77", "src/ber/multi.rs:220-232", "src/ber/multi.rs:514-530", "src/der/multi.rs:515-534", "src/ber/tagged.rs:81-104", "src/ber/tagged.rs:243-259", "src/ber/parser.rs:538-601", "src/ber/ber.rs:146-153"]}
{"id": "C140", "title": "Composed parsers read at least a header for each object, vain attempt and end of list", "statement": "A composed parser that succeeds reads at least one header for each object of its result, one for each alternative in front of the one that fits, one for each absent optional element, and one at the end of each SEQUENCE OF and SET OF, where the element parser is called once more on no octets. With DER it reads exactly as many, if no optional element is absent and no header kept in the result has an indefinite length. Every call of a composed parser reads at least one header, and on an empty input exactly one.", "quantifier": "every composition, every input, BER and DER; date libraries that do not answer with UnknownTag", "why_tests_cant": "compositions and inputs are unbounded; tests do not count the work of a parser, only its result", "anchors": ["src/ber/multi.rs:157-232", "src/ber/multi.rs:514-530", "src/der/multi.rs:515-534", "src/ber/tagged.rs:38-104", "src/ber/tagged.rs:170-259", "src/ber/parser.rs:14-68", "src/ber/parser.rs:538-555"]}
{"id": "C141", "title": "Mutable visitors: when they end and how deep they are nested", "statement": "A traversal by a mutable visitor that ends had as many activations of visit_ber_bfs_mut open at one time as the object it leaves behind is deep, whatever the visitor did to the tree. It ends if from some level on the visitor makes no object deeper (whatever it does above, and however it uses its state); if the visitor makes no object deeper anywhere, the object left behind is not deeper than the one given, so that on an object returned by parse_ber_recursive or parse_der_recursive with recursion limit n at most n activations are open (for parse_der_recursive one if n is 0, as it returns a BIT STRING even then); a visitor that edits values and keeps lists is nested exactly as deep as its object. A traversal that does not end is no endless loop: for every n there is a moment when n activations are open.", "quantifier": "every mutable visitor with every kind of state, every object tree, every starting depth, every recursion limit", "why_tests_cant": "visitors are arbitrary programs and trees are unbounded; a stack overflow is seen in a test only for the visitors and trees that are tried", "anchors": ["src/ber/visit_mut.rs:20-136", "src/ber/visit_mut.rs:138-191", "src/ber/parser.rs:618-620"]}
{"id": "C142", "title": "Accessors lend the octets of the input", "statement": "The slice that as_slice, as_str, as_oid, as_oid_val, as_bitstring or as_bitstring_ref lends is the one slice its contents hold; of an object that parse_ber or parse_der returned it is the contents octets of the element, all of them (for a BIT STRING all but the first), at their address in the input. as_sequence and as_set lend members that together make up the contents octets. After any number of calls of as_sequence, as_set, as_optional, as_tagged, the iterator or the index operator on an object that any composed parser returned, what is lent lies in the octets consumed and ends before the remainder begins; for parse_ber and parse_der every object reached lies in an element inside the element parsed. parse_ber_slice and parse_der_slice lend the contents octets of the element with the tag asked for. Read out, all results are those of the accessors on lists of octets.", "quantifier": "every memory and every input slice in it, BER and DER, every composition of parsers, every chain of accessor calls", "why_tests_cant": "a test compares octets and not addresses, so a copy or another occurrence of the same octets would pass; compositions and chains of calls are unbounded", "anchors": ["src/ber/ber.rs:236-310", "src/ber/ber.rs:528-629", "src/ber/ber.rs:811-849", "src/ber/parser.rs:595-601", "src/der/parser.rs:403-409"]}
{"id": "C143", "title": "Parsing looks at a linear number of octets", "statement": "Count for a header read the octets of the header (or, if it is refused, up to 133 octets that are there), for the checks of DER two octets, and for the conversion of a value that is neither SEQUENCE nor SET any cost of at most K for each octet of the value and 2 K besides. Then parse_ber with recursion limit d costs at most d + K + 1 for each octet consumed, and on failure for each octet of the input; parse_der costs at most (d + K + 1) n + 2 for n octets, and the forms with an expected tag the same with d = 50. No header read depends on octets behind the first 133, and no header has more. The counts are not too small: on success parse_ber and the forms with an expected tag count at least two octets for each header read of C78, and parse_ber and the forms with an expected tag count a conversion exactly once for each value of universal class in the result that is no SEQUENCE and no SET (parse_der_with_tag none for a BIT STRING it is asked for). The functions for one type count on success exactly two octets more with DER than with BER, for BIT STRING exactly two more than the octets of the header. The factor d is reached up to a constant: j SEQUENCEs of indefinite length around k NULLs have 2 k + 4 j octets, and parse_ber counts at least 2 k (j + 1), for j up to 49.", "quantifier": "every input, every recursion limit, every expected tag, every date library, every K and every cost of conversions within the bound", "why_tests_cant": "a bound on the running time for all inputs, including those that are refused late", "anchors": ["src/ber/parser.rs:14-68", "src/ber/wrap_any.rs:24-192", "src/der/parser.rs:29-82", "src/der/parser.rs:481-618"]}
{"id": "C144", "title": "Composed parsers look at a number of octets linear in the input and in the type", "statement": "With the costs of C143 a parser composed of the combinators of the library costs at most K + 52 for each of its parts and each octet of the input (one octet more on failure); after a success that read something only the octets read count. The counts are not too small: on success at least two octets are counted for each object of the result and for each alternative in front of the one that fits. The factor for the parts is reached up to a constant: k absent optional components in front of an element of indefinite length with n NULLs count exactly 2 n + 4 octets each.", "quantifier": "every composition, every input, BER and DER, every date library, every K and every cost of conversions within the bound; every k and n", "why_tests_cant": "compositions and inputs are unbounded; timing tests measure some inputs and cannot show that no input is slower", "anchors": ["src/ber/multi.rs:68-77", "src/ber/multi.rs:157-232", "src/ber/multi.rs:514-530", "src/der/multi.rs:515-534", "src/ber/tagged.rs:38-104", "src/ber/tagged.rs:170-259", "src/ber/parser.rs:14-68", "src/ber/parser.rs:538-555"]}
{"id": "C145", "title": "Work of a reader that follows the hints", "statement": "The reader of C82 calls parse_ber again on all it has read, each time it is told to read more. A call that asks for more has looked at each octet it was given at most once and converted nothing. So, with the costs of C143, a reader that has its answer after m octets (or whose stream ends after m) has counted at most m (m - 1) / 2 octets in calls in vain, and d + K + 1 for each octet in its last call. The same holds for parse_ber_with_tag, with K + 51 for d + K + 1. For an element of definite length the calls in vain count at most h (h + 1) / 2 for a header of h octets, however long the contents. For indefinite lengths the first bound is reached: with a SEQUENCE of indefinite length with k NULLs, m = 2 k + 4, the reader is sent for one octet after the other and counts exactly m (m - 1) / 2 octets in vain. With parse_der the reader does linear work on every stream: it counts at most (d + K + 2) m + 13 octets, and calls parse_der at most five times, which is reached; the same holds for parse_der_with_tag with K + 52 for d + K + 2. A program that reads all the DER values of a stream of s octets in this way, one after the other, counts at most (d + K + 9) s + 13. With parse_ber no number of calls is enough, because on the SEQUENCE above it makes 2 k + 5.", "quantifier": "every stream, every recursion limit of at least 1, every date library, every K and every cost of conversions within the bound; every header and contents of definite length; every k and every continuation of the stream; every tag number", "why_tests_cant": "a bound on the work for all streams; tests call the parser once on complete input", "anchors": ["src/ber/parser.rs:14-68", "src/ber/parser.rs:604-641", "src/ber/wrap_any.rs:24-34", "src/der/parser.rs:47-54", "src/der/parser.rs:481-583", "src/der/parser.rs:70-82", "src/ber/parser.rs:233-245"]}
