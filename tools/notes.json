{
 "C33": "parse_der, parse_der_with_tag and all combinators of der/multi.rs and der/tagged.rs. parse_der_explicit_optional and parse_der_implicit (der/parser.rs) are BER combinators under a DER name and accept indefinite lengths: C33_optional_implicit_counterexample.",
 "C04": "False without a condition on the closure: one that returns a remainder longer than its input makes the repetition loop forever (C04_of_v_longer_remainder_counterexample). Proved for closures that never return a longer remainder; the other combinators need no condition. C132 says for every closure exactly when the repetition ends, and with which answer.",
 "C08": "False: tag numbers of 2^32 and above wrap (counterexamples). Proved: tags are equal exactly when the numbers agree modulo 2^32, so numbers below 2^32 are distinct.",
 "C09": "False as stated: an empty context-specific [0] ends the contents, and other spellings of the terminator are accepted. Proved for contents without such elements, and the converse for the language with the terminators the code accepts.",
 "C11": "False for input cut inside a multi-octet tag (InvalidTag) and for container parsers (Eof). Proved for every other cut; the exact answer to every cut is C81.",
 "C12": "parse_ber: exact hint proved. False for typed and DER parsers, whose hint is the whole contents length; proved that this is what it is.",
 "C15": "False for parse_ber, typed DER parsers and container combinators (counterexamples). Proved for parse_der and parse_ber_with_tag; the answers of the four readers in C86_oversize.",
 "C16": "False for elements of other classes or in constructed form. Proved: exact characterisation by tag number and contents octets.",
 "C18": "False for nine-octet encodings of 2^63..2^64-1 and for redundant leading ff octets. Proved: exact result for every contents string, in terms of the two's complement value, outside these cases.",
 "C19": "False for contents above MAX_OBJECT_SIZE, which parse_ber_integer refuses. Proved for all others.",
 "C29": "False: redundant leading ff octets are accepted. Proved: exact set of contents accepted.",
 "C30": "False: unused bits without data octets are accepted. Proved: exact set of contents accepted.",
 "C34": "False: nested elements are read with BER rules. Proved for the outermost element.",
 "C35": "False: non-minimal length octets, among others. Proved: equal results have equal contents octets for the outermost element of the types listed; unique encodings among the canonical ones are C83.",
 "C36": "False for depth limit 0 and for BIT STRING contents above MAX_OBJECT_SIZE. Proved otherwise.",
 "C37": "False: a closure error on empty contents becomes Failure. Proved: all results, for every closure, outside that case.",
 "C40": "False: the class of the element is not looked at. Proved: result for every closure in terms of tag number.",
 "C42": "False: class is not checked. Proved for the tag number.",
 "C43": "False for contents with an element that looks like end-of-contents. Proved for all others. C43_iff_partial says exactly when it holds.",
 "C47": "False for times: UTCTime and GeneralizedTime are written by one function, so a time readable in both forms is lost in one of them (C47_times_conflict, for every date library). Proved exactly: what was read survives precisely if every time in it is read back from its written form.",
 "C51": "False for empty SEQUENCE/SET, which yield themselves. Proved for all other objects.",
 "C53": "False: children of Tagged and Optional are not visited. Proved: the exact list of visited objects.",
 "C56": "False for other classes and for indefinite lengths. Proved for definite lengths of universal class.",
 "C58": "False for second arcs of 40 and above under 2 and for first arcs above 2. Proved for all arcs otherwise.",
 "C60": "False for Tagged. Proved for all other contents.",
 "C66": "False: not transitive through objects without raw tag. Proved: reflexive, symmetric, transitive through objects with raw tags.",
 "C68": "False: objects inside a tag are printed whatever the flags. Proved for SEQUENCE and SET.",
 "C70": "False: siblings follow each other on one line. Proved: exactly which pieces start a line.",
 "C74": "False: a successful sequence-of calls the closure once more, on the empty remainder. Proved: the exact sequence of calls, answers and states of every combinator.",
 "C90": "False for indefinite lengths: the end-of-contents octets are removed and then looked for again, so none of these elements is accepted (counterexample, C90_indefinite_refused). Proved for known lengths, and for DER: exact values and errors.",
 "C94": "False: characters of strings are not escaped, so one UTF8String can be printed as two (counterexample, both inputs are DER). Proved: one string printed alone, enumerated values and booleans can be told apart; PrintableString and NumericString contain no quotation mark or line break.",
 "C98": "False with optional parts: a part that is wrong by DER is taken for absent (counterexample). Proved for all compositions without optional parts, on inputs shorter than 2^32 octets (BIT STRINGs are not limited by the DER functions, C36).",
 "C99": "False for many1(complete(f)): the empty SEQUENCE is refused and octets at the end are ignored (two counterexamples). Proved: what the sequence-of accepts, not empty, is accepted with the same result; exact description of many1; the claim about all_consuming in full.",
 "C102": "False: registered character sets must be UTF-8, enumerated values are limited to 32 bits, tag numbers to 32 bits (those up to 2^35 are read modulo 2^32), levels to 50 (counterexamples). Proved: all other DER documents are accepted, whole; and for tag numbers below 2^32 these are the only limits: a DER document is accepted if and only if it is within them (C102_exact, C102_exact_ber).",
 "C103": "False: enumerated values lose leading zero octets (128 is written as -128, zero as nothing) and tag numbers above 30 make the serializer panic (counterexamples); times depend on the date library. Proved for all other DER documents within the limits of the parser (C102). Exact: an accepted DER document is reproduced if and only if it is within these limits (C103_exact).",
 "C105": "False for input that ends inside a tag number in the long form (`9f`), which is called invalid and accepted with the octets that follow (C105_counterexample). Proved for all other input; only input cut in this way can be accepted later (C105_accepted_later).",
 "C106": "False: C106_outer_counterexample and C106_inner_counterexample list accepted elements that are not DER. Proved that the list of faults is complete: an accepted element is DER exactly if it has none of them. The order of SET members and default values are not part of DerDoc.",
 "C107": "False: 31 06 02 01 02 01 01 00 is accepted with its members in neither order (C107_full_counterexample). Proved instead: acceptance is member by member, and every permutation of the members is accepted with the children permuted alike.",
 "C108": "False: absent options are written as 00 00, which the same parser refuses (counterexample); times depend on the date library. Proved for all other values of every composition: values that fit are written and read back (C108_written_read), what was read fits (C108_fits_partial), and an object without absent options is read back exactly if it fits (C108_exact_partial).",
 "C109": "Times: for DER the result relies on TimesKnown, as C96.",
 "C110": "C110Statement is false (C110_counterexample: 30 01 02 as SEQUENCE with one INTEGER). C110_exact_partial: for parsers that delimit one element the request can be met exactly if the element is not complete; C110_partial: always for the other parsers, SEQUENCE OF and SET OF. The octets found need not lead to an accepted input (see C81_hopeless).",
 "C111": "C111Statement is false (C111_counterexample: a BIT STRING of 2^29 zero octets on a 32-bit target, accepted by parse_ber). C111_exact_partial: equal while the number of bits fits in a word, which covers data below 2^61 octets on 64-bit targets; C111_checked and C111_unchecked give the answers beyond. On 32-bit targets asn1-rs refuses lengths of 2^32 and more in the header already (C135).",
 "C112": "C112Statement is false (C112_counterexample, C112_not_statement: INTEGERs of n+1 zero octets for every n a length can announce; C112_der_counterexample inside a SEQUENCE for parse_der). C112_bounded_partial: everything but the accessors on INTEGERs with superfluous leading zero octets. C112_same_results tie the counted functions to the model. Counted are activations, not bytes of stack; code derived by the compiler (Clone, PartialEq, Drop, Debug) is not counted; visit_ber_bfs_mut is C141.",
 "C113": "The statement is false for outputs that take octets in pieces (C113_counterexample, C113_not_statement); C113_partial: outputs that take everything they are offered. The rest of the statement is proved.",
 "C114": "C114Statement is false (C114_width_counterexample, C114_overflow_counterexample, C114_not_statement); C114_partial: no printed object is too far to the right. Prefix, stopping and panics are proved for all outputs.",
 "C71": "False for contents whose number of octets is not a multiple of the size of a code unit: chunks_exact drops the rest, so octets at the end of a UniversalString are not printed (counterexample, accepted by parse_ber and parse_der). Proved: the text of well-formed contents, the error text for the other contents of proper length, and the exact text for all (C71_bmp_cut, C71_universal_exact).",
 "C120": "The change log says that an indefinite length in DER raises IndefiniteLengthUnexpected; parse_der and the functions for one type raise DerConstraintFailed(IndefiniteLength) for every such input (finding 57). Proved for the functions for contents; all other parts hold.",
 "C121": "False for BIT STRING and character strings in segments (Unsupported), for elements of number 0 and length 0 directly inside an indefinite length (taken for its end), for 50 and more indefinite lengths one inside the other, more than 50 levels, ENUMERATED from 2^32 on, and tag numbers from 2^32 on (counterexamples, C121_full_counterexample). Strings of registered character sets that are not UTF-8 and times that the date library does not read are limits as well. C121_exact: among BER documents with tag numbers below 2^32 and without the elements of number 0, exactly those within these limits are accepted. Contents of constructed encodings other than SEQUENCE and SET are followed only as far as indefinite lengths go, so BerDoc contains all BER documents and some more.",
 "C122": "False (21 accepted inputs that are not BER, C122_contents_counterexample, C122_forms_counterexample). C122_faults_partial: an accepted input is BER, without elements of number 0 and length 0 directly inside an indefinite length, exactly if it has none of the faults of the list.",
 "C123": "False for OCTET STRING in segments (as_slice answers with the segments including tags and lengths) and for negative ENUMERATED values (read without sign), and beyond the limits of C121 (C123_full_counterexample). C123_value_partial: true for all other values of the known types; as_i64 and as_i32 are left open between half of their range and the whole, where they answer with a negative number (C18). C123_one_value, C123_unambiguous, C123_is_ber, C123_every_document show that the notion of value is sound: one value per object and per encoding, and every BER document of known types has one. REAL, EXTERNAL and the registered character sets are not values here; elements of other classes are their tag and contents octets.",
 "C124": "False for ENUMERATED: 128 is written as -128, 0 as an element without contents octets (C124_enumerated_counterexample, C124_full_counterexample). C124_rewritten_partial: values without times, tag numbers above 30, and the enumerated values that are 0 or whose number of binary digits is a multiple of 8 are written with the same value. Times depend on the date library (C46).",
 "C125": "False for ENUMERATED: 128 is written as the DER encoding of -128 (C125_enumerated_counterexample, C125_full_counterexample); C125_enumerated says exactly which are written right, C125_times the same for times. C125_written_partial and its companions: all other values with tag numbers up to 30. Members of a SET are taken in the order of the value; the order DER asks for is C107.",
 "C127": "False if an OPTIONAL component and what follows it have tags with the same number in different classes: SEQUENCE { a BOOLEAN OPTIONAL, b [1] IMPLICIT OCTET STRING OPTIONAL } reads b as a (C127_class_counterexample, C127_full_counterexample). C127_values_partial: all types where the numbers differ, or where the OPTIONAL component has an explicit tag. The encodings are those of values that are read at all (C123), IMPLICIT tags with definite lengths (C90), and the components of a SET in the order of the type (C127_set_order_counterexample).",
 "C128": "False for the enumerated value 0, written as `0a 00` (C128_enumerated_counterexample, C128_full_counterexample), and 2^32 is written but refused when read (C128_read_back_counterexample). C128_written_partial and C128_read_back_partial: all types and all objects whose values without components are Rewritable (C125), tag numbers at most 30; reading back asks for types with distinct tag numbers around OPTIONAL components (C127). Optional(None) objects are not used for absent components, because they are written as `00 00` (C108_absent_counterexample).",
 "C133": "C133_reread is for every date library. The other theorems are for every library with the five properties of Spec.DateLibrary (SpecTime.lean); C133_library shows that asn1-rs as modelled in Calendar.lean is one. That crate is not in the sandbox, so its model is from its documentation and the tests of the repository."
}