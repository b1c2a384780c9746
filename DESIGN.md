# Verification of der-parser 10.0.0 - design

Target: `/repo` (Rust crate `der-parser`, plus the `der-oid-macro` crate of the same
workspace).  Properties: `properties.jsonl`.  Claims: `MANIFEST.json`.  Mutation log:
`seeded/LOG.jsonl`.  Lean sources: `lean/Verif/`.

## 1. Method

A shallow, executable, total model of the library in Lean 4, function by function.  Every
definition cites the Rust file and lines it follows.  Properties are stated in
`Verif/Props/*.lean`, against small independent specifications in `Verif/Spec.lean`
(X.690 grammar of headers and elements, two's complement value, bit selection, tree
depth, base-128 decoding ...).  Helper lemmas live in `Verif/Lemmas/*.lean`.

### Representation choices

* `Bytes := List UInt8`; a Rust `&[u8]` is the list of its bytes.  Pointer identity
  (`Offset`) is replaced by length difference; `Verif/Slice.lean` has the parsers on slices with
  addresses, and C134, C139 prove that both give the same.
* `Outcome ε α = ok | err | panic | diverge`.  Each Rust panic site (slice index,
  `assert!`, `unimplemented!`, `panic!`) is an explicit `panic`; loops whose termination is
  not structural run on fuel and return `diverge` when it runs out, so "never panics / always
  terminates" are theorems, not by-products of totality.
* nom `IResult` is `Outcome (NomErr E) (Bytes × α)`, `NomErr = incomplete | error | failure`.
  `Needed` is modelled.  nom's streaming/complete distinction is kept.
* `usize` is `Nat`; the overflow check of the length decoder (u64 arithmetic) is modelled, a
  64-bit target is assumed.  `Verif/Target.lean` and `Verif/TargetProg.lean` have the parsers for targets with other words, and C135, C138 say
  what becomes different.  Tag numbers are `u32` (`% 2^32` modelled).  `Verif/Word.lean` models the sums and
  products of /repo that can exceed a `usize` again for any word size, with and without overflow checks (C111);
  the differences (`max_depth - 1`, `len - 1`, `len - 2`) are guarded by tests or assertions that the model has;
  the indentation of the printer (`indent + inc`, chosen by the caller) is left out.
* `BerObject`/`BerObjectContent` are a pair of mutually inductive types; ten `&str` variants
  are one constructor `str (kind) (bytes)`.
* User closures are arbitrary Lean functions into `Outcome` (so they may fail, "panic" or
  "diverge").  They are pure in `Verif/Multi.lean`; `Verif/Stateful.lean` has the same combinators for
  closures with state of any type (C74).

## 2. Trusted base

* Lean 4.33 kernel; axioms `propext`, `Classical.choice`, `Quot.sound` only.  No `sorry`, no
  `native_decide`/`bv_decide`, no own axioms.  (`MANIFEST.json` names the theorems,
  `Verif/Audit.lean` prints the axioms of each of them in the build log.)
* Faithfulness of the hand translation of the Rust source.
* The external crates are not in the sandbox.  `nom` 7.1 (`take`, `complete`, `cut`, `many0`,
  `all_consuming`), `asn1-rs` 0.7 (`Header::from_ber/from_der`, `Any`, iterators,
  `bool/enumerated/integers`, charsets, error conversions), `cookie-factory` are modelled from
  their documented behaviour, cross-checked against the expected values of the repository's
  own tests, which are replayed as `example`s in `Verif/TestsRepo.lean`.
* The native integer functions (`parse_ber_u32` ...) end in `TryFrom<Any>` of asn1-rs 0.7, which drops redundant
  leading `00` *and* `ff` octets (`trim_slice`); `remove_zeroes` in /repo/src/ber/integer.rs, which `as_i64` uses,
  drops `00` only.  The two are modelled separately (`trimSlice`, `removeZeroes`).
* Parts of asn1-rs about which the theorems assume nothing are *parameters*, the structure `Deps`
  (`Verif/Asn1.lean`): UTCTime and GeneralizedTime parsing and display, and the alphabets of
  TeletexString, VideotexString, GeneralString, GraphicString, ObjectDescriptor.  Theorems hold
  for every `Deps`.  Where an exact characterisation is impossible without knowing the calendar
  code, the hypothesis `TimesKnown D` (the date parsers never answer `UnknownTag`, which
  `parse_der` would take for an unmapped tag; `Verif/Spec.lean`) is written in the statement.
* `Verif/Calendar.lean` is a model of the date functions of asn1-rs, from their documentation and the tests of the
  repository.  Nothing but the example libraries of C133 uses it; the theorems of C133 are for every date library with
  the properties of `Spec.DateLibrary` (`Verif/SpecTime.lean`).
* Serializer theorems assume that sizes are below 2^64 (Rust `usize`); the hypothesis is in the
  statements.
* `PartialEq` of `Header` in asn1-rs ignores the length, and the raw tag unless both headers have one; results "equal for Rust" are
  stated with `Spec.SameHeader`/`rustEq`, and most theorems prove Lean equality of the whole
  object instead.
* Text made by other crates or by derived `Debug` inside the printer's output (hex dumps, OIDs, tag
  and class names, dates, derived `Debug` of objects) is a parameter, the structure `PrintDeps`; nothing is
  assumed about it.  That recent versions of `core::fmt` panic for widths above 65535 is a parameter of
  `Verif/Formatter.lean` only (C114).
* `bitvec` (`view_bits::<Msb0>`) is modelled as the list of bits, most significant first.
* `num-bigint` (`BigInt::from_signed_bytes_be`, `BigUint::from_bytes_be`) is modelled by Lean's
  `Int`/`Nat` arithmetic.

## 3. Modelled code

| Rust | Lean |
|---|---|
| nom, asn1-rs primitives | `Verif/Nom.lean`, `Verif/Asn1.lean` |
| `src/ber/ber.rs`, `src/ber/integer.rs` | `Verif/Object.lean` |
| `src/ber/parser.rs`, `src/ber/wrap_any.rs` | `Verif/Ber.lean` |
| `src/der/parser.rs` | `Verif/Der.lean` |
| `src/ber/multi.rs`, `src/der/multi.rs`, `src/ber/tagged.rs`, `src/der/tagged.rs` | `Verif/Multi.lean` |
| `src/ber/serialize.rs` | `Verif/Serialize.lean` (into byte vectors), `Verif/Writer.lean` (into any output) |
| `usize` arithmetic of `src/ber` | `Verif/Word.lean` |
| `src/ber/visit.rs`, `src/ber/visit_mut.rs` | `Verif/Visit.lean` |
| `src/ber/print.rs` | `Verif/Print.lean` (into a `String`), `Verif/Formatter.lean` (into any formatter); text formatting of `core` in `Verif/Fmt.lean` |
| typed parsers by name, bit slices, `From<Oid>` | `Verif/Named.lean` |
| combinators applied to closures with state | `Verif/Stateful.lean` |
| methods of BerObject (delegating accessors, queries, assertions) | `Verif/Methods.lean` |
| examples/dump-der.rs (arguments, files as a function, standard output as text) | `Verif/Dump.lean` |
| header reads counted (same functions as Ber/Der) | `Verif/Cost.lean` |
| octets looked at counted (same functions as Ber/Der; the costs of single steps are assigned, not derived) | `Verif/CostOctets.lean` |
| header reads of combinators and composed parsers counted | `Verif/CostSchema.lean` |
| octets looked at by composed parsers counted | `Verif/CostSchemaOctets.lean` |
| octets written by the serializer counted (same functions as Serialize) | `Verif/CostWrite.lean` |
| open activations of recursive functions counted | `Verif/Nesting.lean` |
| the same for the mutable visitor | `Verif/NestingMut.lean` |
| reading and displaying times (asn1-rs) | `Verif/Calendar.lean` (parameters everywhere else) |
| object parsers and containers on slices with addresses (same functions as Asn1/Ber/Der/Multi) | `Verif/Slice.lean` |
| composed parsers on slices with addresses (same functions as Schema) | `Verif/SliceSchema.lean` |
| accessors, iterator, index and `parse_*_slice` on slices with addresses | `Verif/SliceAccess.lean` |
| object parsers on targets with other machine words (same functions as Asn1/Ber/Der) | `Verif/Target.lean` |
| combinators and programs on targets with other machine words (same functions as Multi/Lang) | `Verif/TargetProg.lean` |
| parsers composed of the combinators, as callers do | `Verif/Schema.lean` |
| programs of the documentation and of tests/constructed.rs | `Verif/Program.lean` |
| every program composed of the functions and combinators (a language of programs) | `Verif/Lang.lean` |
| `der-oid-macro/src/lib.rs` | `Verif/OidMacro.lean` (`encode_components`), `Verif/OidText.lean` (`encode_oid`) |

`Verif/TestsDoc.lean` replays the assertions of the documentation comments and of README.md.
`Verif/TestsRepo.lean` replays every assertion about a result in `/repo/tests` and in the unit tests
of `/repo/src/ber` on the model (about 360 examples); `Verif/Tests.lean` has a few more.  These are tests of the
translation, not proofs.

Beside each theorem with hypotheses there is an `example` that applies it to a concrete case which meets them.

Not modelled: `macros.rs` re-exports, `derive` support, `Display`/`Debug` of errors,
`no_std`/feature plumbing, memory and stack consumption (but the nesting of recursive calls is, C112),
lifetimes.

### Specifications

`Verif/Spec.lean` does not use model functions other than data types.  It contains

* base-256/base-128 values, bit lists, two's complement;
* the X.690 header grammar: `IdentOctets`, `LenOctets`, `BerHeader`, `DerHeader`;
* `Element T X n bs`: `bs` is an element with at most `n` nested indefinite lengths, end-of-contents
  markers in `T`;
* `Framed`, `Leaf`, `Denotes`: which abstract object a header and contents stand for, `DerRules`:
  the additional restrictions checked by the DER reader on the outermost element;
* Unicode: `IsUtf8`, `IsUtf16` by encoding functions on scalar values; alphabets;
* `HeaderCut`, `Cut` (in `Verif/SpecCut.lean`): truncated elements and the answer they call for;
* `HeaderFails`, `FrameFails`, `LeafFails`, `ContentFails`, `Rejected`, `RuleFails`, `DerRejected`, `DerNeeds`,
  `TypedRejected`, `TypedNeeds`, `DerTypedRejected`, `DerTypedNeeds` (in
  `Verif/SpecFail.lean`): rejected input and its error;
* `Unframed`, `Items`, `itemsAnswer`, `Delimited`, `ContentsRejected`, `ContentsNeeds` (in `Verif/SpecComb.lean`):
  the refusals of the combinators and of the functions for contents;
* `IsDecimal`, `HeaderText`, `ValueText` (in `Verif/SpecText.lean`): printed text;
* `Accepts` (in `Verif/SpecSchema.lean`): the octets accepted by a composition of parsers;
* `Refuses` (in `Verif/SpecSchemaFail.lean`): the error for the octets refused by a composition of parsers;
* `Meaning`, `PrimGives`, `PrimRefuses`, `Row`, `Prog.meaning` (in `Verif/SpecLang.lean`): what programs written with the
  library accept and refuse;
* `Within`, `Culprit`, `berCodes`, `derCodes` (in `Verif/SpecCode.lean`): where a fault is, and which codes there are;
* `Alike`, `SameContents` (in `Verif/Props/Alike.lean`): octet strings that differ only in options of the sender;
* `DerDoc`, `PrimContents`, `Supported` (in `Verif/SpecDer.lean`): the documents of the Distinguished Encoding Rules, and
  the limits of the library;
* `BerDoc`, `BerPrim`, `Composite`, `BerSupported` (in `Verif/SpecBer.lean`): the documents of the Basic Encoding Rules,
  and the limits of the library;
* `Value`, `Means`, `Codes`, `HasValue` (in `Verif/SpecValue.lean`): abstract values, their BER encodings, and what it is
  for an object to answer with a value;
* `Holds`, `Built`, `DerCodes` (in `Verif/SpecBuild.lean`): the objects that a program builds for a value, and the DER
  encoding of a value;
* `Clock`, `Clock.text`, `Clock.reread`, `DateLibrary` (in `Verif/SpecTime.lean`), `Clock.Possible` (in `Verif/Props/Times.lean`): times, how they are displayed, and what is
  read from that (C133);
* `touched`, `KeepsDepth` (in `Verif/Props/NestingMut.lean`): an object after the callbacks for it, visitors that do not deepen objects (C141);
* `Lends`, `Leads`, `LendsSlice` (in `Verif/Props/PlaceAccess.lean`): what one call, or a chain of calls, of an accessor hands out (C142);
* `headers`, `Full` (in `Verif/Props/CostBelow.lean`): the headers needed to find the value of a composition (C140);
* `found` (in `Verif/Props/CostSchemaOctets.lean`): objects and vain alternatives for the value of a composition (C144);
* `readWork` (in `Verif/Props/CostStream.lean`): the reader of C82 with the octets looked at in all its calls, `readAllWork`
  (in `Verif/Props/CostStreamDer.lean`): the same for value after value (C145);
* `SchemaAt`, `ItemsAt`, `ComponentsAt` (in `Verif/SpecPlaceSchema.lean`): where the parts of a composed object lie (C139);
* `FramedAt`, `Placed`, `MembersAt`, `slices`, `moveObject` (in `Verif/SpecPlace.lean`): where the parts of an object lie in
  memory (C134);
* `Prog.Truncated`, `Prog.Streaming`, `Prog.Sharp` (in `Verif/SpecStream.lean`): the answers of a program to octets that
  end too early, and the programs that can be run on a stream, by recursion over the program (C126);
* `TypeCodes D R s t e` (in `Verif/SpecType.lean`): the octets `e` encode the value `t` of the ASN.1 type that the
  composition `s` describes; `HasT o t`: the accessors of `o` answer with `t`; `Schema.Apart`: what may follow an OPTIONAL
  component has other tags.
* `BuiltT L s t o` (in `Verif/SpecTypeBuild.lean`): a program builds the object `o` for the value `t` of the type `s`, from
  objects for values without components that are related by `L`.
* trees: `depth`, `Node`, `erase`;
* serialization: `MinLen`, `MinOctets`, `Encodes`, `Wf`, `TagsOk`.

Specifications local to a property (visiting order, OID subidentifiers, printer histories) stand in
the same file as the property, in namespace `Spec`.

## 4. Plan per property

| Id | What is modelled and how it is proved |
|---|---|
| C01-C03 | `panic`/`diverge` are values; induction on depth and on input length shows they are not reached |
| C04 | same, with the hypothesis that the closure's result is never `panic`/`diverge` |
| C05, C06 | suffix and length lemmas through header, skip, take |
| C07 | independent grammar `IdentOctets`/`LenOctets`; soundness and completeness |
| C08 | false beyond 2^32: counterexample; `_partial` for tag numbers below 2^32 |
| C09 | grammar of well-formed elements, induction; converse false (`80 00` also terminates): counterexample and partial |
| C10 | extension lemma for every parser, by induction on depth and fuel |
| C11 | false for truncated long tags (`1f`) and container parsers; counterexamples, `_partial` |
| C12 | BER generic parser proved; DER/typed parsers overestimate: counterexample |
| C13, C14 | depth function on result trees; induction on limit |
| C15 | typed and DER entry points proved; `parse_ber` does not enforce it: counterexample |
| C16-C27 | per-type analysis of content decoding against specs |
| C18 | false for 2^63.. with leading zero and for redundant ff octets: counterexamples, `_partial` |
| C28-C33 | DER checks; C29 leading ff accepted, C30 unused bits on empty: counterexamples + partial |
| C34, C35 | false: counterexamples; partial for the outermost element / canonical lengths |
| C36 | refinement, case analysis |
| C37-C41 | combinators with arbitrary closures |
| C40, C42 | class not checked: counterexamples; tag number part proved |
| C43 | from C09 |
| C44-C49 | serializer against parser; induction on trees |
| C50-C54 | iterator, index, visitor semantics, induction on trees |
| C55 | induction on histories |
| C56 | false for indefinite lengths and other classes: counterexamples; partial |
| C57, C58 | algorithm of the macro against base-128 decoding; C58 false for 2.x, x>=40 |
| C59 | relational lemma between two error types |
| C60 | from C46 |
| C61 | `parse_ber` accepts exactly the encodings of the denotation, and the denotation is unique |
| C62 | every node of a result comes from a contiguous part of the input and parses again alone |
| C63 | the DER parser accepts exactly: DER header + `DerRules` on the outermost element + BER denotation |
| C64 | C61/C63 specialised to each function name; table of universal numbers |
| C65, C67 | case analysis; bits by induction |
| C66 | false: counterexample; transitive through objects with raw tags, by mutual induction |
| C68-C70 | text as a list of pieces in pre-order, mutual induction; C68, C70 false: counterexamples, partial |
| C71 | UTF-16/UTF-32 decoding inverts the encoding functions of the specification |
| C72 | exact acceptance by header grammar and two's complement value |
| C73 | grammar of the argument text; the expansion is read back by an independent hexadecimal reader |
| C74 | state-passing version of the combinators; relation of successive calls; false: one call more, on the empty remainder; counterexample, partial |
| C75 | unfolding to the accessor theorems of C65/C67; first octet of the framing element for parsed objects |
| C76 | induction over the denotation: payloads and headers are disjoint parts of the contents octets |
| C77 | inductive specification of the output; induction on the length of encapsulated data, then on the specification; the recursion is not bounded by MAX_RECURSION (finding) |
| C78 | counting version of the parsers (equal results), budget rule for sequencing; exact count for nested indefinite lengths |
| C79 | case analysis over the content with C17, C20, C21; denotation for parsed ENUMERATED |
| C80 | induction on the fuel of the traversal; structural recursion for the exact result; then C46 for well-formed trees |
| C81 | grammar of cuts (`Verif/SpecCut.lean`); header by cases, elements by induction on nesting and on the loop over an indefinite length; completions by appending zeros |
| C82 | induction on the reads, with C81 for the next request and its bound |
| C83 | `Canonical` by induction on elements; induction on the denotation (C61) against `Encodes` (C49), uniqueness of framing for the split of contents into elements |
| C84 | `Rejected` as inductive predicates for headers, delimiting, leaves and members; induction on depth for the conversion, on the list of members for `collectItems`; with C61 and C81 a complete table of answers |
| C85 | the same for DER: `RuleFails` for the rules checked, `DerNeeds` for `Incomplete`; the conversion is shared with C84 |
| C86 | the same for the typed functions: `TypedRejected`, `TypedNeeds` and their DER versions; case analysis on the header, then the conversion lemmas of C84/C85 |
| C87 | tables by `if`, computed from the value of the two's complement; every input is covered by a framing trichotomy |
| C88 | `Unframed` (`Verif/SpecComb.lean`) built from the cut and failure specifications; case analysis on header and length; items by induction on the list of items read |
| C89 | `Delimited`, `ContentsRejected`, `ContentsNeeds` (`Verif/SpecComb.lean`); the loop over an indefinite length is described by its items, the rest by the conversion lemmas of C61, C84, C85 |
| C90 | false for every element of indefinite length: counterexample, and a theorem that all of them are refused; partial |
| C91 | iff for accepted, rejected and incomplete input over Framed, Denotes, FrameFails, ContentFails, Cut |
| C92 | iff with IdentOctets, MinLen and EncodesC; raw indefinite output plus 00 00 parsed back through Framed.indefinite |
| C93 | relational text specification in SpecText.lean (IsDecimal, HeaderText, ValueText); the printer computes it |
| C94 | false: characters of strings are not escaped (counterexample with one UTF8String printed as two); partial: one string alone, enumerated values and booleans can be told apart, PrintableString and NumericString are safe |
| C95 | lower bound and equality (Exact) carried through the counted functions of Cost.lean; number of objects is the length of the pre-order listing of C52 |
| C96 | syntax of compositions (Schema.lean), specification by recursion over it (SpecSchema.lean); mutual induction using C37 to C41, C61, C63, C90; alternatives of a choice exclude each other by tag number |
| C97 | induction over the composition from C01 to C05, C10 |
| C98 | induction over the composition from C36; counterexample with an optional BOOLEAN |
| C99 | many1 modelled from nom (Schema.lean), its accepted inputs described by Items; counterexamples for the empty SEQUENCE and for other octets at the end |
| C100 | output as text; lines, hexadecimal numerals and the mode of a file specified without model functions; uniqueness of the specified text |
| C101 | `Spec.Reform` relates encodings by induction on the nesting; the parser is compared through its denotation (C88/C89); equality of objects up to header lengths implies Rust equality |
| C102 | the Distinguished Encoding Rules written from X.690 as an inductive family (`DerDoc`, `Verif/SpecDer.lean`); each rule for contents octets implies the specification of the leaf parsers, then induction on the nesting through C63; counterexamples for the limits of the library |
| C103 | DER documents (`DerDoc`) within the limits of parser and serializer are canonical in the sense of C83, by induction; counterexamples for enumerated values and high tag numbers |
| C104 | relation `Alike` between octet strings, by induction on nesting; compared with equality of trees through the denotation (C61), by cases of the leaf types |
| C105 | the characterisations of rejection (C84-C86) are closed under appending octets, by induction on nesting; the inputs cut inside a tag number are specified by `EndsInTag` |
| C106 | an element that is accepted and free of faults is rebuilt as `DerDoc` by induction on the denotation; conversely each fault contradicts `DerDoc`, using that identifier octets, length octets and members are read in one way only |
| C107 | the denotation of a SEQUENCE or SET is the list of the denotations of its members, so permutations are lifted through the list of pairs of encodings and objects; `DerOrder` is specified with both orders of X.690 |
| C108 | values of a composition are described by recursion over the composition (`Fits`); reading is the specification of C96, so writing and reading is an induction over the composition with the round trip of C46 at the leaves; counterexample for absent options |
| C109 | `Refuses` is defined by recursion over the composition from the specifications of C81-C89; the proof is an induction over the composition, with the tables of C38, C39, C40, C88 and C89 for the combinators |
| C110 | a complete element has the same contents whatever follows, so errors of the closure are final; octets that make a cut header or element wrong or complete are constructed by induction over the cut |
| C111 | the functions with sums and products are modelled again over words (`Verif/Word.lean`); equality with the unbounded model while the results fit, and the exact behaviour beyond; induction over calls and trees |
| C112 | the recursive functions are modelled again with the number of open activations (`Verif/Nesting.lean`); same results; upper bounds by induction over the recursion limit, exact values by induction over results and trees; the number for `remove_zeroes` is the number of leading zero octets |
| C113 | the generic functions over an abstract output (`Verif/Writer.lean`), related to the functions over byte vectors by induction over trees; the exact sequence of writes of every function; outputs of bounded capacity exactly; counterexample with an output that takes at most `k` octets at a time |
| C114 | the printer over an abstract output with every `?` (`Verif/Formatter.lean`), equal by induction over trees to running a list of writes; text, answers and panics of that list by induction; counterexamples for the two ways to panic |
| C115 | locality of every composed parser (C97) by induction over the list; uniqueness of frames for parse_ber with different limits; C46 and C82 for writing and streams |
| C116 | both functions reduce to the same content reader after the header; errors UnknownTag excluded by the assumption on times; hints and limits stated separately |
| C117 | acceptance of each program composed from C38 to C40, C72, C17, C96; agreement of versions by commuting the conversion with the container; Name by induction on the many0 loop with no Failure from its entries (C109) |
| C118 | structural induction over programs (Prog), each constructor by the totality and locality lemmas of the combinators (C04, C63, C88) |
| C119 | structural induction over programs; functions without closure by C61, C63, C72, C81, C84 to C87, C89; containers by C38 and C88; many0 by induction on the input |
| C120 | `berCodes`, `derCodes`, `Within`, `Culprit` (`Verif/SpecCode.lean`); induction over the specifications of refusals of C84 to C89, inputs for every code |
| C121 | `BerDoc`, `BerSupported` (`Verif/SpecBer.lean`); induction over BER documents in both directions, counterexamples for each limit |
| C122 | `BerFault` (`Verif/Props/BerFaults.lean`) against `BerDoc`; induction over `Denotes` and over faults, an accepted input for every fault |
| C123 | `Codes`, `HasValue` (`Verif/SpecValue.lean`); induction over encodings with the accessor theorems C17 to C22; one value per object, encodings are BER documents and conversely; counterexamples |
| C124 | `Codes` on both sides; induction over encodings with C49, counterexample for ENUMERATED |
| C125 | `Built`, `DerCodes` (`Verif/SpecBuild.lean`); induction over the built object: what is written is exactly the DER encoding; minimal octets of a number are unique; with C49, C102, C123 reading back; which enumerated values and times are written right; counterexample for ENUMERATED |
| C126 | `Prog.Truncated`, `Prog.Streaming`, `Prog.Sharp` (`Verif/SpecStream.lean`); induction over the program: a cut falls into the first part or, after its value, into the second; the octets that a reader has fetched when it is asked again are the boundaries of headers and contents; induction over the requests |
| C127 | `TypeCodes`, `HasT`, `Schema.Apart` (`Verif/SpecType.lean`); induction over the type: encodings of the parts are framed by the header that the type asks for, what follows an absent component begins with another tag, so that its parser refuses; C96 for the parser |
| C128 | `BuiltT` (`Verif/SpecTypeBuild.lean`), `TypeCodes`, `HasT`; induction over the construction: `Encodes` (C49) of the object is an encoding of the value, with C125 for the values without components; then C127 for the parser |
| C129 | the combinators of Multi.lean again with a count (`Verif/CostSchema.lean`), same results; induction over the composition with the invariant `Paid`: at most `w` half reads for each octet, octets not read are not paid for; `parts` counts the parsers of a composition |
| C130 | the functions of Serialize.lean again with a count of the octets written (`Verif/CostWrite.lean`), same results; `lengths` adds up the encodings of the objects inside; induction over trees; `height` of C112, depth of parsed objects by C13 |
| C131 | counted functions of C78; `looks` adds up over the tree with the length of the run of indefinite objects as parameter; every pass over contents is a tree of elements with a count (`Skims`), matched with the objects because splittings into elements are unique (C61) |
| C132 | `Goes` is the sequence of calls, `Stop` (C74) the answer of the last one, `Forever` an infinite sequence of calls; induction over the calls, choice for the infinite sequence; the loop of the model stopped before a given call answers the same for every greater number |
| C133 | `Reread` compares two objects except for times; induction over `Denotes` in both directions (accepted again / readable); for libraries like asn1-rs, the octets after the minutes of a written UTCTime are not a `UtcTail`, and the text of a GeneralizedTime is read as `Clock.reread` |
| C134 | the functions on slices are run beside those on lists of octets (`Sim`: same end, related values), with the place of each result in the relation; `Placed` by induction over depth and members; disjointness by induction over `Placed`; two memories side by side for moved input |
| C135 | the parsers with the header function as a parameter are the original ones for the original header functions (induction), and lengths read are below 2^64; for fewer bits, both runs side by side with the relation `Narrower`: the same answer, or a refused length against one of the errors that a length greater than the input leads to |
| C136 | contents that are written are compared with the octets that were read by induction over `Denotes`, headers with `framed_length` (two octets at least) and the shortest length octets (C44), which are monotone; objects of the tree as in C76; for times, the octets that `Calendar.lean` asks for against those of the display |
| C137 | mutual induction over trees: the text of an object is its own text (`bare`: without members) and that of its members, one increment further inside; own texts are bounded by case distinction, with bounds `TextBound` for the texts of other crates as a hypothesis; sum over the tree by C76 |
| C138 | the combinators and programs with the header functions as parameters (`Verif/TargetProg.lean`) are the original ones for the original header functions; answers are compared up to errors of three grades (`Close`, `Near`); a grade is assigned to programs by recursion (`Prog.At`), each combinator keeps, lowers or raises it; on the empty input nothing can differ (`prog_nil`), which makes the end of a list the same; composed parsers have the lowest grade, by induction; a counterexample for each condition |
| C139 | each combinator on slices is run beside the one on lists of octets (`Both`) and beside itself at another address (`Shift`); compositions by induction; `SchemaAt` says from the composition where its parts lie; disjointness by induction over `SchemaAt` |
| C140 | `headers` counts from the composition and its value; each combinator of the counted parsers is shown to read at least as many (`Least`) and, if `Full`, as many; an element parser on no octets reads one header; a tag that does not fit costs one |
| C141 | the traversal with its nesting is related to the one without; induction on fuel: with a result the nesting is the depth of the result, without one it is the fuel; below level k fuel for the depth suffices, above it the levels are counted down and the fuel is a maximum over the children |
| C142 | the accessors a second time on objects with addresses; case analysis on the contents; a call leads to an object whose slices are a sublist of those before it, then C134 and C139 place them |
| C143 | as C78 with octets in place of header reads (`PaidOctets`); an element pays for its value with its two header octets, so a constant for each value is covered; the window of a header read from the bounds on tag and length octets. That a step of the program costs what the model says is read off the source, only the window is proved |
| C144 | the composed parsers of C129 with the octets of C143 (`Verif/CostSchemaOctets.lean`), same results; the invariant `Paid` of C129 with `K + 52` for each part; lower bound with the relation `AtLeast` and `found`, which counts the objects of a result and the alternatives in front of it |
| C145 | `readWork` is `readStream` (C82) with the counts of C143 added up; a call in vain fails in `Any::from_ber`, which pays one for each octet; induction over the calls with `2 * work + k * (k - 1)`; the request after a header of definite length is for all the contents; prefixes of the family of C78 are computed; for DER, C85 and C86 say when more is asked for: after nothing, one octet, the first length octet, the header, and then never again, so that calls in vain can be counted one by one (`der_read_work`, for any way to count) |

## 5. Findings

Behaviour found while proving that differs from X.690, from the documentation, or from the property
as stated.  "(Cnn)" names the property whose `_counterexample` theorem (or theorem) shows it.

1. `as_i64`/`as_i32` on `00 ff ff ff ff ff ff ff ff` give `Ok(-1)`; nine octets `ff` are refused (C18).
2. `parse_der` checks DER restrictions for the outermost element only (C34).
3. End-of-contents is recognised by tag number and length only: `80 00`, `a0 00`, `00 81 00`,
   `1f 00 00` also end an indefinite-length element.  Two octets are removed whatever the length of
   the marker, so `00 81 00` leaves a stray octet in the contents (C09, C43).
4. `*_with_tag`, `*_defined`, implicit tagging check the tag number, not the class
   (`82 01 05` is read as INTEGER); the generic container does not check the constructed bit (C16, C42).
5. `into_iter` on an empty SEQUENCE/SET yields the object itself (C51).
6. Visitors do not descend into `Tagged`/`Optional`; the order is depth-first pre-order, the
   documentation says breadth-first (C53).
7. Serializer: panics (`unimplemented!`) for tags above 30; `Optional(None)` is `00 00`;
   `EndOfContent` is `00 01 00`; `from_obj(Tagged(..))` loses class and form; `Enum(0)` has empty
   contents; `Enum` above `u32::MAX` does not re-parse (C47, C60).
8. BER BIT STRING with more than seven unused bits is accepted; DER `03 01 07` (unused bits without
   data) too (C30).
9. DER accepts non-minimal lengths, and `parse_der_integer` redundant leading `ff` (C29, C35).
10. `parse_der_explicit_optional` and `parse_der_implicit` use BER framing and accept indefinite
    lengths (C33).
11. Implicit tagging restarts the recursion depth.
12. OID macro: overflow panic for first arcs 6 with second arc >= 16 and above; `2.x` with x >= 40
    refused; `3.x` accepted with the octets of `2.(40+x)`; arcs 4 to 6 give malformed octets (C58).
13. Containers on truncated input answer `Error(Eof)`, not `Incomplete` (C11).  So none of the functions with a closure can
    be used on an element of known length that is read from a stream piece by piece: after the header the answer is an error
    (C126_container).  With an indefinite length they can (C126_indefinite).
14. `TryFrom<Any>` always fails for an `Any` with indefinite length and ignores the class (C56).
15. Truncated long tags answer `InvalidTag`, not `Incomplete`; five-octet tags wrap modulo 2^32 (C08, C11).
16. The `Incomplete` hint of the typed and DER parsers is the whole length, not what is missing (C12).
17. `MAX_OBJECT_SIZE` is not enforced by `parse_ber`, `parse_ber_u64`, DER BIT STRING (C15, C19, C36).
18. `parse_ber_optional` swallows `Incomplete` and `Failure` (C41).
19. ENUMERATED is read as unsigned (C23).
20. `*_of`: a closure failing with `Error` on empty contents turns into `Failure`; a closure that does not
    consume gives `Error(Many0)`; one that always returns a longer remainder loops forever (C04, C37). The fuel of the
    model covers closures that never return a longer remainder; C132 has the exact answer for all others.
21. NULL contents are not checked; BOOLEAN in constructed form is accepted; an element with universal tag 0
    and any contents is `EndOfContent`, the contents are dropped (C61).
22. At most 49 nested indefinite lengths are accepted, though the limit is 50 (C14).
23. High-tag form for low tag numbers (`1f 02 01 05`) is accepted; re-serialization changes it (C07).
24. `VisitMut` with a visitor that adds children to what is visited does not terminate (C54).
25. `==` on objects is not transitive: raw tags are compared only when both objects have one (C66).
26. Printer: siblings are not separated by newlines; an object inside a tag is printed even without the flag
    `Recursive`; the word Sequence or Set is chosen by the tag number of the header, so an implicitly tagged
    SEQUENCE is printed as Set; every tagged object is printed as ContextSpecific (C68-C70).
27. `as_bitslice` includes the unused bits (C67).
28. `parse_ber_i64`/`parse_ber_i32` refuse values 2^63..2^64-1 (2^31..2^32-1) that `as_i64`/`as_i32` return as
    negative numbers.  Negative numbers that fit but have redundant leading `ff` beyond the size of the type are
    returned by the parsers and refused by `as_i64`/`as_i32` (C72).
29. `*_of_v` call the closure once more than there are elements, on the empty remainder; a counting closure sees
    the extra call (C74).  `parse_ber_optional` keeps the effects of a failed attempt.
30. OID macro: `1_0` and `+1` are accepted as components; `1.2.` and the empty argument panic (C73).
31. `examples/dump-der.rs` recurses into OCTET STRINGs with a fresh limit each time, so its recursion depth is
    bounded by the file length only (C77_depth_unlimited; a stack overflow in practice).  A file that does not
    start with an object is a panic.
32. Indefinite lengths make the parser skip the contents again at every level: up to 50 header reads for a
    two-octet element (C78_nested_cost).  Bounded by the recursion limit, so still linear.
33. A member cut by the end of its SEQUENCE is reported as `Err::Error(Error::Incomplete(n))`, an error that looks
    like a request for more input but is final (C84_member_cut).
34. `parse_der` on an empty BIT STRING looks at the octet after the element: `03 00` alone is `Incomplete(1)`,
    followed by an octet above 7 `InvalidValue`, else `InvalidLength` (C85_empty_bit_string).
35. `parse_der_u32` and the like check the rules for INTEGER contents before the tag: an OCTET STRING `04 02 00 01`
    is rejected with `IntegerLeadingZeroes`, `04 01 00` with `UnexpectedTag` (C87_der_unsigned).
36. A length over MAX_OBJECT_SIZE with missing contents is answered in three ways: `parse_ber` asks for the missing octets,
    `parse_ber_with_tag` and `parse_der` give `InvalidLength`, `parse_der_with_tag` asks for the whole length
    (C86_oversize).
37. An element cut in contents of known length is `Incomplete` for `parse_ber` but `Error(Eof)` for the container
    combinators (C88_definite_cut); an item cut by the end of a SEQUENCE OF is `Error(Eof)`, a rejected item is
    `Failure` (C88_of_v_bad_item, C88_of_v_cut_item).
38. IMPLICIT tags with `parse_ber_content` never accept an indefinite length: the end-of-contents octets are removed by
    the container and then looked for again.  `a0 80 02 01 05 00 00` as `[0] IMPLICIT SEQUENCE` is answered with
    `Incomplete(1)` though complete (C90_indefinite_waits).
39. The pretty printer does not escape characters of strings: a UTF8String can be made that is printed like two strings,
    or with line breaks of its own (C94_forged_counterexample).
40. `ber_encode_object_raw` with an indefinite length writes no end-of-contents octets (C92_raw_indefinite); the caller
    has to add them (C92_raw_indefinite_parsed).
41. In a composition, an optional part that is present but wrong is taken for absent, and the octets of the SEQUENCE
    after the last component are ignored: with DER, `30 03 01 01 05` is accepted as a SEQUENCE with one optional BOOLEAN,
    absent (C98_optional_counterexample).  A SEQUENCE OF an optional type accepts nothing (C96_of_optional).
42. The documentation calls a defined sequence with `many1(complete(f))` "same as `parse_ber_sequence_of`"; it refuses the
    empty SEQUENCE and ignores octets after the last item that was read (C99_empty_counterexample,
    C99_trailing_counterexample).  With `all_consuming` only the first difference is left (C99_same_all_consuming).
43. UTCTime and GeneralizedTime are written by the same function, `ber_encode_datetime`.  Whatever `Display` of the date
    type writes, a time that can be read in both forms (two-digit and four-digit year) is not read back in one of them
    (C47_times_conflict).
44. Some valid DER is refused by `parse_der`: strings of registered character sets (T61String, VideotexString,
    GraphicString, GeneralString, ObjectDescriptor) that are not UTF-8, such as `14 01 e9`; enumerated values that do not
    fit 32 bits; tag numbers of 2^35 and above; documents of more than 50 levels (C102).  Everything else is accepted, and nothing beyond these limits (`C102_exact`).
45. Some valid DER is read and written as something else: the enumerated value 128 (`0a 02 00 80`) is written as -128
    (`0a 01 80`), zero without contents octets; elements with tag numbers above 30 make the serializer panic (C103).
46. `Err::Error` is not final for a reader of streams: input that ends inside a tag number (`9f`) is called invalid and
    accepted with the octets that follow (`9f 21 00`).  All other errors are final (C105).
47. `parse_der` accepts much that is not DER.  C106 has the complete list (`Spec.Undue`, `Spec.Fault`) and shows each
    entry but those of times accepted; the members of a SEQUENCE or SET are checked less than the outermost element
    (finding on nested elements above).  `DerDoc` does not ask for the order of the members of a SET or for the
    absence of default values.
48. `parse_der` does not check the order of the members of a SET (`31 06 02 01 02 01 01 00` is accepted); every
    permutation of the members is accepted (C107).
49. An absent `OPTIONAL` component is written by `to_vec` as the octets `00 00`, so the result of a composed parser with
    absent options is not read again from its serialization (C108).
50. A component cut by the end of its SEQUENCE, SET or explicit tag is answered with `Incomplete` by the `*_defined` and
    `*_tagged_*` functions although the outer element is complete: `30 01 02` as a SEQUENCE with one INTEGER asks for one
    octet, whatever follows.  A reader of streams waits forever (C110).
51. On a 32-bit target the bit count `raw_bytes.len() * 8` of `bitstring_to_u64` overflows for a BIT STRING of 2^29
    octets (a slice can have 2^31 - 1): in a debug build `as_u64` panics, in a release build 512 MiB of zeros read
    as `Ok(0)` instead of `IntegerTooLarge` (C111).
52. `remove_zeroes` (src/ber/integer.rs:14) calls itself for each leading zero octet of an INTEGER.  `parse_ber` accepts
    INTEGERs with any number of them, `parse_der` inside a SEQUENCE, and `MAX_RECURSION` does not apply:
    `as_u64` and its siblings on one element of a few hundred kilobytes overflow the stack, which aborts the process,
    unless the compiler happens to make a loop of the tail call (it does not in debug builds) (C112).
53. `ber_encode_*` are generic over `W: Write` but write each piece with one call of `write` (`slice` and `be_u8` of
    `cookie-factory`), not `write_all`: an output that takes fewer octets than it is offered, as the contract of `Write`
    allows (pipes, sockets, anything chunked), gets a prefix and the caller gets `BufferTooSmall`.  An object is also
    written through two buffers of the type `W` itself (`W: Default`), so an output of fixed size limits every
    nested content (C113).
54. Printing panics for large indentations: `next_indent` adds without a check (src/ber/print.rs:69), and `{:1$}` with a
    width above 65535 panics in recent versions of `core::fmt`.  The settings come from the caller, but
    `examples/dump-der.rs` indents by the nesting of OCTET STRINGs, which the file determines (finding 31) (C114).
55. `print_utf16_string_with_type` and `print_utf32_string_with_type` use `chunks_exact` (src/ber/print.rs:114, 126): one
    to three octets at the end of a UniversalString are not printed and not reported.  `parse_ber` and `parse_der`
    accept such a UniversalString (`1c 05 00 00 00 41 ff` is printed as `UniversalString("A")`), while a BMPString of
    odd length can only be constructed by hand (C71).
56. The documented programs for `[2] EXPLICIT INTEGER` and `[2] IMPLICIT INTEGER` come in two versions that report an
    integer out of range differently: `NomError(MapRes)` with `map_res`, `IntegerNegative` or `IntegerTooLarge` with the
    generic functions.  The documentation runs its `[2] IMPLICIT` OCTET STRING program (there described as `[1]`, in a
    function named after `[0]`) on an element of the universal class, `02 05 ..` (src/ber/tagged.rs:190-203).  The Name
    program of tests/constructed.rs:267-272 refuses no SEQUENCE: a damaged entry ends the list without an error (C117).
57. The change log (CHANGELOG.md:89) says that an indefinite length in DER raises `IndefiniteLengthUnexpected`; `parse_der`
    and the `parse_der_*` functions for one type answer `DerConstraintFailed(IndefiniteLength)`, for every such input.
    Only the functions for contents, given such a header by hand, answer as written.  UPGRADING.md says that equality
    compares lengths if they are set in both objects; it never does (C66) (C120).
58. Not all of BER is read.  A BIT STRING or a character string in segments is refused with `Unsupported`; an element of
    number 0 and length 0, such as `[0] IMPLICIT NULL` = `80 00`, directly inside an indefinite length is taken for
    end-of-contents, so that `30 06 30 80 80 00 00 00`, a SEQUENCE with one member, is read as one with two: an empty
    SEQUENCE and end-of-contents.  In the other direction, `parse_ber` accepts input that is not BER, with one of the
    faults of the list `BerFault` (among them end-of-contents as a value, INTEGER without contents, NULL with contents,
    BIT STRING with eight unused bits, VisibleString with DELETE), and no other input that is not BER; there is an
    accepted input for every fault (C121, C122).
59. Three kinds of values do not come through.  An OCTET STRING in segments, `24 06 04 01 41 04 01 42`, is accepted, but
    `as_slice` answers with the octets of the segments including their tags and lengths, not with `41 42`.  The
    ENUMERATED value -1, `0a 01 ff`, is answered as 255.  ENUMERATED 128, `0a 02 00 80`, is read as 128 and written as
    `0a 01 80`, which is -128; 0 is written as `0a 00`, which is not an encoding (C123, C124; see C23, C83).
    In general an enumerated value is written right exactly if it is greater than 0 and the number of its binary digits
    is not a multiple of 8 (C125).
60. The class of a tag is not looked at by typed parsers and `parse_*_tagged_implicit` (finding 4), so an
    OPTIONAL component is mistaken for the next one when only the classes differ, which ASN.1 allows: with the parser of
    `SEQUENCE { a BOOLEAN OPTIONAL, b [1] IMPLICIT OCTET STRING OPTIONAL }` the octets `30 03 81 01 ff` (b = `ff`) are read as
    a = TRUE, in BER and DER, without error.  Also the components of a SET, which BER allows in any order, are only read in
    the order in which the parsers are called (C127).
61. An absent OPTIONAL component is not free: the containers look for the end of the element before they look at its tag,
    so a type with `k` optional tagged components reads an element of indefinite length `k` times before it finds that
    none of them is there (C129).
62. Each object is written to a buffer of its own that is copied to the output, so the time of `to_vec` for `k` objects
    inside each other grows with the square of `k` (C130); parsed objects have at most 50 levels.
63. With asn1-rs, finding 43 is about UTCTime: `ber_encode_datetime` writes the year with four digits, so nothing that
    contains a UTCTime (any X.509 certificate) is accepted again after `to_vec`.  A GeneralizedTime is accepted again, but
    `+0100` is written as `Z` with the hour unchanged, and `.05` as `.50`: the time changes without an error (C133).
64. On 32-bit targets a length of 2^32 or more is `InvalidLength`, on 64-bit targets `Incomplete`.  `parse_ber`, `parse_der` and the
    parsers for one tag accept the same inputs nevertheless, but nom's `opt` makes absence out of the first and keeps the
    second as a request for input, so a program with an optional element can accept octets on a 32-bit target,
    `02 85 01 00 00 00 00 05` for example, that it does not accept on a 64-bit target (C135).
65. `to_vec` of a parsed object can be longer than the input: end-of-contents gets a contents octet, a UTCTime four octets,
    and an indefinite length can take one octet more as a definite one, from 2^16 octets of contents on (C136).  A buffer
    of the size of the input is enough only for objects with definite lengths and without times.
66. The text of the pretty printer is linear in the input for `parse_ber` (at most 50 levels), but it grows with the square of
    the number of levels, so a program that raises the limit with `parse_ber_recursive`, or builds deep objects, can print
    much more than it has read (C137).
67. Portability of programs to 32-bit targets: besides `opt` (finding 64), nom's `alt` and `many0` directly on a function of
    the library, `opt(parse_der_sequence_of_v(..))` and a header read alone can accept on one target and not on the other.  All
    composed parsers of the library (including `parse_ber_optional`, which takes every error as absence) are portable, and so is
    `many0(complete(..))` (C138).
68. A SEQUENCE or SET read by components gets a new header: no raw tag, length 0.  Unlike with `parse_ber`, the object does
    not tell where it was in the input, although its components do (C139_header_lost).
69. With BER a SEQUENCE of indefinite length read by components costs more than its value shows: the headers inside are
    read to find the end and again for the components (example after C140_empty).  With DER headers are
    read again only by alternatives and by what follows an absent element.

70. `parse_ber_slice` and `as_slice` lend different octets of a BIT STRING: the first keeps the octet with the number of
    unused bits, the second leaves it out (C142_bit_string).  `as_slice` refuses an OBJECT IDENTIFIER, which only `as_oid` lends.
71. `parse_der_recursive` with limit 0 returns a BIT STRING, because `der_read_element_content_as` reads it before any
    limit is looked at; nothing else is returned, and `parse_ber_recursive` with limit 0 refuses everything (C141_der_limit_zero).
72. A reader of a stream that follows `Incomplete(n)` does work that grows with the square of the size of an element of
    indefinite length: each request is for the next header or its next octet, and each new call begins again
    (C145_indefinite).  For definite lengths all the contents are asked for at once (C145_definite).
    A reader of DER calls the parser at most five times, and its work is linear (C145_der, C145_der_calls).

## 6. Mutation testing

`seeded/run_mutant.py` copies `lean/` to `/tmp/mut`, applies one edit to a model definition, builds, and
replaces proofs that fail by `sorry` (in the copy) until all modules build.  A claimed theorem that does not
depend on `sorryAx` afterwards is still proved for the wrong program.  For each mutant the properties whose English
claim it breaks are written down *before* the run; a property of that list without failing theorem
is a miss and leads to a stronger theorem.  A theorem counted as failing may have failed because a
shared lemma failed, so "failed" is an upper bound; "still proved" is exact.  The file
`seeded/mutants.json` has the edits, `seeded/LOG.jsonl` the results.
