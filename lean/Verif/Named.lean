import Verif.Der
import Verif.Object
/-! The parsing functions of `/repo/src/ber/parser.rs` and `/repo/src/der/parser.rs` that are named
after a type, and the remaining accessors of `/repo/src/ber/ber.rs`. -/
namespace Verif

/-- The types that have a function `parse_ber_xxx` (/repo/src/ber/parser.rs:249-443) and
`parse_der_xxx` (/repo/src/der/parser.rs:86-299). -/
inductive TypeName where
  | endofcontent | bool | integer | bitstring | octetstring | null | oid | enum | utf8string
  | relativeOid | sequence | set | numericstring | visiblestring | printablestring | t61string
  | videotexstring | ia5string | utctime | generalizedtime | objectdescriptor | graphicstring
  | generalstring | bmpstring | universalstring
deriving DecidableEq, Repr

/-- `parse_ber_<name>`, /repo/src/ber/parser.rs:249-443; the line of each function is on its arm. -/
def parseBerNamed (D : Deps) : TypeName → Bytes → IRes BerError BerObject
  | .endofcontent => parseBerWithTag D Tag.endOfContent          -- 249-251
  | .bool => parseBerWithTag D Tag.boolean                       -- 261-263
  | .integer => parseBerWithTag D Tag.integer                    -- 292-294
  | .bitstring => parseBerWithTag D Tag.bitString                -- 298-300
  | .octetstring => parseBerWithTag D Tag.octetString            -- 304-306
  | .null => parseBerWithTag D Tag.null                          -- 310-312
  | .oid => parseBerWithTag D Tag.oid                            -- 316-318
  | .enum => parseBerWithTag D Tag.enumerated                    -- 322-324
  | .utf8string => parseBerWithTag D Tag.utf8String              -- 328-330
  | .relativeOid => parseBerWithTag D Tag.relativeOid            -- 334-336
  | .sequence => parseBerWithTag D Tag.sequence                  -- 347-349
  | .set => parseBerWithTag D Tag.set                            -- 360-362
  | .numericstring => parseBerWithTag D Tag.numericString        -- 367-369
  | .visiblestring => parseBerWithTag D Tag.visibleString        -- 374-376
  | .printablestring => parseBerWithTag D Tag.printableString    -- 381-383
  | .t61string => parseBerWithTag D Tag.teletexString            -- 387-389
  | .videotexstring => parseBerWithTag D Tag.videotexString      -- 393-395
  | .ia5string => parseBerWithTag D Tag.ia5String                -- 399-401
  | .utctime => parseBerWithTag D Tag.utcTime                    -- 405-407
  | .generalizedtime => parseBerWithTag D Tag.generalizedTime    -- 411-413
  | .objectdescriptor => parseBerWithTag D Tag.objectDescriptor  -- 417-419
  | .graphicstring => parseBerWithTag D Tag.graphicString        -- 423-425
  | .generalstring => parseBerWithTag D Tag.generalString        -- 429-431
  | .bmpstring => parseBerWithTag D Tag.bmpString                -- 435-437
  | .universalstring => parseBerWithTag D Tag.universalString    -- 441-443

/-- `parse_der_<name>`, /repo/src/der/parser.rs:86-299; the line of each function is on its arm.
(The deprecated `visiblestring`, 230-232, calls `parse_der_visiblestring`.) -/
def parseDerNamed (D : Deps) : TypeName → Bytes → IRes BerError BerObject
  | .endofcontent => parseDerWithTag D Tag.endOfContent          -- 86-88
  | .bool => parseDerWithTag D Tag.boolean                       -- 98-100
  | .integer => parseDerWithTag D Tag.integer                    -- 127-129
  | .bitstring => parseDerWithTag D Tag.bitString                -- 148-150
  | .octetstring => parseDerWithTag D Tag.octetString            -- 154-156
  | .null => parseDerWithTag D Tag.null                          -- 160-162
  | .oid => parseDerWithTag D Tag.oid                            -- 166-168
  | .enum => parseDerWithTag D Tag.enumerated                    -- 172-174
  | .utf8string => parseDerWithTag D Tag.utf8String              -- 178-180
  | .relativeOid => parseDerWithTag D Tag.relativeOid            -- 184-186
  | .sequence => parseDerWithTag D Tag.sequence                  -- 197-199
  | .set => parseDerWithTag D Tag.set                            -- 210-212
  | .numericstring => parseDerWithTag D Tag.numericString        -- 217-219
  | .visiblestring => parseDerWithTag D Tag.visibleString        -- 224-226
  | .printablestring => parseDerWithTag D Tag.printableString    -- 237-239
  | .t61string => parseDerWithTag D Tag.teletexString            -- 243-245
  | .videotexstring => parseDerWithTag D Tag.videotexString      -- 249-251
  | .ia5string => parseDerWithTag D Tag.ia5String                -- 255-257
  | .utctime => parseDerWithTag D Tag.utcTime                    -- 261-263
  | .generalizedtime => parseDerWithTag D Tag.generalizedTime    -- 267-269
  | .objectdescriptor => parseDerWithTag D Tag.objectDescriptor  -- 273-275
  | .graphicstring => parseDerWithTag D Tag.graphicString        -- 279-281
  | .generalstring => parseDerWithTag D Tag.generalString        -- 285-287
  | .bmpstring => parseDerWithTag D Tag.bmpString                -- 291-293
  | .universalstring => parseDerWithTag D Tag.universalString    -- 297-299

/-- `bitvec::BitSlice<u8, Msb0>` over a byte slice: the bits of each byte, most significant first.
`try_from_slice` fails only for slices of 2^61 bytes or more (external crate `bitvec`), which is
not modelled. -/
def msb0Bits : Bytes → List Bool
  | [] => []
  | b :: bs =>
    [b &&& 0x80 != 0, b &&& 0x40 != 0, b &&& 0x20 != 0, b &&& 0x10 != 0,
      b &&& 0x08 != 0, b &&& 0x04 != 0, b &&& 0x02 != 0, b &&& 0x01 != 0] ++ msb0Bits bs

/-- `BitStringObject::as_bitslice`, /repo/src/ber/ber.rs:871-873. -/
def bitStringAsBitslice (data : Bytes) : Option (List Bool) := some (msb0Bits data)

/-- `BerObjectContent::as_bitslice` / `BerObject::as_bitslice`, /repo/src/ber/ber.rs:571-575 and
275-277: the bits of `as_slice`. -/
def Content.asBitslice (c : Content) : Res (List Bool) := c.asSlice >>? fun s => .ok (msb0Bits s)

/-- `From<Oid> for BerObject`, /repo/src/ber/ber.rs:384-388. -/
def BerObject.ofOid (oid : Bytes) : BerObject := .fromObj (.oid oid)

end Verif
