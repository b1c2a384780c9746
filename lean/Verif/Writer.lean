import Verif.Serialize
/-!
# Serialization into any writer: model of the generic functions of /repo/src/ber/serialize.rs

The functions of /repo/src/ber/serialize.rs take any `W: Write + Default + AsRef<[u8]>`.  In
`Verif/Serialize.lean` they are modelled for `Vec<u8>`, which takes everything.  Here `W` is a parameter:
`write` may fail and may take only a part of what it is given, and the buffers of the functions
(`W::default()`) are of the same type as the output.

cookie-factory 0.3 (trusted, from its documentation): `slice` and `be_u8` call `Write::write` once, give
`BufferTooSmall` with the number of octets left over if it takes less than all of them, and `IoError` if it
fails; `tuple` and `many_ref` run their parts in order up to the first error; `gen_simple` runs a function on
a writer and returns the writer.  A writer that failed is dropped by these functions.
-/
namespace Verif
open Outcome

/-- A type `W: Write + Default + AsRef<[u8]>`, the bounds of /repo/src/ber/serialize.rs:70, 80, 100, 116,
181, 197.  `write` is `std::io::Write::write`: the number of octets taken, or an I/O error. -/
structure Writer (σ ε : Type) where
  write : σ → Bytes → Except ε (Nat × σ)
  default : σ
  asRef : σ → Bytes

/-- `cookie_factory::GenError`, the variants that can occur. -/
inductive GenErr (ε : Type) where
  | io (e : ε)
  | tooSmall (missing : Nat)
deriving DecidableEq, Repr

section
variable {σ ε : Type} (W : Writer σ ε)

/-- `cookie_factory::combinator::slice` and, for one octet, `cookie_factory::bytes::be_u8`; used throughout
/repo/src/ber/serialize.rs. -/
def put (bs : Bytes) (s : σ) : Outcome (GenErr ε) σ :=
  match W.write s bs with
  | .error e => .err (.io e)
  | .ok r => if r.1 < bs.length then .err (.tooSmall (bs.length - r.1)) else .ok r.2

/-- `encode_length`, /repo/src/ber/serialize.rs:13-36. -/
def encodeLengthInto (len : Length) (s : σ) : Outcome (GenErr ε) σ :=
  match len with
  | .definite sz =>
    if sz ≤ 0x7f then put W [UInt8.ofNat sz] s
    else
      let v := skipZeroes (toBeBytes 8 sz)
      put W [UInt8.ofNat (128 + v.length)] s >>? put W v
  | .indefinite => put W [0x80] s

/-- `ber_encode_header`, /repo/src/ber/serialize.rs:42-54. -/
def encodeHeaderInto (h : Header) (s : σ) : Outcome (GenErr ε) σ :=
  if 30 < h.tag then .panic
  else
    put W [UInt8.ofNat (h.cls.toNat * 64 + (if h.constructed then 1 else 0) * 32 + h.tag)] s >>?
      encodeLengthInto W h.length

mutual
/-- `ber_encode_object_content`, /repo/src/ber/serialize.rs:116-172. -/
def encodeContentInto (D : Deps) : Content → σ → Outcome (GenErr ε) σ
  | .endOfContent, s => put W [0] s
  | .boolean b, s => put W [if b then 0xff else 0] s
  | .integer bs, s => put W bs s
  | .bitString u bs, s => put W [u] s >>? put W bs
  | .octetString bs, s => put W bs s
  | .null, s => .ok s
  | .enum n, s => put W (skipZeroes (toBeBytes 8 n)) s
  | .oid bs, s => put W bs s
  | .relativeOid bs, s => put W bs s
  | .utcTime t, s => put W (D.display t) s
  | .generalizedTime t, s => put W (D.display t) s
  | .str _ bs, s => put W bs s
  | .bmpString bs, s => put W bs s
  | .universalString bs, s => put W bs s
  | .sequence l, s => encodeListInto D l s
  | .set l, s => encodeListInto D l s
  | .optionalSome o, s => encodeInnerContentInto D o s
  | .optionalNone, s => put W [] s
  | .tagged _ _ o, s => encodeObjectInto D o s
  | .unknown a, s => put W a.data s
/-- `ber_encode_object`, /repo/src/ber/serialize.rs:197-208: content and header go to buffers first. -/
def encodeObjectInto (D : Deps) : BerObject → σ → Outcome (GenErr ε) σ
  | .mk h c, s =>
    encodeContentInto D c W.default >>? fun v =>
      encodeHeaderInto W { h with length := .definite (W.asRef v).length } W.default >>? fun vh =>
        put W (W.asRef vh) s >>? put W (W.asRef v)
/-- `ber_encode_object_content(&obj.content)(out)`, /repo/src/ber/serialize.rs:161. -/
def encodeInnerContentInto (D : Deps) : BerObject → σ → Outcome (GenErr ε) σ
  | .mk _ c, s => encodeContentInto D c s
/-- `ber_encode_sequence`, /repo/src/ber/serialize.rs:70-74. -/
def encodeListInto (D : Deps) : List BerObject → σ → Outcome (GenErr ε) σ
  | [], s => .ok s
  | o :: os, s => encodeObjectInto D o s >>? encodeListInto D os
end

/-- `ber_encode_object_raw`, /repo/src/ber/serialize.rs:181-186: no buffers. -/
def encodeObjectRawInto (D : Deps) (h : Header) (c : Content) (s : σ) : Outcome (GenErr ε) σ :=
  encodeHeaderInto W h s >>? encodeContentInto W D c

/-- `ber_encode_tagged_explicit`, /repo/src/ber/serialize.rs:80-94. -/
def encodeTaggedExplicitInto (D : Deps) (tag : Nat) (cls : Class) (o : BerObject) (s : σ) :
    Outcome (GenErr ε) σ :=
  encodeObjectInto W D o W.default >>? fun v =>
    encodeHeaderInto W (Header.new cls true tag (.definite (W.asRef v).length)) W.default >>? fun vh =>
      put W (W.asRef vh) s >>? put W (W.asRef v)

/-- `ber_encode_tagged_implicit`, /repo/src/ber/serialize.rs:100-114. -/
def encodeTaggedImplicitInto (D : Deps) (tag : Nat) (cls : Class) (o : BerObject) (s : σ) :
    Outcome (GenErr ε) σ :=
  encodeContentInto W D o.content W.default >>? fun v =>
    encodeHeaderInto W (Header.new cls o.header.constructed tag (.definite (W.asRef v).length)) W.default >>?
      fun vh => put W (W.asRef vh) s >>? put W (W.asRef v)

end

/-- `Vec<u8>` as a writer: `BerObject::to_vec`, /repo/src/ber/serialize.rs:220-222, starts from `Vec::new()`. -/
def vecWriter : Writer Bytes Empty where
  write s bs := .ok (bs.length, s ++ bs)
  default := []
  asRef s := s

end Verif
