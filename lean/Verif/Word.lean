import Verif.Visit
import Verif.Serialize
/-!
# Machine words

The other files compute with unbounded numbers.  Here the computations of /repo that can exceed a `usize`
are modelled again for a target with a given word size, with or without overflow checks: the bit count of
a BIT STRING (/repo/src/ber/parser.rs:81), the position of the iterators (/repo/src/ber/ber.rs:797, 824),
the depth of the visitors (/repo/src/ber/visit.rs:157, 163), and the octets of a length that is written
(/repo/src/ber/serialize.rs:22-28).
-/
namespace Verif
open Outcome

/-- A compilation target: the width of `usize`, and whether `+` and `*` panic when they overflow (the
default for debug builds) or wrap around (the default for release builds; /repo/Cargo.toml sets no
profile). -/
structure Target where
  bits : Nat
  checked : Bool
deriving DecidableEq, Repr

/-- The `usize` that Rust computes where the mathematical result of a sum or product is `n`. -/
def Target.word {ε : Type} (t : Target) (n : Nat) : Outcome ε Nat :=
  if n < 2 ^ t.bits then .ok n else if t.checked then .panic else .ok (n % 2 ^ t.bits)

/-- `bitstring_to_u64`, /repo/src/ber/parser.rs:76-99, on a target.  `raw_bytes.len() * 8` (L81) is the
only operation that can overflow: `num_bytes` (L88-92) is at most 9. -/
def bitstringToU64W (t : Target) (padding : Nat) (data : Bytes) : Res Nat :=
  t.word (data.length * 8) >>? fun total =>
    if total < padding then .err .invalidLength
    else
      let bitSize := total - padding
      if 64 < bitSize then .err .integerTooLarge
      else
        let pad := padding % 8
        let numBytes := if 0 < bitSize % 8 then bitSize / 8 + 1 else bitSize / 8
        if data.length < numBytes then .panic
        else .ok (shiftOr64 (data.take numBytes) / 2 ^ pad)

/-- `as_u64` on a target, /repo/src/ber/ber.rs:466-478. -/
def Content.asU64W (t : Target) : Content → Res Nat
  | .integer i => (decodeArrayUint 8 i).map beNat
  | .bitString u d => bitstringToU64W t u.toNat d
  | .enum n => .ok n
  | _ => .err .berTypeError

/-- `as_u32` on a target, /repo/src/ber/ber.rs:495-519. -/
def Content.asU32W (t : Target) : Content → Res Nat
  | .integer i => (decodeArrayUint 4 i).map beNat
  | .bitString u d =>
    bitstringToU64W t u.toNat d >>? fun x =>
      if 4294967295 < x then .err .integerTooLarge else .ok x
  | .enum n => if 4294967295 < n then .err .integerTooLarge else .ok n
  | _ => .err .berTypeError

/-- `BerObjectRefIterator::next` on a target, /repo/src/ber/ber.rs:818-826: `self.idx += 1` (L824). -/
def RefIter.nextW (t : Target) (it : RefIter) : Outcome Empty (Option BerObject × RefIter) :=
  t.word (it.idx + 1) >>? fun i => .ok (it.next.1, { it with idx := i })

/-- `BerObjectIntoIterator::next` on a target, /repo/src/ber/ber.rs:780-799: `self.idx += 1` (L797). -/
def IntoIter.nextW (t : Target) (it : IntoIter) : Outcome Empty (Option BerObject × IntoIter) :=
  t.word (it.idx + 1) >>? fun i => .ok (it.next.1, { it with idx := i })

mutual
/-- `visit_ber_bfs` on a target, /repo/src/ber/visit.rs:124-177. -/
def visitObjW {σ : Type} (t : Target) (v : Visitor σ) : BerObject → Nat → σ → Outcome Empty σ
  | .mk h c, depth, s => visitContentW t v c depth (v.visitBer (.mk h c) depth s)
/-- The `match ber.content` of /repo/src/ber/visit.rs:130-176. -/
def visitContentW {σ : Type} (t : Target) (v : Visitor σ) : Content → Nat → σ → Outcome Empty σ
  | .sequence l, depth, s => visitListW t v l depth (v.callback .sequence (.sequence l) depth s)
  | .set l, depth, s => visitListW t v l depth (v.callback .set (.set l) depth s)
  | c, depth, s => .ok (v.callback (cbName c) c depth s)
/-- The loops of /repo/src/ber/visit.rs:156-158 and 162-164; `depth + 1` is computed for each item. -/
def visitListW {σ : Type} (t : Target) (v : Visitor σ) : List BerObject → Nat → σ → Outcome Empty σ
  | [], _, s => .ok s
  | o :: os, depth, s =>
    t.word (depth + 1) >>? fun d => visitObjW t v o d s >>? fun s => visitListW t v os depth s
end

/-- `encode_length` on a target, /repo/src/ber/serialize.rs:13-36: `usize::to_be_bytes` (L22-23) gives as
many octets as a word has. -/
def encodeLengthW (t : Target) : Length → Bytes
  | .definite sz =>
    if sz ≤ 0x7f then [UInt8.ofNat sz]
    else
      let v := skipZeroes (toBeBytes (t.bits / 8) sz)
      UInt8.ofNat (128 + v.length) :: v
  | .indefinite => [0x80]

end Verif
