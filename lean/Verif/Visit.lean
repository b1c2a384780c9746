import Verif.Object
/-!
# Visitors: model of /repo/src/ber/visit.rs and /repo/src/ber/visit_mut.rs
-/
namespace Verif
open Outcome

/-- Names of the type-specific callbacks of `Visit` (/repo/src/ber/visit.rs:23-105). -/
inductive CbName where
  | bitstring | bmpstring | boolean | endofcontent | enum | generalstring | generalizedtime
  | graphicstring | ia5string | integer | null | numericstring | oid | objectdescriptor
  | octetstring | optional | printablestring | relativeOid | sequence | set | teletexstring
  | tagged | utctime | utf8string | universalstring | videotextstring | visiblestring | unknown
deriving DecidableEq, Repr

/-- The callback selected by the `match` of /repo/src/ber/visit.rs:130-176 (and, with `_mut`
names, /repo/src/ber/visit_mut.rs:144-190). -/
def cbName : Content → CbName
  | .bitString _ _ => .bitstring
  | .bmpString _ => .bmpstring
  | .boolean _ => .boolean
  | .endOfContent => .endofcontent
  | .enum _ => .enum
  | .str .general _ => .generalstring
  | .generalizedTime _ => .generalizedtime
  | .str .graphic _ => .graphicstring
  | .str .ia5 _ => .ia5string
  | .integer _ => .integer
  | .null => .null
  | .str .numeric _ => .numericstring
  | .oid _ => .oid
  | .str .objectDescriptor _ => .objectdescriptor
  | .octetString _ => .octetstring
  | .optionalNone => .optional
  | .optionalSome _ => .optional
  | .str .printable _ => .printablestring
  | .relativeOid _ => .relativeOid
  | .sequence _ => .sequence
  | .set _ => .set
  | .str .t61 _ => .teletexstring
  | .tagged _ _ _ => .tagged
  | .utcTime _ => .utctime
  | .str .utf8 _ => .utf8string
  | .universalString _ => .universalstring
  | .unknown _ => .unknown
  | .str .videotex _ => .videotextstring
  | .str .visible _ => .visiblestring

/-- A `Visit` implementation with state `σ`: `visit_ber` and the type-specific methods, which
receive the payload of the content (here: the content itself) and the depth.
/repo/src/ber/visit.rs:19-105. -/
structure Visitor (σ : Type) where
  visitBer : BerObject → Nat → σ → σ
  callback : CbName → Content → Nat → σ → σ

mutual
/-- `visit_ber_bfs`, /repo/src/ber/visit.rs:124-177. -/
def visitObj {σ : Type} (v : Visitor σ) : BerObject → Nat → σ → σ
  | .mk h c, depth, s =>
    let s := v.visitBer (.mk h c) depth s
    visitContent v c depth s
/-- The `match ber.content` of /repo/src/ber/visit.rs:130-176. -/
def visitContent {σ : Type} (v : Visitor σ) : Content → Nat → σ → σ
  | .sequence l, depth, s =>
    visitList v l (depth + 1) (v.callback .sequence (.sequence l) depth s)
  | .set l, depth, s =>
    visitList v l (depth + 1) (v.callback .set (.set l) depth s)
  | c, depth, s => v.callback (cbName c) c depth s
/-- The `for item in l.iter()` loops, /repo/src/ber/visit.rs:156-158, 162-164. -/
def visitList {σ : Type} (v : Visitor σ) : List BerObject → Nat → σ → σ
  | [], _, s => s
  | o :: os, depth, s => visitList v os depth (visitObj v o depth s)
end

/-- `Visit::run_at`, /repo/src/ber/visit.rs:119-121. -/
def Visitor.runAt {σ : Type} (v : Visitor σ) (o : BerObject) (depth : Nat) (s : σ) : σ :=
  visitObj v o depth s

/-- `Visit::run`, /repo/src/ber/visit.rs:110-112. -/
def Visitor.run {σ : Type} (v : Visitor σ) (o : BerObject) (s : σ) : σ := visitObj v o 0 s

/-! ## Mutable visitor -/

/-- A `VisitMut` implementation with state `σ` (/repo/src/ber/visit_mut.rs:20-119): callbacks
return the new state and the new value of what they received by `&mut`. -/
structure MutVisitor (σ : Type) where
  visitBer : BerObject → Nat → σ → σ × BerObject
  callback : CbName → Content → Nat → σ → σ × Content

/-- What a type-specific callback can change: it gets `&mut` references to the payload, so the
variant cannot change; times, UTF8String and OCTET STRING payloads are passed by shared
reference (/repo/src/ber/visit_mut.rs:49, 73, 104, 107) and cannot change at all. -/
def writeBack : Content → Content → Content
  | .bitString _ _, .bitString u d => .bitString u d
  | .bmpString _, .bmpString s => .bmpString s
  | .boolean _, .boolean b => .boolean b
  | .enum _, .enum n => .enum n
  | .str k s, .str k' s' => if k = k' ∧ k ≠ .utf8 then .str k s' else .str k s
  | .integer _, .integer s => .integer s
  | .oid _, .oid s => .oid s
  | .relativeOid _, .relativeOid s => .relativeOid s
  | .optionalSome _, .optionalSome o => .optionalSome o
  | .sequence _, .sequence l => .sequence l
  | .set _, .set l => .set l
  | .tagged _ _ _, .tagged c t o => .tagged c t o
  | .universalString _, .universalString s => .universalString s
  | .unknown _, .unknown a => .unknown a
  | old, _ => old

/-- The loop `for item in l.iter_mut()` of /repo/src/ber/visit_mut.rs:170-172, 176-178. -/
def visitMutList {σ : Type} (visit : BerObject → σ → Outcome Empty (σ × BerObject)) :
    List BerObject → σ → Outcome Empty (σ × List BerObject)
  | [], s => .ok (s, [])
  | o :: os, s =>
    visit o s >>? fun r =>
      visitMutList visit os r.1 >>? fun q => .ok (q.1, r.2 :: q.2)

/-- `visit_ber_bfs_mut`, /repo/src/ber/visit_mut.rs:138-191.  The recursion follows the mutated
tree, so it runs on fuel (a visitor that keeps adding children never returns). -/
def visitMutObj {σ : Type} (v : MutVisitor σ) :
    Nat → BerObject → Nat → σ → Outcome Empty (σ × BerObject)
  | 0, _, _, _ => .diverge
  | fuel + 1, o, depth, s =>
    let r := v.visitBer o depth s
    let q := v.callback (cbName r.2.content) r.2.content depth r.1
    let c := writeBack r.2.content q.2
    match c with
    | .sequence l =>
      visitMutList (fun o s => visitMutObj v fuel o (depth + 1) s) l q.1 >>? fun t =>
        .ok (t.1, .mk r.2.header (.sequence t.2))
    | .set l =>
      visitMutList (fun o s => visitMutObj v fuel o (depth + 1) s) l q.1 >>? fun t =>
        .ok (t.1, .mk r.2.header (.set t.2))
    | c => .ok (q.1, .mk r.2.header c)

/-- `VisitMut::run_at`, /repo/src/ber/visit_mut.rs:133-135. -/
def MutVisitor.runAt {σ : Type} (v : MutVisitor σ) (fuel : Nat) (o : BerObject) (depth : Nat) (s : σ) :
    Outcome Empty (σ × BerObject) := visitMutObj v fuel o depth s

/-- `VisitMut::run`, /repo/src/ber/visit_mut.rs:124-126. -/
def MutVisitor.run {σ : Type} (v : MutVisitor σ) (fuel : Nat) (o : BerObject) (s : σ) :
    Outcome Empty (σ × BerObject) := visitMutObj v fuel o 0 s

end Verif
