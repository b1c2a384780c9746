import Verif.Slice
/-!
# Where the parts of a parsed object lie

Written from the layout of an encoding (X.690 8.1.1: identifier octets, length octets, contents
octets, end-of-contents octets, in this order and with nothing between them), not from the parser.
-/
namespace Verif.Spec

/-- The slice lies in the memory. -/
def InMemory (mem : Bytes) (s : Slice) : Prop := s.off + s.len ≤ mem.length

/-- `s` is a part of `e`. -/
def PartOf (s e : Slice) : Prop := e.off ≤ s.off ∧ s.off + s.len ≤ e.off + e.len

/-- `s` ends before `t` begins, or where it begins. -/
def EndsBefore (s t : Slice) : Prop := s.off + s.len ≤ t.off

/-- The element `e` consists of identifier octets, to which the raw tag of `h` points, at least one
length octet, the contents `c`, whose number is the one announced, and nothing else but the two
end-of-contents octets if the length is indefinite. -/
structure FramedAt (e : Slice) (h : SHeader) (c : Slice) : Prop where
  raw : ∃ k, h.rawTag = some ⟨e.off, k⟩ ∧ 0 < k ∧ e.off + k < c.off
  last : match h.length with
    | .definite l => c.len = l ∧ c.off + c.len = e.off + e.len
    | .indefinite => c.off + c.len + 2 = e.off + e.len

/-- Contents that are not divided into members are the whole of the contents octets; for a BIT
STRING, all but the first one.  The header in an `Unknown` is the one of the object or points to
nothing. -/
def WholeAt (h : SHeader) (c : Slice) : SContent → Prop
  | .endOfContent | .boolean _ | .null | .enum _ | .utcTime _ | .generalizedTime _ => True
  | .integer s | .octetString s | .oid s | .relativeOid s | .str _ s | .bmpString s
  | .universalString s => s = c
  | .bitString _ s => 0 < c.len ∧ s = ⟨c.off + 1, c.len - 1⟩
  | .unknown a => a.data = c ∧ (a.header = h ∨ a.header.rawTag = none)
  | .sequence _ | .set _ | .optionalNone | .optionalSome _ | .tagged _ _ _ => False

mutual
/-- The object `o` lies in the element `e`. -/
inductive Placed : Slice → SObject → Prop
  | mk {e c : Slice} {h : SHeader} {x : SContent} :
    FramedAt e h c → ContentAt h c x → Placed e (.mk h x)
/-- The contents, whose header is `h`, lie in the contents octets `c`. -/
inductive ContentAt : SHeader → Slice → SContent → Prop
  | whole {h : SHeader} {c : Slice} {x : SContent} : WholeAt h c x → ContentAt h c x
  | sequence {h : SHeader} {c : Slice} {l : List SObject} :
    MembersAt c l → ContentAt h c (.sequence l)
  | set {h : SHeader} {c : Slice} {l : List SObject} : MembersAt c l → ContentAt h c (.set l)
/-- The members lie one after the other and together make up all of `c`. -/
inductive MembersAt : Slice → List SObject → Prop
  | nil {off : Nat} : MembersAt ⟨off, 0⟩ []
  | cons {off n m : Nat} {o : SObject} {l : List SObject} :
    Placed ⟨off, n⟩ o → MembersAt ⟨off + n, m⟩ l → MembersAt ⟨off, n + m⟩ (o :: l)
end

mutual
/-- All slices in an object, in the order of the fields.  The header in an `Unknown` is left out, see
`WholeAt`, and so is the header of the object in an `Optional`, which is the one of the optional object
itself. -/
def slices : SObject → List Slice
  | .mk h c => h.rawTag.toList ++ contentSlices c
/-- All slices in contents. -/
def contentSlices : SContent → List Slice
  | .endOfContent | .boolean _ | .null | .enum _ | .utcTime _ | .generalizedTime _ | .optionalNone => []
  | .integer s | .octetString s | .oid s | .relativeOid s | .str _ s | .bmpString s
  | .universalString s | .bitString _ s => [s]
  | .sequence l | .set l => memberSlices l
  | .optionalSome (.mk _ c) => contentSlices c
  | .tagged _ _ o => slices o
  | .unknown a => [a.data]
/-- All slices in the members of a list. -/
def memberSlices : List SObject → List Slice
  | [] => []
  | o :: l => slices o ++ memberSlices l
end

/-! ## The same at another address -/

/-- The slice `d` octets further on. -/
def moveSlice (d : Nat) (s : Slice) : Slice := ⟨s.off + d, s.len⟩

/-- The header with its slice moved. -/
def moveHeader (d : Nat) (h : SHeader) : SHeader := { h with rawTag := h.rawTag.map (moveSlice d) }

/-- The `Any` with its slices moved. -/
def moveAny (d : Nat) (a : SAny) : SAny := ⟨moveHeader d a.header, moveSlice d a.data⟩

mutual
/-- The object with all its slices moved. -/
def moveObject (d : Nat) : SObject → SObject
  | .mk h c => .mk (moveHeader d h) (moveContent d c)
/-- The contents with all their slices moved. -/
def moveContent (d : Nat) : SContent → SContent
  | .integer s => .integer (moveSlice d s)
  | .bitString u s => .bitString u (moveSlice d s)
  | .octetString s => .octetString (moveSlice d s)
  | .oid s => .oid (moveSlice d s)
  | .relativeOid s => .relativeOid (moveSlice d s)
  | .str k s => .str k (moveSlice d s)
  | .bmpString s => .bmpString (moveSlice d s)
  | .universalString s => .universalString (moveSlice d s)
  | .sequence l => .sequence (moveMembers d l)
  | .set l => .set (moveMembers d l)
  | .unknown a => .unknown (moveAny d a)
  | .endOfContent => .endOfContent
  | .boolean b => .boolean b
  | .null => .null
  | .enum n => .enum n
  | .utcTime t => .utcTime t
  | .generalizedTime t => .generalizedTime t
  | .optionalNone => .optionalNone
  | .optionalSome o => .optionalSome (moveObject d o)
  | .tagged cls tag o => .tagged cls tag (moveObject d o)
/-- `moveObject` on a list. -/
def moveMembers (d : Nat) : List SObject → List SObject
  | [] => []
  | o :: l => moveObject d o :: moveMembers d l
end

end Verif.Spec
