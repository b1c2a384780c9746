import Verif.SpecPlace
import Verif.Schema
/-!
# Where the parts of an object read by a composed parser lie

As in `Verif/SpecPlace.lean`, from the layout of an encoding.  The slice of a composition is what it
reads; components that are absent read nothing.
-/
namespace Verif.Spec

/-- A header that was not read from the input. -/
def BuiltHeader (h : SHeader) : Prop := h.rawTag = none

mutual
/-- The object lies in the element `e` as the composition says. -/
inductive SchemaAt : Schema → Slice → SObject → Prop
  | any {e : Slice} {o : SObject} : Placed e o → SchemaAt .any e o
  | typed {tag : Nat} {e : Slice} {h : SHeader} {x : SContent} :
    Placed e (.mk h x) → h.tag = tag → SchemaAt (.typed tag) e (.mk h x)
  | choice {tag : Nat} {tags : List Nat} {e : Slice} {h : SHeader} {x : SContent} :
    Placed e (.mk h x) → h.tag ∈ tag :: tags → SchemaAt (.choice tag tags) e (.mk h x)
  /-- The elements of a SEQUENCE OF lie one after the other and make up all of the contents. -/
  | sequenceOf {s : Schema} {e c : Slice} {h h' : SHeader} {l : List SObject} :
    FramedAt e h c → h.tag = 16 → ItemsAt s c l → BuiltHeader h' →
    SchemaAt (.sequenceOf s) e (.mk h' (.sequence l))
  | setOf {s : Schema} {e c : Slice} {h h' : SHeader} {l : List SObject} :
    FramedAt e h c → h.tag = 17 → ItemsAt s c l → BuiltHeader h' →
    SchemaAt (.setOf s) e (.mk h' (.set l))
  /-- The components of a SEQUENCE lie one after the other at the start of the contents. -/
  | sequence {ss : List Schema} {e c : Slice} {n : Nat} {h h' : SHeader} {l : List SObject} :
    FramedAt e h c → h.tag = 16 → n ≤ c.len → ComponentsAt ss ⟨c.off, n⟩ l → BuiltHeader h' →
    SchemaAt (.sequence ss) e (.mk h' (.sequence l))
  | set {ss : List Schema} {e c : Slice} {n : Nat} {h h' : SHeader} {l : List SObject} :
    FramedAt e h c → h.tag = 17 → n ≤ c.len → ComponentsAt ss ⟨c.off, n⟩ l → BuiltHeader h' →
    SchemaAt (.set ss) e (.mk h' (.set l))
  /-- The object of an explicit tag lies at the start of the contents. -/
  | explicit {s : Schema} {tag : Nat} {e c : Slice} {n : Nat} {h : SHeader} {o : SObject} :
    FramedAt e h c → h.cls ≠ .universal → h.tag = tag → n ≤ c.len → SchemaAt s ⟨c.off, n⟩ o →
    SchemaAt (.explicit tag s) e (.mk h (.tagged h.cls tag o))
  /-- The contents of an implicit tag are all of the contents; if the length is indefinite, they end
  before end-of-contents octets among them. -/
  | implicit {tag type : Nat} {e c : Slice} {n : Nat} {h : SHeader} {x : SContent} :
    FramedAt e h c → h.tag = tag →
    (match h.length with
      | .definite _ => n = c.len
      | .indefinite => n + 2 ≤ c.len) →
    ContentAt h ⟨c.off, n⟩ x → SchemaAt (.implicit tag type) e (.mk h x)
  /-- An optional object has the header of the object in it. -/
  | present {s : Schema} {e : Slice} {o : SObject} :
    SchemaAt s e o → SchemaAt (.optional s) e (.mk o.header (.optionalSome o))
  | absent {s : Schema} {off : Nat} {h : SHeader} :
    BuiltHeader h → SchemaAt (.optional s) ⟨off, 0⟩ (.mk h .optionalNone)
  | explicitPresent {s : Schema} {tag : Nat} {e : Slice} {o : SObject} :
    SchemaAt (.explicit tag s) e o →
    SchemaAt (.explicitOptional tag s) e (.mk o.header (.optionalSome o))
  | explicitAbsent {s : Schema} {tag off : Nat} {h : SHeader} :
    BuiltHeader h → SchemaAt (.explicitOptional tag s) ⟨off, 0⟩ (.mk h .optionalNone)
/-- The objects lie one after the other, each in octets of its own, and together make up all of `c`. -/
inductive ItemsAt : Schema → Slice → List SObject → Prop
  | nil {s : Schema} {off : Nat} : ItemsAt s ⟨off, 0⟩ []
  | cons {s : Schema} {off n m : Nat} {o : SObject} {l : List SObject} :
    0 < n → SchemaAt s ⟨off, n⟩ o → ItemsAt s ⟨off + n, m⟩ l → ItemsAt s ⟨off, n + m⟩ (o :: l)
/-- The components lie one after the other and together make up all of `c`. -/
inductive ComponentsAt : List Schema → Slice → List SObject → Prop
  | nil {off : Nat} : ComponentsAt [] ⟨off, 0⟩ []
  | cons {s : Schema} {ss : List Schema} {off n m : Nat} {o : SObject} {l : List SObject} :
    SchemaAt s ⟨off, n⟩ o → ComponentsAt ss ⟨off + n, m⟩ l → ComponentsAt (s :: ss) ⟨off, n + m⟩ (o :: l)
end

end Verif.Spec
