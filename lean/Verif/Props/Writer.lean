import Verif.Writer
import Verif.Tests
/-!
# C113: serialization into any writer
-/
namespace Verif
open Outcome

namespace Spec

/-- The states `B` of a writer are buffers: an empty one to begin with, and what is written is taken
completely and kept at the end. -/
structure Buffers {σ ε : Type} (W : Writer σ ε) (B : σ → Prop) : Prop where
  start : B W.default
  empty : W.asRef W.default = []
  append : ∀ s bs, B s → ∃ s', W.write s bs = .ok (bs.length, s') ∧ B s' ∧ W.asRef s' = W.asRef s ++ bs

/-- A writer that keeps what it takes and takes at least one octet of any that are offered, as the contract
of `std::io::Write::write` allows. -/
structure Progress {σ ε : Type} (W : Writer σ ε) : Prop where
  empty : W.asRef W.default = []
  append : ∀ s bs, ∃ n s', W.write s bs = .ok (n, s') ∧ n ≤ bs.length ∧ (bs ≠ [] → 0 < n) ∧
    W.asRef s' = W.asRef s ++ bs.take n

end Spec

open Spec

/-! ## Buffers -/

section
variable {σ ε : Type} {W : Writer σ ε} {B : σ → Prop}

/-- `r`, started on the buffer `s`, adds what `x` says. -/
def Wrote (W : Writer σ ε) (B : σ → Prop) (s : σ) (r : Outcome (GenErr ε) σ) (x : Outcome Empty Bytes) : Prop :=
  match x with
  | .ok v => ∃ s', r = .ok s' ∧ B s' ∧ W.asRef s' = W.asRef s ++ v
  | .panic => r = .panic
  | _ => False

theorem put_wrote (hB : Buffers W B) (bs : Bytes) {s : σ} (hs : B s) : Wrote W B s (put W bs s) (.ok bs) := by
  obtain ⟨s', h1, h2, h3⟩ := hB.append s bs hs
  exact ⟨s', by rw [put, h1]; simp, h2, h3⟩

theorem wrote_bind {s : σ} {r : Outcome (GenErr ε) σ} {x : Outcome Empty Bytes} {f : σ → Outcome (GenErr ε) σ}
    {y : Outcome Empty Bytes} (h : Wrote W B s r x) (hf : ∀ s', B s' → Wrote W B s' (f s') y) :
    Wrote W B s (r >>? f) (x >>? fun a => y >>? fun b => .ok (a ++ b)) := by
  cases x with
  | ok v =>
    obtain ⟨s', rfl, h2, h3⟩ := h
    have := hf s' h2
    cases y with
    | ok w =>
      obtain ⟨s'', h4, h5, h6⟩ := this
      exact ⟨s'', h4, h5, by rw [h6, h3, List.append_assoc]⟩
    | panic => exact this
    | err e => exact this.elim
    | diverge => exact this.elim
  | panic => cases h; rfl
  | err e => exact h.elim
  | diverge => exact h.elim

theorem encodeLengthInto_wrote (hB : Buffers W B) (l : Length) {s : σ} (hs : B s) :
    Wrote W B s (encodeLengthInto W l s) (.ok (encodeLength l)) := by
  cases l with
  | definite sz =>
    unfold encodeLengthInto encodeLength
    dsimp only
    split
    · exact put_wrote hB _ hs
    · exact wrote_bind (put_wrote hB _ hs) fun s' h' => put_wrote hB _ h'
  | indefinite => exact put_wrote hB _ hs

theorem encodeHeaderInto_wrote (hB : Buffers W B) (h : Header) {s : σ} (hs : B s) :
    Wrote W B s (encodeHeaderInto W h s) (encodeHeader h) := by
  unfold encodeHeaderInto encodeHeader
  split
  · rfl
  · exact wrote_bind (put_wrote hB _ hs) fun s' h' => encodeLengthInto_wrote hB _ h'

/-- The two parts, given the octets of the contents. -/
def twoParts (W : Writer σ ε) (mkH : Nat → Header) (x : Outcome Empty Bytes) (s : σ) : Outcome (GenErr ε) σ :=
  match x with
  | .ok v =>
    (match encodeHeader (mkH v.length) with
    | .ok vh => put W vh s >>? put W v
    | _ => .panic)
  | _ => .panic

/-- Two buffers filled and written out one after the other. -/
theorem twoBuffers (hB : Buffers W B) {r : Outcome (GenErr ε) σ} {x : Outcome Empty Bytes} (mkH : Nat → Header)
    (h : Wrote W B W.default r x) (s : σ) :
    (r >>? fun v => encodeHeaderInto W (mkH (W.asRef v).length) W.default >>? fun vh =>
      put W (W.asRef vh) s >>? put W (W.asRef v)) = twoParts W mkH x s := by
  unfold twoParts
  cases x with
  | ok v =>
    obtain ⟨s', rfl, h2, h3⟩ := h
    rw [hB.empty, List.nil_append] at h3
    simp only [ok_bind, h3]
    have hh := encodeHeaderInto_wrote hB (mkH v.length) hB.start
    cases e : encodeHeader (mkH v.length) with
    | ok vh =>
      rw [e] at hh
      obtain ⟨s'', e2, h5, h6⟩ := hh
      rw [hB.empty, List.nil_append] at h6
      rw [e2]
      simp only [ok_bind, h6]
    | panic => rw [e] at hh; rw [show encodeHeaderInto W (mkH v.length) W.default = .panic from hh]; rfl
    | err e' => exact e'.elim
    | diverge => rw [e] at hh; exact hh.elim
  | panic => cases h; rfl
  | err e => exact h.elim
  | diverge => exact h.elim

theorem twoBuffers_wrote (hB : Buffers W B) {r : Outcome (GenErr ε) σ} {x : Outcome Empty Bytes} (mkH : Nat → Header)
    (h : Wrote W B W.default r x) {s : σ} (hs : B s) :
    Wrote W B s (r >>? fun v => encodeHeaderInto W (mkH (W.asRef v).length) W.default >>? fun vh =>
      put W (W.asRef vh) s >>? put W (W.asRef v))
      (x >>? fun v => encodeHeader (mkH v.length) >>? fun vh => .ok (vh ++ v)) := by
  rw [twoBuffers hB mkH h s]
  unfold twoParts
  cases x with
  | ok v =>
    simp only [ok_bind]
    cases e : encodeHeader (mkH v.length) with
    | ok vh => exact wrote_bind (put_wrote hB vh hs) fun s' h' => put_wrote hB v h'
    | panic => rfl
    | err e' => exact e'.elim
    | diverge => unfold encodeHeader at e; split at e <;> cases e
  | panic => rfl
  | err e => exact h.elim
  | diverge => exact h.elim

mutual
theorem encodeContentInto_wrote (hB : Buffers W B) (D : Deps) (c : Content) {s : σ} (hs : B s) :
    Wrote W B s (encodeContentInto W D c s) (encodeContent D c) := by
  match c with
  | .null => rw [encodeContentInto, encodeContent]; exact ⟨s, rfl, hs, by simp⟩
  | .bitString u bs =>
    rw [encodeContentInto, encodeContent]
    exact wrote_bind (put_wrote hB [u] hs) fun s' h' => put_wrote hB bs h'
  | .sequence l => rw [encodeContentInto, encodeContent]; exact encodeListInto_wrote hB D l hs
  | .set l => rw [encodeContentInto, encodeContent]; exact encodeListInto_wrote hB D l hs
  | .optionalSome (.mk h c) =>
    rw [encodeContentInto, encodeContent, encodeInnerContentInto, encodeInnerContent]
    exact encodeContentInto_wrote hB D c hs
  | .tagged _ _ o => rw [encodeContentInto, encodeContent]; exact encodeObjectInto_wrote hB D o hs
  | .boolean _ | .integer _ | .octetString _ | .enum _ | .oid _
  | .relativeOid _ | .str _ _ | .utcTime _ | .generalizedTime _ | .bmpString _
  | .universalString _ | .optionalNone | .endOfContent | .unknown _ =>
    rw [encodeContentInto, encodeContent]; exact put_wrote hB _ hs
theorem encodeObjectInto_wrote (hB : Buffers W B) (D : Deps) (o : BerObject) {s : σ} (hs : B s) :
    Wrote W B s (encodeObjectInto W D o s) (encodeObject D o) := by
  match o with
  | .mk h c =>
    rw [encodeObjectInto, encodeObject]
    exact twoBuffers_wrote hB (fun n => { h with length := .definite n })
      (encodeContentInto_wrote hB D c hB.start) hs
theorem encodeListInto_wrote (hB : Buffers W B) (D : Deps) (l : List BerObject) {s : σ} (hs : B s) :
    Wrote W B s (encodeListInto W D l s) (encodeList D l) := by
  match l with
  | [] => rw [encodeListInto, encodeList]; exact ⟨s, rfl, hs, by simp⟩
  | o :: os =>
    rw [encodeListInto, encodeList]
    exact wrote_bind (encodeObjectInto_wrote hB D o hs) fun s' h' => encodeListInto_wrote hB D os h'
end

theorem buffers_vec : Buffers vecWriter fun _ => True := ⟨trivial, rfl, fun _ _ _ => ⟨_, rfl, trivial, rfl⟩⟩

/-- C113: into a buffer that takes everything, the five functions write the octets of the model for `Vec<u8>`
after what is there, and panic when it does. -/
theorem C113_buffer (W : Writer σ ε) (B : σ → Prop) (hB : Buffers W B) (D : Deps) (s : σ) (hs : B s) :
    (∀ o, Wrote W B s (encodeObjectInto W D o s) (toVec D o)) ∧
    (∀ h, Wrote W B s (encodeHeaderInto W h s) (encodeHeader h)) ∧
    (∀ h c, Wrote W B s (encodeObjectRawInto W D h c s) (encodeObjectRaw D h c)) ∧
    (∀ t k o, Wrote W B s (encodeTaggedExplicitInto W D t k o s) (encodeTaggedExplicit D t k o)) ∧
    ∀ t k o, Wrote W B s (encodeTaggedImplicitInto W D t k o s) (encodeTaggedImplicit D t k o) :=
  ⟨fun o => encodeObjectInto_wrote hB D o hs, fun h => encodeHeaderInto_wrote hB h hs,
    fun h c => wrote_bind (encodeHeaderInto_wrote hB h hs) fun _ h' => encodeContentInto_wrote hB D c h',
    fun t k o => twoBuffers_wrote hB (fun n => Header.new k true t (.definite n))
      (encodeObjectInto_wrote hB D o hB.start) hs,
    fun t k o => twoBuffers_wrote hB (fun n => Header.new k o.header.constructed t (.definite n))
      (encodeContentInto_wrote hB D o.content hB.start) hs⟩

example := C113_buffer vecWriter _ buffers_vec Tests.D0 [9] trivial

/-- C113: what the output of `ber_encode_object` gets, whatever it does with it, if only the buffers take
everything: one piece with the identifier and length octets and one piece with the contents, and the second only
if the first was taken completely. -/
theorem C113_two_writes (W : Writer σ ε) (B : σ → Prop) (hB : Buffers W B) (D : Deps) (o : BerObject) (s : σ) :
    (∀ v, toVec D o = .ok v → ∃ hdr c, v = hdr ++ c ∧ encodeContent D o.content = .ok c ∧
      encodeHeader { o.header with length := .definite c.length } = .ok hdr ∧
      encodeObjectInto W D o s = (put W hdr s >>? put W c)) ∧
    (toVec D o = .panic → encodeObjectInto W D o s = .panic) := by
  obtain ⟨h, c⟩ := o
  have key := twoBuffers hB (fun n => { h with length := .definite n })
    (encodeContentInto_wrote hB D c hB.start) s
  unfold toVec
  rw [encodeObjectInto, encodeObject]
  constructor
  · intro v hv
    obtain ⟨c', h1, h2⟩ := bind_eq_ok.1 hv
    obtain ⟨hdr, h3, h4⟩ := bind_eq_ok.1 h2
    cases h4
    refine ⟨hdr, c', rfl, h1, h3, ?_⟩
    refine key.trans ?_
    unfold twoParts
    rw [h1]
    simp only [h3]
  · intro hp
    refine key.trans ?_
    unfold twoParts
    cases h1 : encodeContent D c with
    | ok c' =>
      rw [h1] at hp
      simp only [ok_bind] at hp
      cases h2 : encodeHeader { h with length := .definite c'.length } with
      | ok hdr => rw [h2] at hp; cases hp
      | panic => simp only [h2]
      | err e => exact e.elim
      | diverge => simp only [h2]
    | panic => rfl
    | err e => exact e.elim
    | diverge => rfl

example := C113_two_writes vecWriter _ buffers_vec Tests.D0 (.fromSeq [.fromIntSlice [7]]) [9]

/-! ### All writes -/

namespace Spec

/-- A panic (`none`), or the octets of a header and those of the contents after it. -/
def pairWrites (mkH : Nat → Header) (x : Outcome Empty Bytes) : List (Option Bytes) :=
  match x with
  | .ok v =>
    match encodeHeader (mkH v.length) with
    | .ok hdr => [some hdr, some v]
    | _ => [none]
  | _ => [none]

/-- The writes of an object: header with the length of the contents, and contents. -/
def objectWrites (D : Deps) (o : BerObject) : List (Option Bytes) :=
  pairWrites (fun n => { o.header with length := .definite n }) (encodeContent D o.content)

/-- The writes of contents: two for each member of a SEQUENCE or SET and for the object in a tagged one, none for
NULL, two for a BIT STRING, those of the content of an option, and one for everything else. -/
def contentWrites (D : Deps) : Content → List (Option Bytes)
  | .null => []
  | .bitString u bs => [some [u], some bs]
  | .sequence l => l.flatMap (objectWrites D)
  | .set l => l.flatMap (objectWrites D)
  | .optionalSome (.mk _ c) => contentWrites D c
  | .tagged _ _ o => objectWrites D o
  | c => match encodeContent D c with
    | .ok v => [some v]
    | _ => [none]

/-- The writes of a header: the identifier octet, the first length octet, and in the long form the other length
octets. -/
def headerWrites (h : Header) : List (Option Bytes) :=
  match encodeHeader h with
  | .ok (b :: f :: len) =>
    [some [b], some [f]] ++
      match h.length with
      | .definite n => if 128 ≤ n then [some len] else []
      | .indefinite => []
  | _ => [none]

/-- Writes one after the other, as long as all octets are taken. -/
def feed (W : Writer σ ε) : List (Option Bytes) → σ → Outcome (GenErr ε) σ
  | [], s => .ok s
  | none :: _, _ => .panic
  | some bs :: l, s => put W bs s >>? feed W l

end Spec

theorem feed_append (W : Writer σ ε) (a b : List (Option Bytes)) (s : σ) :
    feed W (a ++ b) s = (feed W a s >>? feed W b) := by
  induction a generalizing s with
  | nil => rfl
  | cons x a ih =>
    cases x with
    | none => rfl
    | some t =>
      simp only [List.cons_append, feed]
      cases put W t s with
      | ok s' => exact ih s'
      | _ => rfl

theorem feed_one (W : Writer σ ε) (bs : Bytes) (s : σ) : feed W [some bs] s = put W bs s := by
  simp only [feed]
  cases put W bs s <;> rfl

theorem feed_two (W : Writer σ ε) (a b : Bytes) (s : σ) : feed W [some a, some b] s = (put W a s >>? put W b) := by
  rw [show [some a, some b] = [some a] ++ [some b] from rfl, feed_append, feed_one]
  cases put W a s with
  | ok s' => exact feed_one W b s'
  | _ => rfl

theorem twoParts_feed (W : Writer σ ε) (mkH : Nat → Header) (x : Outcome Empty Bytes) (s : σ) :
    twoParts W mkH x s = feed W (pairWrites mkH x) s := by
  unfold twoParts pairWrites
  cases x with
  | ok v =>
    dsimp only
    cases encodeHeader (mkH v.length) with
    | ok hdr => exact (feed_two W _ _ s).symm
    | _ => rfl
  | _ => rfl

theorem encodeObjectInto_feed (hB : Buffers W B) (D : Deps) (o : BerObject) (s : σ) :
    encodeObjectInto W D o s = feed W (objectWrites D o) s := by
  match o with
  | .mk h c =>
    rw [encodeObjectInto]
    exact (twoBuffers hB (fun n => { h with length := .definite n })
      (encodeContentInto_wrote hB D c hB.start) s).trans (twoParts_feed W _ _ s)

theorem encodeListInto_feed (hB : Buffers W B) (D : Deps) (l : List BerObject) (s : σ) :
    encodeListInto W D l s = feed W (l.flatMap (objectWrites D)) s := by
  induction l generalizing s with
  | nil => rw [encodeListInto]; rfl
  | cons o os ih =>
    rw [encodeListInto, List.flatMap_cons, feed_append, encodeObjectInto_feed hB]
    cases feed W (objectWrites D o) s with
    | ok s' => exact ih s'
    | _ => rfl

theorem encodeContentInto_feed (hB : Buffers W B) (D : Deps) : ∀ (c : Content) (s : σ),
    encodeContentInto W D c s = feed W (contentWrites D c) s
  | .null, s => by rw [encodeContentInto, contentWrites]; rfl
  | .bitString u bs, s => by rw [encodeContentInto, contentWrites, feed_two]
  | .sequence l, s => by rw [encodeContentInto, contentWrites]; exact encodeListInto_feed hB D l s
  | .set l, s => by rw [encodeContentInto, contentWrites]; exact encodeListInto_feed hB D l s
  | .optionalSome (.mk h c), s => by
    rw [encodeContentInto, contentWrites, encodeInnerContentInto]
    exact encodeContentInto_feed hB D c s
  | .tagged _ _ o, s => by rw [encodeContentInto, contentWrites]; exact encodeObjectInto_feed hB D o s
  | .boolean _, s | .integer _, s | .octetString _, s | .enum _, s | .oid _, s
  | .relativeOid _, s | .str _ _, s | .utcTime _, s | .generalizedTime _, s | .bmpString _, s
  | .universalString _, s | .optionalNone, s | .endOfContent, s | .unknown _, s => by
    rw [encodeContentInto, contentWrites, encodeContent] <;> first | exact (feed_one W _ s).symm | simp

theorem encodeHeaderInto_feed (W : Writer σ ε) (h : Header) (s : σ) :
    encodeHeaderInto W h s = feed W (headerWrites h) s := by
  unfold encodeHeaderInto headerWrites encodeHeader
  by_cases ht : 30 < h.tag
  · rw [if_pos ht, if_pos ht]; rfl
  · rw [if_neg ht, if_neg ht]
    cases hl : h.length with
    | indefinite =>
      simp only [encodeLength, List.append_nil]
      exact (feed_two W _ _ s).symm
    | definite n =>
      by_cases hn : n ≤ 0x7f
      · have he : encodeLengthInto W (.definite n) = put W [UInt8.ofNat n] := by
          funext s'; simp only [encodeLengthInto, if_pos hn]
        simp only [encodeLength, he, if_pos hn, if_neg (show ¬ 128 ≤ n by omega), List.append_nil]
        exact (feed_two W _ _ s).symm
      · have he : encodeLengthInto W (.definite n) = fun s' =>
            put W [UInt8.ofNat (128 + (skipZeroes (toBeBytes 8 n)).length)] s' >>?
              put W (skipZeroes (toBeBytes 8 n)) := by
          funext s'; simp only [encodeLengthInto, if_neg hn]
        simp only [encodeLength, he, if_neg hn, if_pos (show 128 ≤ n by omega), feed_append]
        rw [feed_two]
        cases put W _ s with
        | ok s' =>
          simp only [ok_bind]
          cases put W _ s' with
          | ok s'' => exact (feed_one W _ s'').symm
          | _ => rfl
        | _ => rfl

/-- C113: all writes of the functions, with what each of them offers, for any output: they go on as long as
everything is taken. -/
theorem C113_writes (W : Writer σ ε) (B : σ → Prop) (hB : Buffers W B) (D : Deps) (s : σ) :
    (∀ o, encodeObjectInto W D o s = feed W (objectWrites D o) s) ∧
    (∀ c, encodeContentInto W D c s = feed W (contentWrites D c) s) ∧
    (∀ h, encodeHeaderInto W h s = feed W (headerWrites h) s) ∧
    (∀ h c, encodeObjectRawInto W D h c s = feed W (headerWrites h ++ contentWrites D c) s) ∧
    (∀ t k o, encodeTaggedExplicitInto W D t k o s =
      feed W (pairWrites (fun n => Header.new k true t (.definite n)) (toVec D o)) s) ∧
    ∀ t k o, encodeTaggedImplicitInto W D t k o s =
      feed W (pairWrites (fun n => Header.new k o.header.constructed t (.definite n)) (encodeContent D o.content)) s := by
  refine ⟨fun o => encodeObjectInto_feed hB D o s, fun c => encodeContentInto_feed hB D c s,
    fun h => encodeHeaderInto_feed W h s, fun h c => ?_, fun t k o => ?_, fun t k o => ?_⟩
  · rw [encodeObjectRawInto, feed_append, encodeHeaderInto_feed]
    cases feed W (headerWrites h) s with
    | ok s' => exact encodeContentInto_feed hB D c s'
    | _ => rfl
  · exact (twoBuffers hB (fun n => Header.new k true t (.definite n))
      (encodeObjectInto_wrote hB D o hB.start) s).trans (twoParts_feed W _ _ s)
  · exact (twoBuffers hB (fun n => Header.new k o.header.constructed t (.definite n))
      (encodeContentInto_wrote hB D o.content hB.start) s).trans (twoParts_feed W _ _ s)

example (D : Deps) : contentWrites D (.sequence [.fromIntSlice [7], .fromObj .null, .fromObj (.bitString 3 [8, 16])]) =
      [some [2, 1], some [7], some [5, 0], some [], some [3, 3], some [3, 8, 16]] ∧
    contentWrites D (.bitString 3 [8, 16]) = [some [3], some [8, 16]] ∧
    headerWrites (Header.new .universal true 16 (.definite 300)) = [some [0x30], some [0x82], some [1, 44]] ∧
    headerWrites (Header.new .universal true 16 .indefinite) = [some [0x30], some [0x80]] :=
  ⟨rfl, rfl, by decide +kernel, by decide +kernel⟩

end

theorem vecWriter_buffers : Buffers vecWriter fun _ => True :=
  ⟨trivial, rfl, fun _ _ _ => ⟨_, rfl, trivial, rfl⟩⟩

theorem wrote_vec {s : Bytes} {r : Outcome (GenErr Empty) Bytes} {x : Outcome Empty Bytes}
    (h : Wrote vecWriter (fun _ => True) s r x) : r = (x.mapErr Empty.elim).map (s ++ ·) := by
  cases x with
  | ok v => obtain ⟨s', rfl, _, h⟩ := h; rw [show s' = s ++ v from h]; rfl
  | panic => exact h
  | err e => exact e.elim
  | diverge => exact h.elim

/-- C113: `Vec<u8>` is such a buffer: the model of `Verif/Serialize.lean`, in which nothing can fail, is the
generic code at `W = Vec<u8>`. -/
theorem C113_vec (D : Deps) (s : Bytes) :
    (∀ o, encodeObjectInto vecWriter D o s = ((toVec D o).mapErr Empty.elim).map (s ++ ·)) ∧
    (∀ h, encodeHeaderInto vecWriter h s = ((encodeHeader h).mapErr Empty.elim).map (s ++ ·)) ∧
    (∀ h c, encodeObjectRawInto vecWriter D h c s = ((encodeObjectRaw D h c).mapErr Empty.elim).map (s ++ ·)) ∧
    (∀ t k o, encodeTaggedExplicitInto vecWriter D t k o s =
      ((encodeTaggedExplicit D t k o).mapErr Empty.elim).map (s ++ ·)) ∧
    ∀ t k o, encodeTaggedImplicitInto vecWriter D t k o s =
      ((encodeTaggedImplicit D t k o).mapErr Empty.elim).map (s ++ ·) := by
  obtain ⟨h1, h2, h3, h4, h5⟩ := C113_buffer vecWriter _ vecWriter_buffers D s trivial
  exact ⟨fun o => wrote_vec (h1 o), fun h => wrote_vec (h2 h), fun h c => wrote_vec (h3 h c),
    fun t k o => wrote_vec (h4 t k o), fun t k o => wrote_vec (h5 t k o)⟩

/-! ## Outputs of limited size -/

/-- A buffer for at most `cap` octets, as `std::io::Cursor` on an array or a fixed-size vector: it takes what
fits. -/
def bounded (cap : Nat) : Writer Bytes Empty where
  write s bs := .ok (min bs.length (cap - s.length), s ++ bs.take (cap - s.length))
  default := []
  asRef s := s

/-- `r`, started with `s` in a buffer for `cap` octets, adds what `x` says if it fits. -/
def Fits (cap : Nat) (s : Bytes) (r : Outcome (GenErr Empty) Bytes) (x : Outcome Empty Bytes) : Prop :=
  match x with
  | .ok v =>
    (s.length + v.length ≤ cap → r = .ok (s ++ v)) ∧
    (cap < s.length + v.length → ∃ n, r = .err (.tooSmall n) ∧ 1 ≤ n ∧ n ≤ s.length + v.length - cap)
  | .panic => r = .panic ∨ ∃ n, r = .err (.tooSmall n)
  | _ => False

theorem put_fits (cap : Nat) (bs : Bytes) {s : Bytes} (hs : s.length ≤ cap) :
    Fits cap s (put (bounded cap) bs s) (.ok bs) := by
  unfold put bounded Fits
  dsimp only
  refine ⟨fun h => ?_, fun h => ?_⟩
  · rw [if_neg (by omega), List.take_of_length_le (by omega)]
  · rw [if_pos (by omega)]
    exact ⟨_, rfl, by omega, by omega⟩

theorem fits_bind {cap : Nat} {s : Bytes} {r : Outcome (GenErr Empty) Bytes} {x : Outcome Empty Bytes}
    {f : Bytes → Outcome (GenErr Empty) Bytes} {y : Outcome Empty Bytes} (h : Fits cap s r x)
    (hf : ∀ s', s'.length ≤ cap → Fits cap s' (f s') y) (hy : ∀ e, y = .err e → False) (hy' : y ≠ .diverge) :
    Fits cap s (r >>? f) (x >>? fun a => y >>? fun b => .ok (a ++ b)) := by
  cases x with
  | ok v =>
    obtain ⟨h1, h2⟩ := h
    by_cases hc : s.length + v.length ≤ cap
    · rw [h1 hc]
      have := hf (s ++ v) (by simp; exact hc)
      simp only [ok_bind]
      cases y with
      | ok w =>
        obtain ⟨h3, h4⟩ := this
        simp only [List.length_append] at h3 h4
        refine ⟨fun h => ?_, fun h => ?_⟩
        · simp only [List.length_append] at h
          rw [h3 (by omega), List.append_assoc]
        · simp only [List.length_append] at h ⊢
          obtain ⟨n, e1, e2, e3⟩ := h4 (by omega)
          exact ⟨n, e1, e2, by omega⟩
      | panic => exact this
      | err e => exact e.elim
      | diverge => exact absurd rfl hy'
    · obtain ⟨n, e1, e2, e3⟩ := h2 (by omega)
      rw [e1]
      simp only [ok_bind, err_bind]
      cases y with
      | ok w =>
        refine ⟨fun h => ?_, fun h => ⟨n, rfl, e2, ?_⟩⟩ <;> simp only [List.length_append] at * <;> omega
      | panic => exact .inr ⟨n, rfl⟩
      | err e => exact e.elim
      | diverge => exact absurd rfl hy'
  | panic =>
    rcases h with rfl | ⟨n, rfl⟩
    · exact .inl rfl
    · exact .inr ⟨n, rfl⟩
  | err e => exact e.elim
  | diverge => exact h.elim

theorem encodeLengthInto_fits (cap : Nat) (l : Length) {s : Bytes} (hs : s.length ≤ cap) :
    Fits cap s (encodeLengthInto (bounded cap) l s) (.ok (encodeLength l)) := by
  cases l with
  | definite sz =>
    unfold encodeLengthInto encodeLength
    dsimp only
    split
    · exact put_fits cap _ hs
    · exact fits_bind (put_fits cap _ hs) (fun s' h' => put_fits cap _ h') (by simp) (by simp)
  | indefinite => exact put_fits cap _ hs

theorem encodeHeader_cases (h : Header) : encodeHeader h = .panic ∨ ∃ v, encodeHeader h = .ok v := by
  unfold encodeHeader
  split
  · exact .inl rfl
  · exact .inr ⟨_, rfl⟩

theorem encodeHeaderInto_fits (cap : Nat) (h : Header) {s : Bytes} (hs : s.length ≤ cap) :
    Fits cap s (encodeHeaderInto (bounded cap) h s) (encodeHeader h) := by
  unfold encodeHeaderInto encodeHeader
  split
  · exact .inl rfl
  · exact fits_bind (put_fits cap _ hs) (fun s' h' => encodeLengthInto_fits cap _ h') (by simp) (by simp)

theorem fits_twoBuffers {cap : Nat} {r : Outcome (GenErr Empty) Bytes} {x : Outcome Empty Bytes}
    (mkH : Nat → Header) (h : Fits cap [] r x) {s : Bytes} (hs : s.length ≤ cap) :
    Fits cap s (r >>? fun v => encodeHeaderInto (bounded cap) (mkH v.length) [] >>? fun vh =>
      put (bounded cap) vh s >>? put (bounded cap) v)
      (x >>? fun v => encodeHeader (mkH v.length) >>? fun vh => .ok (vh ++ v)) := by
  cases x with
  | ok v =>
    obtain ⟨h1, h2⟩ := h
    simp only [List.length_nil, Nat.zero_add, List.nil_append] at h1 h2
    simp only [ok_bind]
    by_cases hc : v.length ≤ cap
    · rw [h1 hc]
      simp only [ok_bind]
      have hh := encodeHeaderInto_fits cap (mkH v.length) (s := []) (by simp)
      rcases encodeHeader_cases (mkH v.length) with e | ⟨vh, e⟩
      · rw [e] at hh ⊢
        rcases hh with e' | ⟨n, e'⟩ <;> rw [e']
        · exact .inl rfl
        · exact .inr ⟨n, rfl⟩
      · rw [e] at hh ⊢
        obtain ⟨h3, h4⟩ := hh
        simp only [List.length_nil, Nat.zero_add, List.nil_append] at h3 h4
        simp only [ok_bind]
        by_cases hk : vh.length ≤ cap
        · rw [h3 hk]
          simp only [ok_bind]
          exact fits_bind (x := .ok vh) (y := .ok v) (put_fits cap vh hs) (fun s' h' => put_fits cap v h') (by simp) (by simp)
        · obtain ⟨n, e1, e2, e3⟩ := h4 (by omega)
          rw [e1]
          refine ⟨fun h => ?_, fun h => ⟨n, rfl, e2, ?_⟩⟩ <;> simp only [List.length_append] at * <;> omega
    · obtain ⟨n, e1, e2, e3⟩ := h2 (by omega)
      rw [e1]
      rcases encodeHeader_cases (mkH v.length) with e | ⟨vh, e⟩ <;> rw [e]
      · exact .inr ⟨n, rfl⟩
      · refine ⟨fun h => ?_, fun h => ⟨n, rfl, e2, ?_⟩⟩ <;> simp only [List.length_append] at * <;> omega
  | panic =>
    rcases h with rfl | ⟨n, rfl⟩
    · exact .inl rfl
    · exact .inr ⟨n, rfl⟩
  | err e => exact e.elim
  | diverge => exact h.elim

theorem fits_ne {cap : Nat} {s : Bytes} {r : Outcome (GenErr Empty) Bytes} {x : Outcome Empty Bytes}
    (h : Fits cap s r x) : (∀ e, x = .err e → False) ∧ x ≠ .diverge := by
  cases x with
  | ok v => simp
  | panic => simp
  | err e => exact e.elim
  | diverge => exact h.elim

mutual
theorem encodeContentInto_fits (cap : Nat) (D : Deps) (c : Content) {s : Bytes} (hs : s.length ≤ cap) :
    Fits cap s (encodeContentInto (bounded cap) D c s) (encodeContent D c) := by
  match c with
  | .null =>
    rw [encodeContentInto, encodeContent]
    exact ⟨fun _ => by simp, fun h => by simp only [List.length_nil] at h; omega⟩
  | .bitString u bs =>
    rw [encodeContentInto, encodeContent]
    exact fits_bind (x := .ok [u]) (y := .ok bs) (put_fits cap [u] hs) (fun s' h' => put_fits cap bs h') (by simp) (by simp)
  | .sequence l => rw [encodeContentInto, encodeContent]; exact encodeListInto_fits cap D l hs
  | .set l => rw [encodeContentInto, encodeContent]; exact encodeListInto_fits cap D l hs
  | .optionalSome (.mk h c) =>
    rw [encodeContentInto, encodeContent, encodeInnerContentInto, encodeInnerContent]
    exact encodeContentInto_fits cap D c hs
  | .tagged _ _ o => rw [encodeContentInto, encodeContent]; exact encodeObjectInto_fits cap D o hs
  | .boolean _ | .integer _ | .octetString _ | .enum _ | .oid _
  | .relativeOid _ | .str _ _ | .utcTime _ | .generalizedTime _ | .bmpString _
  | .universalString _ | .optionalNone | .endOfContent | .unknown _ =>
    rw [encodeContentInto, encodeContent]; exact put_fits cap _ hs
theorem encodeObjectInto_fits (cap : Nat) (D : Deps) (o : BerObject) {s : Bytes} (hs : s.length ≤ cap) :
    Fits cap s (encodeObjectInto (bounded cap) D o s) (encodeObject D o) := by
  match o with
  | .mk h c =>
    rw [encodeObjectInto, encodeObject]
    exact fits_twoBuffers (fun n => { h with length := .definite n })
      (encodeContentInto_fits cap D c (s := []) (by simp)) hs
theorem encodeListInto_fits (cap : Nat) (D : Deps) (l : List BerObject) {s : Bytes} (hs : s.length ≤ cap) :
    Fits cap s (encodeListInto (bounded cap) D l s) (encodeList D l) := by
  match l with
  | [] =>
    rw [encodeListInto, encodeList]
    exact ⟨fun _ => by simp, fun h => by simp only [List.length_nil] at h; omega⟩
  | o :: os =>
    rw [encodeListInto, encodeList]
    have h := fits_ne (encodeListInto_fits cap D os (s := []) (by simp))
    exact fits_bind (encodeObjectInto_fits cap D o hs) (fun s' h' => encodeListInto_fits cap D os h') h.1 h.2
end

/-- C113: into an output for `cap` octets (with buffers of the same size) the octets are written if there is
room for them, and otherwise the answer is `BufferTooSmall` with a number that is not above what is missing. -/
theorem C113_bounded (cap : Nat) (D : Deps) (s : Bytes) (hs : s.length ≤ cap) :
    (∀ o, Fits cap s (encodeObjectInto (bounded cap) D o s) (toVec D o)) ∧
    (∀ h c, Fits cap s (encodeObjectRawInto (bounded cap) D h c s) (encodeObjectRaw D h c)) ∧
    (∀ t k o, Fits cap s (encodeTaggedExplicitInto (bounded cap) D t k o s) (encodeTaggedExplicit D t k o)) ∧
    ∀ t k o, Fits cap s (encodeTaggedImplicitInto (bounded cap) D t k o s) (encodeTaggedImplicit D t k o) :=
  ⟨fun o => encodeObjectInto_fits cap D o hs,
    fun h c => have h' := fits_ne (encodeContentInto_fits cap D c (s := []) (by simp))
      fits_bind (encodeHeaderInto_fits cap h hs) (fun s' h' => encodeContentInto_fits cap D c h') h'.1 h'.2,
    fun t k o => fits_twoBuffers (fun n => Header.new k true t (.definite n))
      (encodeObjectInto_fits cap D o (s := []) (by simp)) hs,
    fun t k o => fits_twoBuffers (fun n => Header.new k o.header.constructed t (.definite n))
      (encodeContentInto_fits cap D o.content (s := []) (by simp)) hs⟩

example := C113_bounded 4 Tests.D0 [9] (by decide)

/-! ## Outputs that take a part -/

/-- C113, the property: an output that takes the octets in pieces, as `Write` allows, gets all of them. -/
def C113Statement : Prop :=
  ∀ (σ ε : Type) (W : Writer σ ε), Progress W → ∀ (D : Deps) (o : BerObject) (v : Bytes), toVec D o = .ok v →
    ∃ s', encodeObjectInto W D o W.default = .ok s' ∧ W.asRef s' = v

/-- An output that takes at most `k` octets at a time. -/
def chunked (k : Nat) : Writer Bytes Empty where
  write s bs := .ok (min k bs.length, s ++ bs.take k)
  default := []
  asRef s := s

theorem chunked_progress (k : Nat) (hk : 0 < k) : Progress (chunked k) where
  empty := rfl
  append s bs := ⟨min k bs.length, s ++ bs.take k, rfl, Nat.min_le_right _ _,
    fun h => by have := List.length_pos_iff.2 h; omega, by
      show s ++ bs.take k = s ++ bs.take (min k bs.length)
      rw [List.take_eq_take_min]⟩

theorem chunked_put (k : Nat) (bs s : Bytes) :
    put (chunked k) bs s = if k < bs.length then .err (.tooSmall (bs.length - k)) else .ok (s ++ bs) := by
  unfold put chunked
  dsimp only
  by_cases h : k < bs.length
  · rw [if_pos (by omega), if_pos h, Nat.min_eq_left (by omega)]
  · rw [if_neg (by omega), if_neg h, List.take_of_length_le (by omega)]

/-- C113: an OCTET STRING longer than an output takes at a time cannot be written into it, although the
output would take all of it: the answer is `BufferTooSmall`. -/
theorem C113_counterexample (D : Deps) (k : Nat) (bs : Bytes) (hk : k < bs.length) :
    encodeObjectInto (chunked k) D (.fromObj (.octetString bs)) [] = .err (.tooSmall (bs.length - k)) := by
  rw [BerObject.fromObj, encodeObjectInto, encodeContentInto, chunked_put, if_pos hk]
  rfl

/-- C113 as stated is false. -/
theorem C113_not_statement : ¬ C113Statement := by
  intro H
  obtain ⟨s', h, _⟩ := H Bytes Empty (chunked 1) (chunked_progress 1 (by omega)) Tests.D0
    (.fromObj (.octetString [1, 2])) _ rfl
  have e := C113_counterexample Tests.D0 1 [1, 2] (by decide)
  rw [show (chunked 1).default = [] from rfl, e] at h
  cases h

/-- C113, the part that holds: outputs that take everything they are offered. -/
theorem C113_partial {σ ε : Type} (W : Writer σ ε) (hW : Progress W)
    (hall : ∀ s bs n s', W.write s bs = .ok (n, s') → n = bs.length) (D : Deps) (o : BerObject) (v : Bytes)
    (hv : toVec D o = .ok v) : ∃ s', encodeObjectInto W D o W.default = .ok s' ∧ W.asRef s' = v := by
  have hB : Buffers W fun _ => True := by
    refine ⟨trivial, hW.empty, fun s bs _ => ?_⟩
    obtain ⟨n, s', h1, h2, h3, h4⟩ := hW.append s bs
    have := hall _ _ _ _ h1
    subst this
    exact ⟨s', h1, trivial, by rw [h4, List.take_length]⟩
  have := (C113_buffer W _ hB D W.default trivial).1 o
  rw [hv] at this
  obtain ⟨s', h1, _, h2⟩ := this
  exact ⟨s', h1, by rw [h2, hW.empty, List.nil_append]⟩

/-! ## Concrete cases -/

/-- A SEQUENCE of an INTEGER, 5 octets, into 5 and into 4 octets of room. -/
example : encodeObjectInto (bounded 5) Tests.D0 (.fromSeq [.fromIntSlice [7]]) [] = .ok [0x30, 3, 2, 1, 7] ∧
    encodeObjectInto (bounded 4) Tests.D0 (.fromSeq [.fromIntSlice [7]]) [] = .err (.tooSmall 1) := by
  constructor <;> decide +kernel
/-- The same into a vector that already has an octet, and by a writer that fails after the header. -/
example : encodeObjectInto vecWriter Tests.D0 (.fromSeq [.fromIntSlice [7]]) [9] = .ok [9, 0x30, 3, 2, 1, 7] := by
  decide +kernel
/-- `Buffers` with an output that is not a buffer: a connection that fails at once. -/
example : ∃ (W : Writer (Option Bytes) Unit) (B : Option Bytes → Prop), Buffers W B ∧
    encodeObjectInto W Tests.D0 (.fromSeq [.fromIntSlice [7]]) none = .err (.io ()) := by
  refine ⟨⟨fun s bs => match s with | none => .error () | some x => .ok (bs.length, some (x ++ bs)), some [],
    fun s => s.getD []⟩, fun s => s.isSome, ⟨rfl, rfl, fun s bs hs => ?_⟩, by decide +kernel⟩
  cases s with
  | none => cases hs
  | some x => exact ⟨some (x ++ bs), rfl, rfl, rfl⟩

end Verif
