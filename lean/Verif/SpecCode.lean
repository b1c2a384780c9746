import Verif.SpecComb
/-!
# Specification of the error codes

Which error codes there can be, by the kind of function, and where in the input the fault is.
-/
namespace Verif.Spec

/-- `q` begins with an element inside `i`, or is `i`: elements are found inside SEQUENCE and SET, after any number of
complete ones, and inside an indefinite length.  `q` goes on to the end of the contents around that element. -/
inductive Within : Bytes → Bytes → Prop
  | here (i : Bytes) : Within i i
  | list (x rest : Bytes) (h : Header) (es : List Bytes) (q r : Bytes) : Framed 50 x h (es.flatten ++ q) →
      h.cls = .universal → h.tag = 16 ∨ h.tag = 17 → h.constructed = true →
      (∀ e ∈ es, ∃ h' c', Framed 50 e h' c') → Within q r → Within (x ++ rest) r
  | indefinite (hb : Bytes) (h : Header) (es : List Bytes) (q r : Bytes) : BerHeader hb h → h.length = .indefinite →
      (∀ e ∈ es, ∃ n, Element LooseEoc LooseEoc n e) → Within q r → Within (hb ++ (es.flatten ++ q)) r

/-- What is wrong with the first element of `q`: its header is rejected, its contents do not fit its universal type, or
it is cut by the end of `q`. -/
inductive Culprit (D : Deps) : Bytes → BerError → Prop
  | header (q : Bytes) (e : BerError) : HeaderFails berIndefinite q e → Culprit D q e
  | leaf (x rest c : Bytes) (h : Header) (e : BerError) : Framed 50 x h c → h.cls = .universal → LeafFails D h c e →
      Culprit D (x ++ rest) e
  | cut (q : Bytes) (n : Nat) : q ≠ [] → Cut false 50 q (.need n) → Culprit D q (.incomplete (.size n))

/-- Errors of the date library. -/
def TimeError (D : Deps) (e : BerError) : Prop :=
  ∃ k c, D.utcTime k c = .error e ∨ D.generalizedTime k c = .error e

/-- Codes for an element that cannot be delimited, BER. -/
def frameCodes : List BerError := [.invalidTag, .invalidLength, .constructExpected, .berMaxDepth]

/-- Codes of the BER functions for any type. -/
def berCodes : List BerError :=
  frameCodes ++ [.constructUnexpected, .integerTooLarge, .berValueError, .unsupported, .stringInvalidCharset]

/-- Codes of the DER functions for any type. -/
def derCodes : List BerError :=
  berCodes ++ [.invalidValue 3, .derConstraintFailed .indefiniteLength, .derConstraintFailed .constructed,
    .derConstraintFailed .invalidBoolean, .derConstraintFailed .integerEmpty,
    .derConstraintFailed .integerLeadingZeroes, .derConstraintFailed .unusedBitsNotZero,
    .derConstraintFailed .missingTimeZone]

/-- One of the given codes, or a member of a SEQUENCE or SET is cut, or an error of the date library. -/
def CodeIn (D : Deps) (cs : List BerError) (e : BerError) : Prop :=
  e ∈ cs ∨ (∃ n, e = .incomplete (.size n)) ∨ TimeError D e

end Verif.Spec
