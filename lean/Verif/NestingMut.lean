import Verif.Nesting
/-!
# Nesting of recursive calls of the mutable visitor

`visit_ber_bfs_mut` of `Verif/Visit.lean` again, with the number of its activations that are open at one time, as in
`Verif/Nesting.lean`.  The callbacks of the visitor are not counted.
-/
namespace Verif
open Outcome

/-- The loop `for item in l.iter_mut()` of /repo/src/ber/visit_mut.rs:170-172, 176-178. -/
def visitMutListN {σ : Type} (visit : BerObject → σ → Deep Empty (σ × BerObject)) :
    List BerObject → σ → Deep Empty (σ × List BerObject)
  | [], s => .flat (.ok (s, []))
  | o :: os, s =>
    (visit o s).bind fun r => (visitMutListN visit os r.1).bind fun q => .flat (.ok (q.1, r.2 :: q.2))

/-- `visit_ber_bfs_mut`, /repo/src/ber/visit_mut.rs:138-191; recursive calls on L171 and L177.  On fuel, as
`visitMutObj`. -/
def visitMutObjN {σ : Type} (v : MutVisitor σ) :
    Nat → BerObject → Nat → σ → Deep Empty (σ × BerObject)
  | 0, _, _, _ => .flat .diverge
  | fuel + 1, o, depth, s =>
    let r := v.visitBer o depth s
    let q := v.callback (cbName r.2.content) r.2.content depth r.1
    .call <| match writeBack r.2.content q.2 with
    | .sequence l =>
      (visitMutListN (fun o s => visitMutObjN v fuel o (depth + 1) s) l q.1).bind fun t =>
        .flat (.ok (t.1, .mk r.2.header (.sequence t.2)))
    | .set l =>
      (visitMutListN (fun o s => visitMutObjN v fuel o (depth + 1) s) l q.1).bind fun t =>
        .flat (.ok (t.1, .mk r.2.header (.set t.2)))
    | c => .flat (.ok (q.1, .mk r.2.header c))

end Verif
