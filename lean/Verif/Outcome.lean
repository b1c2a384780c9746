/-!
# Results of modelled Rust functions

A Rust function either returns `Ok`, returns `Err`, panics, or does not return.  The last two
are explicit values here, so that "does not panic" and "terminates" are statements about the
model and not artefacts of Lean's totality.
-/
namespace Verif

/-- A Rust `&[u8]` / `Vec<u8>`: the list of its bytes. -/
abbrev Bytes := List UInt8

/-- Result of a modelled Rust call. `ok`/`err` are `Result::Ok`/`Result::Err`; `panic` is any
Rust panic (index out of range, failed `assert!`, `unimplemented!`, `panic!`);
`diverge` is the result of a loop run on fuel when the fuel is exhausted. -/
inductive Outcome (ε α : Type) where
  | ok (a : α)
  | err (e : ε)
  | panic
  | diverge
deriving DecidableEq, Repr

namespace Outcome
variable {ε ε' α β γ : Type}

/-- Sequencing: the Rust `?` operator when the error types agree. -/
def bind (x : Outcome ε α) (f : α → Outcome ε β) : Outcome ε β :=
  match x with
  | ok a => f a
  | err e => err e
  | panic => panic
  | diverge => diverge

@[inherit_doc] infixl:55 " >>? " => Outcome.bind

/-- `Result::map_err`. -/
def mapErr (f : ε → ε') : Outcome ε α → Outcome ε' α
  | ok a => ok a
  | err e => err (f e)
  | panic => panic
  | diverge => diverge

/-- `Result::map`. -/
def map (f : α → β) : Outcome ε α → Outcome ε β
  | ok a => ok (f a)
  | err e => err e
  | panic => panic
  | diverge => diverge

/-- The call returns (with `Ok` or `Err`): no panic and no divergence. -/
def Returns : Outcome ε α → Prop
  | ok _ => True
  | err _ => True
  | panic => False
  | diverge => False

instance (x : Outcome ε α) : Decidable x.Returns := by
  cases x <;> simp only [Returns] <;> infer_instance

def isOk : Outcome ε α → Bool
  | ok _ => true
  | _ => false

@[simp] theorem ok_bind (a : α) (f : α → Outcome ε β) : (ok a >>? f) = f a := rfl
@[simp] theorem err_bind (e : ε) (f : α → Outcome ε β) : (err e >>? f) = err e := rfl
@[simp] theorem panic_bind (f : α → Outcome ε β) : ((panic : Outcome ε α) >>? f) = panic := rfl
@[simp] theorem diverge_bind (f : α → Outcome ε β) :
    ((diverge : Outcome ε α) >>? f) = diverge := rfl

@[simp] theorem mapErr_ok (f : ε → ε') (a : α) : mapErr f (ok a) = ok a := rfl
@[simp] theorem mapErr_err (f : ε → ε') (e : ε) : mapErr f (err e : Outcome ε α) = err (f e) := rfl
@[simp] theorem mapErr_panic (f : ε → ε') : mapErr f (panic : Outcome ε α) = panic := rfl
@[simp] theorem mapErr_diverge (f : ε → ε') : mapErr f (diverge : Outcome ε α) = diverge := rfl
@[simp] theorem map_ok (f : α → β) (a : α) : map f (ok a : Outcome ε α) = ok (f a) := rfl
@[simp] theorem map_err (f : α → β) (e : ε) : map f (err e : Outcome ε α) = err e := rfl
@[simp] theorem map_panic (f : α → β) : map f (panic : Outcome ε α) = panic := rfl
@[simp] theorem map_diverge (f : α → β) : map f (diverge : Outcome ε α) = diverge := rfl

@[simp] theorem returns_ok (a : α) : (ok a : Outcome ε α).Returns := trivial
@[simp] theorem returns_err (e : ε) : (err e : Outcome ε α).Returns := trivial
@[simp] theorem not_returns_panic : ¬ (panic : Outcome ε α).Returns := id
@[simp] theorem not_returns_diverge : ¬ (diverge : Outcome ε α).Returns := id

theorem returns_iff (x : Outcome ε α) : x.Returns ↔ x ≠ panic ∧ x ≠ diverge := by
  cases x <;> simp

theorem returns_bind {x : Outcome ε α} {f : α → Outcome ε β}
    (hx : x.Returns) (hf : ∀ a, x = ok a → (f a).Returns) : (x >>? f).Returns := by
  cases x <;> simp_all

theorem bind_eq_ok {x : Outcome ε α} {f : α → Outcome ε β} {b : β} :
    (x >>? f) = ok b ↔ ∃ a, x = ok a ∧ f a = ok b := by
  cases x <;> simp

theorem bind_eq_err {x : Outcome ε α} {f : α → Outcome ε β} {e : ε} :
    (x >>? f) = err e ↔ x = err e ∨ ∃ a, x = ok a ∧ f a = err e := by
  cases x <;> simp

@[simp] theorem returns_mapErr (f : ε → ε') (x : Outcome ε α) :
    (mapErr f x).Returns ↔ x.Returns := by cases x <;> simp

@[simp] theorem returns_map (f : α → β) (x : Outcome ε α) :
    (map f x).Returns ↔ x.Returns := by cases x <;> simp

@[simp] theorem mapErr_eq_ok {f : ε → ε'} {x : Outcome ε α} {a : α} :
    mapErr f x = ok a ↔ x = ok a := by cases x <;> simp

theorem map_eq_ok {f : α → β} {x : Outcome ε α} {b : β} :
    map f x = ok b ↔ ∃ a, x = ok a ∧ f a = b := by cases x <;> simp

theorem mapErr_eq_err {f : ε → ε'} {x : Outcome ε α} {e : ε'} :
    mapErr f x = err e ↔ ∃ e0, x = err e0 ∧ f e0 = e := by cases x <;> simp

theorem mapErr_bind (f : ε → ε') (x : Outcome ε α) (g : α → Outcome ε β) :
    mapErr f (x >>? g) = (mapErr f x >>? fun a => mapErr f (g a)) := by cases x <;> simp

theorem bind_assoc' {x : Outcome ε α} {f : α → Outcome ε β} {g : β → Outcome ε γ} :
    ((x >>? f) >>? g) = (x >>? fun a => f a >>? g) := by cases x <;> simp

end Outcome
end Verif
