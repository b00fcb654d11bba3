/-!
Shared conventions of the model.
-/
namespace Verif

/-- Result of a Rust call that may panic: panics are explicit values of the model. -/
inductive Rs (α : Type) where
  | ok (a : α)
  | panic
  deriving DecidableEq, Repr

namespace Rs
variable {α β : Type}
def bind (r : Rs α) (f : α → Rs β) : Rs β :=
  match r with
  | ok a => f a
  | panic => panic
instance : Monad Rs where
  pure := ok
  bind := bind
def map' (f : α → β) : Rs α → Rs β
  | ok a => ok (f a)
  | panic => panic
/-- `opt.unwrap()` / indexing with `get`: a panic when absent. -/
def ofOption : Option α → Rs α
  | some a => ok a
  | none => panic

@[simp] theorem pure_eq (a : α) : (pure a : Rs α) = ok a := rfl
@[simp] theorem ok_bind (a : α) (f : α → Rs β) : (ok a >>= f) = f a := rfl
@[simp] theorem panic_bind (f : α → Rs β) : ((panic : Rs α) >>= f) = panic := rfl
@[simp] theorem ofOption_some (a : α) : ofOption (some a) = ok a := rfl
@[simp] theorem ofOption_none : ofOption (none : Option α) = panic := rfl
theorem bind_eq_ok {r : Rs α} {f : α → Rs β} {b : β} :
    (r >>= f) = ok b ↔ ∃ a, r = ok a ∧ f a = ok b := by
  cases r <;> simp
end Rs

/-- Whether integer overflow panics (debug profile) or wraps (release profile; the workspace
does not enable overflow checks, Cargo.toml:138-139). -/
inductive Overflow where
  | checked
  | wrapping
  deriving DecidableEq, Repr

end Verif

namespace Verif

/-- `R` relates the two lists element by element (same length). -/
inductive Pointwise {α β : Type} (R : α → β → Prop) : List α → List β → Prop
  | nil : Pointwise R [] []
  | cons {a : α} {b : β} {l : List α} {r : List β} (h : R a b) (hs : Pointwise R l r) :
      Pointwise R (a :: l) (b :: r)

end Verif
