/-!
# Results of partial computations

Rust panics (out-of-range indexing, `unwrap` on `None`, `panic!()`) are modelled as the explicit
value `Res.panic`.  Unbounded loops take fuel; running out of fuel is the explicit value
`Res.timeout`, distinct from a panic, so that termination is a separate theorem.
-/
namespace Verif

/-- Outcome of a modelled Rust function: normal return, panic, or model fuel exhausted. -/
inductive Res (α : Type _) where
  | ok (a : α)
  | panic
  | timeout
  deriving Repr, DecidableEq

namespace Res

/-- Sequencing: a panic or timeout propagates. -/
def bind {α β : Type _} : Res α → (α → Res β) → Res β
  | .ok a, f => f a
  | .panic, _ => .panic
  | .timeout, _ => .timeout

instance : Monad Res where
  pure := Res.ok
  bind := Res.bind

@[simp] theorem bind_ok {α β : Type _} (a : α) (f : α → Res β) :
    (Bind.bind (Res.ok a) f : Res β) = f a := rfl
@[simp] theorem bind_panic {α β : Type _} (f : α → Res β) :
    (Bind.bind (Res.panic : Res α) f : Res β) = Res.panic := rfl
@[simp] theorem bind_timeout {α β : Type _} (f : α → Res β) :
    (Bind.bind (Res.timeout : Res α) f : Res β) = Res.timeout := rfl
@[simp] theorem pure_eq {α : Type _} (a : α) : (Pure.pure a : Res α) = Res.ok a := rfl

/-- An `Option` access that panics on `none` (slice indexing, `unwrap`). -/
def ofOption {α : Type _} : Option α → Res α
  | some a => .ok a
  | none => .panic

@[simp] theorem ofOption_some {α : Type _} (a : α) : ofOption (some a) = Res.ok a := rfl
@[simp] theorem ofOption_none {α : Type _} : ofOption (none : Option α) = Res.panic := rfl

theorem bind_eq_ok {α β : Type _} {x : Res α} {f : α → Res β} {b : β} :
    (Bind.bind x f : Res β) = Res.ok b ↔ ∃ a, x = Res.ok a ∧ f a = Res.ok b := by
  cases x <;> simp

end Res
end Verif
