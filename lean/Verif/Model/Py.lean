/-!
# Python exceptions as values

Every modelled call that may raise returns `Py α = Except PyErr α`.  The
constructor names follow the Python exception classes.  `unmodelled` marks an
argument shape that the model deliberately does not cover; no theorem claims
anything about what the code does there.
-/
namespace Imodal

/-- The exception classes raised (explicitly or by the libraries) in the modelled code. -/
inductive PyErr
  | assertion | index | type | attribute | value | runtime | notImplemented
  | name | key | zeroDivision | unboundLocal | linalg | unmodelled
  deriving DecidableEq, Repr

abbrev Py (α : Type _) := Except PyErr α

end Imodal

namespace Imodal

/-- A Python computation on a mutable state `σ`: it returns a value or raises, and
in both cases leaves a state behind (assignments made before an exception stay). -/
def Prog (σ : Type _) (β : Type _) := σ → Except PyErr β × σ

namespace Prog
variable {σ β γ : Type _}

def pure' (b : β) : Prog σ β := fun s => (.ok b, s)

def bind' (p : Prog σ β) (f : β → Prog σ γ) : Prog σ γ := fun s =>
  match p s with
  | (.ok b, s') => f b s'
  | (.error e, s') => (.error e, s')

instance : Monad (Prog σ) where
  pure := pure'
  bind := bind'

/-- `raise e`. -/
def throw (e : PyErr) : Prog σ β := fun s => (.error e, s)
/-- Read the state. -/
def get : Prog σ σ := fun s => (.ok s, s)
/-- Replace the state. -/
def set (s : σ) : Prog σ Unit := fun _ => (.ok (), s)
/-- Update the state. -/
def modify (f : σ → σ) : Prog σ Unit := fun s => (.ok (), f s)
/-- A computation that only may raise. -/
def lift (r : Except PyErr β) : Prog σ β := fun s => (r, s)

@[simp] theorem pure_run (b : β) (s : σ) : (pure b : Prog σ β) s = (.ok b, s) := rfl
@[simp] theorem throw_run (e : PyErr) (s : σ) : (throw e : Prog σ β) s = (.error e, s) := rfl
@[simp] theorem get_run (s : σ) : (get : Prog σ σ) s = (.ok s, s) := rfl
@[simp] theorem set_run (s s' : σ) : (set s' : Prog σ Unit) s = (.ok (), s') := rfl
@[simp] theorem modify_run (f : σ → σ) (s : σ) : (modify f : Prog σ Unit) s = (.ok (), f s) := rfl
@[simp] theorem lift_run (r : Except PyErr β) (s : σ) : (lift r : Prog σ β) s = (r, s) := rfl

theorem bind_run (p : Prog σ β) (f : β → Prog σ γ) (s : σ) :
    (p >>= f) s = match p s with
      | (.ok b, s') => f b s'
      | (.error e, s') => (.error e, s') := rfl

theorem bind_run_ok {p : Prog σ β} {f : β → Prog σ γ} {s s' : σ} {b : β}
    (h : p s = (.ok b, s')) : (p >>= f) s = f b s' := by
  simp [bind_run, h]

theorem bind_run_error {p : Prog σ β} {f : β → Prog σ γ} {s s' : σ} {e : PyErr}
    (h : p s = (.error e, s')) : (p >>= f) s = (.error e, s') := by
  simp [bind_run, h]

end Prog

end Imodal
