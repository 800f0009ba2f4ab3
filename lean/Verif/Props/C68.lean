import Verif.Lemmas.Dict
/-!
# C68 The object factory spawns what was registered

`lastBuilder` is written on the history of registrations alone. Calling the factory
object itself (factory.py 7-8) always raises NameError, `C68_call_disagreement`.
-/
set_option autoImplicit false
namespace Imodal
variable {κ α ω : Type} [DecidableEq κ]

/-- The entry last registered under `k`. -/
def lastBuilder (k : κ) (h : List (κ × Option (α → Py ω))) : Option (Option (α → Py ω)) :=
  ((h.filter (fun e => e.1 = k)).getLast?).map (·.2)

/-- Register all entries in order. -/
def Factory.registerAll (f : Factory κ α ω) (h : List (κ × Option (α → Py ω))) :
    Factory κ α ω := h.foldl (fun f e => f.registerBuilder e.1 e.2) f

theorem Factory.registerAll_builders (f : Factory κ α ω) (h : List (κ × Option (α → Py ω))) :
    (f.registerAll h).builders = Factory.updateDict f.builders h := by
  induction h generalizing f with
  | nil => rfl
  | cons e h ih => exact ih _

theorem Factory.get?_updateDict {ν : Type} (d h : Dict κ ν) (k : κ) :
    (Factory.updateDict d h).get? k =
      (((h.filter (fun e => e.1 = k)).getLast?).map (·.2)).or (d.get? k) := by
  induction h generalizing d with
  | nil => simp [Factory.updateDict]
  | cons e h ih =>
    have : Factory.updateDict d (e :: h) = Factory.updateDict (d.set e.1 e.2) h := rfl
    rw [this, ih]
    by_cases hk : e.1 = k
    · have hp : decide (e.1 = k) = true := by simpa using hk
      rw [List.filter_cons, if_pos hp, List.getLast?_cons, ← hk, Dict.get?_set_self]
      cases (List.filter (fun x : κ × ν => decide (x.1 = e.1)) h).getLast? <;> simp
    · have hp : ¬ decide (e.1 = k) = true := by simpa using hk
      rw [List.filter_cons, if_neg hp, Dict.get?_set_ne _ _ (Ne.symm hk)]

/-- For every factory built from an optional initial dictionary and every history of
registrations, spawning calls the builder last registered under the key (registrations
come after the initial dictionary) with the given arguments; an unknown key, or one whose
last entry is `None`, is rejected by a KeyError. -/
theorem C68_spawn_partial (init : Option (Dict κ (Option (α → Py ω))))
    (h : List (κ × Option (α → Py ω))) (k : κ) (args : α) :
    ((Factory.init init).registerAll h).spawn k args =
      match lastBuilder k (init.getD [] ++ h) with
      | some (some b) => b args
      | _ => .error .key := by
  have h1 : ((Factory.init init).registerAll h).builders =
      Factory.updateDict ([] : Dict κ (Option (α → Py ω))) (init.getD [] ++ h) := by
    rw [Factory.registerAll_builders]
    cases init with
    | none => rfl
    | some d => simp [Factory.init, Factory.updateDict, List.foldl_append]
  unfold Factory.spawn
  rw [h1, Factory.get?_updateDict]
  unfold lastBuilder
  rw [Dict.get?_nil, Option.or_none]
  cases Option.map (fun x : κ × Option (α → Py ω) => x.2)
      (List.filter (fun e : κ × Option (α → Py ω) => decide (e.1 = k)) (init.getD [] ++ h)).getLast? with
  | none => rfl
  | some o => cases o <;> rfl

/-- **Disagreement.** Calling the factory raises NameError for every key, registered or
not, although `spawn` with the same key succeeds. -/
theorem C68_call_disagreement (f : Factory κ α ω) (k : κ) (b : α → ω) (args : α) :
    (f.registerBuilder k (some fun a => .ok (b a))).spawn k args = .ok (b args) ∧
    (f.registerBuilder k (some fun a => .ok (b a))).call k args = .error .name := by
  refine ⟨?_, rfl⟩
  simp [Factory.spawn, Factory.registerBuilder, Dict.get?_set_self]

example : ((Factory.init (some [("a", some fun n : Nat => .ok n)])).registerAll
    [("b", some fun n => .ok (2 * n)), ("a", some fun n => .ok (n + 5))]).spawn "a" 1 = .ok 6 := by
  rw [C68_spawn_partial]; rfl

end Imodal
