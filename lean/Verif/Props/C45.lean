import Verif.Lemmas.Dict
/-!
# C45 The optimiser registry behaves like a dictionary with a default

The specification is written on histories of calls only: `lastRegistered` scans the
history for the last successful registration of a name, `lastDefault` for the last
accepted request for a default.

The statement about the default is **false for the code**: `set_default_optimizer`
(optimizer.py 29-31) assigns a local variable.  `C45_default_never_changes` proves that
the default stays `'scipy_l-bfgs-b'` after every history and
`C45_default_disagreement` exhibits a history where the request is accepted and lost.
-/
set_option autoImplicit false
namespace Imodal
variable {μ ω : Type}

/-- The builder given by the last registration of `m` in the history. -/
def lastRegistered (m : String) : List (OptCall μ ω) → Option (μ → Py ω)
  | [] => none
  | c :: h =>
    match lastRegistered m h with
    | some b => some b
    | none => match c with
      | .register m' b => if m' = m then some b else none
      | _ => none

/-- Names in the order of their first registration. -/
def registeredNames : List (OptCall μ ω) → List String → List String
  | [], acc => acc
  | .register m _ :: h, acc => registeredNames h (if m ∈ acc then acc else acc ++ [m])
  | _ :: h, acc => registeredNames h acc

theorem OptCall.get?_execAll (h : List (OptCall μ ω)) (r : OptRegistry μ ω) (m : String) :
    (OptCall.execAll h r).optimizers.get? m =
      match lastRegistered m h with
      | some b => some b
      | none => r.optimizers.get? m := by
  induction h generalizing r with
  | nil => rfl
  | cons c h ih =>
    have : OptCall.execAll (c :: h) r = OptCall.execAll h (c.exec r) := rfl
    rw [this, ih]
    simp only [lastRegistered]
    cases hl : lastRegistered m h with
    | some b => rfl
    | none =>
      cases c with
      | register m' b =>
        simp only [OptCall.exec, OptRegistry.register]
        by_cases hm : m' = m
        · subst hm; simp [Dict.get?_set_self]
        · simp [hm, Dict.get?_set_ne _ _ (Ne.symm hm)]
      | setDefault m' =>
        simp only [OptCall.exec, OptRegistry.setDefault]
        split <;> rfl
      | create m' x => rfl

theorem OptRegistry.create_eq (r : OptRegistry μ ω) (m : String) (x : μ) :
    r.create m x = match r.optimizers.get? m with
      | some b => b x
      | none => .error .assertion := by
  unfold OptRegistry.create OptRegistry.isValid
  simp only [decide_eq_true_eq]
  cases hg : r.optimizers.get? m with
  | some b =>
    have : m ∈ r.optimizers.keys := by rw [Dict.mem_keys_iff, hg]; rfl
    rw [if_pos this]
  | none =>
    have : m ∉ r.optimizers.keys := by rw [← Dict.get?_eq_none_iff, hg]
    rw [if_neg this]

/-- After every history of calls starting from the state at import, creating an
optimiser runs the builder last registered under the name on the given model, and an
unregistered name is rejected by an AssertionError. -/
theorem C45_create (h : List (OptCall μ ω)) (m : String) (x : μ) :
    (OptCall.execAll h OptRegistry.initial).create m x =
      match lastRegistered m h with
      | some b => b x
      | none => .error .assertion := by
  rw [OptRegistry.create_eq, OptCall.get?_execAll]
  cases lastRegistered m h <;> rfl

theorem OptCall.list_execAll (h : List (OptCall μ ω)) (r : OptRegistry μ ω) :
    (OptCall.execAll h r).list = registeredNames h r.list := by
  induction h generalizing r with
  | nil => rfl
  | cons c h ih =>
    have : OptCall.execAll (c :: h) r = OptCall.execAll h (c.exec r) := rfl
    rw [this, ih]
    cases c with
    | register m' b =>
      simp only [OptCall.exec, OptRegistry.register, registeredNames, OptRegistry.list,
        Dict.keys_set]
      rfl
    | setDefault m' =>
      simp only [OptCall.exec, OptRegistry.setDefault, registeredNames]
      split <;> rfl
    | create m' x => rfl

/-- After every history, the listed names are exactly the registered names in order of
first registration. -/
theorem C45_list (h : List (OptCall μ ω)) :
    (OptCall.execAll h OptRegistry.initial).list = registeredNames h [] :=
  OptCall.list_execAll h _

/-- Registering adds exactly the one name (or none when it is already there), keeps the
order and the builders of all other names, and always succeeds. -/
theorem C45_register_adds_one (r : OptRegistry μ ω) (m : String) (b : μ → Py ω) :
    (OptRegistry.register m b r).1 = .ok () ∧
    (OptRegistry.register m b r).2.list = (if m ∈ r.list then r.list else r.list ++ [m]) ∧
    (∀ m' x, m' ≠ m → (OptRegistry.register m b r).2.create m' x = r.create m' x) ∧
    (∀ x, (OptRegistry.register m b r).2.create m x = b x) ∧
    (OptRegistry.register m b r).2.getDefault = r.getDefault := by
  refine ⟨rfl, Dict.keys_set _ _ _, ?_, ?_, rfl⟩
  · intro m' x hm
    rw [OptRegistry.create_eq, OptRegistry.create_eq]
    show (match (r.optimizers.set m b).get? m' with
      | some b => b x
      | none => .error .assertion) = _
    rw [Dict.get?_set_ne _ _ hm]
  · intro x
    rw [OptRegistry.create_eq]
    show (match (r.optimizers.set m b).get? m with
      | some b => b x
      | none => .error .assertion) = _
    rw [Dict.get?_set_self]

/-- Requesting an unknown name as default is rejected, and a request never changes what
is registered. -/
theorem C45_set_default_partial (r : OptRegistry μ ω) (m : String) :
    ((OptRegistry.setDefault m r).1 = if m ∈ r.list then .ok () else .error .assertion) ∧
    (OptRegistry.setDefault m r).2.list = r.list ∧
    ∀ m' x, (OptRegistry.setDefault m r).2.create m' x = r.create m' x := by
  unfold OptRegistry.setDefault OptRegistry.isValid OptRegistry.list
  by_cases h : m ∈ r.optimizers.keys <;> simp [h]

/-- **Disagreement.** Whatever calls are made, the default optimiser stays the one fixed
at import. -/
theorem C45_default_never_changes (h : List (OptCall μ ω)) :
    (OptCall.execAll h OptRegistry.initial).getDefault = "scipy_l-bfgs-b" := by
  suffices ∀ r : OptRegistry μ ω, (OptCall.execAll h r).getDefault = r.getDefault from this _
  induction h with
  | nil => intro r; rfl
  | cons c h ih =>
    intro r
    have : OptCall.execAll (c :: h) r = OptCall.execAll h (c.exec r) := rfl
    rw [this, ih]
    cases c with
    | register m' b => rfl
    | setDefault m' =>
      simp only [OptCall.exec, OptRegistry.setDefault]
      split <;> rfl
    | create m' x => rfl

/-- **Disagreement.** For every builder there is a history whose last request for a
default is accepted but not reported afterwards. -/
theorem C45_default_disagreement (b : μ → Py ω) :
    ∃ h : List (OptCall μ ω), ∃ m : String,
      (OptRegistry.setDefault m (OptCall.execAll h OptRegistry.initial)).1 = .ok () ∧
      (OptRegistry.setDefault m (OptCall.execAll h OptRegistry.initial)).2.getDefault ≠ m := by
  refine ⟨[.register "gd" b], "gd", ?_, ?_⟩
  · simp [OptCall.execAll, OptCall.exec, OptRegistry.register, OptRegistry.setDefault,
      OptRegistry.isValid, OptRegistry.initial, Dict.set, Dict.keys]
  · simp [OptCall.execAll, OptCall.exec, OptRegistry.register, OptRegistry.setDefault,
      OptRegistry.isValid, OptRegistry.initial, Dict.set, Dict.keys, OptRegistry.getDefault]

/-- Overwriting a registration and creating: the later builder is used. -/
example :
    (OptCall.execAll [.register "gd" (fun n : Nat => .ok n), .register "a" (fun n => .ok n),
      .register "gd" (fun n => .ok (n + 1))] OptRegistry.initial).create "gd" 3 = .ok 4 := by
  rw [C45_create]; rfl

example :
    (OptCall.execAll [.register "gd" (fun n : Nat => (.ok n : Py Nat)), .register "a" (fun n => .ok n),
      .register "gd" (fun n => .ok (n + 1))] OptRegistry.initial).list = ["gd", "a"] := by
  rw [C45_list]; rfl

end Imodal
