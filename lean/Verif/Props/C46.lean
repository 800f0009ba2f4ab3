import Verif.Lemmas.Dict
/-!
# C46 The compute backend setting is a single validated variable

Specification on histories: `lastAccepted` is the last request naming 'torch' or
'keops', with 'torch' before any request.
-/
set_option autoImplicit false
namespace Imodal

/-- Perform the requests in order; rejected ones raise and the caller goes on. -/
def setBackends (h : List String) (v : BackendVar) : BackendVar :=
  h.foldl (fun v b => (setComputeBackend b v).2) v

/-- The last request for one of the two supported names. -/
def lastAccepted (h : List String) : Option String :=
  (h.filter (fun b => b == "torch" || b == "keops")).getLast?

/-- A request is accepted exactly for the two supported names; an accepted one becomes
the current value; a rejected one raises RuntimeError and changes nothing. -/
theorem C46_set (b : String) (v : BackendVar) :
    (b = "torch" ∨ b = "keops" →
      setComputeBackend b v = (.ok (), b) ∧ getComputeBackend (setComputeBackend b v).2 = b) ∧
    (¬ (b = "torch" ∨ b = "keops") → setComputeBackend b v = (.error .runtime, v)) := by
  unfold setComputeBackend getComputeBackend
  constructor
  · rintro (rfl | rfl) <;> simp
  · intro h
    rw [not_or] at h
    simp [h.1, h.2]

/-- After every sequence of requests the value read is the last accepted one, or 'torch'
if none was accepted. -/
theorem C46_get (h : List String) :
    getComputeBackend (setBackends h initialBackend) = (lastAccepted h).getD "torch" := by
  have key : ∀ v, setBackends h v = (lastAccepted h).getD v := by
    induction h with
    | nil => intro v; rfl
    | cons b h ih =>
      intro v
      have : setBackends (b :: h) v = setBackends h (setComputeBackend b v).2 := rfl
      rw [this, ih]
      unfold lastAccepted
      by_cases hb : b = "torch" ∨ b = "keops"
      · have h1 := ((C46_set b v).1 hb).1
        have h2 : (b == "torch" || b == "keops") = true := by
          rcases hb with rfl | rfl <;> rfl
        rw [h1, List.filter_cons, if_pos h2, List.getLast?_cons]
        cases (List.filter (fun b => b == "torch" || b == "keops") h).getLast? <;> rfl
      · have h1 := (C46_set b v).2 hb
        have h2 : ¬ (b == "torch" || b == "keops") = true := by
          simpa using hb
        rw [h1, List.filter_cons, if_neg h2]
  exact key _

/-- The current value is always one of the two supported names, and it is a valid backend. -/
theorem C46_always_valid (h : List String) :
    (getComputeBackend (setBackends h initialBackend) = "torch" ∨
      getComputeBackend (setBackends h initialBackend) = "keops") ∧
    isValidBackend (getComputeBackend (setBackends h initialBackend)) = true := by
  rw [C46_get]
  have : (lastAccepted h).getD "torch" = "torch" ∨ (lastAccepted h).getD "torch" = "keops" := by
    cases hl : lastAccepted h with
    | none => exact Or.inl rfl
    | some b =>
      have := List.mem_of_getLast? hl
      simpa using (List.mem_filter.1 this).2
  refine ⟨this, ?_⟩
  rcases this with h' | h' <;> rw [h'] <;> rfl

/-- A validity check agrees with what can be set. -/
theorem C46_isValid (b : String) (v : BackendVar) :
    isValidBackend b = true ↔ (setComputeBackend b v).1 = .ok () := by
  unfold isValidBackend computeBackends setComputeBackend
  by_cases h1 : b = "torch"
  · simp [h1]
  · by_cases h2 : b = "keops" <;> simp [h1, h2]

/-- A structured field built without a backend, after any sequence of requests, is built
successfully, stores the current backend and uses its reduction; with an explicit
backend the current setting is irrelevant and other names are rejected. -/
theorem C46_field (h : List String) :
    (∃ r, buildField none (setBackends h initialBackend) =
        .ok (getComputeBackend (setBackends h initialBackend), r) ∧
      (r = .torch ↔ (lastAccepted h).getD "torch" = "torch")) ∧
    (∀ v, buildField (some "torch") v = .ok ("torch", .torch)) ∧
    (∀ v, buildField (some "keops") v = .ok ("keops", .keops)) ∧
    (∀ b v, b ≠ "torch" → b ≠ "keops" → buildField (some b) v = .error .assertion) := by
  refine ⟨?_, fun _ => rfl, fun _ => rfl, ?_⟩
  · have hv := (C46_always_valid h).1
    have hg := C46_get h
    rw [hg] at hv
    have hg' : setBackends h initialBackend = (lastAccepted h).getD "torch" := hg
    rw [hg']
    rcases hv with h' | h'
    · exact ⟨.torch, by rw [h']; exact ⟨rfl, by simp⟩⟩
    · exact ⟨.keops, by rw [h']; exact ⟨rfl, by simp⟩⟩
  · intro b v h1 h2
    simp [buildField, isValidBackend, computeBackends, h1, h2]

/-- A module or varifold attachment built without a backend, after any sequence of
requests, is the torch or the KeOps one according to the last accepted request, with the
arguments passed on unchanged. -/
theorem C46_module {α ω : Type} (h : List String) (bt bk : α → Py ω) (args : α) :
    (createModule bt bk args none (setBackends h initialBackend) =
      if (lastAccepted h).getD "torch" = "torch" then bt args else bk args) ∧
    (∀ v, createModule bt bk args (some "torch") v = bt args) ∧
    (∀ v, createModule bt bk args (some "keops") v = bk args) ∧
    (∀ b v, b ≠ "torch" → b ≠ "keops" →
      createModule bt bk args (some b) v = .error .notImplemented) := by
  refine ⟨?_, fun _ => rfl, fun _ => rfl, ?_⟩
  · have hv := (C46_always_valid h).1
    have hg := C46_get h
    rw [hg] at hv
    have hg' : setBackends h initialBackend = (lastAccepted h).getD "torch" := hg
    rw [hg']
    rcases hv with h' | h' <;> simp [h', createModule, getComputeBackend]
  · intro b v h1 h2
    simp [createModule, h1, h2]

theorem C46_varifold (h : List String) (dim : Int) :
    varifoldAttachment dim none (setBackends h initialBackend) =
      (let r := if (lastAccepted h).getD "torch" = "torch" then Reduction.torch else .keops
       if dim = 2 then .ok (.d2 r) else if dim = 3 then .ok (.d3 r) else .error .runtime) := by
  have hv := (C46_always_valid h).1
  have hg := C46_get h
  rw [hg] at hv
  have hg' : setBackends h initialBackend = (lastAccepted h).getD "torch" := hg
  rw [hg']
  rcases hv with h' | h' <;> simp [h', varifoldAttachment, getComputeBackend]

example : getComputeBackend (setBackends ["keops", "cuda"] initialBackend) = "keops" := by
  rw [C46_get]; rfl

end Imodal
