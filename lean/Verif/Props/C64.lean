import Verif.Lemmas.Dict
/-!
# C64 List helpers

`flatten_tensor_list`, `shared_tensors_property`, `append_in_dict_of_list`
(usefulfunctions.py 195-208, 212-248, 283-288).
-/
set_option autoImplicit false
namespace Imodal

/-! ## flatten_tensor_list -/

/-- `Reads l ts`: reading the nested list from left to right meets exactly the tensors
`ts`, in this order. -/
inductive Reads {τ : Type} : List (Arg τ) → List τ → Prop
  | nil : Reads [] []
  | none {l ts} : Reads l ts → Reads (.none :: l) ts
  | tensor {l ts} (t : τ) : Reads l ts → Reads (.tensor t :: l) (t :: ts)
  | list {l l' ts ts'} : Reads l' ts' → Reads l ts → Reads (.list l' :: l) (ts' ++ ts)

theorem Reads.unique {τ : Type} {l : List (Arg τ)} {ts ts' : List τ} (h : Reads l ts)
    (h' : Reads l ts') : ts = ts' := by
  induction h generalizing ts' with
  | nil => cases h'; rfl
  | none _ ih => cases h' with | none h' => exact ih h'
  | tensor t _ ih => cases h' with | tensor _ h' => rw [ih h']
  | list _ _ ih1 ih2 => cases h' with | list h1 h2 => rw [ih1 h1, ih2 h2]

theorem flatten_reads {τ : Type} (l : List (Arg τ)) (out : List τ) :
    ∃ ts, flattenTensorList l out = out ++ ts ∧ Reads l ts := by
  fun_induction flattenTensorList l out with
  | case1 out => exact ⟨[], by simp, .nil⟩
  | case2 l out ih =>
    obtain ⟨ts, h1, h2⟩ := ih
    exact ⟨ts, h1, .none h2⟩
  | case3 t l out ih =>
    obtain ⟨ts, h1, h2⟩ := ih
    exact ⟨t :: ts, by rw [h1]; simp, .tensor t h2⟩
  | case4 l' l out ih1 ih2 =>
    obtain ⟨ts', h1, h2⟩ := ih1
    obtain ⟨ts, h3, h4⟩ := ih2
    exact ⟨ts' ++ ts, by rw [h3, h1]; simp, .list h2 h4⟩

/-- Flattening returns the tensors met when reading left to right, each occurrence once
and nothing else. -/
theorem C64_flatten {τ : Type} (l : List (Arg τ)) (ts : List τ) :
    flattenTensorList l [] = ts ↔ Reads l ts := by
  obtain ⟨ts', h1, h2⟩ := flatten_reads l []
  rw [List.nil_append] at h1
  rw [h1]
  exact ⟨fun h => h ▸ h2, fun h => h2.unique h⟩

/-- A given output list is only extended, at its end. -/
theorem C64_flatten_accumulator {τ : Type} (l : List (Arg τ)) (out : List τ) :
    flattenTensorList l out = out ++ flattenTensorList l [] := by
  obtain ⟨ts, h1, h2⟩ := flatten_reads l out
  rw [h1, (C64_flatten l ts).2 h2]

/-- Flattening distributes over concatenation and a nested list may be spliced in. -/
theorem C64_flatten_append {τ : Type} (l l' : List (Arg τ)) :
    flattenTensorList (l ++ l') [] = flattenTensorList l [] ++ flattenTensorList l' [] ∧
    flattenTensorList (.list l :: l') [] = flattenTensorList (l ++ l') [] ∧
    (∀ ts : List τ, flattenTensorList (ts.map Arg.tensor) [] = ts) := by
  have happ : ∀ out, flattenTensorList (l ++ l') out
      = flattenTensorList l' (flattenTensorList l out) := by
    intro out
    fun_induction flattenTensorList l out with
    | case1 out => rfl
    | case2 l out ih => simpa [flattenTensorList] using ih
    | case3 t l out ih => simpa [flattenTensorList] using ih
    | case4 l'' l out ih1 ih2 => simpa [flattenTensorList] using ih2
  refine ⟨by rw [happ, C64_flatten_accumulator], by rw [happ]; simp [flattenTensorList], ?_⟩
  intro ts
  rw [C64_flatten]
  induction ts with
  | nil => exact .nil
  | cons t ts ih => exact .tensor t ih

example : flattenTensorList [.tensor 1, .list [.tensor 2, .none, .list [.tensor 3]], .tensor 4] []
    = [1, 2, 3, 4] := by simp [flattenTensorList]

/-! ## shared_tensors_property -/

theorem collectProps_ok {α β : Type} (p : α → Option β) (ts : List (Option α)) :
    collectProps (fun a => .ok (p a)) ts = .ok (ts.filterMap (fun o => o.bind p)) := by
  induction ts with
  | nil => rfl
  | cons o ts ih =>
    cases o with
    | none => simpa [collectProps] using ih
    | some a =>
      cases h : p a <;> simp [collectProps, h, ih]

/-- With a property that does not raise, the helper returns `b` exactly when some element
has the property `b` and every element that has the property has the value `b`; in all
other cases it returns `None` (it never raises). `None` elements and elements whose
property is `None` are ignored. -/
theorem C64_shared {α β : Type} [DecidableEq β] (p : α → Option β) (ts : List (Option α))
    (r : Option β) :
    sharedProperty (fun a => .ok (p a)) ts = .ok r ↔
      match r with
      | some b => (∃ a, some a ∈ ts ∧ p a = some b) ∧
          ∀ a, some a ∈ ts → ∀ b', p a = some b' → b' = b
      | none => ¬ ∃ b, (∃ a, some a ∈ ts ∧ p a = some b) ∧
          ∀ a, some a ∈ ts → ∀ b', p a = some b' → b' = b := by
  have hmem : ∀ b, b ∈ ts.filterMap (fun o => o.bind p) ↔ ∃ a, some a ∈ ts ∧ p a = some b := by
    intro b
    rw [List.mem_filterMap]
    constructor
    · rintro ⟨o, ho, hb⟩
      cases o with
      | none => simp at hb
      | some a => exact ⟨a, ho, hb⟩
    · rintro ⟨a, ha, hb⟩
      exact ⟨some a, ha, hb⟩
  have hspec : ∀ b, ((∃ a, some a ∈ ts ∧ p a = some b) ∧
          ∀ a, some a ∈ ts → ∀ b', p a = some b' → b' = b) ↔
      (b ∈ ts.filterMap (fun o => o.bind p) ∧ ∀ b' ∈ ts.filterMap (fun o => o.bind p), b' = b) := by
    intro b
    rw [hmem]
    refine and_congr_right fun _ => ⟨fun h b' hb' => ?_, fun h a ha b' hb' => ?_⟩
    · obtain ⟨a, ha, hb'⟩ := (hmem b').1 hb'
      exact h a ha b' hb'
    · exact h b' ((hmem b').2 ⟨a, ha, hb'⟩)
  have hval : sharedProperty (fun a => .ok (p a)) ts = .ok
      (match ts.filterMap (fun o => o.bind p) with
        | [] => none
        | first :: rest => if ∀ b' ∈ rest, b' = first then some first else none) := by
    unfold sharedProperty
    rw [collectProps_ok]
    cases ts.filterMap (fun o => o.bind p) with
    | nil => rfl
    | cons f rest =>
      have hc : List.count f (f :: rest) = (f :: rest).length ↔ ∀ b' ∈ rest, b' = f := by
        rw [List.count_eq_length]
        constructor
        · intro h b hb; exact (h b (by simp [hb])).symm
        · intro h b hb
          rcases List.mem_cons.1 hb with rfl | hb
          · rfl
          · exact (h b hb).symm
      by_cases h : ∀ b' ∈ rest, b' = f
      · simp only [if_pos (hc.2 h), if_pos h]
      · simp only [if_neg (fun h' => h (hc.1 h')), if_neg h]
  rw [hval]
  cases r with
  | some b =>
    simp only [hspec]
    cases ts.filterMap (fun o => o.bind p) with
    | nil => simp
    | cons f rest =>
      by_cases h : ∀ b' ∈ rest, b' = f
      · simp only [if_pos h, Except.ok.injEq, Option.some.injEq]
        constructor
        · rintro rfl; exact ⟨by simp, by simpa using h⟩
        · rintro ⟨_, h2⟩; exact h2 f (by simp)
      · simp only [if_neg h]
        constructor
        · intro h'; cases h'
        · rintro ⟨_, h2⟩
          have hf : f = b := h2 f (by simp)
          exact absurd (fun b' hb' => (h2 b' (by simp [hb'])).trans hf.symm) h
  | none =>
    simp only [hspec]
    cases ts.filterMap (fun o => o.bind p) with
    | nil => simp
    | cons f rest =>
      by_cases h : ∀ b' ∈ rest, b' = f
      · simp only [if_pos h]
        constructor
        · intro h'; cases h'
        · intro h'
          exact absurd ⟨f, by simp, by simpa using h⟩ h'
      · simp only [if_neg h, true_iff]
        rintro ⟨b, _, h2⟩
        have hf : f = b := h2 f (by simp)
        exact h (fun b' hb' => (h2 b' (by simp [hb'])).trans hf.symm)

/-- If the property raises on an element that is not `None`, the helper raises what the
first such element raises. -/
theorem C64_shared_raises {α β : Type} [DecidableEq β] (prop : α → Py (Option β))
    (pre post : List (Option α)) (a : α) (e : PyErr) (ha : prop a = .error e)
    (hpre : ∀ a', some a' ∈ pre → ∃ b, prop a' = .ok b) :
    sharedProperty prop (pre ++ some a :: post) = .error e := by
  have : collectProps prop (pre ++ some a :: post) = .error e := by
    induction pre with
    | nil => simp [collectProps, ha]
    | cons o pre ih =>
      have ih' := ih (fun a' h => hpre a' (List.mem_cons_of_mem _ h))
      cases o with
      | none => simpa [collectProps] using ih'
      | some a' =>
        obtain ⟨b, hb⟩ := hpre a' (by simp)
        cases b <;> simp [collectProps, hb, ih']
  simp [sharedProperty, this]

example : sharedProperty (fun n : Nat => (.ok (if n = 0 then none else some (n % 2)) : Py (Option Nat)))
    [some 3, none, some 0, some 5] = .ok (some 1) := by
  rw [C64_shared (fun n : Nat => if n = 0 then none else some (n % 2))]
  refine ⟨⟨3, by simp, rfl⟩, ?_⟩
  simp

/-! ## append_in_dict_of_list -/

theorem get?_appendEntry {κ ν : Type} [DecidableEq κ] (base : Dict κ (List ν)) (e : κ × ν) (k : κ) :
    (appendEntry base e).get? k =
      if k = e.1 then some ((base.get? k).getD [] ++ [e.2]) else base.get? k := by
  unfold appendEntry
  by_cases hk : k = e.1
  · subst hk
    cases h : base.get? e.1 <;> simp [Dict.get?_set_self]
  · cases h : base.get? e.1 <;> simp [Dict.get?_set_ne _ _ hk, hk]

theorem keys_appendEntry {κ ν : Type} [DecidableEq κ] (base : Dict κ (List ν)) (e : κ × ν) :
    (appendEntry base e).keys = if e.1 ∈ base.keys then base.keys else base.keys ++ [e.1] := by
  unfold appendEntry
  cases h : base.get? e.1 <;> simp only [Dict.keys_set]

/-- For every dictionary `d` (unique keys), every value of `d` is appended to the list
under its key (a missing list counts as empty), and the other lists keep their value. -/
theorem C64_append {κ ν : Type} [DecidableEq κ] (base : Dict κ (List ν)) (d : Dict κ ν)
    (hd : d.keys.Nodup) (k : κ) :
    (appendInDictOfList base d).get? k =
      match d.get? k with
      | some v => some ((base.get? k).getD [] ++ [v])
      | none => base.get? k := by
  unfold appendInDictOfList
  induction d generalizing base with
  | nil => rfl
  | cons e d ih =>
    rw [Dict.keys_cons, List.nodup_cons] at hd
    rw [List.foldl_cons, ih _ hd.2, get?_appendEntry, Dict.get?_cons]
    by_cases hk : e.1 = k
    · have : Dict.get? d k = none := by rw [Dict.get?_eq_none_iff, ← hk]; exact hd.1
      simp [hk, this]
    · rw [if_neg hk, if_neg (Ne.symm hk)]

/-- New names come after the old ones, in the order of `d`, each once. -/
theorem C64_append_keys {κ ν : Type} [DecidableEq κ] (base : Dict κ (List ν)) (d : Dict κ ν)
    (hd : d.keys.Nodup) :
    (appendInDictOfList base d).keys = base.keys ++ d.keys.filter (fun k => k ∉ base.keys) := by
  unfold appendInDictOfList
  induction d generalizing base with
  | nil => simp [Dict.keys]
  | cons e d ih =>
    rw [Dict.keys_cons, List.nodup_cons] at hd
    rw [List.foldl_cons, ih _ hd.2, keys_appendEntry, Dict.keys_cons, List.filter_cons]
    by_cases h : e.1 ∈ base.keys
    · simp [h]
    · have h2 : decide (e.1 ∉ base.keys) = true := by simpa using h
      rw [if_neg h, if_pos h2]
      rw [List.append_assoc, List.singleton_append]
      congr 2
      refine List.filter_congr fun k hk => ?_
      have : k ≠ e.1 := fun h' => hd.1 (h' ▸ hk)
      simp [this]

example : (appendInDictOfList [("a", [1]), ("b", [2])] [("b", 5), ("c", 6)]).get? "b" = some [2, 5] := by
  rw [C64_append _ _ (by decide)]; rfl

end Imodal
