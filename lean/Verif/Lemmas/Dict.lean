import Verif.Model.Registry
/-! # Facts about association-list dictionaries -/
set_option autoImplicit false
namespace Imodal
namespace Dict
variable {κ ν : Type} [DecidableEq κ]

theorem get?_nil (k : κ) : Dict.get? ([] : Dict κ ν) k = none := rfl

theorem get?_cons (e : κ × ν) (d : Dict κ ν) (k : κ) :
    Dict.get? (e :: d) k = if e.1 = k then some e.2 else Dict.get? d k := by
  unfold Dict.get?
  by_cases h : e.1 = k <;> simp [List.find?_cons, h]

theorem get?_set_self (d : Dict κ ν) (k : κ) (v : ν) : (d.set k v).get? k = some v := by
  induction d with
  | nil => simp [Dict.set, get?_cons]
  | cons e d ih =>
    obtain ⟨k', v'⟩ := e
    by_cases h : k' = k
    · simp [Dict.set, h, get?_cons]
    · simp [Dict.set, h, get?_cons, ih]

theorem get?_set_ne (d : Dict κ ν) {k k' : κ} (v : ν) (hk : k' ≠ k) :
    (d.set k v).get? k' = d.get? k' := by
  induction d with
  | nil => simp [Dict.set, get?_cons, get?_nil, hk.symm]
  | cons e d ih =>
    obtain ⟨a, b⟩ := e
    by_cases h : a = k
    · subst h
      simp [Dict.set, get?_cons, hk.symm]
    · simp [Dict.set, h, get?_cons, ih]

theorem mem_keys_iff (d : Dict κ ν) (k : κ) : k ∈ d.keys ↔ (d.get? k).isSome := by
  induction d with
  | nil => simp [Dict.keys, get?_nil]
  | cons e d ih =>
    have ih' : k ∈ List.map (·.1) d ↔ (Dict.get? d k).isSome := ih
    by_cases h : e.1 = k
    · simp [Dict.keys, get?_cons, h]
    · simp [Dict.keys, get?_cons, h, ← ih', Ne.symm h]

theorem get?_eq_none_iff (d : Dict κ ν) (k : κ) : d.get? k = none ↔ k ∉ d.keys := by
  rw [mem_keys_iff]; cases d.get? k <;> simp

theorem keys_cons (e : κ × ν) (d : Dict κ ν) : Dict.keys (e :: d) = e.1 :: Dict.keys d := rfl

theorem keys_set (d : Dict κ ν) (k : κ) (v : ν) :
    (d.set k v).keys = if k ∈ d.keys then d.keys else d.keys ++ [k] := by
  induction d with
  | nil => rfl
  | cons e d ih =>
    obtain ⟨a, b⟩ := e
    by_cases h : a = k
    · simp [Dict.set, h, keys_cons]
    · have h' : k ≠ a := fun x => h x.symm
      simp only [Dict.set, h, if_false, keys_cons, List.mem_cons, h', false_or, ih]
      by_cases hh : k ∈ Dict.keys d
      · rw [if_pos hh, if_pos hh]
      · rw [if_neg hh, if_neg hh]; rfl

theorem keys_nodup_set (d : Dict κ ν) (k : κ) (v : ν) (h : d.keys.Nodup) :
    (d.set k v).keys.Nodup := by
  rw [keys_set]
  split
  · exact h
  · rename_i hk
    rw [List.nodup_append]
    refine ⟨h, by simp, ?_⟩
    intro a ha b hb
    rw [List.mem_singleton] at hb
    rintro rfl
    exact hk (hb ▸ ha)

end Dict
end Imodal
