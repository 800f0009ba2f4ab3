import Verif.Lemmas.Fit
/-!
# C42 The fitter records one cost entry per evaluation

`dicts` below are the cost dictionaries that the optimiser reported, one per completed
iteration.
-/
set_option autoImplicit false
namespace Imodal
variable {ν C R : Type}

theorem get?_foldl_append (ds : List (Dict String C)) (hd : ∀ d ∈ ds, d.keys.Nodup)
    (base : Dict String (List C)) (k : String) :
    ((ds.foldl appendInDictOfList base).get? k).getD [] =
      (base.get? k).getD [] ++ ds.filterMap (fun d => d.get? k) := by
  induction ds generalizing base with
  | nil => simp
  | cons d ds ih =>
    rw [List.foldl_cons, ih (fun d' h => hd d' (by simp [h])), C64_append _ _ (hd d (by simp))]
    cases h : d.get? k <;> simp [h]

/-- After every fit that got past the argument binding with a cost history given, and
whose initial costs are not empty, the list under each name is the old list, then the
initial value, then the value of each completed iteration, in order. It does not matter
whether the optimiser then raises. -/
theorem C42_history (o : FitOptimizer ν C R) (m : FitModel ν C) (disp : Bool) (s : FitState ν C)
    (base : Dict String (List C)) (c0 : Dict String C)
    (hb : bindCall o.params 7 ["miniter", "options"] = .ok ())
    (hm : disp = true → m.hasDeformationModules = true)
    (hs : s.costs = some base) (he : m.evaluate (fitOptions s.options).1 = .ok c0)
    (hc0 : c0 ≠ []) (h0 : c0.keys.Nodup)
    (hd : ∀ d ∈ (o.run (fitOptions s.options).1 (fitOptions s.options).2).1, d.keys.Nodup) :
    ∃ c, (fit o m disp s).2.costs = some c ∧ ∀ k, (c.get? k).getD [] =
      (base.get? k).getD [] ++
        (c0 :: (o.run (fitOptions s.options).1 (fitOptions s.options).2).1).filterMap
          (fun d => d.get? k) := by
  have hm' : (disp && !m.hasDeformationModules) = false := by
    cases hdisp : disp with
    | false => rfl
    | true => simp [hm hdisp]
  have hne : appendInDictOfList base c0 ≠ [] := by
    intro h
    cases c0 with
    | nil => exact hc0 rfl
    | cons e c0 =>
      have := C64_append base (e :: c0) h0 e.1
      rw [h, Dict.get?_cons, if_pos rfl] at this
      cases this
  obtain ⟨e, d, hed⟩ : ∃ e d, appendInDictOfList base c0 = e :: d := by
    cases h : appendInDictOfList base c0 with
    | nil => exact absurd h hne
    | cons e d => exact ⟨e, d, rfl⟩
  rw [fit_run]
  simp only [hs, Option.isSome_some, Bool.true_or, if_true, he, hb, Prog.bind_run, Prog.lift_run,
    fitCallbacks_ok m disp hm', Option.map_some, hed]
  refine ⟨_, rfl, fun k => ?_⟩
  rw [← hed, get?_foldl_append _ hd, C64_append base c0 h0]
  cases h : c0.get? k <;> simp [h]

/-- Starting from an empty history and with the same cost names in every evaluation, all
lists have one entry for the initial state plus one per completed iteration, and the
`j`-th entry is the `j`-th reported value. -/
theorem C42_lengths (o : FitOptimizer ν C R) (m : FitModel ν C) (disp : Bool) (s : FitState ν C)
    (c0 : Dict String C)
    (hb : bindCall o.params 7 ["miniter", "options"] = .ok ())
    (hm : disp = true → m.hasDeformationModules = true)
    (hs : s.costs = some []) (he : m.evaluate (fitOptions s.options).1 = .ok c0)
    (hc0 : c0 ≠ []) (h0 : c0.keys.Nodup)
    (hd : ∀ d ∈ (o.run (fitOptions s.options).1 (fitOptions s.options).2).1,
      d.keys.Nodup ∧ ∀ k, k ∈ d.keys ↔ k ∈ c0.keys) :
    ∃ c, (fit o m disp s).2.costs = some c ∧ ∀ k, k ∈ c0.keys → ∃ l, c.get? k = some l ∧
      l.length = 1 + (o.run (fitOptions s.options).1 (fitOptions s.options).2).1.length ∧
      ∀ j : Nat, l[j]? = (c0 :: (o.run (fitOptions s.options).1
        (fitOptions s.options).2).1)[j]?.bind (fun d => d.get? k) := by
  obtain ⟨c, h1, h2⟩ := C42_history o m disp s [] c0 hb hm hs he hc0 h0 (fun d h => (hd d h).1)
  refine ⟨c, h1, fun k hk => ?_⟩
  have h3 := h2 k
  simp only [Dict.get?_nil, Option.getD_none, List.nil_append] at h3
  have hall : ∀ d ∈ c0 :: (o.run (fitOptions s.options).1 (fitOptions s.options).2).1,
      (d.get? k).isSome := by
    intro d h
    rw [← Dict.mem_keys_iff]
    rcases List.mem_cons.1 h with rfl | h
    · exact hk
    · exact ((hd d h).2 k).2 hk
  revert h3 hall
  generalize hds : c0 :: (o.run (fitOptions s.options).1 (fitOptions s.options).2).1 = ds
  intro h3 hall
  have hlen : (ds.filterMap (fun d => d.get? k)).length = ds.length := by
    clear h3 hds
    induction ds with
    | nil => rfl
    | cons d ds ih =>
      obtain ⟨v, hv⟩ := Option.isSome_iff_exists.1 (hall d (by simp))
      rw [List.filterMap_cons, hv]
      simp [ih (fun d h => hall d (by simp [h]))]
  have hget : ∀ j : Nat, (ds.filterMap (fun d => d.get? k))[j]? = ds[j]?.bind (fun d => d.get? k) := by
    clear h3 hds hlen
    induction ds with
    | nil => intro j; simp
    | cons d ds ih =>
      obtain ⟨v, hv⟩ := Option.isSome_iff_exists.1 (hall d (by simp))
      intro j
      rw [List.filterMap_cons, hv]
      cases j with
      | zero => simp [hv]
      | succ j => simpa using ih (fun d h => hall d (by simp [h])) j
  have hlen' : (o.run (fitOptions s.options).1 (fitOptions s.options).2).1.length + 1 = ds.length := by
    rw [← hds, List.length_cons]
  cases hck : c.get? k with
  | none =>
    rw [hck, Option.getD_none] at h3
    rw [← h3] at hlen
    simp at hlen
    omega
  | some l =>
    rw [hck, Option.getD_some] at h3
    exact ⟨l, rfl, by rw [h3, hlen]; omega, by rw [h3]; exact hget⟩

/-- Without a cost history nothing is recorded. -/
theorem C42_no_history (o : FitOptimizer ν C R) (m : FitModel ν C) (disp : Bool) (s : FitState ν C)
    (hs : s.costs = none) (hm : disp = true → m.hasDeformationModules = true) :
    (fit o m disp s).2.costs = none := by
  have hm' : (disp && !m.hasDeformationModules) = false := by
    cases hdisp : disp with
    | false => rfl
    | true => simp [hm hdisp]
  rw [fit_run]
  simp only [hs, Option.map_none, Prog.bind_run, Prog.lift_run, fitCallbacks_ok m disp hm']
  split
  · cases m.evaluate (fitOptions s.options).1 with
    | error e => rfl
    | ok c0 => cases bindCall o.params 7 ["miniter", "options"] <;> rfl
  · cases bindCall o.params 7 ["miniter", "options"] <;> rfl

/-- Two iterations of an optimiser reporting two costs each. -/
example : (fit (ν := Nat) (R := Unit)
    ⟨torchParams, fun _ _ => ([[("a", 2), ("b", 20)], [("a", 3), ("b", 30)]], .ok ())⟩
    ⟨fun _ => .ok [("a", 1), ("b", 10)], true⟩ true ⟨[], some [], 0⟩).2.costs
    = some [("a", [1, 2, 3]), ("b", [10, 20, 30])] := by
  rw [fit_run]; rfl

end Imodal
