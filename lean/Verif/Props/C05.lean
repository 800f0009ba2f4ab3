import Verif.Props.C02
/-!
# C05  `requires_grad_` marks exactly the selected tensors
-/
set_option autoImplicit false
namespace Imodal

variable {α : Type}

/-- Partial: with `index=-1` the call succeeds on every manifold object whatever its
history, replaces every tensor of the family by one with the same contents (the same
storage), the requested flag and no graph, and touches nothing else.
Missing from the full property: single indices, see `C05_index_fails_after_fill`. -/
theorem C05_all_partial (w : World α) (hv : w.Valid) (i : Nat) (f : Fam) (b : Bool)
    (hex : ∃ l, w.leaves[i]? = some l) :
    ∃ w', (Man.leaf i).requiresGrad f (some b) (-1) w = (.ok (), w') ∧
      w'.heldVals f i = w.heldVals f i ∧
      (∀ r ∈ w'.held f i, ∃ o, w'.objs[r]? = some o ∧ o.requiresGrad = b ∧ o.hasGraph = false) ∧
      (∀ g j, j ≠ i ∨ g ≠ f → w'.held g j = w.held g j) ∧ w'.stores = w.stores := by
  obtain ⟨l, hl⟩ := hex
  obtain ⟨w', h, hR⟩ := tcRequiresGrad_all b (f := f) hv hl
  refine ⟨w', h, hR.heldVals hv f i, (hR.flags hl).1, ?_, hR.stores⟩
  intro g j hj
  by_cases hji : j = i
  · subst hji
    exact (hR.flags hl).2 g (by tauto)
  · unfold World.held; rw [hR.other j hji]

/-- Partial: with an index in range, on a container whose sequence currently is a list
(which it is after `to_`, `clone` or `requires_grad_(index=-1)`), exactly the selected
tensor is replaced, by one on the same storage with the requested flag. -/
theorem C05_index_partial (w : World α) (hv : w.Valid) (i : Nat) (f : Fam) (b : Bool) (k : Nat)
    (l : Leaf) (hl : w.leaves[i]? = some l) (hk : k < (l.tc f).tensors.length)
    (hlist : (l.tc f).isList = true) :
    ∃ w' r', (Man.leaf i).requiresGrad f (some b) k w = (.ok (), w') ∧
      w'.held f i = (w.held f i).set k r' ∧ w'.heldVals f i = w.heldVals f i ∧
      (∃ o, w'.objs[r']? = some o ∧ o.requiresGrad = b ∧ o.hasGraph = false) ∧
      (∀ g j, j ≠ i ∨ g ≠ f → w'.held g j = w.held g j) := by
  have hr : (l.tc f).tensors[k] < w.objs.length := hv.leaf i l hl f _ (List.getElem_mem hk)
  obtain ⟨rs', w₁, h₁, he, hs, hlv, hv', hf, -⟩ := mapT_detach b [(l.tc f).tensors[k]] w hv
    (by simpa using hr)
  obtain ⟨r', rfl⟩ : ∃ r', rs' = [r'] := by
    cases hf with
    | cons _ h2 => cases h2; exact ⟨_, rfl⟩
  have hd : Detached b w w₁ (l.tc f).tensors[k] r' := by
    cases hf with
    | cons h _ => exact h
  have hdt : detachT (some b) (l.tc f).tensors[k] w = (.ok r', w₁) := by
    simp only [mapT, Prog.bind_run] at h₁
    rcases h2 : detachT (some b) (l.tc f).tensors[k] w with ⟨e | x, w2⟩
    · simp [h2] at h₁
    · simp [h2] at h₁; rw [h₁.1, h₁.2]
  let u : Leaf → Leaf := fun l => l.setTc { l.tc f with tensors := (l.tc f).tensors.set k r' } f
  have hrun : (Man.leaf i).requiresGrad f (some b) k w
      = (.ok (), ⟨w₁.objs, w₁.stores, w₁.leaves.modify i u⟩) := by
    have e1 : ((k : Int) = -1) = False := by simp
    have e2 : ((k : Int) < 0) = False := by simp
    have hnk : ¬ (l.tc f).tensors.length ≤ k := by omega
    simp [Man.requiresGrad, tcRequiresGrad, Prog.bind_run, getLeaf, hl, e1, e2, hnk,
      List.getElem?_eq_getElem hk, hdt, hlist, modifyTc, u]
  have hlu : (w₁.leaves.modify i u)[i]? = some (u l) := by
    simp [List.getElem?_modify, hlv, hl]
  have hut : ((u l).tc f).tensors = (l.tc f).tensors.set k r' := by cases f <;> rfl
  have hout : ∀ j, j ≠ i → (w₁.leaves.modify i u)[j]? = w.leaves[j]? := by
    intro j hj; simp [List.getElem?_modify, Ne.symm hj, hlv]
  refine ⟨_, r', hrun, ?_, ?_, ?_, ?_⟩
  · simp only [World.held, hlu, hl, hut]
  · simp only [World.heldVals, World.held, hlu, hl, hut]
    have e : ∀ r, World.read ⟨w₁.objs, w₁.stores, w₁.leaves.modify i u⟩ r = w₁.read r := fun _ => rfl
    rw [List.map_congr_left (fun r _ => e r), List.map_set]
    rw [hd.read hs, map_read_ext he hv _ (hv.leaf i l hl f)]
    apply List.ext_getElem?
    intro n
    rw [List.getElem?_set]
    split
    · next hkn => subst hkn; simp [hk]
    · rfl
  · obtain ⟨o, _, _, ho⟩ := hd
    exact ⟨_, ho, rfl, rfl⟩
  · intro g j hgj
    by_cases hji : j = i
    · subst hji
      have hg : g ≠ f := by tauto
      simp only [World.held, hlu, hl]
      have : (u l).tc g = l.tc g := by cases f <;> cases g <;> first | rfl | exact absurd rfl hg
      rw [this]
    · simp only [World.held, hout j hji]

/-- Disagreement with the property: right after any successful `fill_*` (also right after
construction), `requires_grad_` with a single index in range raises `TypeError`, and the
flag is not set. -/
theorem C05_index_fails_after_fill (w : World α) (hv : w.Valid) (i : Nat) (f : Fam) (b : Bool)
    (k : Nat) (l : Leaf) (hl : w.leaves[i]? = some l) (hk : k < (l.tc f).tensors.length)
    (htuple : (l.tc f).isList = false) :
    ((Man.leaf i).requiresGrad f (some b) k w).1 = .error .type ∧
      ((Man.leaf i).requiresGrad f (some b) k w).2.leaves = w.leaves := by
  have hr : (l.tc f).tensors[k] < w.objs.length := hv.leaf i l hl f _ (List.getElem_mem hk)
  have e1 : ((k : Int) = -1) = False := by simp
  have e2 : ((k : Int) < 0) = False := by simp
  have hnk : ¬ (l.tc f).tensors.length ≤ k := by omega
  simp [Man.requiresGrad, tcRequiresGrad, Prog.bind_run, getLeaf, hl, e1, e2,
      List.getElem?_eq_getElem hk, detachT, getObj, hr, htuple, hnk, aliasT]

/-- Every fill that succeeds leaves a tuple behind, so the failure above applies after it. -/
theorem C05_fill_leaves_tuple (w w' : World α) (i : Nat) (f : Fam) (mode : FillMode) (a : Arg Ref)
    (h : (Man.leaf i).fill f mode a w = (.ok (), w')) (l' : Leaf) (hl' : w'.leaves[i]? = some l') :
    (l'.tc f).isList = false := by
  simp only [Man.fill, leafFill, tcFill, Prog.bind_run, Prog.get_run, Prog.lift_run] at h
  rcases h1 : argShared w TObj.device a with e | d
  · simp [h1] at h
  · cases d with
    | none => simp [h1] at h
    | some d =>
      rcases h2 : argShared w TObj.dtype a with e | t
      · simp [h1, h2, modifyTc, Prog.bind_run] at h
      · cases t with
        | none => simp [h1, h2, modifyTc, Prog.bind_run] at h
        | some t =>
          simp only [h1, h2, modifyTc, Prog.bind_run, Prog.modify_run, Prog.lift_run] at h
          revert h
          generalize getLeaf i _ = x
          rcases x with ⟨e | l, w₁⟩
          · simp
          · simp only
            rcases h3 : fillRefs (l.tc f).shapes.length a with e | rs
            · simp
            · simp only
              rcases h4 : fillTensors mode rs w₁ with ⟨e | ts, w₂⟩
              · simp
              · simp only [Prod.mk.injEq, true_and]
                rintro rfl
                simp only [List.getElem?_modify] at hl'
                cases hx : w₂.leaves[i]? with
                | none => simp [hx] at hl'
                | some y =>
                  simp only [hx, Option.map_eq_map, Option.map_some, if_true, Option.some.injEq] at hl'
                  subst hl'
                  cases f <;> rfl

/-! Non-vacuity: object 1 of the example world holds two tensors in a tuple; after
`requires_grad_()` it holds them in a list. -/
example : exWorld.Valid ∧ (∃ l, exWorld.leaves[1]? = some l ∧ 1 < (l.tc .gd).tensors.length ∧
    (l.tc .gd).isList = false) := ⟨exWorld_valid, _, rfl, by decide, rfl⟩

end Imodal
