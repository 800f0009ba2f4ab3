import Verif.Props.C02
/-!
# C06  A failed fill leaves the manifold as it was
-/
set_option autoImplicit false
namespace Imodal

variable {α : Type}

theorem mapT_leaves {op : Ref → PM α Ref} (hop : ∀ r w, (op r w).2.leaves = w.leaves) :
    ∀ (rs : List Ref) (w : World α), (mapT op rs w).2.leaves = w.leaves
  | [], _ => rfl
  | r :: rs, w => by
    have h := hop r w
    have ih := mapT_leaves hop rs
    simp only [mapT, Prog.bind_run]
    rcases h1 : op r w with ⟨e | x, w₁⟩
    · rw [h1] at h; exact h
    · rw [h1] at h
      have ih' := ih w₁
      simp only
      rcases h2 : mapT op rs w₁ with ⟨e | xs, w₂⟩
      · rw [h2] at ih'; simp only at ih' h ⊢; rw [ih', h]
      · rw [h2] at ih'; simp only [Prog.pure_run] at ih' h ⊢; rw [ih', h]

theorem cloneT_leaves (r : Ref) (w : World α) : (cloneT r w).2.leaves = w.leaves := by
  simp only [cloneT, Prog.bind_run, getObj, readT, allocT]
  cases w.objs[r]? with
  | none => rfl
  | some o => cases h : w.read r <;> simp [h]

theorem detachCloneT_leaves (b : Bool) (r : Ref) (w : World α) :
    (detachCloneT b r w).2.leaves = w.leaves := by
  simp only [detachCloneT, Prog.bind_run, getObj, readT, allocT]
  cases w.objs[r]? with
  | none => rfl
  | some o => cases h : w.read r <;> simp [h]

theorem fillTensors_leaves (m : FillMode) (rs : List Ref) (w : World α) :
    (fillTensors m rs w).2.leaves = w.leaves := by
  unfold fillTensors
  split
  · cases m.requiresGrad with
    | some b => exact mapT_leaves (detachCloneT_leaves _) rs w
    | none => exact mapT_leaves cloneT_leaves rs w
  · rfl

/-- What the manifold objects show: tensors, and the `device` / `dtype` properties. -/
structure Leaf.SameView (l l' : Leaf) : Prop where
  tensors : ∀ g, (l'.tc g).tensors = (l.tc g).tensors
  device : l'.baseDevice = l.baseDevice
  dtype : l'.baseDtype = l.baseDtype

theorem Leaf.SameView.refl (l : Leaf) : l.SameView l := ⟨fun _ => rfl, rfl, rfl⟩
theorem Leaf.SameView.trans {a b c : Leaf} (h : a.SameView b) (h' : b.SameView c) : a.SameView c :=
  ⟨fun g => (h'.tensors g).trans (h.tensors g), h'.device.trans h.device, h'.dtype.trans h.dtype⟩

def World.SameView (w w' : World α) : Prop :=
  ∀ j : Nat, Option.Rel Leaf.SameView w.leaves[j]? w'.leaves[j]?

theorem World.SameView.of_modify {w w' : World α} {i : Nat} {u : Leaf → Leaf}
    (hl : w'.leaves = w.leaves.modify i u) (hu : ∀ l : Leaf, l.SameView (u l)) : w.SameView w' := by
  intro j
  rw [hl, List.getElem?_modify]
  cases hx : w.leaves[j]? with
  | none => exact .none
  | some l =>
    by_cases hij : i = j
    · simp only [hij, if_true, Option.map_eq_map, Option.map_some]; exact .some (hu l)
    · simp only [hij, if_false, Option.map_eq_map, Option.map_some, id_eq]; exact .some (.refl l)

/-- Partial: on a single manifold, a `fill_*` that raises (whatever the exception) leaves
every tensor of every family of every manifold object in place and leaves the reported
`device` and `dtype` alone.  Missing from the full property: compound manifolds
(`C06_compound_not_atomic`) and the container's private device label
(`C06_device_label_leaks`). -/
theorem C06_single_partial (w w' : World α) (i : Nat) (f : Fam) (mode : FillMode) (a : Arg Ref)
    (e : PyErr) (h : (Man.leaf i).fill f mode a w = (.error e, w')) : w.SameView w' := by
  have hu1 : ∀ (d : String) (l : Leaf), l.SameView (l.setTc { l.tc f with device := d } f) := by
    intro d l; refine ⟨fun g => ?_, ?_, ?_⟩ <;> cases f <;> try cases g
    all_goals rfl
  have hu2 : ∀ (d : String) (l : Leaf), l.SameView (l.setTc { l.tc f with dtype := d } f) := by
    intro d l; refine ⟨fun g => ?_, ?_, ?_⟩ <;> cases f <;> try cases g
    all_goals rfl
  have hrefl : w.SameView w := by
    intro j; cases w.leaves[j]? with
    | none => exact .none
    | some l => exact .some (.refl l)
  simp only [Man.fill, leafFill, tcFill, Prog.bind_run, Prog.get_run, Prog.lift_run] at h
  rcases h1 : argShared w TObj.device a with e1 | d
  · simp only [h1, Prod.mk.injEq] at h; rw [← h.2]; exact hrefl
  · cases d with
    | none => simp only [h1, Prog.throw_run, Prod.mk.injEq] at h; rw [← h.2]; exact hrefl
    | some d =>
      rcases h2 : argShared w TObj.dtype a with e2 | t
      · simp only [h1, h2, modifyTc, Prog.bind_run, Prog.modify_run, Prog.lift_run, Prod.mk.injEq] at h
        rw [← h.2]; exact World.SameView.of_modify rfl (hu1 d)
      · cases t with
        | none =>
          simp only [h1, h2, modifyTc, Prog.bind_run, Prog.modify_run, Prog.lift_run, Prog.throw_run,
            Prod.mk.injEq] at h
          rw [← h.2]; exact World.SameView.of_modify rfl (hu1 d)
        | some t =>
          have hu3 : ∀ l : Leaf, l.SameView
              ((fun l => l.setTc { l.tc f with dtype := t } f)
                ((fun l => l.setTc { l.tc f with device := d } f) l)) :=
            fun l => (hu1 d l).trans (hu2 t _)
          simp only [h1, h2, modifyTc, Prog.bind_run, Prog.modify_run, Prog.lift_run] at h
          generalize hw₀ : (⟨w.objs, w.stores, _⟩ : World α) = w₀ at h
          have hv₀ : w.SameView w₀ := by
            rw [← hw₀]
            refine World.SameView.of_modify (i := i) (u := (fun l : Leaf => l.setTc { l.tc f with dtype := t } f) ∘
              (fun l : Leaf => l.setTc { l.tc f with device := d } f)) ?_ hu3
            simp only [List.modify_modify_eq]
          rcases hg : getLeaf i w₀ with ⟨e3 | l, w₁⟩
          · rw [hg] at h
            simp only [Prod.mk.injEq] at h
            have : w₁ = w₀ := by
              unfold getLeaf at hg; split at hg <;> simp at hg; exact hg.2.symm
            rw [← h.2, this]; exact hv₀
          · have hw₁ : w₁ = w₀ := by
              unfold getLeaf at hg; split at hg <;> simp at hg; exact hg.2.symm
            rw [hg] at h
            simp only at h
            rcases h3 : fillRefs (l.tc f).shapes.length a with e4 | rs
            · rw [h3] at h; simp only [Prod.mk.injEq] at h
              rw [← h.2, hw₁]; exact hv₀
            · rw [h3] at h
              simp only at h
              have hlv := fillTensors_leaves mode rs w₁
              rcases h4 : fillTensors mode rs w₁ with ⟨e5 | ts, w₂⟩
              · rw [h4] at h hlv
                simp only [Prod.mk.injEq] at h hlv
                rw [← h.2]
                intro j; rw [hlv, hw₁]; exact hv₀ j
              · rw [h4] at h; simp at h

/-! ### Counterexamples -/

/-- Two one-tensor objects; tensors 0-5 on the CPU, tensor 6 on the CPU in double
precision, tensor 7 on a GPU. -/
def c06World : World Int :=
  ⟨(List.range 6).map exTObj ++ [⟨6, "cpu", "float64", false, false⟩, ⟨7, "cuda:0", "float32", false, false⟩,
      ⟨8, "cuda:0", "float64", false, false⟩],
   [10, 11, 12, 13, 14, 15, 16, 17, 18],
   [⟨exTC 1 [0], exTC 1 [1], exTC 1 [2], "cpu", "float32", none⟩,
    ⟨exTC 2 [3, 3], exTC 2 [4, 4], exTC 2 [5, 5], "cpu", "float32", none⟩]⟩

/-- Disagreement: filling a compound manifold with an argument whose second element mixes
devices raises `RuntimeError`, but the first child has already been changed. -/
theorem C06_compound_not_atomic :
    ∃ (w : World Int) (m : Man) (a : Arg Ref) (w' : World Int), w.Valid ∧
      Man.fill .gd byRef m a w = (.error .runtime, w') ∧ m.unroll w' .gd ≠ m.unroll w .gd := by
  refine ⟨c06World, .compound [.leaf 0, .leaf 1],
    .list [.tensor 1, .list [.tensor 0, .tensor 7]], _, ?_, rfl, ?_⟩
  · refine ⟨?_, ?_⟩
    · intro r o h
      have hr : r < 9 := (List.getElem?_eq_some_iff.1 h).1
      have : r = 0 ∨ r = 1 ∨ r = 2 ∨ r = 3 ∨ r = 4 ∨ r = 5 ∨ r = 6 ∨ r = 7 ∨ r = 8 := by omega
      rcases this with rfl | rfl | rfl | rfl | rfl | rfl | rfl | rfl | rfl <;>
        (obtain rfl := Option.some.inj h; decide)
    · intro i l h g r hr
      have hi : i < 2 := (List.getElem?_eq_some_iff.1 h).1
      have : i = 0 ∨ i = 1 := by omega
      rcases this with rfl | rfl
      · obtain rfl := Option.some.inj h
        cases g <;> fin_cases hr <;> decide
      · obtain rfl := Option.some.inj h
        cases g <;> fin_cases hr <;> decide
  · decide

/-- Disagreement: a failed fill leaks a label.  Filling a CPU manifold with two tensors on
a GPU that disagree on the dtype raises `RuntimeError`; a following `fill_gd_zeros` then
creates its tensors on the GPU. -/
theorem C06_device_label_leaks :
    ∃ (w w₁ w₂ : World Int) (a : Arg Ref) (r : Ref) (o : TObj),
      (Man.leaf 1).fill .gd byRef a w = (.error .runtime, w₁) ∧
      tcFillZeros (fun _ => 0) 1 .gd true w₁ = (.ok (), w₂) ∧
      (∀ r ∈ w.held .gd 1, ∃ o, w.objs[r]? = some o ∧ o.device = "cpu") ∧
      r ∈ w₂.held .gd 1 ∧ w₂.objs[r]? = some o ∧ o.device = "cuda:0" := by
  refine ⟨c06World, _, _, .list [.tensor 7, .tensor 8], 9, _, rfl, rfl, ?_, ?_, rfl, rfl⟩
  · intro r hr
    fin_cases hr <;> exact ⟨_, rfl, rfl⟩
  · decide

/-! Non-vacuity of `C06_single_partial`: a fill that does raise. -/
example : ∃ w', (Man.leaf 1).fill .gd byRef (.list [.tensor 0, .tensor 7]) c06World
    = (.error .runtime, w') := ⟨_, rfl⟩

end Imodal
