import Verif.Lemmas.Clone
import Verif.Props.C01
/-!
# C02  Copying isolates, not copying aliases
-/
set_option autoImplicit false
namespace Imodal

variable {α : Type}

theorem World.write_leaves (w : World α) (x : Write α) : (w.write x).leaves = w.leaves := by
  cases x <;> simp only [World.write] <;> split <;> rfl

theorem World.writes_leaves : ∀ (ws : List (Write α)) (w : World α), (w.writes ws).leaves = w.leaves
  | [], _ => rfl
  | x :: ws, w => by
    rw [show w.writes (x :: ws) = (w.write x).writes ws from rfl, World.writes_leaves ws,
      World.write_leaves]

theorem World.writes_held (w : World α) (ws : List (Write α)) (f : Fam) (i : Nat) :
    (w.writes ws).held f i = w.held f i := by
  simp [World.held, World.writes_leaves]

theorem Man.writes_unroll (w : World α) (ws : List (Write α)) (f : Fam) (m : Man) :
    m.unroll (w.writes ws) f = m.unroll w f := by
  rw [Man.unroll_eq, Man.unroll_eq]
  congr 1
  exact List.map_congr_left (fun i _ => World.writes_held w ws f i)

theorem Man.mem_unroll {w : World α} {f : Fam} {m : Man} {r : Ref} (h : r ∈ m.unroll w f) :
    ∃ i ∈ m.ids, r ∈ w.held f i := by
  rw [Man.unroll_eq] at h
  obtain ⟨l, hl, hr⟩ := List.mem_flatten.1 h
  obtain ⟨i, hi, rfl⟩ := List.mem_map.1 hl
  exact ⟨i, hi, hr⟩

/-- `fill_*(x, copy=True)` with any `requires_grad`: the manifold reports the contents of
the tensors given; no later history of writes through tensors that existed before changes
what it reports; and no history of writes through the tensors it reports changes any
tensor that existed before. -/
theorem C02_copy_isolates (w : World α) (hv : w.Valid) (f : Fam) (rg : Option Bool) (m : Man)
    (c : Nat → List Ref) (hr : Ready w c m.ids) :
    ∃ w', Man.fill f ⟨true, rg⟩ m (m.arg c) w = (.ok (), w') ∧
      m.values w' f = ((m.ids.map c).flatten).map w.read ∧
      (∀ ws : List (Write α), (∀ x ∈ ws, x.target < w.objs.length) →
        m.values (w'.writes ws) f = m.values w' f) ∧
      (∀ ws : List (Write α), (∀ x ∈ ws, x.target ∈ m.unroll w' f) →
        ∀ r, r < w.objs.length → (w'.writes ws).read r = w.read r) := by
  obtain ⟨w', h, hR⟩ := Man.fill_copy (c := c) (f := f) rg m w hv hr
  have hfresh : ∀ r ∈ m.unroll w' f, FreshRef w.objs.length w.stores.length w' r := by
    intro r hr'
    obtain ⟨i, hi, hri⟩ := Man.mem_unroll hr'
    obtain ⟨l, hl, _⟩ := hr i hi
    obtain ⟨l', hl', _, _, h4, _⟩ := hR.lsome i l hl
    simp only [World.held, hl'] at hri
    exact (h4 hi).1 r hri
  have hap := fresh_apart hv hR.ext hfresh
  refine ⟨w', h, ?_, ?_, ?_⟩
  · rw [Man.values_eq, List.map_flatten, List.map_map]
    congr 1
    apply List.map_congr_left
    intro i hi
    obtain ⟨l, hl, _⟩ := hr i hi
    exact hR.heldVals_new hl hi
  · intro ws hws
    unfold Man.values
    rw [Man.writes_unroll]
    apply List.map_congr_left
    intro r hr'
    exact writes_apart ws w' hR.valid.store hap hws r hr'
  · intro ws hws r hr'
    rw [writes_apart ws w' hR.valid.store hap.symm hws r hr']
    exact hR.ext.read_eq hv hr'

/-- `fill_*(x)` (by reference): the manifold reports exactly the tensors given, and after
any later history of writes it reports whatever those tensors then contain. -/
theorem C02_ref_aliases (w : World α) (f : Fam) (m : Man) (c : Nat → List Ref)
    (hr : Ready w c m.ids) :
    ∃ w', Man.fill f byRef m (m.arg c) w = (.ok (), w') ∧
      m.unroll w' f = (m.ids.map c).flatten ∧
      ∀ ws : List (Write α),
        m.values (w'.writes ws) f = ((m.ids.map c).flatten).map (w'.writes ws).read := by
  obtain ⟨w', h, hF⟩ := Man.fill_ready (c := c) (f := f) m w hr
  have hu : m.unroll w' f = (m.ids.map c).flatten := by
    rw [Man.unroll_eq]
    congr 1
    apply List.map_congr_left
    intro i hi
    obtain ⟨l, hl, _⟩ := hr i hi
    obtain ⟨l', hl', _, _, h3, _⟩ := hF.lsome i l hl
    simp only [World.held, hl']
    exact h3 hi
  exact ⟨w', h, hu, fun ws => by unfold Man.values; rw [Man.writes_unroll, hu]⟩

/-- A visible write: after a fill by reference, an in-place write through a given tensor
shows in what the manifold reports. -/
theorem C02_ref_write_visible (w : World α) (hv : w.Valid) (r : Ref) (v : α)
    (hlt : r < w.objs.length) : (w.writes [.inPlace r v]).read r = some v := by
  obtain ⟨o, _, ho, _⟩ := hv.read_lt hlt
  have hs := hv.store r o ho
  simp [World.writes, World.write, ho, World.read, hs]

/-- `clone(requires_grad=b)`: a tree with the same number of objects, each reporting in
every family the contents of its original; writes through existing tensors do not change
the copy, writes through the copy's tensors do not change existing tensors, and the
original tree reports the same tensors as before. -/
theorem C02_clone_isolates (w : World α) (hv : w.Valid) (b : Bool) (m : Man)
    (hc : ∀ i ∈ m.ids, Clonable w i) :
    ∃ m' w', m.clone (some b) w = (.ok m', w') ∧
      (∀ f, m'.values w' f = m.values w f) ∧ (∀ f, m.unroll w' f = m.unroll w f) ∧
      (∀ (f : Fam) (ws : List (Write α)), (∀ x ∈ ws, x.target < w.objs.length) →
        m'.values (w'.writes ws) f = m'.values w' f) ∧
      (∀ ws : List (Write α), (∀ x ∈ ws, ∃ f, x.target ∈ m'.unroll w' f) →
        ∀ r, r < w.objs.length → (w'.writes ws).read r = w.read r) := by
  obtain ⟨m', w', h, hk, ht⟩ := Man.clone_spec b m w hv hc
  have hpair : ∀ j ∈ m'.ids, ∃ i ∈ m.ids, Cloned w w' b i j := by
    intro j hj
    obtain ⟨k, hk', rfl⟩ := List.getElem_of_mem hj
    have hlt : k < m.ids.length := by rw [← ht.len]; exact hk'
    exact ⟨m.ids[k], List.getElem_mem hlt, ht.each k _ _ (by simp [hlt]) (by simp [hk'])⟩
  have hfresh : ∀ r, (∃ f, r ∈ m'.unroll w' f) → FreshRef w.objs.length w.stores.length w' r := by
    rintro r ⟨f, hr⟩
    obtain ⟨j, hj, hrj⟩ := Man.mem_unroll hr
    obtain ⟨i, _, hcl⟩ := hpair j hj
    exact hcl.fresh f r hrj
  have hap := fresh_apart hv hk.ext hfresh
  refine ⟨m', w', h, ?_, ?_, ?_, ?_⟩
  · intro f
    rw [Man.values_eq, Man.values_eq]
    congr 1
    apply List.ext_getElem?
    intro k
    simp only [List.getElem?_map]
    by_cases hlt : k < m.ids.length
    · have hlt' : k < m'.ids.length := by rw [ht.len]; exact hlt
      have h1 : m.ids[k]? = some m.ids[k] := by simp [hlt]
      have h2 : m'.ids[k]? = some m'.ids[k] := by simp [hlt']
      rw [h1, h2, Option.map_some, Option.map_some, (ht.each k _ _ h1 h2).vals f]
    · have hlt' : ¬ k < m'.ids.length := by rw [ht.len]; exact hlt
      rw [List.getElem?_eq_none (by omega), List.getElem?_eq_none (by omega)]
      rfl
  · intro f
    rw [Man.unroll_eq, Man.unroll_eq]
    congr 1
    apply List.map_congr_left
    intro i hi
    exact hk.held (hc i hi).lt f
  · intro f ws hws
    unfold Man.values
    rw [Man.writes_unroll]
    apply List.map_congr_left
    intro r hr
    exact writes_apart ws w' hk.valid.store hap hws r ⟨f, hr⟩
  · intro ws hws r hr
    rw [writes_apart ws w' hk.valid.store hap.symm hws r hr]
    exact hk.ext.read_eq hv hr

/-- `Manifold.clone()` with its default `requires_grad=None` raises `TypeError` for every
manifold that holds a tensor (the documentation says `None` keeps the setting). -/
theorem C02_clone_default_raises (w : World α) (hv : w.Valid) (i : Nat) (hc : Clonable w i) :
    ((Man.leaf i).clone none w).1 = .error .type := by
  obtain ⟨l, hl, hg⟩ := hc
  obtain ⟨c₁, w₁, h₁, hs₁, ha₁, -⟩ := tcClone_alloc (c := l.gd) hv (hg .gd).1 (hg .gd).2
  obtain ⟨c₂, w₂, h₂, hs₂, ha₂, -⟩ := tcClone_alloc (c := l.tan) ha₁.valid
    ((hg .tan).1.ext ha₁.ext) (hg .tan).2
  obtain ⟨c₃, w₃, h₃, hs₃, ha₃, -⟩ := tcClone_alloc (c := l.cotan) ha₂.valid
    (((hg .cotan).1.ext ha₁.ext).ext ha₂.ext) (hg .cotan).2
  have hne : ∃ r rs, c₁.tensors = r :: rs := by
    have hpos := (hg .gd).2
    have hlen := congrArg List.length ha₁.vals
    simp only [List.length_map] at hlen
    cases hc : c₁.tensors with
    | nil =>
      rw [hc] at hlen
      simp only [List.length_nil, Leaf.tc] at hlen hpos
      omega
    | cons r rs => exact ⟨r, rs, rfl⟩
  obtain ⟨r, rs, hrs⟩ := hne
  have hr : r < w₃.objs.length :=
    (ha₂.ext.trans ha₃.ext).lt (ha₁.fresh r (by simp [hrs])).lt
  have hgo : w₃.objs[r]? = some w₃.objs[r] := by simp [hr]
  simp [Man.clone, leafClone, Prog.bind_run, getLeaf, hl, h₁, h₂, h₃, tcRequiresGrad,
    Leaf.tc, hrs, mapT, detachT, getObj, hr]

/-! Non-vacuity. -/

theorem exWorld_valid : exWorld.Valid := by
  refine ⟨?_, ?_⟩
  · intro r o h
    have hr : r < 9 := (List.getElem?_eq_some_iff.1 h).1
    have : o = exTObj r := by
      have := (List.getElem?_eq_some_iff.1 h).2
      simpa [exWorld] using this.symm
    subst this; exact hr
  · intro i l h g r hr
    have hi : i < 2 := (List.getElem?_eq_some_iff.1 h).1
    have : i = 0 ∨ i = 1 := by omega
    rcases this with rfl | rfl
    · obtain rfl := Option.some.inj h
      cases g <;> fin_cases hr <;> decide
    · obtain rfl := Option.some.inj h
      cases g <;> fin_cases hr <;> decide

example : exWorld.Valid ∧ Ready exWorld (exWorld.held .gd) exMan.ids := ⟨exWorld_valid, exMan_holds⟩

theorem exMan_clonable : ∀ i ∈ exMan.ids, Clonable exWorld i := by
  intro i hi
  rw [exMan_ids] at hi
  fin_cases hi
  all_goals
    refine ⟨_, rfl, fun g => ⟨⟨"cpu", "float32", ?_⟩, by cases g <;> decide⟩⟩
    intro r hr
    cases g <;> fin_cases hr <;> exact ⟨_, rfl, rfl, rfl⟩

end Imodal
