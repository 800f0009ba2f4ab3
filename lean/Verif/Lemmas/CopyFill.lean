import Verif.Lemmas.Heap
/-!
# Helper lemmas: filling by copy, adding, negating on manifold trees

All three have the same shape: every object of the tree gets new tensors in one family,
whose contents are a function of contents before.
-/
set_option autoImplicit false
namespace Imodal

variable {α : Type}

/-- Family `f` of every object `i ∈ ids` got fresh tensors with contents `vs i`; nothing
else of any manifold object changed except device/dtype labels. -/
structure Renewed (vs : Nat → List (Option α)) (f : Fam) (ids : List Nat) (w w' : World α) :
    Prop where
  ext : Ext w w'
  valid : w'.Valid
  lnone : ∀ i : Nat, w.leaves[i]? = none → w'.leaves[i]? = none
  lsome : ∀ (i : Nat) (l : Leaf), w.leaves[i]? = some l → ∃ l', w'.leaves[i]? = some l' ∧
    (∀ g, (l'.tc g).shapes = (l.tc g).shapes) ∧ (∀ g, g ≠ f → l'.tc g = l.tc g) ∧
    (i ∈ ids → (∀ r ∈ (l'.tc f).tensors, FreshRef w.objs.length w.stores.length w' r) ∧
      (l'.tc f).tensors.map w'.read = vs i) ∧
    (i ∉ ids → l' = l)

theorem Renewed.refl (vs : Nat → List (Option α)) (f : Fam) (w : World α) (hv : w.Valid) :
    Renewed vs f [] w w :=
  ⟨Ext.refl w, hv, fun _ h => h, fun i l h => ⟨l, h, fun _ => rfl, fun _ _ => rfl, by simp,
    fun _ => rfl⟩⟩

theorem map_read_ext {w w' : World α} (he : Ext w w') (hv : w.Valid) (rs : List Ref)
    (hl : ∀ r ∈ rs, r < w.objs.length) : rs.map w'.read = rs.map w.read :=
  List.map_congr_left (fun r hr => he.read_eq hv (hl r hr))

theorem Renewed.trans {vs : Nat → List (Option α)} {f : Fam} {ids₁ ids₂ ids : List Nat}
    {w w₁ w₂ : World α} (hm : ∀ i, i ∈ ids ↔ i ∈ ids₁ ∨ i ∈ ids₂)
    (h₁ : Renewed vs f ids₁ w w₁) (h₂ : Renewed vs f ids₂ w₁ w₂) : Renewed vs f ids w w₂ := by
  refine ⟨h₁.ext.trans h₂.ext, h₂.valid, fun i h => h₂.lnone i (h₁.lnone i h), ?_⟩
  intro i l hl
  obtain ⟨l₁, hl₁, hs₁, ho₁, hin₁, hout₁⟩ := h₁.lsome i l hl
  obtain ⟨l₂, hl₂, hs₂, ho₂, hin₂, hout₂⟩ := h₂.lsome i l₁ hl₁
  refine ⟨l₂, hl₂, fun g => (hs₂ g).trans (hs₁ g), fun g hg => (ho₂ g hg).trans (ho₁ g hg), ?_, ?_⟩
  · intro hi
    by_cases h2 : i ∈ ids₂
    · obtain ⟨hf, hv⟩ := hin₂ h2
      exact ⟨fun r hr => (hf r hr).mono (Ext.refl _) h₁.ext.objs.length_le
        h₁.ext.stores.length_le, hv⟩
    · have h1 : i ∈ ids₁ := ((hm i).1 hi).resolve_right h2
      obtain ⟨hf, hv⟩ := hin₁ h1
      rw [hout₂ h2]
      refine ⟨fun r hr => (hf r hr).mono h₂.ext (Nat.le_refl _) (Nat.le_refl _), ?_⟩
      rw [map_read_ext h₂.ext h₁.valid _ (h₁.valid.leaf i l₁ hl₁ f), hv]
  · intro hi
    have := mt (hm i).2 hi
    push Not at this
    rw [hout₂ this.2, hout₁ this.1]

theorem SameKind.lt {w : World α} {rs : List Ref} (h : SameKind w rs) {r : Ref} (hr : r ∈ rs) :
    r < w.objs.length := by
  obtain ⟨d, t, h⟩ := h
  obtain ⟨o, ho, _⟩ := h r hr
  exact (List.getElem?_eq_some_iff.1 ho).1

theorem Renewed.ready {vs : Nat → List (Option α)} {f : Fam} {ids ids' : List Nat}
    {w w' : World α} {c : Nat → List Ref}
    (h : Renewed vs f ids w w') (hr : Ready w c ids') : Ready w' c ids' := by
  intro i hi
  obtain ⟨l, hl, hs, hpos, hk⟩ := hr i hi
  obtain ⟨l', hl', hs', -⟩ := h.lsome i l hl
  refine ⟨l', hl', fun g => by rw [hs' g, hs g], hpos, ?_⟩
  obtain ⟨d, t, hdt⟩ := hk
  refine ⟨d, t, fun r hr => ?_⟩
  obtain ⟨o, ho, hd⟩ := hdt r hr
  exact ⟨o, h.ext.obj ho, hd⟩

theorem Renewed.congr {vs vs' : Nat → List (Option α)} {f : Fam} {ids : List Nat}
    {w w' : World α} (h : Renewed vs f ids w w') (he : ∀ i ∈ ids, vs i = vs' i) :
    Renewed vs' f ids w w' := by
  refine ⟨h.ext, h.valid, h.lnone, fun i l hl => ?_⟩
  obtain ⟨l', h1, h2, h3, h4, h5⟩ := h.lsome i l hl
  exact ⟨l', h1, h2, h3, fun hi => ⟨(h4 hi).1, by rw [(h4 hi).2, he i hi]⟩, h5⟩

theorem fillTensors_copy (rg : Option Bool) (rs : List Ref) (w : World α) (hv : w.Valid)
    (hl : ∀ r ∈ rs, r < w.objs.length) :
    ∃ ts w', fillTensors ⟨true, rg⟩ rs w = (.ok ts, w') ∧ Alloc w w' ts (rs.map w.read) := by
  cases rg with
  | none =>
    obtain ⟨ts, w', h, ha, _⟩ := mapT_alloc cloneT_allocates rs w hv hl
    exact ⟨ts, w', by simpa [fillTensors] using h, by simpa using ha⟩
  | some b =>
    obtain ⟨ts, w', h, ha, _⟩ := mapT_alloc (detachCloneT_allocates b) rs w hv hl
    exact ⟨ts, w', by simpa [fillTensors] using h, by simpa using ha⟩

theorem FreshRef.lt {n k : Nat} {w : World α} {r : Ref} (h : FreshRef n k w r) :
    r < w.objs.length := by
  obtain ⟨_, o, ho, _⟩ := h
  exact (List.getElem?_eq_some_iff.1 ho).1

/-- Setting the tensors of one container to freshly allocated ones. -/
theorem renewed_of_alloc {w w₁ w₂ w' : World α} {f : Fam} {i : Nat} {l : Leaf} {ts : List Ref}
    {vs : List (Option α)} (hl : w.leaves[i]? = some l) (hval : w.Valid)
    (ho : w₁.objs = w.objs) (hs : w₁.stores = w.stores)
    (hla : w₁.leaves.length = w.leaves.length)
    (ha : Alloc w₁ w₂ ts vs) (ho' : w'.objs = w₂.objs) (hs' : w'.stores = w₂.stores)
    {upd : Leaf → Leaf} (hl' : w'.leaves = w.leaves.modify i upd)
    (hu1 : ∀ g, ((upd l).tc g).shapes = (l.tc g).shapes) (hu2 : ∀ g, g ≠ f → (upd l).tc g = l.tc g)
    (hu3 : ((upd l).tc f).tensors = ts) :
    Renewed (fun _ => vs) f [i] w w' := by
  have hext : Ext w w' := ⟨by rw [ho', ← ho]; exact ha.ext.objs, by rw [hs', ← hs]; exact ha.ext.stores⟩
  have hread : ∀ r, w'.read r = w₂.read r := by intro r; simp [World.read, ho', hs']
  have hupd : w'.leaves[i]? = some (upd l) := by rw [hl']; simp [List.getElem?_modify, hl]
  refine ⟨hext, ⟨?_, ?_⟩, ?_, ?_⟩
  · intro r o hr; rw [ho'] at hr; rw [hs']; exact ha.valid.store r o hr
  · intro j lj hj g r hr
    rw [hl'] at hj
    simp only [List.getElem?_modify] at hj
    by_cases hij : i = j
    · subst hij
      simp only [hl, Option.map_eq_map, Option.map_some, if_true, Option.some.injEq] at hj
      subst hj
      by_cases hg : g = f
      · subst hg
        rw [hu3] at hr
        have := (ha.fresh r hr).lt
        rwa [ho']
      · rw [hu2 g hg] at hr
        exact hext.lt (hval.leaf i l hl g r hr)
    · simp only [hij, if_false, id_eq] at hj
      have hj' : w.leaves[j]? = some lj := by
        cases hx : w.leaves[j]? with
        | none => simp [hx] at hj
        | some y => simpa [hx] using hj
      exact hext.lt (hval.leaf j lj hj' g r hr)
  · intro j hj
    rw [hl']; simp [List.getElem?_modify, hj]
  · intro j lj hj
    by_cases hij : i = j
    · subst hij
      have : lj = l := by rw [hl] at hj; exact (Option.some.inj hj).symm
      subst this
      refine ⟨upd lj, hupd, hu1, hu2, fun _ => ⟨?_, ?_⟩, fun h => absurd (by simp) h⟩
      · intro r hr
        rw [hu3] at hr
        obtain ⟨h1, o, h2, h3⟩ := ha.fresh r hr
        rw [ho] at h1; rw [hs] at h3
        exact ⟨h1, o, by rw [ho']; exact h2, h3⟩
      · rw [hu3, ← ha.vals]; exact List.map_congr_left (fun r _ => hread r)
    · refine ⟨lj, by rw [hl']; simp [List.getElem?_modify, hij, hj], fun _ => rfl, fun _ _ => rfl, ?_,
        fun _ => rfl⟩
      intro h; simp at h; exact absurd h.symm hij

theorem leafFill_copy {w : World α} {c : Nat → List Ref} {f : Fam} {i : Nat} (rg : Option Bool)
    (hval : w.Valid) (hr : Ready w c [i]) :
    ∃ w', leafFill i f ⟨true, rg⟩ (Arg.ofRefs (c i)) w = (.ok (), w') ∧
      Renewed (w.valuesOf c) f [i] w w' := by
  obtain ⟨l, hl, hs, hpos, hk⟩ := hr i (by simp)
  obtain ⟨d, t, hd, ht⟩ := argShared_ofRefs hk hpos
  let u₁ : Leaf → Leaf := fun l => l.setTc { l.tc f with device := d } f
  let u₂ : Leaf → Leaf := fun l => l.setTc { l.tc f with dtype := t } f
  let w₁ : World α := ⟨w.objs, w.stores, (w.leaves.modify i u₁).modify i u₂⟩
  have hval₁ : w₁.Valid := by
    refine ⟨hval.store, ?_⟩
    intro j lj hj g r hr
    simp only [w₁, List.getElem?_modify] at hj
    cases hx : w.leaves[j]? with
    | none => simp [hx] at hj
    | some y =>
      refine hval.leaf j y hx g r ?_
      by_cases hij : i = j
      · simp only [hx, hij, Option.map_eq_map, Option.map_some, if_true, Option.some.injEq] at hj
        subst hj
        cases f <;> cases g <;> exact hr
      · simp [hx, hij] at hj; subst hj; exact hr
  obtain ⟨ts, w₂, hft, ha⟩ := fillTensors_copy rg (c i) w₁ hval₁ (fun r hr => hk.lt hr)
  let u₃ : Leaf → Leaf := fun l => l.setTc { l.tc f with tensors := ts, isList := false } f
  let u₄ : Leaf → Leaf := fun l => { l with manDevice := some (l.tc f).device }
  have hrun : ∃ w', leafFill i f ⟨true, rg⟩ (Arg.ofRefs (c i)) w = (.ok (), w') ∧
      w' = ⟨w₂.objs, w₂.stores, (w₂.leaves.modify i u₃).modify i u₄⟩ := by
    refine ⟨_, ?_, rfl⟩
    simp only [leafFill, tcFill, Prog.bind_run, Prog.get_run, Prog.lift_run, hd, ht, modifyTc,
      Prog.modify_run, getLeaf, List.getElem?_modify, hl, Option.map_eq_map, Option.map_some, if_true,
      Leaf.tc_setTc_same, hs f, fillRefs_ofRefs _ hpos]
    rw [show (⟨w.objs, w.stores, _⟩ : World α) = w₁ from rfl, hft]
  obtain ⟨w', hrun, hw'⟩ := hrun
  refine ⟨w', hrun, ?_⟩
  have hR := renewed_of_alloc (w := w) (w₁ := w₁) (w₂ := w₂) (w' := w') (f := f) (i := i) (l := l)
    (ts := ts) (vs := (c i).map w₁.read)
    (upd := u₄ ∘ u₃ ∘ u₂ ∘ u₁)
    hl hval rfl rfl (by simp [w₁]) ha (by rw [hw']) (by rw [hw'])
    (by rw [hw']; simp only [ha.leaves, w₁, List.modify_modify_eq])
    (by intro g; cases f <;> cases g <;> rfl)
    (by intro g hg; cases f <;> cases g <;> first | rfl | exact absurd rfl hg)
    (by cases f <;> rfl)
  exact hR.congr (by intro j hj; simp at hj; subst hj; rfl)

theorem Renewed.valuesOf_eq {vs : Nat → List (Option α)} {f : Fam} {ids ids' : List Nat}
    {w w' : World α} {c : Nat → List Ref} (h : Renewed vs f ids w w') (hval : w.Valid)
    (hr : Ready w c ids') {i : Nat} (hi : i ∈ ids') : w'.valuesOf c i = w.valuesOf c i := by
  obtain ⟨l, hl, hs, hpos, hk⟩ := hr i hi
  exact map_read_ext h.ext hval _ (fun r hr => hk.lt hr)

mutual
theorem Man.fill_copy {c : Nat → List Ref} {f : Fam} (rg : Option Bool) :
    ∀ (m : Man) (w : World α), w.Valid → Ready w c m.ids →
    ∃ w', Man.fill f ⟨true, rg⟩ m (m.arg c) w = (.ok (), w') ∧
      Renewed (w.valuesOf c) f m.ids w w'
  | .empty, w, hv, _ => ⟨w, rfl, Renewed.refl _ f w hv⟩
  | .leaf i, w, hv, h => leafFill_copy rg hv h
  | .compound ms, w, hv, h => by
    obtain ⟨w₁, h₁, hf₁⟩ := Man.fillZip_copy (c := c) (f := f) rg ms w hv h
    by_cases hf : f = .gd
    · obtain ⟨w₂, h₂, hf₂⟩ := Man.fillIdx_copy (c := c) (f := f) rg ms w₁ hf₁.valid (hf₁.ready h)
      refine ⟨w₂, ?_, hf₁.trans (by simp [Man.ids])
        (hf₂.congr (fun i hi => hf₁.valuesOf_eq hv h hi))⟩
      subst hf
      simp [Man.arg, Man.fill, Prog.bind_run, h₁, h₂]
    · refine ⟨w₁, ?_, hf₁⟩
      simp [Man.arg, Man.fill, Prog.bind_run, h₁, hf]
theorem Man.fillZip_copy {c : Nat → List Ref} {f : Fam} (rg : Option Bool) :
    ∀ (ms : List Man) (w : World α), w.Valid → Ready w c (Man.ids.idsList ms) →
    ∃ w', Man.fill.fillZip f ⟨true, rg⟩ ms (Man.arg.argList c ms) w = (.ok (), w') ∧
      Renewed (w.valuesOf c) f (Man.ids.idsList ms) w w'
  | [], w, hv, _ => ⟨w, rfl, Renewed.refl _ f w hv⟩
  | m :: ms, w, hv, h => by
    obtain ⟨w₁, h₁, hf₁⟩ := Man.fill_copy (c := c) (f := f) rg m w hv
      (h.mono (by simp [Man.ids.idsList]; tauto))
    have h' : Ready w c (Man.ids.idsList ms) := h.mono (by simp [Man.ids.idsList]; tauto)
    obtain ⟨w₂, h₂, hf₂⟩ := Man.fillZip_copy (c := c) (f := f) rg ms w₁ hf₁.valid (hf₁.ready h')
    refine ⟨w₂, ?_, hf₁.trans (by simp [Man.ids.idsList])
      (hf₂.congr (fun i hi => hf₁.valuesOf_eq hv h' hi))⟩
    simp [Man.arg.argList, Man.fill.fillZip, Prog.bind_run, h₁, h₂]
theorem Man.fillIdx_copy {c : Nat → List Ref} {f : Fam} (rg : Option Bool) :
    ∀ (ms : List Man) (w : World α), w.Valid → Ready w c (Man.ids.idsList ms) →
    ∃ w', Man.fill.fillIdx f ⟨true, rg⟩ ms (Man.arg.argList c ms) w = (.ok (), w') ∧
      Renewed (w.valuesOf c) f (Man.ids.idsList ms) w w'
  | [], w, hv, _ => ⟨w, rfl, Renewed.refl _ f w hv⟩
  | m :: ms, w, hv, h => by
    obtain ⟨w₁, h₁, hf₁⟩ := Man.fill_copy (c := c) (f := f) rg m w hv
      (h.mono (by simp [Man.ids.idsList]; tauto))
    have h' : Ready w c (Man.ids.idsList ms) := h.mono (by simp [Man.ids.idsList]; tauto)
    obtain ⟨w₂, h₂, hf₂⟩ := Man.fillIdx_copy (c := c) (f := f) rg ms w₁ hf₁.valid (hf₁.ready h')
    refine ⟨w₂, ?_, hf₁.trans (by simp [Man.ids.idsList])
      (hf₂.congr (fun i hi => hf₁.valuesOf_eq hv h' hi))⟩
    simp [Man.arg.argList, Man.fill.fillIdx, Prog.bind_run, h₁, h₂]
end

theorem Renewed.held_eq {vs : Nat → List (Option α)} {f : Fam} {ids : List Nat}
    {w w' : World α} (h : Renewed vs f ids w w') {g : Fam} {i : Nat} (hi : i ∉ ids ∨ g ≠ f) :
    w'.held g i = w.held g i := by
  unfold World.held
  cases hl : w.leaves[i]? with
  | none => rw [h.lnone i hl]
  | some l =>
    obtain ⟨l', hl', _, h2, _, h5⟩ := h.lsome i l hl
    rw [hl']
    rcases hi with hi | hi
    · rw [h5 hi]
    · simp only; rw [h2 g hi]

theorem World.Valid.held_lt {w : World α} (hv : w.Valid) {f : Fam} {i : Nat} {r : Ref}
    (hr : r ∈ w.held f i) : r < w.objs.length := by
  unfold World.held at hr
  cases hl : w.leaves[i]? with
  | none => simp [hl] at hr
  | some l => rw [hl] at hr; exact hv.leaf i l hl f r hr

theorem Renewed.heldVals_eq {vs : Nat → List (Option α)} {f : Fam} {ids : List Nat}
    {w w' : World α} (h : Renewed vs f ids w w') (hv : w.Valid) {g : Fam} {i : Nat}
    (hi : i ∉ ids ∨ g ≠ f) : w'.heldVals g i = w.heldVals g i := by
  unfold World.heldVals
  rw [h.held_eq hi, map_read_ext h.ext hv _ (fun r hr => hv.held_lt hr)]

theorem Renewed.heldVals_new {vs : Nat → List (Option α)} {f : Fam} {ids : List Nat}
    {w w' : World α} (h : Renewed vs f ids w w') {i : Nat} {l : Leaf}
    (hl : w.leaves[i]? = some l) (hi : i ∈ ids) : w'.heldVals f i = vs i := by
  obtain ⟨l', hl', _, _, h4, _⟩ := h.lsome i l hl
  unfold World.heldVals World.held
  rw [hl']; exact (h4 hi).2

theorem tcNegate_renewed [Neg α] {w : World α} {f : Fam} {i : Nat} {l : Leaf} (hval : w.Valid)
    (hl : w.leaves[i]? = some l) :
    ∃ w', tcNegate i f w = (.ok (), w') ∧
      Renewed (fun i => (w.heldVals f i).map (Option.map (fun x => -x))) f [i] w w' := by
  obtain ⟨ts, w₂, h, ha, _⟩ := mapT_alloc negT_allocates (l.tc f).tensors w hval
    (hval.leaf i l hl f)
  let u : Leaf → Leaf := fun l => l.setTc { l.tc f with tensors := ts, isList := false } f
  refine ⟨⟨w₂.objs, w₂.stores, w₂.leaves.modify i u⟩, ?_, ?_⟩
  · simp [tcNegate, Prog.bind_run, getLeaf, hl, h, modifyTc, u]
  · have hR := renewed_of_alloc (w := w) (w₁ := w) (w₂ := w₂) (f := f) (i := i) (l := l)
      (w' := ⟨w₂.objs, w₂.stores, w₂.leaves.modify i u⟩) (upd := u) hl hval rfl rfl rfl ha rfl rfl
      (by simp [ha.leaves])
      (by intro g; cases f <;> cases g <;> rfl)
      (by intro g hg; cases f <;> cases g <;> first | rfl | exact absurd rfl hg)
      (by cases f <;> rfl)
    refine hR.congr ?_
    intro j hj; simp at hj; subst hj
    simp [World.heldVals, World.held, hl, Function.comp_def]

theorem addRefs_ofRefs (rs : List Ref) (hpos : 0 < rs.length) :
    addRefs rs.length (Arg.ofRefs rs) = .ok rs := by
  match rs, hpos with
  | [r], _ => simp [Arg.ofRefs, addRefs]
  | r :: r' :: rs, _ =>
    have := argRefs_map (r :: r' :: rs)
    simp only [List.map_cons] at this
    simp [Arg.ofRefs, addRefs, this]

theorem tcAdd_renewed [Add α] {w : World α} {f : Fam} {i : Nat} {c : Nat → List Ref}
    (hval : w.Valid) (hr : Ready w c [i]) :
    ∃ w', tcAdd i f (Arg.ofRefs (c i)) w = (.ok (), w') ∧
      Renewed (fun i => List.zipWith addO (w.heldVals f i) (w.valuesOf c i)) f [i] w w' := by
  obtain ⟨l, hl, hs, hpos, hk⟩ := hr i (by simp)
  obtain ⟨ts, w₂, h, ha, _⟩ := addZip_alloc (l.tc f).tensors (c i) w hval
    (hval.leaf i l hl f) (fun r hr => hk.lt hr)
  let u : Leaf → Leaf := fun l => l.setTc { l.tc f with tensors := ts, isList := false } f
  refine ⟨⟨w₂.objs, w₂.stores, w₂.leaves.modify i u⟩, ?_, ?_⟩
  · simp [tcAdd, Prog.bind_run, getLeaf, hl, hs f, addRefs_ofRefs _ hpos, h, modifyTc, u]
  · have hR := renewed_of_alloc (w := w) (w₁ := w) (w₂ := w₂) (f := f) (i := i) (l := l)
      (w' := ⟨w₂.objs, w₂.stores, w₂.leaves.modify i u⟩) (upd := u) hl hval rfl rfl rfl ha rfl rfl
      (by simp [ha.leaves])
      (by intro g; cases f <;> cases g <;> rfl)
      (by intro g hg; cases f <;> cases g <;> first | rfl | exact absurd rfl hg)
      (by cases f <;> rfl)
    refine hR.congr ?_
    intro j hj; simp at hj; subst hj
    simp [World.heldVals, World.held, World.valuesOf, hl, List.zipWith_map]

mutual
theorem Man.negate_renewed [Neg α] {f : Fam} : ∀ (m : Man) (w : World α), w.Valid →
    m.ids.Nodup → (∀ i ∈ m.ids, ∃ l, w.leaves[i]? = some l) →
    ∃ w', Man.negate f m w = (.ok (), w') ∧
      Renewed (fun i => (w.heldVals f i).map (Option.map (fun x => -x))) f m.ids w w'
  | .empty, w, hv, _, _ => ⟨w, rfl, Renewed.refl _ f w hv⟩
  | .leaf i, w, hv, _, h => by
    obtain ⟨l, hl⟩ := h i (by simp [Man.ids])
    exact tcNegate_renewed hv hl
  | .compound ms, w, hv, hn, h => Man.negList_renewed ms w hv hn h
theorem Man.negList_renewed [Neg α] {f : Fam} : ∀ (ms : List Man) (w : World α), w.Valid →
    (Man.ids.idsList ms).Nodup → (∀ i ∈ Man.ids.idsList ms, ∃ l, w.leaves[i]? = some l) →
    ∃ w', Man.negate.negList f ms w = (.ok (), w') ∧
      Renewed (fun i => (w.heldVals f i).map (Option.map (fun x => -x))) f (Man.ids.idsList ms) w w'
  | [], w, hv, _, _ => ⟨w, rfl, Renewed.refl _ f w hv⟩
  | m :: ms, w, hv, hn, h => by
    simp only [Man.ids.idsList, List.nodup_append] at hn
    obtain ⟨w₁, h₁, hf₁⟩ := Man.negate_renewed (f := f) m w hv hn.1
      (fun i hi => h i (by simp [Man.ids.idsList, hi]))
    obtain ⟨w₂, h₂, hf₂⟩ := Man.negList_renewed (f := f) ms w₁ hf₁.valid hn.2.1
      (fun i hi => by
        obtain ⟨l, hl⟩ := h i (by simp [Man.ids.idsList, hi])
        obtain ⟨l', hl', _⟩ := hf₁.lsome i l hl
        exact ⟨l', hl'⟩)
    refine ⟨w₂, ?_, hf₁.trans (by simp [Man.ids.idsList]) (hf₂.congr (fun i hi => ?_))⟩
    · simp [Man.negate.negList, Prog.bind_run, h₁, h₂]
    · rw [hf₁.heldVals_eq hv (Or.inl (fun hi' => hn.2.2 i hi' i hi rfl))]
end

mutual
theorem Man.add_renewed [Add α] {f : Fam} {c : Nat → List Ref} : ∀ (m : Man) (w : World α),
    w.Valid → m.ids.Nodup → Ready w c m.ids →
    ∃ w', Man.add f m (m.arg c) w = (.ok (), w') ∧
      Renewed (fun i => List.zipWith addO (w.heldVals f i) (w.valuesOf c i)) f m.ids w w'
  | .empty, w, hv, _, _ => ⟨w, rfl, Renewed.refl _ f w hv⟩
  | .leaf i, w, hv, _, h => tcAdd_renewed hv h
  | .compound [], w, hv, _, _ => ⟨w, rfl, Renewed.refl _ f w hv⟩
  | .compound (m :: ms), w, hv, hn, h => Man.addIdx_renewed (m :: ms) w hv hn h
theorem Man.addIdx_renewed [Add α] {f : Fam} {c : Nat → List Ref} : ∀ (ms : List Man)
    (w : World α), w.Valid → (Man.ids.idsList ms).Nodup → Ready w c (Man.ids.idsList ms) →
    ∃ w', Man.add.addIdx f ms (Man.arg.argList c ms) w = (.ok (), w') ∧
      Renewed (fun i => List.zipWith addO (w.heldVals f i) (w.valuesOf c i)) f
        (Man.ids.idsList ms) w w'
  | [], w, hv, _, _ => ⟨w, rfl, Renewed.refl _ f w hv⟩
  | m :: ms, w, hv, hn, h => by
    simp only [Man.ids.idsList, List.nodup_append] at hn
    obtain ⟨w₁, h₁, hf₁⟩ := Man.add_renewed (f := f) (c := c) m w hv hn.1
      (h.mono (by simp [Man.ids.idsList]; tauto))
    have h' : Ready w c (Man.ids.idsList ms) := h.mono (by simp [Man.ids.idsList]; tauto)
    obtain ⟨w₂, h₂, hf₂⟩ := Man.addIdx_renewed (f := f) (c := c) ms w₁ hf₁.valid hn.2.1
      (hf₁.ready h')
    refine ⟨w₂, ?_, hf₁.trans (by simp [Man.ids.idsList]) (hf₂.congr (fun i hi => ?_))⟩
    · simp [Man.arg.argList, Man.add.addIdx, Prog.bind_run, h₁, h₂]
    · rw [hf₁.heldVals_eq hv (Or.inl (fun hi' => hn.2.2 i hi' i hi rfl)),
        hf₁.valuesOf_eq hv h' hi]
end

theorem Man.values_eq (w : World α) (f : Fam) (m : Man) :
    m.values w f = (m.ids.map (w.heldVals f)).flatten := by
  unfold Man.values
  rw [Man.unroll_eq, List.map_flatten, List.map_map]
  rfl

end Imodal
