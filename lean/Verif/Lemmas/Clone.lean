import Verif.Lemmas.CopyFill
import Mathlib.Data.List.Forall2
/-!
# Helper lemmas: `requires_grad_` and `clone`
-/
set_option autoImplicit false
namespace Imodal

variable {α : Type}

/-- `r'` is a new object on the storage of `r` with flag `b` and no graph. -/
def Detached (b : Bool) (w w' : World α) (r r' : Ref) : Prop :=
  ∃ o, w.objs[r]? = some o ∧ w.objs.length ≤ r' ∧
    w'.objs[r']? = some { o with requiresGrad := b, hasGraph := false }

theorem Detached.mono {b : Bool} {w₀ w w' w'' : World α} {r r' : Ref} (h : Detached b w w' r r')
    (hl : w₀.objs.length ≤ w.objs.length) (ho : ∀ o, w.objs[r]? = some o → w₀.objs[r]? = some o)
    (he : Ext w' w'') : Detached b w₀ w'' r r' := by
  obtain ⟨o, h1, h2, h3⟩ := h
  exact ⟨o, ho o h1, Nat.le_trans hl h2, he.obj h3⟩

theorem mapT_detach (b : Bool) : ∀ (rs : List Ref) (w : World α), w.Valid →
    (∀ r ∈ rs, r < w.objs.length) →
    ∃ rs' w', mapT (detachT (some b)) rs w = (.ok rs', w') ∧ Ext w w' ∧ w'.stores = w.stores ∧
      w'.leaves = w.leaves ∧ w'.Valid ∧ List.Forall₂ (Detached b w w') rs rs' ∧
      rs'.Nodup ∧ ∀ r ∈ rs', w.objs.length ≤ r
  | [], w, hv, _ => ⟨[], w, rfl, Ext.refl w, rfl, rfl, hv, .nil, .nil, by simp⟩
  | r :: rs, w, hv, hl => by
    have hr := hl r (by simp)
    have ho : w.objs[r]? = some w.objs[r] := by simp [hr]
    generalize w.objs[r] = o at ho
    have h₁ : detachT (some b) r w = (.ok w.objs.length,
        { w with objs := w.objs ++ [{ o with requiresGrad := b, hasGraph := false }] }) := by
      simp [detachT, Prog.bind_run, getObj, aliasT, ho]
    generalize hw₁ : ({ w with objs := w.objs ++ [{ o with requiresGrad := b, hasGraph := false }] }
      : World α) = w₁ at h₁
    have hext : Ext w w₁ := by
      rw [← hw₁]; exact ⟨List.prefix_append _ _, List.prefix_refl _⟩
    have hv₁ : w₁.Valid := by
      refine ⟨?_, fun i l hl g r hr => hext.lt (hv.leaf i l (by rw [← hw₁] at hl; exact hl) g r hr)⟩
      intro r' o' hr'
      rw [← hw₁] at hr' ⊢
      simp only [List.getElem?_append] at hr'
      split at hr'
      · exact hv.store r' o' hr'
      · obtain ⟨_, he⟩ := List.getElem?_eq_some_iff.1 hr'
        have : o' = { o with requiresGrad := b, hasGraph := false } := by simpa using he.symm
        subst this; exact hv.store r o ho
    obtain ⟨rs', w', h₂, he, hs, hlv, hv', hf, hnd, hge⟩ := mapT_detach b rs w₁ hv₁
      (fun r' hr' => hext.lt (hl r' (by simp [hr'])))
    refine ⟨w.objs.length :: rs', w', ?_, hext.trans he, by rw [hs, ← hw₁], by rw [hlv, ← hw₁],
      hv', .cons ⟨o, ho, Nat.le_refl _, he.obj (by rw [← hw₁]; simp)⟩ ?_, ?_, ?_⟩
    · simp [mapT, Prog.bind_run, h₁, h₂]
    · clear h₂ hnd hge
      have hlt : ∀ r' ∈ rs, r' < w.objs.length := fun r' hr' => hl r' (by simp [hr'])
      clear hl
      induction hf with
      | nil => exact .nil
      | cons h _ ih =>
        refine .cons (h.mono hext.objs.length_le (fun o' ho' => ?_) (Ext.refl _))
          (ih (fun r' hr' => hlt r' (by simp [hr'])))
        have := hlt _ (List.mem_cons_self)
        rw [← hw₁] at ho'
        simpa [List.getElem?_append_left this] using ho'
    · refine List.nodup_cons.2 ⟨fun h => ?_, hnd⟩
      have := hge _ h
      have e : w₁.objs.length = w.objs.length + 1 := by rw [← hw₁]; simp
      omega
    · intro r' hr'
      rcases List.mem_cons.1 hr' with rfl | hr'
      · exact Nat.le_refl _
      · exact Nat.le_trans hext.objs.length_le (hge _ hr')

/-- Result of `requires_grad_(b)` on family `f` of object `j`. -/
structure Regraded (b : Bool) (j : Nat) (f : Fam) (w w' : World α) : Prop where
  ext : Ext w w'
  stores : w'.stores = w.stores
  valid : w'.Valid
  lnone : ∀ k : Nat, w.leaves[k]? = none → w'.leaves[k]? = none
  other : ∀ k, k ≠ j → w'.leaves[k]? = w.leaves[k]?
  leaf : ∀ l, w.leaves[j]? = some l → ∃ l', w'.leaves[j]? = some l' ∧
    (∀ g, (l'.tc g).shapes = (l.tc g).shapes) ∧ (∀ g, g ≠ f → l'.tc g = l.tc g) ∧
    List.Forall₂ (Detached b w w') (l.tc f).tensors (l'.tc f).tensors
  nodup : (w'.held f j).Nodup

theorem tcRequiresGrad_all (b : Bool) {j : Nat} {f : Fam} {w : World α} {l : Leaf} (hv : w.Valid)
    (hl : w.leaves[j]? = some l) :
    ∃ w', tcRequiresGrad j f (some b) (-1) w = (.ok (), w') ∧ Regraded b j f w w' := by
  obtain ⟨rs', w₁, h, he, hs, hlv, hv', hf, hnd, -⟩ := mapT_detach b (l.tc f).tensors w hv
    (hv.leaf j l hl f)
  let u : Leaf → Leaf := fun l => l.setTc { l.tc f with tensors := rs', isList := true } f
  have hu : (w₁.leaves.modify j u)[j]? = some (u l) := by simp [List.getElem?_modify, hlv, hl]
  refine ⟨⟨w₁.objs, w₁.stores, w₁.leaves.modify j u⟩, ?_, ⟨he.objs, he.stores⟩, hs, ⟨hv'.store, ?_⟩,
    ?_, ?_, ?_, ?_⟩
  · simp [tcRequiresGrad, Prog.bind_run, getLeaf, hl, h, modifyTc, u]
  · intro k lk hk g r hr
    by_cases hkj : j = k
    · subst hkj
      rw [hu] at hk
      cases hk
      by_cases hg : g = f
      · subst hg
        have : ((u l).tc g).tensors = rs' := by cases g <;> rfl
        rw [this] at hr
        obtain ⟨i, hi, rfl⟩ := List.getElem_of_mem hr
        have hlen := hf.length_eq
        obtain ⟨o, _, _, h3⟩ := hf.get (by omega) hi
        exact (List.getElem?_eq_some_iff.1 h3).1
      · have : (u l).tc g = l.tc g := by cases f <;> cases g <;> first | rfl | exact absurd rfl hg
        rw [this] at hr
        exact he.lt (hv.leaf j l hl g r hr)
    · refine hv'.leaf k lk ?_ g r hr
      simp only [List.getElem?_modify, hkj, if_false] at hk
      cases hx : w₁.leaves[k]? with
      | none => simp [hx] at hk
      | some y => simpa [hx] using hk
  · intro k hk
    simp [List.getElem?_modify, hlv, hk]
  · intro k hk
    simp [List.getElem?_modify, Ne.symm hk, hlv]
  · intro l' hl'
    rw [hl] at hl'; cases hl'
    refine ⟨u l, hu, ?_, ?_, ?_⟩
    · intro g; cases f <;> cases g <;> rfl
    · intro g hg; cases f <;> cases g <;> first | rfl | exact absurd rfl hg
    · have : ((u l).tc f).tensors = rs' := by cases f <;> rfl
      rw [this]; exact hf
  · unfold World.held
    rw [hu]
    have : ((u l).tc f).tensors = rs' := by cases f <;> rfl
    dsimp only
    rw [this]; exact hnd

theorem Detached.read {b : Bool} {w w' : World α} {r r' : Ref} (h : Detached b w w' r r')
    (hs : w'.stores = w.stores) : w'.read r' = w.read r := by
  obtain ⟨o, h1, _, h3⟩ := h
  simp [World.read, h1, h3, hs]

theorem forall₂_map_eq {β γ δ : Type} {R : β → γ → Prop} {f : β → δ} {g : γ → δ}
    (h : ∀ x y, R x y → f x = g y) {l : List β} {l' : List γ} (hl : List.Forall₂ R l l') :
    l.map f = l'.map g := by
  induction hl with
  | nil => rfl
  | cons h1 _ ih => simp [h _ _ h1, ih]

theorem Regraded.heldVals {b : Bool} {j : Nat} {f : Fam} {w w' : World α} (h : Regraded b j f w w')
    (hv : w.Valid) (g : Fam) (k : Nat) : w'.heldVals g k = w.heldVals g k := by
  unfold World.heldVals World.held
  by_cases hk : k = j
  · subst hk
    cases hl : w.leaves[k]? with
    | none => rw [h.lnone k hl]; rfl
    | some l =>
      obtain ⟨l', hl', _, h2, h3⟩ := h.leaf l hl
      rw [hl']
      by_cases hg : g = f
      · subst hg
        exact (forall₂_map_eq (fun x y hxy => (hxy.read h.stores).symm) h3).symm
      · simp only; rw [h2 g hg]
        exact map_read_ext h.ext hv _ (hv.leaf k l hl g)
  · rw [h.other k hk]
    cases hl : w.leaves[k]? with
    | none => rfl
    | some l => exact map_read_ext h.ext hv _ (hv.leaf k l hl g)

/-- The tensor lies in a storage with property `Q`. -/
def Placed (Q : Nat → Prop) (w : World α) (r : Ref) : Prop := ∃ o, w.objs[r]? = some o ∧ Q o.storage

theorem Placed.ext {Q : Nat → Prop} {w w' : World α} {r : Ref} (h : Placed Q w r) (he : Ext w w') : Placed Q w' r := by
  obtain ⟨o, ho, h⟩ := h
  exact ⟨o, he.obj ho, h⟩

theorem Placed.mono {Q Q' : Nat → Prop} {w : World α} {r : Ref} (h : Placed Q w r) (hq : ∀ k, Q k → Q' k) : Placed Q' w r := by
  obtain ⟨o, ho, h⟩ := h
  exact ⟨o, ho, hq _ h⟩

/-- The tensors of two families of objects lie in different storages. -/
def DisjointAt (w : World α) (g : Fam) (i : Nat) (g' : Fam) (i' : Nat) : Prop :=
  ∃ Q : Nat → Prop, (∀ r ∈ w.held g i, Placed Q w r) ∧ ∀ r ∈ w.held g' i', Placed (fun k => ¬ Q k) w r

theorem Regraded.place {b : Bool} {j : Nat} {f : Fam} {w w' : World α} (h : Regraded b j f w w') (Q : Nat → Prop) (g : Fam) (i : Nat)
    (hq : ∀ r ∈ w.held g i, Placed Q w r) : ∀ r ∈ w'.held g i, Placed Q w' r := by
  intro r hr
  by_cases hi : i = j
  · subst hi
    cases hl : w.leaves[i]? with
    | none => simp [World.held, h.lnone i hl] at hr
    | some l =>
      obtain ⟨l', hl', -, h2, h3⟩ := h.leaf l hl
      simp only [World.held, hl'] at hr
      simp only [World.held, hl] at hq
      by_cases hg : g = f
      · subst hg
        obtain ⟨k, hk, rfl⟩ := List.getElem_of_mem hr
        have hlen := h3.length_eq
        obtain ⟨o, ho, -, h5⟩ := h3.get (by omega) hk
        have hk' : k < (l.tc g).tensors.length := by omega
        obtain ⟨o', ho', hq'⟩ := hq ((l.tc g).tensors[k]) (List.getElem_mem hk')
        simp only [List.get_eq_getElem] at ho h5
        rw [ho] at ho'
        cases ho'
        exact ⟨_, h5, hq'⟩
      · rw [h2 g hg] at hr
        exact (hq r hr).ext h.ext
  · have : w'.held g i = w.held g i := by unfold World.held; rw [h.other _ hi]
    rw [this] at hr
    exact (hq r hr).ext h.ext

/-- Every tensor of every family of object `j` is fresh. -/
def FreshLeaf (n k : Nat) (w : World α) (j : Nat) : Prop :=
  ∀ g, ∀ r ∈ w.held g j, FreshRef n k w r

theorem Regraded.fresh {b : Bool} {j : Nat} {f : Fam} {w w' : World α} (h : Regraded b j f w w')
    {n k : Nat} (hn : n ≤ w.objs.length) {l : Leaf} (hl : w.leaves[j]? = some l)
    (hf : FreshLeaf n k w j) : FreshLeaf n k w' j := by
  intro g r hr
  obtain ⟨l', hl', _, h2, h3⟩ := h.leaf l hl
  have hheld : ∀ g, w.held g j = (l.tc g).tensors := by intro g; simp [World.held, hl]
  simp only [World.held, hl'] at hr
  by_cases hg : g = f
  · subst hg
    obtain ⟨i, hi, rfl⟩ := List.getElem_of_mem hr
    have hlen := h3.length_eq
    obtain ⟨o, ho, h4, h5⟩ := h3.get (by omega) hi
    obtain ⟨_, o', ho', hk⟩ := hf g _ (by rw [hheld]; exact List.getElem_mem (show i < (l.tc g).tensors.length by omega))
    simp only [List.get_eq_getElem] at ho h5 h4
    rw [ho] at ho'
    cases ho'
    exact ⟨Nat.le_trans hn h4, _, h5, hk⟩
  · rw [h2 g hg] at hr
    exact (hf g r (by rw [hheld]; exact hr)).mono h.ext (Nat.le_refl _) (Nat.le_refl _)

theorem mapT_kind {op : Ref → PM α Ref} {g : α → α} {fl : Bool → Bool × Bool} (hop : Allocates op g fl) (d t : String) :
    ∀ (rs : List Ref) (w w' : World α) (rs' : List Ref), w.Valid →
      (∀ r ∈ rs, ∃ o, w.objs[r]? = some o ∧ o.device = d ∧ o.dtype = t) → mapT op rs w = (.ok rs', w') →
      Ext w w' ∧ ∀ r ∈ rs', ∃ o, w'.objs[r]? = some o ∧ o.device = d ∧ o.dtype = t
  | [], w, w', rs', _, _, h => by
    rw [mapT, Prog.pure_run] at h
    cases h
    exact ⟨Ext.refl w, by simp⟩
  | r :: rs, w, w', rs', hv, hk, h => by
    obtain ⟨o, ho, hd, ht⟩ := hk r (by simp)
    obtain ⟨v, hrd, -⟩ := hv.read_some ho
    have h₁ := hop r w v o hrd ho
    generalize hob : (⟨w.stores.length, o.device, o.dtype, (fl o.requiresGrad).1,
      (fl o.requiresGrad).2⟩ : TObj) = ob at h₁
    have hst : ob.storage = w.stores.length := by rw [← hob]
    have hext := extend_ext w ob (g v)
    rw [mapT, Prog.bind_run, h₁] at h
    dsimp only at h
    rw [Prog.bind_run] at h
    cases h2 : mapT op rs { w with objs := w.objs ++ [ob], stores := w.stores ++ [g v] } with
    | mk e w₂ =>
      rw [h2] at h
      cases e with
      | error e => cases h
      | ok rs₂ =>
        dsimp only at h
        rw [Prog.pure_run] at h
        cases h
        obtain ⟨he, hr⟩ := mapT_kind hop d t rs _ _ _ (extend_valid hv ob (g v) hst) (fun r' hr' => by
          obtain ⟨o', ho', hk'⟩ := hk r' (by simp [hr'])
          exact ⟨o', hext.obj ho', hk'⟩) h2
        refine ⟨hext.trans he, fun r' hr' => ?_⟩
        rcases List.mem_cons.1 hr' with rfl | hr'
        · exact ⟨ob, he.obj (by simp), by rw [← hob]; exact hd, by rw [← hob]; exact ht⟩
        · exact hr r' hr'

theorem tcClone_alloc {w : World α} {c : TC} (hv : w.Valid) (hk : SameKind w c.tensors)
    (hpos : 0 < c.tensors.length) :
    ∃ c' w', tcClone c w = (.ok c', w') ∧ c'.shapes = c.shapes ∧
      Alloc w w' c'.tensors (c.tensors.map w.read) ∧ SameKind w' c'.tensors := by
  obtain ⟨d, t, h⟩ := hk
  have hne : c.tensors ≠ [] := by intro h0; rw [h0] at hpos; simp at hpos
  have h1 := argShared_sameKind w TObj.device d c.tensors hne
      (fun r hr => by obtain ⟨o, ho, hd, _⟩ := h r hr; exact ⟨o, ho, hd⟩)
  have h2 := argShared_sameKind w TObj.dtype t c.tensors hne
      (fun r hr => by obtain ⟨o, ho, _, hd⟩ := h r hr; exact ⟨o, ho, hd⟩)
  obtain ⟨ts, w', h3, ha, _⟩ := mapT_alloc cloneT_allocates c.tensors w hv
    (fun r hr => SameKind.lt ⟨d, t, h⟩ hr)
  refine ⟨{ c with tensors := ts, isList := false, device := d, dtype := t }, w', ?_, rfl, by simpa using ha,
    d, t, (mapT_kind cloneT_allocates d t _ _ _ _ hv h h3).2⟩
  simp [tcClone, Prog.bind_run, h1, h2, h3]

/-- Result of cloning object `i` into the new object `j`. -/
structure Cloned (w w' : World α) (b : Bool) (i j : Nat) : Prop where
  new : w.leaves.length ≤ j
  ex : ∃ l', w'.leaves[j]? = some l'
  vals : ∀ g, w'.heldVals g j = w.heldVals g i
  fresh : FreshLeaf w.objs.length w.stores.length w' j
  flags : ∀ g, ∀ r ∈ w'.held g j, ∃ o, w'.objs[r]? = some o ∧ o.requiresGrad = b ∧ o.hasGraph = false
  apart : ∀ g, (w'.held g j).Nodup ∧ ∀ g', g ≠ g' → ∀ r ∈ w'.held g j, r ∉ w'.held g' j
  kind : ∀ g, SameKind w' (w'.held g j)
  shapes : ∀ l, w.leaves[i]? = some l → ∃ l', w'.leaves[j]? = some l' ∧ ∀ g, (l'.tc g).shapes = (l.tc g).shapes
  places : ∀ g g', g ≠ g' → DisjointAt w' g j g' j

/-- The objects that existed are untouched. -/
structure Kept (w w' : World α) : Prop where
  ext : Ext w w'
  valid : w'.Valid
  leaves : w.leaves <+: w'.leaves

theorem Kept.refl {w : World α} (h : w.Valid) : Kept w w := ⟨Ext.refl w, h, List.prefix_refl _⟩
theorem Kept.trans {w w₁ w₂ : World α} (h : Kept w w₁) (h' : Kept w₁ w₂) : Kept w w₂ :=
  ⟨h.ext.trans h'.ext, h'.valid, h.leaves.trans h'.leaves⟩

theorem Kept.held {w w' : World α} (h : Kept w w') {i : Nat} (hi : i < w.leaves.length) (g : Fam) :
    w'.held g i = w.held g i := by
  have hl : w.leaves[i]? = some w.leaves[i] := by simp [hi]
  unfold World.held
  rw [hl, prefix_getElem? h.leaves hl]

theorem Kept.heldVals {w w' : World α} (h : Kept w w') (hv : w.Valid) {i : Nat}
    (hi : i < w.leaves.length) (g : Fam) : w'.heldVals g i = w.heldVals g i := by
  unfold World.heldVals
  rw [h.held hi, map_read_ext h.ext hv _ (fun r hr => hv.held_lt hr)]

/-- Object `i` can be cloned: it exists and each family holds at least one tensor, all of
one device and dtype. -/
def Clonable (w : World α) (i : Nat) : Prop :=
  ∃ l, w.leaves[i]? = some l ∧ ∀ g, SameKind w (l.tc g).tensors ∧ 0 < (l.tc g).tensors.length

theorem SameKind.ext {w w' : World α} (h : Ext w w') {rs : List Ref} (hk : SameKind w rs) :
    SameKind w' rs := by
  obtain ⟨d, t, hk⟩ := hk
  refine ⟨d, t, fun r hr => ?_⟩
  obtain ⟨o, ho, hd⟩ := hk r hr
  exact ⟨o, h.obj ho, hd⟩

theorem Clonable.kept {w w' : World α} (h : Kept w w') {i : Nat} (hc : Clonable w i) :
    Clonable w' i := by
  obtain ⟨l, hl, hg⟩ := hc
  exact ⟨l, prefix_getElem? h.leaves hl, fun g => ⟨(hg g).1.ext h.ext, (hg g).2⟩⟩

theorem Clonable.lt {w : World α} {i : Nat} (hc : Clonable w i) : i < w.leaves.length := by
  obtain ⟨l, hl, _⟩ := hc
  exact (List.getElem?_eq_some_iff.1 hl).1

theorem Regraded.flags {b : Bool} {j : Nat} {f : Fam} {w w' : World α} (h : Regraded b j f w w')
    {l : Leaf} (hl : w.leaves[j]? = some l) :
    (∀ r ∈ w'.held f j, ∃ o, w'.objs[r]? = some o ∧ o.requiresGrad = b ∧ o.hasGraph = false) ∧
    ∀ g, g ≠ f → w'.held g j = w.held g j := by
  obtain ⟨l', hl', _, h2, h3⟩ := h.leaf l hl
  refine ⟨?_, ?_⟩
  · intro r hr
    simp only [World.held, hl'] at hr
    obtain ⟨i, hi, rfl⟩ := List.getElem_of_mem hr
    have hlen := h3.length_eq
    obtain ⟨o, ho, h4, h5⟩ := h3.get (by omega) hi
    exact ⟨_, h5, rfl, rfl⟩
  · intro g hg
    simp [World.held, hl', hl, h2 g hg]

theorem Regraded.new {b : Bool} {j : Nat} {f : Fam} {w w' : World α} (h : Regraded b j f w w')
    {l : Leaf} (hl : w.leaves[j]? = some l) : ∀ r ∈ w'.held f j, w.objs.length ≤ r := by
  intro r hr
  obtain ⟨l', hl', _, -, h3⟩ := h.leaf l hl
  simp only [World.held, hl'] at hr
  obtain ⟨i, hi, rfl⟩ := List.getElem_of_mem hr
  have hlen := h3.length_eq
  obtain ⟨o, ho, h4, h5⟩ := h3.get (by omega) hi
  exact h4

theorem Regraded.kindOf {b : Bool} {j : Nat} {f : Fam} {w w' : World α} (h : Regraded b j f w w')
    {l : Leaf} (hl : w.leaves[j]? = some l) {g : Fam} {P : String → String → Prop}
    (hk : ∀ r ∈ w.held g j, ∃ o, w.objs[r]? = some o ∧ P o.device o.dtype) :
    ∀ r ∈ w'.held g j, ∃ o, w'.objs[r]? = some o ∧ P o.device o.dtype := by
  obtain ⟨l', hl', _, h2, h3⟩ := h.leaf l hl
  by_cases hg : g = f
  · subst hg
    intro r hr
    simp only [World.held, hl'] at hr
    obtain ⟨i, hi, rfl⟩ := List.getElem_of_mem hr
    have hlen := h3.length_eq
    have hi' : i < (l.tc g).tensors.length := by omega
    obtain ⟨o, ho, h4, h5⟩ := h3.get hi' hi
    obtain ⟨o', ho', hd⟩ := hk ((l.tc g).tensors[i]) (by simp only [World.held, hl]; exact List.getElem_mem hi')
    simp only [List.get_eq_getElem] at ho h5
    rw [ho] at ho'
    cases ho'
    exact ⟨_, h5, hd⟩
  · have : w'.held g j = w.held g j := by simp only [World.held, hl', hl, h2 g hg]
    rw [this]
    intro r hr
    obtain ⟨o, ho, hP⟩ := hk r hr
    exact ⟨o, h.ext.obj ho, hP⟩

theorem Regraded.kind {b : Bool} {j : Nat} {f : Fam} {w w' : World α} (h : Regraded b j f w w')
    {l : Leaf} (hl : w.leaves[j]? = some l) {g : Fam} (hk : SameKind w (w.held g j)) : SameKind w' (w'.held g j) := by
  obtain ⟨d, t, hk⟩ := hk
  exact ⟨d, t, h.kindOf hl (P := fun x y => x = d ∧ y = t) hk⟩

theorem leafClone_spec (b : Bool) {w : World α} {i : Nat} (hv : w.Valid) (hc : Clonable w i) :
    ∃ j w', leafClone i (some b) w = (.ok j, w') ∧ Kept w w' ∧ Cloned w w' b i j ∧
      j = w.leaves.length := by
  obtain ⟨l, hl, hg⟩ := hc
  obtain ⟨c₁, w₁, h₁, hs₁, ha₁, hk₁⟩ := tcClone_alloc (c := l.gd) hv (hg .gd).1 (hg .gd).2
  obtain ⟨c₂, w₂, h₂, hs₂, ha₂, hk₂⟩ := tcClone_alloc (c := l.tan) ha₁.valid
    ((hg .tan).1.ext ha₁.ext) (hg .tan).2
  obtain ⟨c₃, w₃, h₃, hs₃, ha₃, hk₃⟩ := tcClone_alloc (c := l.cotan) ha₂.valid
    (((hg .cotan).1.ext ha₁.ext).ext ha₂.ext) (hg .cotan).2
  have hlv : w₃.leaves = w.leaves := by rw [ha₃.leaves, ha₂.leaves, ha₁.leaves]
  let nl : Leaf := { l with gd := c₁, tan := c₂, cotan := c₃ }
  let w₄ : World α := ⟨w₃.objs, w₃.stores, w₃.leaves ++ [nl]⟩
  have he₃ : Ext w w₃ := (ha₁.ext.trans ha₂.ext).trans ha₃.ext
  have hn : w₄.leaves[w₃.leaves.length]? = some nl := by simp [w₄]
  have hread : ∀ r, w₄.read r = w₃.read r := fun r => rfl
  have hv₄ : w₄.Valid := by
    refine ⟨ha₃.valid.store, ?_⟩
    intro k lk hk g r hr
    simp only [w₄, List.getElem?_append] at hk
    split at hk
    · exact ha₃.valid.leaf k lk hk g r hr
    · obtain ⟨_, he⟩ := List.getElem?_eq_some_iff.1 hk
      have : lk = nl := by simpa using he.symm
      subst this
      cases g with
      | gd => exact (ha₂.ext.trans ha₃.ext).lt ((ha₁.fresh r hr).lt)
      | tan => exact ha₃.ext.lt ((ha₂.fresh r hr).lt)
      | cotan => exact (ha₃.fresh r hr).lt
  have hfresh₄ : FreshLeaf w.objs.length w.stores.length w₄ w₃.leaves.length := by
    intro g r hr
    simp only [World.held, hn] at hr
    have hE : ∀ {w' : World α}, Ext w' w₃ → Ext w' w₄ := fun h => ⟨h.objs, h.stores⟩
    cases g with
    | gd => exact (ha₁.fresh r hr).mono (hE (ha₂.ext.trans ha₃.ext)) (Nat.le_refl _) (Nat.le_refl _)
    | tan => exact (ha₂.fresh r hr).mono (hE ha₃.ext) ha₁.ext.objs.length_le ha₁.ext.stores.length_le
    | cotan =>
      exact (ha₃.fresh r hr).mono (hE (Ext.refl _)) (ha₁.ext.trans ha₂.ext).objs.length_le
        (ha₁.ext.trans ha₂.ext).stores.length_le
  have hvals₄ : ∀ g, w₄.heldVals g w₃.leaves.length = w.heldVals g i := by
    intro g
    simp only [World.heldVals, World.held, hn, hl]
    have e1 : Ext w w₁ := ha₁.ext
    have e2 : Ext w w₂ := ha₁.ext.trans ha₂.ext
    cases g with
    | gd =>
      rw [show ((nl.tc .gd).tensors.map w₄.read) = c₁.tensors.map w₃.read from rfl,
        map_read_ext (ha₂.ext.trans ha₃.ext) ha₁.valid _ (fun r hr => (ha₁.fresh r hr).lt), ha₁.vals]
      rfl
    | tan =>
      rw [show ((nl.tc .tan).tensors.map w₄.read) = c₂.tensors.map w₃.read from rfl,
        map_read_ext ha₃.ext ha₂.valid _ (fun r hr => (ha₂.fresh r hr).lt), ha₂.vals]
      exact map_read_ext e1 hv _ (hv.leaf i l hl .tan)
    | cotan =>
      rw [show ((nl.tc .cotan).tensors.map w₄.read) = c₃.tensors.map w₃.read from rfl, ha₃.vals]
      exact map_read_ext e2 hv _ (hv.leaf i l hl .cotan)
  obtain ⟨w₅, h₅, hr₅⟩ := tcRequiresGrad_all b (f := .gd) hv₄ hn
  obtain ⟨l₅, hl₅, hsh₅, -⟩ := hr₅.leaf _ hn
  obtain ⟨w₆, h₆, hr₆⟩ := tcRequiresGrad_all b (f := .tan) hr₅.valid hl₅
  obtain ⟨l₆, hl₆, hsh₆, -⟩ := hr₆.leaf _ hl₅
  obtain ⟨w₇, h₇, hr₇⟩ := tcRequiresGrad_all b (f := .cotan) hr₆.valid hl₆
  obtain ⟨l₇, hl₇, hsh₇, -⟩ := hr₇.leaf _ hl₆
  have hn₄ : w.objs.length ≤ w₄.objs.length := he₃.objs.length_le
  have hn₅ : w.objs.length ≤ w₅.objs.length := Nat.le_trans hn₄ hr₅.ext.objs.length_le
  have hn₆ : w.objs.length ≤ w₆.objs.length := Nat.le_trans hn₅ hr₆.ext.objs.length_le
  refine ⟨w₃.leaves.length, w₇, ?_, ⟨?_, hr₇.valid, ?_⟩, ⟨Nat.le_of_eq (by rw [hlv]), ⟨l₇, hl₇⟩, ?_, ?_, ?_, ?_, ?_, ?_, ?_⟩,
    by rw [hlv]⟩
  · simp only [leafClone, Prog.bind_run, getLeaf, hl, h₁, h₂, h₃, Prog.get_run, Prog.set_run]
    rw [show (⟨w₃.objs, w₃.stores, _⟩ : World α) = w₄ from rfl]
    simp only [h₅, h₆, h₇, Prog.pure_run]
  · have e34 : Ext w₃ w₄ := ⟨List.prefix_refl _, List.prefix_refl _⟩
    exact (((he₃.trans e34).trans hr₅.ext).trans hr₆.ext).trans hr₇.ext
  · have hpre : ∀ k, k < w.leaves.length → w₇.leaves[k]? = w.leaves[k]? := by
      intro k hk
      have hk' : k ≠ w₃.leaves.length := by rw [hlv]; omega
      rw [hr₇.other k hk', hr₆.other k hk', hr₅.other k hk']
      simp only [w₄, hlv]
      rw [List.getElem?_append_left hk]
    rw [List.prefix_iff_getElem?]
    intro k hk
    rw [hpre k hk]; simp [hk]
  · intro g
    rw [hr₇.heldVals hr₆.valid, hr₆.heldVals hr₅.valid, hr₅.heldVals hv₄, hvals₄]
  · exact hr₇.fresh hn₆ hl₆ (hr₆.fresh hn₅ hl₅ (hr₅.fresh hn₄ hn hfresh₄))
  · obtain ⟨f5, o5⟩ := hr₅.flags hn
    obtain ⟨f6, o6⟩ := hr₆.flags hl₅
    obtain ⟨f7, o7⟩ := hr₇.flags hl₆
    intro g r hr
    cases g with
    | gd =>
      rw [o7 .gd (by decide), o6 .gd (by decide)] at hr
      obtain ⟨o, ho, hb⟩ := f5 r hr
      exact ⟨o, (hr₆.ext.trans hr₇.ext).obj ho, hb⟩
    | tan =>
      rw [o7 .tan (by decide)] at hr
      obtain ⟨o, ho, hb⟩ := f6 r hr
      exact ⟨o, hr₇.ext.obj ho, hb⟩
    | cotan => exact f7 r hr
  · obtain ⟨f5, o5⟩ := hr₅.flags hn
    obtain ⟨f6, o6⟩ := hr₆.flags hl₅
    obtain ⟨f7, o7⟩ := hr₇.flags hl₆
    have eg : w₇.held .gd w₃.leaves.length = w₅.held .gd w₃.leaves.length := by rw [o7 .gd (by decide), o6 .gd (by decide)]
    have et : w₇.held .tan w₃.leaves.length = w₆.held .tan w₃.leaves.length := by rw [o7 .tan (by decide)]
    have lg : ∀ r ∈ w₇.held .gd w₃.leaves.length, r < w₅.objs.length := fun r hr => by
      rw [eg] at hr; exact hr₅.valid.held_lt hr
    have lt : ∀ r ∈ w₇.held .tan w₃.leaves.length, w₅.objs.length ≤ r ∧ r < w₆.objs.length := fun r hr => by
      rw [et] at hr; exact ⟨hr₆.new hl₅ r hr, hr₆.valid.held_lt hr⟩
    have lc : ∀ r ∈ w₇.held .cotan w₃.leaves.length, w₆.objs.length ≤ r := fun r hr => hr₇.new hl₆ r hr
    have h56 := hr₆.ext.objs.length_le
    intro g
    refine ⟨?_, ?_⟩
    · cases g with
      | gd => rw [eg]; exact hr₅.nodup
      | tan => rw [et]; exact hr₆.nodup
      | cotan => exact hr₇.nodup
    · intro g' hgg r hr hr'
      cases g <;> cases g'
      · exact hgg rfl
      · exact absurd (lt r hr').1 (Nat.not_le.2 (lg r hr))
      · exact absurd (Nat.le_trans h56 (lc r hr')) (Nat.not_le.2 (lg r hr))
      · exact absurd (lt r hr).1 (Nat.not_le.2 (lg r hr'))
      · exact hgg rfl
      · exact absurd (lc r hr') (Nat.not_le.2 (lt r hr).2)
      · exact absurd (Nat.le_trans h56 (lc r hr)) (Nat.not_le.2 (lg r hr'))
      · exact absurd (lc r hr) (Nat.not_le.2 (lt r hr').2)
      · exact hgg rfl
  · intro g
    refine hr₇.kind hl₆ (hr₆.kind hl₅ (hr₅.kind hn ?_))
    simp only [World.held, hn]
    have hE : ∀ {w' : World α}, Ext w' w₃ → Ext w' w₄ := fun h => ⟨h.objs, h.stores⟩
    cases g with
    | gd => exact hk₁.ext (hE (ha₂.ext.trans ha₃.ext))
    | tan => exact hk₂.ext (hE ha₃.ext)
    | cotan => exact hk₃.ext (hE (Ext.refl _))
  · intro l' hl'
    rw [hl] at hl'
    cases hl'
    refine ⟨l₇, hl₇, fun g => ?_⟩
    rw [hsh₇ g, hsh₆ g, hsh₅ g]
    cases g with
    | gd => exact hs₁
    | tan => exact hs₂
    | cotan => exact hs₃
  · have low : ∀ (Q : Nat → Prop) g, (∀ r ∈ w₄.held g w₃.leaves.length, Placed Q w₄ r) →
        ∀ r ∈ w₇.held g w₃.leaves.length, Placed Q w₇ r := fun Q g h =>
      hr₇.place Q g _ (hr₆.place Q g _ (hr₅.place Q g _ h))
    have hE : ∀ {w' : World α}, Ext w' w₃ → Ext w' w₄ := fun h => ⟨h.objs, h.stores⟩
    have l12 := ha₂.ext.stores.length_le
    have pg : ∀ r ∈ w₇.held .gd w₃.leaves.length, Placed (fun k => k < w₁.stores.length) w₇ r := low _ .gd fun r hr => by
      simp only [World.held, hn] at hr
      obtain ⟨-, o, ho, -⟩ := ha₁.fresh r hr
      exact ⟨o, (hE (ha₂.ext.trans ha₃.ext)).obj ho, ha₁.valid.store r o ho⟩
    have pt : ∀ r ∈ w₇.held .tan w₃.leaves.length, Placed (fun k => w₁.stores.length ≤ k ∧ k < w₂.stores.length) w₇ r := low _ .tan fun r hr => by
      simp only [World.held, hn] at hr
      obtain ⟨-, o, ho, hs⟩ := ha₂.fresh r hr
      exact ⟨o, (hE ha₃.ext).obj ho, hs, ha₂.valid.store r o ho⟩
    have pc : ∀ r ∈ w₇.held .cotan w₃.leaves.length, Placed (fun k => w₂.stores.length ≤ k) w₇ r := low _ .cotan fun r hr => by
      simp only [World.held, hn] at hr
      obtain ⟨-, o, ho, hs⟩ := ha₃.fresh r hr
      exact ⟨o, (hE (Ext.refl _)).obj ho, hs⟩
    intro g g' hgg
    cases g <;> cases g' <;> first
      | exact absurd rfl hgg
      | exact ⟨_, pg, fun r hr => (pt r hr).mono fun k hk => by omega⟩
      | exact ⟨_, pg, fun r hr => (pc r hr).mono fun k hk => by omega⟩
      | exact ⟨_, pt, fun r hr => (pg r hr).mono fun k hk => by omega⟩
      | exact ⟨_, pt, fun r hr => (pc r hr).mono fun k hk => by omega⟩
      | exact ⟨_, pc, fun r hr => (pg r hr).mono fun k hk => by omega⟩
      | exact ⟨_, pc, fun r hr => (pt r hr).mono fun k hk => by omega⟩

/-- Result of cloning a tree: the same shape, every object cloned. -/
structure TreeCloned (w w' : World α) (b : Bool) (ids ids' : List Nat) : Prop where
  len : ids'.length = ids.length
  each : ∀ (k : Nat) (i j : Nat), ids[k]? = some i → ids'[k]? = some j → Cloned w w' b i j

theorem Cloned.kept_left {w₀ w w' : World α} {b : Bool} {i j : Nat} (h : Cloned w w' b i j)
    (hk : Kept w₀ w) (hv : w₀.Valid) (hi : i < w₀.leaves.length) : Cloned w₀ w' b i j := by
  refine ⟨Nat.le_trans hk.leaves.length_le h.new, h.ex, fun g => by rw [h.vals g, hk.heldVals hv hi],
    ?_, h.flags, h.apart, h.kind, fun l hl => h.shapes l (prefix_getElem? hk.leaves hl), h.places⟩
  intro g r hr
  exact (h.fresh g r hr).mono (Ext.refl _) hk.ext.objs.length_le hk.ext.stores.length_le

theorem Cloned.kept_right {w w' w'' : World α} {b : Bool} {i j : Nat} (h : Cloned w w' b i j)
    (hk : Kept w' w'') (hv : w'.Valid) : Cloned w w'' b i j := by
  obtain ⟨l', hl'⟩ := h.ex
  have hj := (List.getElem?_eq_some_iff.1 hl').1
  refine ⟨h.new, ⟨l', prefix_getElem? hk.leaves hl'⟩, fun g => by rw [hk.heldVals hv hj, h.vals g], ?_, ?_, ?_, ?_, ?_, ?_⟩
  · intro g r hr
    rw [hk.held hj] at hr
    exact (h.fresh g r hr).mono hk.ext (Nat.le_refl _) (Nat.le_refl _)
  · intro g r hr
    rw [hk.held hj] at hr
    obtain ⟨o, ho, hb⟩ := h.flags g r hr
    exact ⟨o, hk.ext.obj ho, hb⟩
  · intro g
    simp only [hk.held hj]
    exact h.apart g
  · intro g
    rw [hk.held hj]
    exact (h.kind g).ext hk.ext
  · intro l hl
    obtain ⟨l', hl', h'⟩ := h.shapes l hl
    exact ⟨l', prefix_getElem? hk.leaves hl', h'⟩
  · intro g g' hgg
    obtain ⟨Q, h1, h2⟩ := h.places g g' hgg
    unfold DisjointAt
    rw [hk.held hj, hk.held hj]
    exact ⟨Q, fun r hr => (h1 r hr).ext hk.ext, fun r hr => (h2 r hr).ext hk.ext⟩

mutual
theorem Man.clone_spec (b : Bool) : ∀ (m : Man) (w : World α), w.Valid →
    (∀ i ∈ m.ids, Clonable w i) →
    ∃ m' w', m.clone (some b) w = (.ok m', w') ∧ Kept w w' ∧ TreeCloned w w' b m.ids m'.ids
  | .empty, w, hv, _ => ⟨.empty, w, rfl, Kept.refl hv, rfl, by simp [Man.ids]⟩
  | .leaf i, w, hv, h => by
    obtain ⟨j, w', h₁, hk, hc, _⟩ := leafClone_spec b hv (h i (by simp [Man.ids]))
    refine ⟨.leaf j, w', by simp [Man.clone, Prog.bind_run, h₁], hk, rfl, ?_⟩
    intro k i' j' h1 h2
    cases k with
    | zero => simp [Man.ids] at h1 h2; subst h1; subst h2; exact hc
    | succ k => simp [Man.ids] at h1
  | .compound ms, w, hv, h => by
    obtain ⟨ms', w', h₁, hk, hc⟩ := Man.cloneList_spec b ms w hv h
    exact ⟨.compound ms', w', by simp [Man.clone, Prog.bind_run, h₁], hk, hc⟩
theorem Man.cloneList_spec (b : Bool) : ∀ (ms : List Man) (w : World α), w.Valid →
    (∀ i ∈ Man.ids.idsList ms, Clonable w i) →
    ∃ ms' w', Man.clone.cloneList (some b) ms w = (.ok ms', w') ∧ Kept w w' ∧
      TreeCloned w w' b (Man.ids.idsList ms) (Man.ids.idsList ms')
  | [], w, hv, _ => ⟨[], w, rfl, Kept.refl hv, rfl, by simp [Man.ids.idsList]⟩
  | m :: ms, w, hv, h => by
    obtain ⟨m', w₁, h₁, hk₁, hc₁⟩ := Man.clone_spec b m w hv
      (fun i hi => h i (by simp [Man.ids.idsList, hi]))
    obtain ⟨ms', w₂, h₂, hk₂, hc₂⟩ := Man.cloneList_spec b ms w₁ hk₁.valid
      (fun i hi => (h i (by simp [Man.ids.idsList, hi])).kept hk₁)
    refine ⟨m' :: ms', w₂, by simp [Man.clone.cloneList, Prog.bind_run, h₁, h₂],
      hk₁.trans hk₂, ?_, ?_⟩
    · simp [Man.ids.idsList, hc₁.len, hc₂.len]
    · intro k i j hi hj
      simp only [Man.ids.idsList, List.getElem?_append] at hi hj
      rw [hc₁.len] at hj
      by_cases hk : k < m.ids.length
      · rw [if_pos hk] at hi hj
        exact (hc₁.each k i j hi hj).kept_right hk₂ hk₁.valid
      · rw [if_neg hk] at hi hj
        refine (hc₂.each _ i j hi hj).kept_left hk₁ hv ?_
        exact (h i (by simp [Man.ids.idsList, List.mem_of_getElem? hi])).lt
end

end Imodal
