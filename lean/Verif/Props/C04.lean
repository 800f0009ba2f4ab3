import Verif.Props.C06
/-!
# C04  A manifold reports the device and dtype its tensors have
-/
set_option autoImplicit false
namespace Imodal

variable {α : Type}

/-- All tensors anywhere in an argument. -/
def Arg.refs : Arg Ref → List Ref
  | .none => []
  | .tensor r => [r]
  | .list l => refsList l
where
  refsList : List (Arg Ref) → List Ref
  | [] => []
  | a :: l => Arg.refs a ++ refsList l

/-- The tensor object `r` has device `d` and dtype `t`. -/
def HasKind (w : World α) (d t : String) (r : Ref) : Prop :=
  ∃ o, w.objs[r]? = some o ∧ o.device = d ∧ o.dtype = t

/-- Operations a user performs on one manifold object. -/
inductive ManOp
  | fill (f : Fam) (mode : FillMode) (a : Arg Ref)
  | toDevice (d : String)
  | toDtype (t : String)
  | requiresGrad (f : Fam) (b : Bool)
  | negate (f : Fam)
  | add (f : Fam) (a : Arg Ref)
  | fillZeros (f : Fam) (rg : Bool)

def ManOp.run [Add α] [Neg α] (zero : List Nat → α) (i : Nat) : ManOp → PM α Unit
  | .fill f mode a => leafFill i f mode a
  | .toDevice d => leafToDevice i d
  | .toDtype t => leafToDtype i t
  | .requiresGrad f b => tcRequiresGrad i f (some b) (-1)
  | .negate f => tcNegate i f
  | .add f a => tcAdd i f a
  | .fillZeros f rg => tcFillZeros zero i f rg

/-- The tensors given to the operation have the device and dtype object `i` reports. -/
def ManOp.Fitting (w : World α) (i : Nat) : ManOp → Prop
  | .fill _ _ a => ∀ l, w.leaves[i]? = some l → ∀ r ∈ a.refs, HasKind w l.baseDevice l.baseDtype r
  | .add _ a => ∀ l, w.leaves[i]? = some l → ∀ r ∈ a.refs, HasKind w l.baseDevice l.baseDtype r
  | _ => True

/-- Run a history; an operation that raises is survived by the caller. -/
def ManOp.runAll [Add α] [Neg α] (zero : List Nat → α) (i : Nat) : List ManOp → World α → World α
  | [], w => w
  | op :: ops, w => ManOp.runAll zero i ops (op.run zero i w).2

/-- Every operation of the history is fitting when it is performed. -/
def ManOp.AllFitting [Add α] [Neg α] (zero : List Nat → α) (i : Nat) : List ManOp → World α → Prop
  | [], _ => True
  | op :: ops, w => op.Fitting w i ∧ ManOp.AllFitting zero i ops (op.run zero i w).2

/-- Family `g` of `l` has device `d` and dtype `t`, labels and tensors. -/
structure FamKind (w : World α) (l : Leaf) (d t : String) (g : Fam) : Prop where
  dev : (l.tc g).device = d
  dt : (l.tc g).dtype = t
  tens : ∀ r ∈ (l.tc g).tensors, HasKind w d t r

/-- Object `i` reports `d`, `t`, and everything it holds is of that kind. -/
def Coh (w : World α) (i : Nat) (d t : String) : Prop :=
  ∃ l, w.leaves[i]? = some l ∧ l.baseDevice = d ∧ l.baseDtype = t ∧ ∀ g, FamKind w l d t g

theorem HasKind.ext {w w' : World α} (h : Ext w w') {d t : String} {r : Ref} (hk : HasKind w d t r) :
    HasKind w' d t r := by
  obtain ⟨o, ho, hd⟩ := hk
  exact ⟨o, h.obj ho, hd⟩

/-- A primitive that makes one new object from one old object. -/
def GoodOp (op : Ref → PM α Ref) (P : TObj → TObj → Prop) : Prop :=
  ∀ (w : World α) (r : Ref) (o : TObj), w.Valid → w.objs[r]? = some o →
    ∃ o' w₁, op r w = (.ok w.objs.length, w₁) ∧ w₁.objs = w.objs ++ [o'] ∧
      w.stores <+: w₁.stores ∧ w₁.leaves = w.leaves ∧ o'.storage < w₁.stores.length ∧ P o o'

theorem mapT_good {op : Ref → PM α Ref} {P : TObj → TObj → Prop} (hop : GoodOp op P) :
    ∀ (rs : List Ref) (w : World α), w.Valid → (∀ r ∈ rs, r < w.objs.length) →
    ∃ rs' w', mapT op rs w = (.ok rs', w') ∧ Ext w w' ∧ w'.leaves = w.leaves ∧ w'.Valid ∧
      ∀ r' ∈ rs', ∃ r ∈ rs, ∃ o o', w.objs[r]? = some o ∧ w'.objs[r']? = some o' ∧ P o o'
  | [], w, hv, _ => ⟨[], w, rfl, Ext.refl w, rfl, hv, by simp⟩
  | r :: rs, w, hv, hl => by
    have hr := hl r (by simp)
    have ho : w.objs[r]? = some w.objs[r] := by simp [hr]
    obtain ⟨o', w₁, h₁, hob, hst, hlv, hs', hP⟩ := hop w r _ hv ho
    have he : Ext w w₁ := ⟨by rw [hob]; exact List.prefix_append _ _, hst⟩
    have hv₁ : w₁.Valid := by
      refine ⟨?_, fun i l hl g r hr => he.lt (hv.leaf i l (by rw [hlv] at hl; exact hl) g r hr)⟩
      intro r' x hr'
      rw [hob, List.getElem?_append] at hr'
      split at hr'
      · exact Nat.lt_of_lt_of_le (hv.store r' x hr') hst.length_le
      · obtain ⟨_, he'⟩ := List.getElem?_eq_some_iff.1 hr'
        have : x = o' := by simpa using he'.symm
        subst this; exact hs'
    obtain ⟨rs', w', h₂, he', hlv', hv', hP'⟩ := mapT_good hop rs w₁ hv₁
      (fun r' hr' => he.lt (hl r' (by simp [hr'])))
    refine ⟨w.objs.length :: rs', w', by simp [mapT, Prog.bind_run, h₁, h₂], he.trans he',
      by rw [hlv', hlv], hv', ?_⟩
    intro r' hr'
    rcases List.mem_cons.1 hr' with rfl | hr'
    · exact ⟨r, by simp, _, o', ho, he'.obj (by rw [hob]; simp), hP⟩
    · obtain ⟨r₂, hr₂, o₂, o₂', h2, h3, h4⟩ := hP' r' hr'
      refine ⟨r₂, by simp [hr₂], o₂, o₂', ?_, h3, h4⟩
      have := hl r₂ (by simp [hr₂])
      rw [hob, List.getElem?_append_left this] at h2
      exact h2

theorem goodOp_of_allocates {op : Ref → PM α Ref} {g : α → α} {fl : Bool → Bool × Bool}
    (h : Allocates op g fl) : GoodOp op (fun o o' => o'.device = o.device ∧ o'.dtype = o.dtype) := by
  intro w r o hv ho
  obtain ⟨v, hv', _⟩ := hv.read_some ho
  exact ⟨_, _, h r w v o hv' ho, rfl, List.prefix_append _ _, rfl, by simp, rfl, rfl⟩

theorem detachT_good (b : Bool) :
    GoodOp (detachT (α := α) (some b)) (fun o o' => o'.device = o.device ∧ o'.dtype = o.dtype) := by
  intro w r o hv ho
  refine ⟨{ o with requiresGrad := b, hasGraph := false },
    { w with objs := w.objs ++ [{ o with requiresGrad := b, hasGraph := false }] }, ?_, rfl,
    List.prefix_refl _, rfl, hv.store r o ho, rfl, rfl⟩
  simp [detachT, Prog.bind_run, getObj, aliasT, ho]

theorem toDeviceT_good (d : String) :
    GoodOp (toDeviceT (α := α) d) (fun o o' => o'.device = d ∧ o'.dtype = o.dtype) := by
  intro w r o hv ho
  obtain ⟨v, hr, _⟩ := hv.read_some ho
  by_cases hd : o.device = d
  · refine ⟨{ o with hasGraph := false }, { w with objs := w.objs ++ [{ o with hasGraph := false }] },
      ?_, rfl, List.prefix_refl _, rfl, hv.store r o ho, hd, rfl⟩
    simp [toDeviceT, Prog.bind_run, getObj, readT, aliasT, ho, hr, hd]
  · refine ⟨⟨w.stores.length, d, o.dtype, o.requiresGrad, false⟩, { w with
      objs := w.objs ++ [⟨w.stores.length, d, o.dtype, o.requiresGrad, false⟩],
      stores := w.stores ++ [v] }, ?_, rfl, List.prefix_append _ _, rfl, by simp, rfl, rfl⟩
    simp [toDeviceT, Prog.bind_run, getObj, readT, allocT, ho, hr, hd]

theorem toDtypeT_good (d : String) :
    GoodOp (toDtypeT (α := α) d) (fun o o' => o'.device = o.device ∧ o'.dtype = d) := by
  intro w r o hv ho
  obtain ⟨v, hr, _⟩ := hv.read_some ho
  by_cases hd : o.dtype = d
  · refine ⟨{ o with hasGraph := false }, { w with objs := w.objs ++ [{ o with hasGraph := false }] },
      ?_, rfl, List.prefix_refl _, rfl, hv.store r o ho, rfl, hd⟩
    simp [toDtypeT, Prog.bind_run, getObj, readT, aliasT, ho, hr, hd]
  · refine ⟨⟨w.stores.length, o.device, d, o.requiresGrad, false⟩, { w with
      objs := w.objs ++ [⟨w.stores.length, o.device, d, o.requiresGrad, false⟩],
      stores := w.stores ++ [v] }, ?_, rfl, List.prefix_append _ _, rfl, by simp, rfl, rfl⟩
    simp [toDtypeT, Prog.bind_run, getObj, readT, allocT, ho, hr, hd]

/-- State with valid pointers in which object `i` has labels/tensors as described by `K`. -/
def LeafSat (w : World α) (i : Nat) (K : World α → Leaf → Prop) : Prop :=
  w.Valid ∧ ∃ l, w.leaves[i]? = some l ∧ K w l

/-- Update one container with tensors that exist. -/
theorem modifyTc_valid {w : World α} (hv : w.Valid) (i : Nat) (f : Fam) (g : TC → TC)
    (hg : ∀ l, w.leaves[i]? = some l → ∀ r ∈ (g (l.tc f)).tensors, r < w.objs.length) :
    ({ w with leaves := w.leaves.modify i (fun l => l.setTc (g (l.tc f)) f) } : World α).Valid := by
  refine ⟨hv.store, ?_⟩
  intro j lj hj k r hr
  simp only [List.getElem?_modify] at hj
  cases hx : w.leaves[j]? with
  | none => simp [hx] at hj
  | some y =>
    by_cases hij : i = j
    · subst hij
      simp only [hx, Option.map_eq_map, Option.map_some, if_true, Option.some.injEq] at hj
      subst hj
      by_cases hk : k = f
      · subst hk
        rw [Leaf.tc_setTc_same] at hr
        exact hg y hx r hr
      · rw [Leaf.tc_setTc_ne _ _ hk] at hr
        exact hv.leaf i y hx k r hr
    · simp [hx, hij] at hj
      subst hj
      exact hv.leaf j y hx k r hr

theorem modifyLeaf_valid {w : World α} (hv : w.Valid) (i : Nat) (u : Leaf → Leaf)
    (hu : ∀ l g, ((u l).tc g).tensors = (l.tc g).tensors) :
    ({ w with leaves := w.leaves.modify i u } : World α).Valid := by
  refine ⟨hv.store, ?_⟩
  intro j lj hj k r hr
  simp only [List.getElem?_modify] at hj
  cases hx : w.leaves[j]? with
  | none => simp [hx] at hj
  | some y =>
    by_cases hij : i = j
    · subst hij
      simp only [hx, Option.map_eq_map, Option.map_some, if_true, Option.some.injEq] at hj
      subst hj
      rw [hu] at hr
      exact hv.leaf i y hx k r hr
    · simp [hx, hij] at hj
      subst hj
      exact hv.leaf j y hx k r hr

/-- The common step: replace family `f` of object `i` by new tensors of kind `d`, `t`. -/
theorem setFam_coh {w w₁ : World α} {i : Nat} {f : Fam} {l : Leaf} {ts : List Ref} {d t : String}
    (hl : w.leaves[i]? = some l) (he : Ext w w₁) (hlv : w₁.leaves = w.leaves) (hv₁ : w₁.Valid)
    (hts : ∀ r ∈ ts, HasKind w₁ d t r) (u : TC → TC) (hu : ∀ c, (u c).tensors = ts)
    (hud : (u (l.tc f)).device = d) (hut : (u (l.tc f)).dtype = t) :
    let w' : World α := { w₁ with leaves := w₁.leaves.modify i (fun l => l.setTc (u (l.tc f)) f) }
    w'.Valid ∧ Ext w w' ∧ ∃ l', w'.leaves[i]? = some l' ∧ l'.baseDevice = l.baseDevice ∧
      l'.baseDtype = l.baseDtype ∧ FamKind w' l' d t f ∧ ∀ g, g ≠ f → l'.tc g = l.tc g := by
  intro w'
  refine ⟨?_, ⟨he.objs, he.stores⟩, l.setTc (u (l.tc f)) f, ?_, ?_, ?_, ?_, ?_⟩
  · apply modifyTc_valid hv₁
    intro _ _ r hr
    rw [hu] at hr
    obtain ⟨o, ho, _⟩ := hts r hr
    exact (List.getElem?_eq_some_iff.1 ho).1
  · simp [w', List.getElem?_modify, hlv, hl]
  · cases f <;> rfl
  · cases f <;> rfl
  · refine ⟨by rw [Leaf.tc_setTc_same]; exact hud, by rw [Leaf.tc_setTc_same]; exact hut, ?_⟩
    rw [Leaf.tc_setTc_same, hu]
    exact hts
  · intro g hg
    exact Leaf.tc_setTc_ne _ _ hg

theorem FamKind.transport {w w' : World α} {l l' : Leaf} {d t : String} {g : Fam}
    (h : FamKind w l d t g) (he : Ext w w') (hl : l'.tc g = l.tc g) : FamKind w' l' d t g :=
  ⟨by rw [hl]; exact h.dev, by rw [hl]; exact h.dt, by rw [hl]; exact fun r hr => (h.tens r hr).ext he⟩

theorem coh_of_setFam {w w' : World α} {i : Nat} {f : Fam} {d t : String} {l : Leaf}
    (hl : w.leaves[i]? = some l) (hc : Coh w i d t)
    (h : Ext w w' ∧ ∃ l', w'.leaves[i]? = some l' ∧ l'.baseDevice = l.baseDevice ∧
      l'.baseDtype = l.baseDtype ∧ FamKind w' l' d t f ∧ ∀ g, g ≠ f → l'.tc g = l.tc g) :
    Coh w' i d t := by
  obtain ⟨he, l', hl', hb, hb', hf, ho⟩ := h
  obtain ⟨l₀, hl₀, h1, h2, h3⟩ := hc
  rw [hl] at hl₀; cases hl₀
  refine ⟨l', hl', by rw [hb, h1], by rw [hb', h2], fun g => ?_⟩
  by_cases hg : g = f
  · subst hg; exact hf
  · exact (h3 g).transport he (ho g hg)

/-- Everything in a property list equals `v` if every tensor answers `v`. -/
theorem collectProps_all {w : World α} {p : TObj → String} {v : String} :
    ∀ (as : List (Arg Ref)) (bs : List String),
    (∀ r ∈ Arg.refs.refsList as, ∃ o, w.objs[r]? = some o ∧ p o = v) →
    collectProps (argProp w p) (as.map Arg.toOption) = .ok bs → ∀ b ∈ bs, b = v
  | [], bs, _, h, b, hb => by
    simp [collectProps] at h; subst h; simp at hb
  | .none :: as, bs, hr, h, b, hb => by
    simp only [List.map_cons, Arg.toOption, collectProps] at h
    exact collectProps_all as bs (fun r hr' => hr r (by simp [Arg.refs.refsList, hr'])) h b hb
  | .list l :: as, bs, hr, h, b, hb => by
    simp [List.map_cons, Arg.toOption, collectProps, argProp] at h
  | .tensor r :: as, bs, hr, h, b, hb => by
    obtain ⟨o, ho, hp⟩ := hr r (by simp [Arg.refs.refsList, Arg.refs])
    simp only [List.map_cons, Arg.toOption, collectProps, argProp, ho] at h
    rcases h2 : collectProps (argProp w p) (as.map Arg.toOption) with e | bs'
    · simp [h2] at h
    · rw [h2] at h
      simp only [Except.ok.injEq] at h
      subst h
      rcases List.mem_cons.1 hb with rfl | hb
      · exact hp
      · exact collectProps_all as bs' (fun r hr' => hr r (by simp [Arg.refs.refsList, hr'])) h2 b hb

theorem argShared_val {w : World α} {p : TObj → String} {v : String} {a : Arg Ref} {x : String}
    (hr : ∀ r ∈ a.refs, ∃ o, w.objs[r]? = some o ∧ p o = v)
    (h : argShared w p a = .ok (some x)) : x = v := by
  cases a with
  | none => simp [argShared] at h
  | tensor r =>
    obtain ⟨o, ho, hp⟩ := hr r (by simp [Arg.refs])
    simp [argShared, argProp, ho] at h
    rw [← h, hp]
  | list l =>
    simp only [argShared, sharedProperty] at h
    rcases h2 : collectProps (argProp w p) (l.map Arg.toOption) with e | bs
    · simp [h2] at h
    · rw [h2] at h
      cases bs with
      | nil => simp at h
      | cons b bs =>
        simp only at h
        split at h
        · simp at h
          rw [← h]
          exact collectProps_all l (b :: bs) hr h2 b (by simp)
        · simp at h

theorem argRefs_sub : ∀ (l : List (Arg Ref)) (rs : List Ref), argRefs l = .ok rs →
    ∀ r ∈ rs, r ∈ Arg.refs.refsList l
  | [], rs, h, r, hr => by simp [argRefs] at h; subst h; simp at hr
  | .none :: l, rs, h, r, hr => by simp [argRefs] at h
  | .list _ :: l, rs, h, r, hr => by simp [argRefs] at h
  | .tensor x :: l, rs, h, r, hr => by
    simp only [argRefs] at h
    rcases h2 : argRefs l with e | rs'
    · rw [h2] at h; cases h
    · rw [h2] at h
      cases h
      rcases List.mem_cons.1 hr with rfl | hr
      · simp [Arg.refs.refsList, Arg.refs]
      · simp [Arg.refs.refsList, argRefs_sub l rs' h2 r hr]

theorem fillRefs_sub {n : Nat} {a : Arg Ref} {rs : List Ref} (h : fillRefs n a = .ok rs) :
    ∀ r ∈ rs, r ∈ a.refs := by
  cases a with
  | none => simp [fillRefs] at h
  | tensor x =>
    simp only [fillRefs] at h
    split at h
    · cases h; simp [Arg.refs]
    · cases h
  | list l => exact argRefs_sub l rs h

theorem addRefs_sub {n : Nat} {a : Arg Ref} {rs : List Ref} (h : addRefs n a = .ok rs) :
    ∀ r ∈ rs, r ∈ a.refs := by
  unfold addRefs at h
  split at h
  · cases a with
    | none => cases h
    | tensor x => cases h; simp [Arg.refs]
    | list l => cases h
  · cases a with
    | none => cases h
    | tensor x => cases h
    | list l => exact argRefs_sub l rs h

theorem fillTensors_kind {w : World α} (hv : w.Valid) {d t : String} (m : FillMode) (rs : List Ref)
    (hk : ∀ r ∈ rs, HasKind w d t r) :
    ∃ ts w₁, fillTensors m rs w = (.ok ts, w₁) ∧ Ext w w₁ ∧ w₁.leaves = w.leaves ∧ w₁.Valid ∧
      ∀ r ∈ ts, HasKind w₁ d t r := by
  have hlt : ∀ r ∈ rs, r < w.objs.length := fun r hr => by
    obtain ⟨o, ho, _⟩ := hk r hr
    exact (List.getElem?_eq_some_iff.1 ho).1
  have fin : ∀ op : Ref → PM α Ref,
      GoodOp op (fun o o' => o'.device = o.device ∧ o'.dtype = o.dtype) →
      ∃ ts w₁, mapT op rs w = (.ok ts, w₁) ∧ Ext w w₁ ∧ w₁.leaves = w.leaves ∧ w₁.Valid ∧
        ∀ r ∈ ts, HasKind w₁ d t r := by
    intro op hop
    obtain ⟨ts, w₁, h, he, hlv, hv₁, hP⟩ := mapT_good hop rs w hv hlt
    refine ⟨ts, w₁, h, he, hlv, hv₁, fun r hr => ?_⟩
    obtain ⟨r₀, hr₀, o, o', ho, ho', h1, h2⟩ := hP r hr
    obtain ⟨o₂, ho₂, hd, ht⟩ := hk r₀ hr₀
    rw [ho] at ho₂; cases ho₂
    exact ⟨o', ho', by rw [h1, hd], by rw [h2, ht]⟩
  unfold fillTensors
  cases m.copy with
  | false => exact ⟨rs, w, rfl, Ext.refl w, rfl, hv, hk⟩
  | true =>
    cases m.requiresGrad with
    | none => exact fin _ (goodOp_of_allocates cloneT_allocates)
    | some b => exact fin _ (goodOp_of_allocates (detachCloneT_allocates b))

theorem coh_relabel {w : World α} {i : Nat} {f : Fam} {d t : String} (hv : w.Valid)
    (hc : Coh w i d t) (u : TC → TC) (hut : ∀ c, (u c).tensors = c.tensors)
    (hud : ∀ c, c.device = d → (u c).device = d) (hudt : ∀ c, c.dtype = t → (u c).dtype = t) :
    let w' : World α := { w with leaves := w.leaves.modify i (fun l => l.setTc (u (l.tc f)) f) }
    w'.Valid ∧ Coh w' i d t := by
  intro w'
  obtain ⟨l, hl, h1, h2, h3⟩ := hc
  have hval : w'.Valid := by
    apply modifyTc_valid hv
    intro l hl r hr
    rw [hut] at hr
    exact hv.leaf i l hl f r hr
  refine ⟨hval, l.setTc (u (l.tc f)) f, by simp [w', List.getElem?_modify, hl], ?_, ?_, ?_⟩
  · cases f <;> exact h1
  · cases f <;> exact h2
  · intro g
    by_cases hg : g = f
    · subst hg
      refine ⟨by rw [Leaf.tc_setTc_same]; exact hud _ (h3 g).dev,
        by rw [Leaf.tc_setTc_same]; exact hudt _ (h3 g).dt, ?_⟩
      rw [Leaf.tc_setTc_same, hut]
      exact (h3 g).tens
    · exact (h3 g).transport ⟨List.prefix_refl _, List.prefix_refl _⟩ (Leaf.tc_setTc_ne _ _ hg)

theorem leafFill_coh {w : World α} {i : Nat} {d t : String} (hv : w.Valid) (hc : Coh w i d t)
    (f : Fam) (mode : FillMode) (a : Arg Ref) (hk : ∀ r ∈ a.refs, HasKind w d t r) :
    (leafFill i f mode a w).2.Valid ∧ Coh (leafFill i f mode a w).2 i d t := by
  simp only [leafFill, tcFill, Prog.bind_run, Prog.get_run, Prog.lift_run]
  rcases h1 : argShared w TObj.device a with e1 | dv
  · exact ⟨hv, hc⟩
  · cases dv with
    | none => exact ⟨hv, hc⟩
    | some dv =>
      have hdv : dv = d := argShared_val (fun r hr => by
        obtain ⟨o, ho, hd, _⟩ := hk r hr; exact ⟨o, ho, hd⟩) h1
      obtain ⟨hv₁, hc₁⟩ := coh_relabel (f := f) hv hc (fun c => { c with device := dv })
        (fun _ => rfl) (fun _ _ => hdv) (fun _ h => h)
      rcases h2 : argShared w TObj.dtype a with e2 | tv
      · simp only [modifyTc, Prog.bind_run, Prog.modify_run, Prog.lift_run]; exact ⟨hv₁, hc₁⟩
      · cases tv with
        | none =>
          simp only [modifyTc, Prog.bind_run, Prog.modify_run, Prog.lift_run, Prog.throw_run]
          exact ⟨hv₁, hc₁⟩
        | some tv =>
          have htv : tv = t := argShared_val (fun r hr => by
            obtain ⟨o, ho, _, hd⟩ := hk r hr; exact ⟨o, ho, hd⟩) h2
          obtain ⟨hv₂, hc₂⟩ := coh_relabel (f := f) hv₁ hc₁ (fun c => { c with dtype := tv })
            (fun _ => rfl) (fun _ h => h) (fun _ _ => htv)
          simp only [modifyTc, Prog.bind_run, Prog.modify_run, Prog.lift_run]
          generalize hw₂ : (⟨w.objs, w.stores, (w.leaves.modify i _).modify i _⟩ : World α) = w₂ at *
          have hk₂ : ∀ r ∈ a.refs, HasKind w₂ d t r := fun r hr => by
            rw [← hw₂]; exact hk r hr
          obtain ⟨l₂, hl₂, hb⟩ := id hc₂
          simp only [getLeaf, hl₂]
          rcases h3 : fillRefs (l₂.tc f).shapes.length a with e3 | rs
          · exact ⟨hv₂, hc₂⟩
          · simp only
            obtain ⟨ts, w₃, h4, he, hlv, hv₃, hts⟩ := fillTensors_kind hv₂ mode rs
              (fun r hr => hk₂ r (fillRefs_sub h3 r hr))
            simp only [h4]
            have hset := setFam_coh (f := f) hl₂ he hlv hv₃ hts
              (fun c => { c with tensors := ts, isList := false }) (fun _ => rfl)
              (hb.2.2 f).dev (hb.2.2 f).dt
            have hc₄ := coh_of_setFam hl₂ hc₂ hset.2
            have hv₄ := hset.1
            generalize hw₄ : (⟨w₃.objs, w₃.stores, (w₃.leaves.modify i _)⟩ : World α) = w₄ at *
            refine ⟨?_, ?_⟩
            · have := modifyLeaf_valid hv₄ i (fun l => { l with manDevice := some (l.tc f).device })
                (fun l g => by cases g <;> rfl)
              rw [← hw₄] at this
              exact this
            · obtain ⟨l₄, hl₄, b1, b2, b3⟩ := hc₄
              rw [← hw₄] at hl₄
              refine ⟨{ l₄ with manDevice := some (l₄.tc f).device }, ?_, b1, b2, fun g => ?_⟩
              · rw [List.getElem?_modify]
                rw [hl₄]
                simp
              · have := b3 g
                rw [← hw₄] at this
                exact this.transport ⟨List.prefix_refl _, List.prefix_refl _⟩ (by cases g <;> rfl)

/-- Converting one family. -/
theorem tcTo_fam {w : World α} {i : Nat} {f : Fam} {l : Leaf} {d t d' t' : String}
    (hv : w.Valid) (hl : w.leaves[i]? = some l)
    (hf : FamKind w l d t f) {op : Ref → PM α Ref}
    (hop : GoodOp op (fun o o' => o.device = d → o.dtype = t → o'.device = d' ∧ o'.dtype = t'))
    (lab : TC → TC) (hlab : ∀ c, (lab c).tensors = c.tensors)
    (hld : (lab (l.tc f)).device = d') (hlt : (lab (l.tc f)).dtype = t')
    {prog : PM α Unit}
    (hprog : prog = (do
      modifyTc i f lab
      let l ← getLeaf i
      let rs ← mapT op (l.tc f).tensors
      modifyTc i f (fun c => { c with tensors := rs, isList := true }))) :
    ∃ w', prog w = (.ok (), w') ∧ w'.Valid ∧ Ext w w' ∧ ∃ l', w'.leaves[i]? = some l' ∧
      l'.baseDevice = l.baseDevice ∧ l'.baseDtype = l.baseDtype ∧ FamKind w' l' d' t' f ∧
      ∀ g, g ≠ f → l'.tc g = l.tc g := by
  let w₁ : World α := { w with leaves := w.leaves.modify i (fun l => l.setTc (lab (l.tc f)) f) }
  let l₁ := l.setTc (lab (l.tc f)) f
  have hl₁ : w₁.leaves[i]? = some l₁ := by simp [w₁, l₁, List.getElem?_modify, hl]
  have hv₁ : w₁.Valid := by
    apply modifyTc_valid hv
    intro l hl r hr
    rw [hlab] at hr
    exact hv.leaf i l hl f r hr
  have ht₁ : (l₁.tc f).tensors = (l.tc f).tensors := by
    simp only [l₁, Leaf.tc_setTc_same, hlab]
  obtain ⟨ts, w₂, h, he, hlv, hv₂, hP⟩ := mapT_good hop (l₁.tc f).tensors w₁ hv₁
    (hv₁.leaf i l₁ hl₁ f)
  have hts : ∀ r ∈ ts, HasKind w₂ d' t' r := by
    intro r hr
    obtain ⟨r₀, hr₀, o, o', ho, ho', hP'⟩ := hP r hr
    rw [ht₁] at hr₀
    obtain ⟨o₂, ho₂, hd, hdt⟩ := hf.tens r₀ hr₀
    have ho' : w.objs[r₀]? = some o := ho
    rw [ho'] at ho₂; cases ho₂
    exact ⟨o', by assumption, (hP' hd hdt).1, (hP' hd hdt).2⟩
  have hset := setFam_coh (f := f) hl₁ he hlv hv₂ hts
    (fun c => { c with tensors := ts, isList := true }) (fun _ => rfl)
    (by simp only [l₁, Leaf.tc_setTc_same]; exact hld)
    (by simp only [l₁, Leaf.tc_setTc_same]; exact hlt)
  obtain ⟨hv₃, he₃, l', hl', hb, hb', hf', ho'⟩ := hset
  refine ⟨_, ?_, hv₃, ?_, l', hl', ?_, ?_, hf', ?_⟩
  · rw [hprog]
    simp only [modifyTc, Prog.bind_run, Prog.modify_run]
    rw [show (⟨w.objs, w.stores, _⟩ : World α) = w₁ from rfl]
    simp only [getLeaf, hl₁, h, modifyTc, Prog.modify_run]
  · exact Ext.trans (w₁ := w₁) ⟨List.prefix_refl _, List.prefix_refl _⟩ he₃
  · rw [hb]; simp only [l₁]; cases f <;> rfl
  · rw [hb']; simp only [l₁]; cases f <;> rfl
  · intro g hg
    rw [ho' g hg]; simp only [l₁]; exact Leaf.tc_setTc_ne _ _ hg

theorem to_coh {w : World α} {i : Nat} {d t d' t' : String} (hv : w.Valid) (hc : Coh w i d t)
    {op : Ref → PM α Ref}
    (hop : GoodOp op (fun o o' => o.device = d → o.dtype = t → o'.device = d' ∧ o'.dtype = t'))
    (base : Leaf → Leaf) (hbd : ∀ l : Leaf, l.baseDevice = d → l.baseDtype = t →
      (base l).baseDevice = d' ∧ (base l).baseDtype = t')
    (hbt : ∀ l g, (base l).tc g = l.tc g)
    (lab : TC → TC) (hlab : ∀ c, (lab c).tensors = c.tensors)
    (hl1 : ∀ c, c.device = d → c.dtype = t → (lab c).device = d' ∧ (lab c).dtype = t')
    {conv : Fam → PM α Unit}
    (hconv : ∀ f, conv f = (do
      modifyTc i f lab
      let l ← getLeaf i
      let rs ← mapT op (l.tc f).tensors
      modifyTc i f (fun c => { c with tensors := rs, isList := true }))) :
    ∃ w', (do
        Prog.modify fun w => { w with leaves := w.leaves.modify i base }
        conv .gd
        conv .tan
        conv .cotan : PM α Unit) w = (.ok (), w') ∧ w'.Valid ∧ Coh w' i d' t' := by
  obtain ⟨l, hl, h1, h2, h3⟩ := hc
  let w₀ : World α := { w with leaves := w.leaves.modify i base }
  have hl₀ : w₀.leaves[i]? = some (base l) := by simp [w₀, List.getElem?_modify, hl]
  have hv₀ : w₀.Valid := modifyLeaf_valid hv i base (fun l g => by rw [hbt])
  have e₀ : Ext w w₀ := ⟨List.prefix_refl _, List.prefix_refl _⟩
  have k₀ : ∀ g, FamKind w₀ (base l) d t g := fun g => (h3 g).transport e₀ (hbt l g)
  obtain ⟨w₁, r₁, hv₁, e₁, l₁, hl₁, b1, b1', f1, o1⟩ := tcTo_fam (f := .gd) hv₀ hl₀ (k₀ .gd) hop lab
    hlab (hl1 _ (k₀ .gd).dev (k₀ .gd).dt).1 (hl1 _ (k₀ .gd).dev (k₀ .gd).dt).2 (hconv .gd)
  have k₁ := (k₀ .tan).transport e₁ (o1 .tan (by decide))
  obtain ⟨w₂, r₂, hv₂, e₂, l₂, hl₂, b2, b2', f2, o2⟩ := tcTo_fam (f := .tan) hv₁ hl₁ k₁ hop lab
    hlab (hl1 _ k₁.dev k₁.dt).1 (hl1 _ k₁.dev k₁.dt).2 (hconv .tan)
  have k₂ := ((k₀ .cotan).transport e₁ (o1 .cotan (by decide))).transport e₂ (o2 .cotan (by decide))
  obtain ⟨w₃, r₃, hv₃, e₃, l₃, hl₃, b3, b3', f3, o3⟩ := tcTo_fam (f := .cotan) hv₂ hl₂ k₂ hop lab
    hlab (hl1 _ k₂.dev k₂.dt).1 (hl1 _ k₂.dev k₂.dt).2 (hconv .cotan)
  refine ⟨w₃, ?_, hv₃, l₃, hl₃, ?_, ?_, ?_⟩
  · simp only [Prog.bind_run, Prog.modify_run]
    rw [show (⟨w.objs, w.stores, w.leaves.modify i base⟩ : World α) = w₀ from rfl]
    simp only [r₁, r₂, r₃]
  · rw [b3, b2, b1]; exact (hbd l h1 h2).1
  · rw [b3', b2', b1']; exact (hbd l h1 h2).2
  · intro g
    cases g with
    | gd => exact (f1.transport e₂ (o2 .gd (by decide))).transport e₃ (o3 .gd (by decide))
    | tan => exact f2.transport e₃ (o3 .tan (by decide))
    | cotan => exact f3

theorem GoodOp.weaken {op : Ref → PM α Ref} {P Q : TObj → TObj → Prop} (h : GoodOp op P)
    (hPQ : ∀ o o', P o o' → Q o o') : GoodOp op Q := by
  intro w r o hv ho
  obtain ⟨o', w₁, h1, h2, h3, h4, h5, h6⟩ := h w r o hv ho
  exact ⟨o', w₁, h1, h2, h3, h4, h5, hPQ _ _ h6⟩

theorem leafToDevice_coh {w : World α} {i : Nat} {d t : String} (d' : String) (hv : w.Valid)
    (hc : Coh w i d t) :
    ∃ w', leafToDevice i d' w = (.ok (), w') ∧ w'.Valid ∧ Coh w' i d' t :=
  to_coh (op := toDeviceT d') (d' := d') (t' := t) hv hc
    ((toDeviceT_good d').weaken (fun _ _ h _ ht => ⟨h.1, by rw [h.2, ht]⟩))
    (fun l => { l with baseDevice := d' }) (fun _ _ h => ⟨rfl, h⟩) (fun _ g => by cases g <;> rfl)
    (fun c => { c with device := d' }) (fun _ => rfl) (fun _ _ h => ⟨rfl, h⟩)
    (conv := fun f => tcToDevice i f d') (fun _ => rfl)

theorem leafToDtype_coh {w : World α} {i : Nat} {d t : String} (t' : String) (hv : w.Valid)
    (hc : Coh w i d t) :
    ∃ w', leafToDtype i t' w = (.ok (), w') ∧ w'.Valid ∧ Coh w' i d t' :=
  to_coh (op := toDtypeT t') (d' := d) (t' := t') hv hc
    ((toDtypeT_good t').weaken (fun _ _ h hd _ => ⟨by rw [h.1, hd], h.2⟩))
    (fun l => { l with baseDtype := t' }) (fun _ h _ => ⟨h, rfl⟩) (fun _ g => by cases g <;> rfl)
    (fun c => { c with dtype := t' }) (fun _ => rfl) (fun _ h _ => ⟨h, rfl⟩)
    (conv := fun f => tcToDtype i f t') (fun _ => rfl)

/-- Allocation of zeros. -/
theorem zeros_kind {zero : List Nat → α} {rg : Bool} (c : TC) : ∀ (ss : List (List Nat)) (w : World α),
    w.Valid → ∃ rs w', tcFillZeros.zeros zero rg c ss w = (.ok rs, w') ∧ Ext w w' ∧
      w'.leaves = w.leaves ∧ w'.Valid ∧ ∀ r ∈ rs, HasKind w' c.device c.dtype r
  | [], w, hv => ⟨[], w, rfl, Ext.refl w, rfl, hv, by simp⟩
  | s :: ss, w, hv => by
    let o : TObj := ⟨w.stores.length, c.device, c.dtype, rg, false⟩
    obtain ⟨rs, w', h, he, hlv, hv', hk⟩ := zeros_kind c ss _ (extend_valid hv o (zero s) rfl)
    have he₀ := extend_ext w o (zero s)
    refine ⟨w.objs.length :: rs, w', ?_, he₀.trans he, hlv, hv', ?_⟩
    · simp [tcFillZeros.zeros, Prog.bind_run, allocT, o] at h ⊢
      rw [h]
    · intro r hr
      rcases List.mem_cons.1 hr with rfl | hr
      · exact ⟨o, he.obj (by simp), rfl, rfl⟩
      · exact hk r hr

theorem addZip_kind [Add α] {d t : String} : ∀ (as bs : List Ref) (w : World α), w.Valid →
    (∀ r ∈ as, HasKind w d t r) → (∀ r ∈ bs, HasKind w d t r) →
    ∃ rs w', addZip as bs w = (.ok rs, w') ∧ Ext w w' ∧ w'.leaves = w.leaves ∧ w'.Valid ∧
      ∀ r ∈ rs, HasKind w' d t r
  | [], bs, w, hv, _, _ => ⟨[], w, by simp [addZip], Ext.refl w, rfl, hv, by simp⟩
  | a :: as, [], w, hv, _, _ => ⟨[], w, by simp [addZip], Ext.refl w, rfl, hv, by simp⟩
  | a :: as, b :: bs, w, hv, ha, hb => by
    obtain ⟨oa, hoa, hda, hta⟩ := ha a (by simp)
    obtain ⟨ob, hob, hdb, htb⟩ := hb b (by simp)
    obtain ⟨va, hra, _⟩ := hv.read_some hoa
    obtain ⟨vb, hrb, _⟩ := hv.read_some hob
    let o : TObj := ⟨w.stores.length, oa.device, oa.dtype, oa.requiresGrad || ob.requiresGrad,
      oa.requiresGrad || ob.requiresGrad⟩
    have he₀ := extend_ext w o (va + vb)
    obtain ⟨rs, w', h, he, hlv, hv', hk⟩ := addZip_kind as bs _ (extend_valid hv o (va + vb) rfl)
      (fun r hr => (ha r (by simp [hr])).ext he₀) (fun r hr => (hb r (by simp [hr])).ext he₀)
    refine ⟨w.objs.length :: rs, w', ?_, he₀.trans he, hlv, hv', ?_⟩
    · simp [addZip, addT, Prog.bind_run, getObj, readT, allocT, hoa, hob, hra, hrb, o] at h ⊢
      rw [h]
    · intro r hr
      rcases List.mem_cons.1 hr with rfl | hr
      · exact ⟨o, he.obj (by simp), hda, hta⟩
      · exact hk r hr

theorem ManOp.run_coh [Add α] [Neg α] (zero : List Nat → α) {w : World α} {i : Nat} {d t : String}
    (hv : w.Valid) (hc : Coh w i d t) (op : ManOp) (hfit : op.Fitting w i) :
    (op.run zero i w).2.Valid ∧ ∃ d' t', Coh (op.run zero i w).2 i d' t' := by
  obtain ⟨l, hl, h1, h2, h3⟩ := id hc
  cases op with
  | fill f mode a =>
    have := leafFill_coh hv hc f mode a (fun r hr => by
      have := hfit l hl r hr; rwa [h1, h2] at this)
    exact ⟨this.1, d, t, this.2⟩
  | toDevice d' =>
    obtain ⟨w', h, hv', hc'⟩ := leafToDevice_coh d' hv hc
    simp only [ManOp.run, h]; exact ⟨hv', d', t, hc'⟩
  | toDtype t' =>
    obtain ⟨w', h, hv', hc'⟩ := leafToDtype_coh t' hv hc
    simp only [ManOp.run, h]; exact ⟨hv', d, t', hc'⟩
  | requiresGrad f b =>
    obtain ⟨ts, w₁, h, he, hlv, hv₁, hP⟩ := mapT_good (detachT_good b) (l.tc f).tensors w hv
      (hv.leaf i l hl f)
    have hts : ∀ r ∈ ts, HasKind w₁ d t r := by
      intro r hr
      obtain ⟨r₀, hr₀, o, o', ho, ho', hP1, hP2⟩ := hP r hr
      obtain ⟨o₂, ho₂, hd, hdt⟩ := (h3 f).tens r₀ hr₀
      rw [ho] at ho₂; cases ho₂
      exact ⟨o', ho', by rw [hP1, hd], by rw [hP2, hdt]⟩
    have hset := setFam_coh (f := f) hl he hlv hv₁ hts
      (fun c => { c with tensors := ts, isList := true }) (fun _ => rfl) (h3 f).dev (h3 f).dt
    have hc' := coh_of_setFam hl hc hset.2
    simp only [ManOp.run, tcRequiresGrad, Prog.bind_run, getLeaf, hl, if_true, h, modifyTc,
      Prog.modify_run]
    exact ⟨hset.1, d, t, hc'⟩
  | negate f =>
    obtain ⟨ts, w₁, h, he, hlv, hv₁, hP⟩ := mapT_good (goodOp_of_allocates negT_allocates)
      (l.tc f).tensors w hv (hv.leaf i l hl f)
    have hts : ∀ r ∈ ts, HasKind w₁ d t r := by
      intro r hr
      obtain ⟨r₀, hr₀, o, o', ho, ho', hP1, hP2⟩ := hP r hr
      obtain ⟨o₂, ho₂, hd, hdt⟩ := (h3 f).tens r₀ hr₀
      rw [ho] at ho₂; cases ho₂
      exact ⟨o', ho', by rw [hP1, hd], by rw [hP2, hdt]⟩
    have hset := setFam_coh (f := f) hl he hlv hv₁ hts
      (fun c => { c with tensors := ts, isList := false }) (fun _ => rfl) (h3 f).dev (h3 f).dt
    have hc' := coh_of_setFam hl hc hset.2
    simp only [ManOp.run, tcNegate, Prog.bind_run, getLeaf, hl, h, modifyTc, Prog.modify_run]
    exact ⟨hset.1, d, t, hc'⟩
  | add f a =>
    simp only [ManOp.run, tcAdd, Prog.bind_run, getLeaf, hl, Prog.lift_run]
    rcases h4 : addRefs (l.tc f).shapes.length a with e | rs
    · exact ⟨hv, d, t, hc⟩
    · obtain ⟨ts, w₁, h, he, hlv, hv₁, hts⟩ := addZip_kind (d := d) (t := t) (l.tc f).tensors rs w hv
        (h3 f).tens (fun r hr => by
          have := hfit l hl r (addRefs_sub h4 r hr); rwa [h1, h2] at this)
      have hset := setFam_coh (f := f) hl he hlv hv₁ hts
        (fun c => { c with tensors := ts, isList := false }) (fun _ => rfl) (h3 f).dev (h3 f).dt
      have hc' := coh_of_setFam hl hc hset.2
      simp only [h, modifyTc, Prog.modify_run]
      exact ⟨hset.1, d, t, hc'⟩
  | fillZeros f rg =>
    obtain ⟨ts, w₁, h, he, hlv, hv₁, hts⟩ := zeros_kind (zero := zero) (rg := rg) (l.tc f)
      (l.tc f).shapes w hv
    rw [(h3 f).dev, (h3 f).dt] at hts
    have hset := setFam_coh (f := f) hl he hlv hv₁ hts
      (fun c => { c with tensors := ts, isList := false }) (fun _ => rfl) (h3 f).dev (h3 f).dt
    have hc' := coh_of_setFam hl hc hset.2
    simp only [ManOp.run, tcFillZeros, Prog.bind_run, getLeaf, hl, h, modifyTc, Prog.modify_run]
    exact ⟨hset.1, d, t, hc'⟩

/-- The `device` and `dtype` a manifold reports are those of all its tensors. -/
def Truthful (w : World α) (i : Nat) : Prop :=
  ∃ l, w.leaves[i]? = some l ∧ ∀ g, ∀ r ∈ (l.tc g).tensors, ∃ o, w.objs[r]? = some o ∧
    o.device = l.baseDevice ∧ o.dtype = l.baseDtype

theorem Coh.truthful {w : World α} {i : Nat} {d t : String} (h : Coh w i d t) : Truthful w i := by
  obtain ⟨l, hl, h1, h2, h3⟩ := h
  refine ⟨l, hl, fun g r hr => ?_⟩
  obtain ⟨o, ho, hd, ht⟩ := (h3 g).tens r hr
  exact ⟨o, ho, by rw [hd, h1], by rw [ht, h2]⟩

/-- Partial: after every history of fills, conversions, `requires_grad_`, sums, negations
and zero fills, performed on an object that starts consistent, the object reports the
device and dtype of its tensors, provided each tensor given to `fill_*`/`add_*` had the
device and dtype reported at that time.  Operations may raise in between.
Missing from the full property: fills with tensors of another device or dtype
(`C04_stale_after_fill`). -/
theorem C04_report_partial [Add α] [Neg α] (zero : List Nat → α) (i : Nat) :
    ∀ (ops : List ManOp) (w : World α), w.Valid → (∃ d t, Coh w i d t) →
      ManOp.AllFitting zero i ops w → Truthful (ManOp.runAll zero i ops w) i
  | [], _, _, ⟨_, _, hc⟩, _ => hc.truthful
  | op :: ops, w, hv, ⟨d, t, hc⟩, hf => by
    obtain ⟨hv', d', t', hc'⟩ := ManOp.run_coh zero hv hc op hf.1
    exact C04_report_partial zero i ops _ hv' ⟨d', t', hc'⟩ hf.2

/-- `to_(device)` makes the report right. -/
theorem C04_to_device (w : World α) (hv : w.Valid) (i : Nat) (d t d' : String) (hc : Coh w i d t) :
    ∃ w' l', leafToDevice i d' w = (.ok (), w') ∧ w'.leaves[i]? = some l' ∧ l'.baseDevice = d' ∧
      ∀ g, ∀ r ∈ (l'.tc g).tensors, ∃ o, w'.objs[r]? = some o ∧ o.device = d' := by
  obtain ⟨w', h, _, l', hl', h1, _, h3⟩ := leafToDevice_coh d' hv hc
  exact ⟨w', l', h, hl', h1, fun g r hr => by
    obtain ⟨o, ho, hd, _⟩ := (h3 g).tens r hr
    exact ⟨o, ho, hd⟩⟩

/-- Disagreement: filling the descriptors with a tensor on another device succeeds, and
the manifold goes on reporting the old device. -/
theorem C04_stale_after_fill :
    ∃ (w w' : World Int), Truthful w 0 ∧
      (Man.leaf 0).fill .gd byRef (.tensor 7) w = (.ok (), w') ∧ ¬ Truthful w' 0 := by
  refine ⟨c06World, _, ?_, rfl, ?_⟩
  · refine ⟨_, rfl, fun g r hr => ?_⟩
    cases g <;> fin_cases hr <;> exact ⟨_, rfl, rfl, rfl⟩
  · rintro ⟨l, hl, h⟩
    obtain rfl := Option.some.inj hl
    obtain ⟨o, ho, hd, _⟩ := h .gd 7 (by decide)
    obtain rfl := Option.some.inj ho
    exact absurd hd (by decide)

/-! Non-vacuity: object 0 of the example world is consistent, and a history with a fill,
a conversion and another fill is fitting. -/
theorem c06World_coh : Coh c06World 0 "cpu" "float32" := by
  refine ⟨_, rfl, rfl, rfl, fun g => ?_⟩
  cases g
  all_goals
    refine ⟨rfl, rfl, ?_⟩
    intro r hr
    fin_cases hr
    exact ⟨_, rfl, rfl, rfl⟩

example : ManOp.AllFitting (α := Int) (fun _ => 0) 0
    [.fill .gd byRef (.tensor 1), .toDevice "cuda:0", .negate .gd, .fill .cotan byRef (.tensor 7)]
    c06World := by
  refine ⟨?_, trivial, trivial, ?_, trivial⟩
  · intro l hl r hr
    obtain rfl := Option.some.inj hl
    fin_cases hr
    exact ⟨_, rfl, rfl, rfl⟩
  · intro l hl r hr
    obtain rfl := Option.some.inj hl
    fin_cases hr
    exact ⟨_, rfl, rfl, rfl⟩

end Imodal
