import Verif.Model.Device
import Verif.Lemmas.Params
import Verif.Props.C04
/-! # Manifolds moved to a device -/
set_option autoImplicit false
namespace Imodal
variable {α : Type}

/-- `r'` in `w'` is `r` of `w` moved to the device: same value, dtype and recording, no graph. -/
def Moved (dev : String) (w w' : World α) (r r' : Ref) : Prop :=
  ∃ o o', w.objs[r]? = some o ∧ w'.objs[r']? = some o' ∧ o'.device = dev ∧ o'.dtype = o.dtype ∧
    o'.requiresGrad = o.requiresGrad ∧ o'.hasGraph = false ∧ w'.read r' = w.read r

theorem Moved.trans {dev : String} {w w₁ w₂ : World α} {r r₁ r₂ : Ref} (h : Moved dev w w₁ r r₁) (h' : Moved dev w₁ w₂ r₁ r₂) : Moved dev w w₂ r r₂ := by
  obtain ⟨o, o₁, a1, a2, a3, a4, a5, a6, a7⟩ := h
  obtain ⟨p, o₂, b1, b2, b3, b4, b5, b6, b7⟩ := h'
  rw [a2] at b1
  cases b1
  exact ⟨o, o₂, a1, b2, b3, b4.trans a4, b5.trans a5, b6, b7.trans a7⟩

theorem Moved.right {dev : String} {w w₁ w₂ : World α} {r r' : Ref} (h : Moved dev w w₁ r r') (hv : w₁.Valid) (e : Ext w₁ w₂) : Moved dev w w₂ r r' := by
  obtain ⟨o, o', a1, a2, a3, a4, a5, a6, a7⟩ := h
  refine ⟨o, o', a1, e.obj a2, a3, a4, a5, a6, ?_⟩
  rw [← a7]
  exact e.read_eq hv (List.getElem?_eq_some_iff.1 a2).1

theorem Moved.left {dev : String} {w w₁ w₂ : World α} {r r' : Ref} (h : Moved dev w₁ w₂ r r') (hv : w.Valid) (e : Ext w w₁) (hr : r < w.objs.length) : Moved dev w w₂ r r' := by
  obtain ⟨o, o', a1, a2, a3, a4, a5, a6, a7⟩ := h
  have ho : w.objs[r]? = some w.objs[r] := by simp [hr]
  have : o = w.objs[r] := by
    have := e.obj ho
    rw [a1] at this
    exact Option.some.inj this
  subst this
  exact ⟨_, o', ho, a2, a3, a4, a5, a6, a7.trans (e.read_eq hv hr)⟩

theorem toDeviceT_moved (dev : String) {w : World α} (hv : w.Valid) {r : Ref} (hr : r < w.objs.length) :
    ∃ r' w', toDeviceT dev r w = (.ok r', w') ∧ Ext w w' ∧ w'.Valid ∧ w'.leaves = w.leaves ∧ r' < w'.objs.length ∧ Moved dev w w' r r' := by
  have ho : w.objs[r]? = some w.objs[r] := by simp [hr]
  obtain ⟨v, hrd, hst⟩ := hv.read_some ho
  by_cases hd : w.objs[r].device = dev
  · let o' : TObj := { w.objs[r] with hasGraph := false }
    let w' : World α := { w with objs := w.objs ++ [o'] }
    have hw : w'.objs[w.objs.length]? = some o' := by simp [w']
    have he : Ext w w' := ⟨List.prefix_append _ _, List.prefix_refl _⟩
    refine ⟨w.objs.length, w', ?_, he, ⟨?_, fun i l hl g r hr => he.lt (hv.leaf i l hl g r hr)⟩, rfl, by simp [w'], ?_⟩
    · simp [toDeviceT, Prog.bind_run, getObj, readT, aliasT, ho, hrd, hd, w', o']
    · intro r' x hr'
      simp only [w', List.getElem?_append] at hr'
      split at hr'
      · exact hv.store r' x hr'
      · obtain ⟨_, he'⟩ := List.getElem?_eq_some_iff.1 hr'
        have : x = o' := by simpa using he'.symm
        subst this
        exact (hv.store r _ ho :)
    · refine ⟨_, o', ho, hw, hd, rfl, rfl, rfl, ?_⟩
      simp only [World.read, hw, ho]
      rfl
  · let o' : TObj := ⟨w.stores.length, dev, w.objs[r].dtype, w.objs[r].requiresGrad, false⟩
    let w' : World α := { w with objs := w.objs ++ [o'], stores := w.stores ++ [v] }
    have hw : w'.objs[w.objs.length]? = some o' := by simp [w']
    have he : Ext w w' := ⟨List.prefix_append _ _, List.prefix_append _ _⟩
    refine ⟨w.objs.length, w', ?_, he, extend_valid hv o' v rfl, rfl, by simp [w'], ?_⟩
    · simp [toDeviceT, Prog.bind_run, getObj, readT, allocT, ho, hrd, hd, w', o']
    · refine ⟨_, o', ho, hw, rfl, rfl, rfl, rfl, ?_⟩
      rw [hrd]
      simp only [World.read, hw]
      simp [w', o']

theorem mapT_moved (dev : String) : ∀ (rs : List Ref) {w : World α}, w.Valid → (∀ r ∈ rs, r < w.objs.length) →
    ∃ rs' w', mapT (toDeviceT dev) rs w = (.ok rs', w') ∧ Ext w w' ∧ w'.Valid ∧ w'.leaves = w.leaves ∧ (∀ r ∈ rs', r < w'.objs.length) ∧
      List.Forall₂ (Moved dev w w') rs rs'
  | [], w, hv, _ => ⟨[], w, rfl, Ext.refl w, hv, rfl, by simp, .nil⟩
  | r :: rs, w, hv, hl => by
    obtain ⟨r', w₁, h₁, e₁, v₁, l₁, b₁, m₁⟩ := toDeviceT_moved dev hv (hl r (by simp))
    obtain ⟨rs', w₂, h₂, e₂, v₂, l₂, b₂, m₂⟩ := mapT_moved dev rs v₁ fun r hr => e₁.lt (hl r (by simp [hr]))
    refine ⟨r' :: rs', w₂, by simp [mapT, Prog.bind_run, h₁, h₂], e₁.trans e₂, v₂, l₂.trans l₁, ?_, .cons (m₁.right v₁ e₂) ?_⟩
    · intro r hr
      rcases List.mem_cons.1 hr with rfl | hr
      · exact e₂.lt b₁
      · exact b₂ r hr
    · have hx : ∀ r ∈ rs, r < w.objs.length := fun r hr => hl r (by simp [hr])
      clear h₂ hl
      induction m₂ with
      | nil => exact .nil
      | cons h _ ih => exact .cons (h.left hv e₁ (hx _ (by simp))) (ih (fun r hr => b₂ r (by simp [hr])) fun r hr => hx r (by simp [hr]))

/-- The container of family `f` after the move. -/
theorem tcToDevice_moved (dev : String) {i : Nat} (f : Fam) {w : World α} (hv : w.Valid) {l : Leaf} (hl : w.leaves[i]? = some l) :
    ∃ ts w', tcToDevice i f dev w = (.ok (), w') ∧ Ext w w' ∧ w'.Valid ∧ w'.leaves.length = w.leaves.length ∧
      (∀ k, k ≠ i → w'.leaves[k]? = w.leaves[k]?) ∧
      w'.leaves[i]? = some (l.setTc { l.tc f with tensors := ts, isList := true, device := dev } f) ∧
      List.Forall₂ (Moved dev w w') (l.tc f).tensors ts := by
  let g₁ : TC → TC := fun c => { c with device := dev }
  let w₁ : World α := { w with leaves := w.leaves.modify i (fun l => l.setTc (g₁ (l.tc f)) f) }
  have v₁ : w₁.Valid := modifyTc_valid hv i f g₁ fun l' hl' r hr => hv.leaf i l' hl' f r hr
  have hl₁ : w₁.leaves[i]? = some (l.setTc (g₁ (l.tc f)) f) := by simp [w₁, List.getElem?_modify, hl]
  have ht₁ : ((l.setTc (g₁ (l.tc f)) f).tc f).tensors = (l.tc f).tensors := by cases f <;> rfl
  obtain ⟨ts, w₂, h₂, e₂, v₂, l₂, b₂, m₂⟩ := mapT_moved dev (l.tc f).tensors v₁ fun r hr => hv.leaf i l hl f r hr
  let g₂ : TC → TC := fun c => { c with tensors := ts, isList := true }
  let w₃ : World α := { w₂ with leaves := w₂.leaves.modify i (fun l => l.setTc (g₂ (l.tc f)) f) }
  have v₃ : w₃.Valid := modifyTc_valid v₂ i f g₂ fun l' hl' r hr => b₂ r hr
  refine ⟨ts, w₃, ?_, ⟨e₂.objs, e₂.stores⟩, v₃, by simp [w₃, l₂, w₁], fun k hk => ?_, ?_, m₂⟩
  · simp only [tcToDevice, Prog.bind_run, modifyTc, Prog.modify_run, getLeaf]
    simp only [w₁, g₁] at hl₁ h₂
    simp only [hl₁]
    simp only [g₁] at ht₁
    rw [ht₁, h₂]
  · simp [w₃, l₂, w₁, List.getElem?_modify, Ne.symm hk]
  · simp only [w₃, l₂, List.getElem?_modify, hl₁, if_true, Option.map_some]
    cases f <;> rfl

/-- The objects in `I` are on the device, everything else is as before. -/
structure Relocated (dev : String) (w w' : World α) (I : Nat → Prop) : Prop where
  ext : Ext w w'
  valid : w'.Valid
  len : w'.leaves.length = w.leaves.length
  keep : ∀ i, ¬ I i → w'.leaves[i]? = w.leaves[i]?
  moved : ∀ i, I i → ∀ f, List.Forall₂ (Moved dev w w') (w.held f i) (w'.held f i)
  labels : ∀ i, I i → ∀ l, w'.leaves[i]? = some l → l.baseDevice = dev ∧ ∀ f, (l.tc f).device = dev
  shapes : ∀ (i : Nat) (l : Leaf), w.leaves[i]? = some l → ∃ l', w'.leaves[i]? = some l' ∧ ∀ f, (l'.tc f).shapes = (l.tc f).shapes ∧ (l'.tc f).dtype = (l.tc f).dtype

theorem Relocated.refl {dev : String} {w : World α} (hv : w.Valid) : Relocated dev w w (fun _ => False) :=
  ⟨Ext.refl w, hv, rfl, fun _ _ => rfl, fun _ h => h.elim, fun _ h => h.elim, fun _ l hl => ⟨l, hl, fun _ => ⟨rfl, rfl⟩⟩⟩

theorem Relocated.congr {dev : String} {w w' : World α} {I J : Nat → Prop} (h : Relocated dev w w' I) (e : ∀ i, I i ↔ J i) : Relocated dev w w' J := by
  have : I = J := funext fun s => propext (e s)
  rwa [← this]

theorem held_of_leaf {w w' : World α} {i : Nat} (h : w'.leaves[i]? = w.leaves[i]?) (f : Fam) : w'.held f i = w.held f i := by
  unfold World.held; rw [h]

theorem moved_right {dev : String} {w w₁ w₂ : World α} (hv : w₁.Valid) (e : Ext w₁ w₂) {rs rs' : List Ref} (h : List.Forall₂ (Moved dev w w₁) rs rs') :
    List.Forall₂ (Moved dev w w₂) rs rs' := h.imp fun _ _ h => h.right hv e

theorem moved_left {dev : String} {w w₁ w₂ : World α} (hv : w.Valid) (e : Ext w w₁) {rs rs' : List Ref} (hr : ∀ r ∈ rs, r < w.objs.length)
    (h : List.Forall₂ (Moved dev w₁ w₂) rs rs') : List.Forall₂ (Moved dev w w₂) rs rs' := by
  induction h with
  | nil => exact .nil
  | cons h _ ih => exact .cons (h.left hv e (hr _ (by simp))) (ih fun r h => hr r (by simp [h]))

theorem forall₂_trans {dev : String} {w w₁ w₂ : World α} : ∀ {rs rs₁ rs₂ : List Ref}, List.Forall₂ (Moved dev w w₁) rs rs₁ →
    List.Forall₂ (Moved dev w₁ w₂) rs₁ rs₂ → List.Forall₂ (Moved dev w w₂) rs rs₂
  | _, _, _, .nil, .nil => .nil
  | _, _, _, .cons h t, .cons h' t' => .cons (h.trans h') (forall₂_trans t t')

theorem Relocated.trans {dev : String} {w w₁ w₂ : World α} {I J : Nat → Prop} (hv : w.Valid) (h : Relocated dev w w₁ I) (h' : Relocated dev w₁ w₂ J) :
    Relocated dev w w₂ (fun i => I i ∨ J i) := by
  classical
  refine ⟨h.ext.trans h'.ext, h'.valid, h'.len.trans h.len, fun i hi => ?_, fun i hi f => ?_, fun i hi l hl => ?_, fun i l hl => ?_⟩
  · rw [h'.keep i fun a => hi (.inr a), h.keep i fun a => hi (.inl a)]
  · by_cases hJ : J i
    · by_cases hI : I i
      · exact forall₂_trans (h.moved i hI f) (h'.moved i hJ f)
      · have e := held_of_leaf (h.keep i hI) f
        have := h'.moved i hJ f
        rw [e] at this
        exact moved_left hv h.ext (fun r hr => hv.held_lt hr) this
    · rw [held_of_leaf (h'.keep i hJ) f]
      exact moved_right h.valid h'.ext (h.moved i (hi.resolve_right hJ) f)
  · by_cases hJ : J i
    · exact h'.labels i hJ l hl
    · rw [h'.keep i hJ] at hl
      exact h.labels i (hi.resolve_right hJ) l hl
  · obtain ⟨l₁, hl₁, e₁⟩ := h.shapes i l hl
    obtain ⟨l₂, hl₂, e₂⟩ := h'.shapes i l₁ hl₁
    exact ⟨l₂, hl₂, fun f => ⟨(e₂ f).1.trans (e₁ f).1, (e₂ f).2.trans (e₁ f).2⟩⟩

theorem leafToDevice_moved (dev : String) {i : Nat} {w : World α} (hv : w.Valid) (hi : i < w.leaves.length) :
    ∃ w', leafToDevice i dev w = (.ok (), w') ∧ Relocated dev w w' (fun k => k = i) := by
  have hl : w.leaves[i]? = some w.leaves[i] := by simp [hi]
  generalize w.leaves[i] = l at hl
  let u : Leaf → Leaf := fun l => { l with baseDevice := dev }
  let w₀ : World α := { w with leaves := w.leaves.modify i u }
  have hl₀ : w₀.leaves[i]? = some (u l) := by simp [w₀, List.getElem?_modify, hl]
  have v₀ : w₀.Valid := modifyLeaf_valid hv i u fun l' f => by cases f <;> rfl
  have e₀ : Ext w w₀ := ⟨List.prefix_refl _, List.prefix_refl _⟩
  obtain ⟨a, w₁, h₁, e₁, v₁, n₁, k₁, l₁, m₁⟩ := tcToDevice_moved dev .gd v₀ hl₀
  obtain ⟨b, w₂, h₂, e₂, v₂, n₂, k₂, l₂, m₂⟩ := tcToDevice_moved dev .tan v₁ l₁
  obtain ⟨c, w₃, h₃, e₃, v₃, n₃, k₃, l₃, m₃⟩ := tcToDevice_moved dev .cotan v₂ l₂
  refine ⟨w₃, ?_, ((e₀.trans e₁).trans e₂).trans e₃, v₃, ?_, fun k hk => ?_, ?_, ?_, ?_⟩
  · simp only [leafToDevice, Prog.bind_run, Prog.modify_run]
    simp only [w₀, u] at h₁
    rw [h₁]; dsimp only
    rw [h₂]; dsimp only
    rw [h₃]
  · rw [n₃, n₂, n₁]; simp [w₀]
  · rw [k₃ k hk, k₂ k hk, k₁ k hk]
    simp [w₀, List.getElem?_modify, Ne.symm hk]
  · rintro k rfl f
    have hw : w.held f k = (l.tc f).tensors := by simp [World.held, hl]
    have hb : ∀ r ∈ (l.tc f).tensors, r < w.objs.length := fun r hr => hv.leaf k l hl f r hr
    rw [hw]
    cases f with
    | gd =>
      have : w₃.held .gd k = a := by simp [World.held, l₃]; rfl
      rw [this]
      exact moved_right v₁ (e₂.trans e₃) (moved_left hv e₀ hb m₁)
    | tan =>
      have : w₃.held .tan k = b := by simp [World.held, l₃]; rfl
      rw [this]
      exact moved_right v₂ e₃ (moved_left hv (e₀.trans e₁) hb m₂)
    | cotan =>
      have : w₃.held .cotan k = c := by simp [World.held, l₃]; rfl
      rw [this]
      exact moved_left hv ((e₀.trans e₁).trans e₂) hb m₃
  · rintro k rfl l' hl'
    rw [l₃] at hl'
    cases hl'
    exact ⟨rfl, fun f => by cases f <;> rfl⟩
  · intro k lk hk
    by_cases hki : k = i
    · subst hki
      rw [hl] at hk
      cases hk
      exact ⟨_, l₃, fun f => by cases f <;> exact ⟨rfl, rfl⟩⟩
    · refine ⟨lk, ?_, fun _ => ⟨rfl, rfl⟩⟩
      rw [k₃ k hki, k₂ k hki, k₁ k hki]
      simpa [w₀, List.getElem?_modify, Ne.symm hki] using hk

mutual
theorem man_moved (dev : String) : ∀ (m : Man) {w : World α}, w.Valid → (∀ i ∈ m.ids, i < w.leaves.length) →
    ∃ w', m.toDevice dev w = (.ok (), w') ∧ Relocated dev w w' (fun i => i ∈ m.ids)
  | .empty, w, hv, _ => ⟨w, rfl, (Relocated.refl hv).congr fun i => by simp [Man.ids]⟩
  | .leaf i, w, hv, h => by
    obtain ⟨w', e, r⟩ := leafToDevice_moved dev hv (h i (by simp [Man.ids]))
    exact ⟨w', by simpa [Man.toDevice] using e, r.congr fun k => by simp [Man.ids]⟩
  | .compound ms, w, hv, h => by
    obtain ⟨w', e, r⟩ := men_moved dev ms hv (by simpa [Man.ids] using h)
    exact ⟨w', by simpa [Man.toDevice] using e, r.congr fun k => by simp [Man.ids]⟩
theorem men_moved (dev : String) : ∀ (ms : List Man) {w : World α}, w.Valid → (∀ i ∈ Man.ids.idsList ms, i < w.leaves.length) →
    ∃ w', Man.toDevice.devList dev ms w = (.ok (), w') ∧ Relocated dev w w' (fun i => i ∈ Man.ids.idsList ms)
  | [], w, hv, _ => ⟨w, rfl, (Relocated.refl hv).congr fun i => by simp [Man.ids.idsList]⟩
  | m :: ms, w, hv, h => by
    obtain ⟨w₁, e₁, r₁⟩ := man_moved dev m hv fun i hi => h i (by simp [Man.ids.idsList, hi])
    obtain ⟨w₂, e₂, r₂⟩ := men_moved dev ms r₁.valid fun i hi => by rw [r₁.len]; exact h i (by simp [Man.ids.idsList, hi])
    refine ⟨w₂, by simp [Man.toDevice.devList, Prog.bind_run, e₁, e₂], (r₁.trans hv r₂).congr fun i => ?_⟩
    simp [Man.ids.idsList]
end

theorem modules_moved (dev : String) : ∀ (ms : List Man) (rest : List Movable) {w : World α}, w.Valid → (∀ i ∈ Man.ids.idsList ms, i < w.leaves.length) →
    ∃ w', modulesToDevice dev (ms.map .single ++ rest) w = modulesToDevice dev rest w' ∧ Relocated dev w w' (fun i => i ∈ Man.ids.idsList ms)
  | [], rest, w, hv, _ => ⟨w, rfl, (Relocated.refl hv).congr fun i => by simp [Man.ids.idsList]⟩
  | m :: ms, rest, w, hv, h => by
    obtain ⟨w₁, e₁, r₁⟩ := man_moved dev m hv fun i hi => h i (by simp [Man.ids.idsList, hi])
    obtain ⟨w₂, e₂, r₂⟩ := modules_moved dev ms rest r₁.valid fun i hi => by rw [r₁.len]; exact h i (by simp [Man.ids.idsList, hi])
    refine ⟨w₂, ?_, (r₁.trans hv r₂).congr fun i => ?_⟩
    · simp only [List.map_cons, List.cons_append, modulesToDevice, Movable.toDevice, Prog.bind_run, e₁]
      exact e₂
    · simp [Man.ids.idsList]

end Imodal
