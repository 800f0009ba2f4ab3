import Verif.Lemmas.Manifold
/-!
# Helper lemmas: allocation, aliasing and writes on the tensor heap
-/
set_option autoImplicit false
namespace Imodal

variable {α : Type}

/-- `w'` has the objects and storages of `w` and possibly more. -/
structure Ext (w w' : World α) : Prop where
  objs : w.objs <+: w'.objs
  stores : w.stores <+: w'.stores

theorem Ext.refl (w : World α) : Ext w w := ⟨List.prefix_refl _, List.prefix_refl _⟩
theorem Ext.trans {w w₁ w₂ : World α} (h : Ext w w₁) (h' : Ext w₁ w₂) : Ext w w₂ :=
  ⟨h.objs.trans h'.objs, h.stores.trans h'.stores⟩

theorem prefix_getElem? {β : Type} {l l' : List β} (h : l <+: l') {i : Nat} {b : β}
    (hi : l[i]? = some b) : l'[i]? = some b := by
  obtain ⟨t, rfl⟩ := h
  obtain ⟨hlt, _⟩ := List.getElem?_eq_some_iff.1 hi
  rw [List.getElem?_append_left hlt, hi]

theorem Ext.obj {w w' : World α} (h : Ext w w') {r : Ref} {o : TObj}
    (hr : w.objs[r]? = some o) : w'.objs[r]? = some o := prefix_getElem? h.objs hr

theorem Ext.read {w w' : World α} (h : Ext w w') {r : Ref} {v : α}
    (hr : w.read r = some v) : w'.read r = some v := by
  unfold World.read at *
  cases ho : w.objs[r]? with
  | none => simp [ho] at hr
  | some o =>
    simp only [ho] at hr
    rw [h.obj ho]
    exact prefix_getElem? h.stores hr

theorem World.Valid.read_some {w : World α} (hv : w.Valid) {r : Ref} {o : TObj}
    (hr : w.objs[r]? = some o) : ∃ v, w.read r = some v ∧ w.stores[o.storage]? = some v := by
  refine ⟨w.stores[o.storage]'(hv.store r o hr), ?_, ?_⟩
  · simp [World.read, hr, hv.store r o hr]
  · simp [hv.store r o hr]

theorem World.Valid.read_lt {w : World α} (hv : w.Valid) {r : Ref} (hr : r < w.objs.length) :
    ∃ o v, w.objs[r]? = some o ∧ w.read r = some v := by
  have h : w.objs[r]? = some w.objs[r] := by simp [hr]
  obtain ⟨v, hv, _⟩ := hv.read_some h
  exact ⟨_, v, h, hv⟩

theorem Ext.read_eq {w w' : World α} (h : Ext w w') (hv : w.Valid) {r : Ref}
    (hr : r < w.objs.length) : w'.read r = w.read r := by
  obtain ⟨_, v, _, hv⟩ := hv.read_lt hr
  rw [hv, h.read hv]

theorem Ext.lt {w w' : World α} (h : Ext w w') {r : Ref} (hr : r < w.objs.length) :
    r < w'.objs.length := Nat.lt_of_lt_of_le hr h.objs.length_le

/-- `r` is an object created after `n` objects and `k` storages existed, on a storage
created then as well. -/
def FreshRef (n k : Nat) (w : World α) (r : Ref) : Prop :=
  n ≤ r ∧ ∃ o, w.objs[r]? = some o ∧ k ≤ o.storage

theorem FreshRef.mono {n k n' k' : Nat} {w w' : World α} {r : Ref} (h : FreshRef n' k' w r)
    (he : Ext w w') (hn : n ≤ n') (hk : k ≤ k') : FreshRef n k w' r := by
  obtain ⟨h1, o, ho, hk'⟩ := h
  exact ⟨by omega, o, he.obj ho, by omega⟩

/-- What an allocating primitive does: one new object on one new storage. -/
def Allocates (op : Ref → PM α Ref) (g : α → α) (fl : Bool → Bool × Bool) : Prop :=
  ∀ (r : Ref) (w : World α) (v : α) (o : TObj), w.read r = some v → w.objs[r]? = some o →
    op r w = (.ok w.objs.length, { w with
        objs := w.objs ++ [⟨w.stores.length, o.device, o.dtype, (fl o.requiresGrad).1,
          (fl o.requiresGrad).2⟩],
        stores := w.stores ++ [g v] })

theorem cloneT_allocates : Allocates (cloneT (α := α)) id (fun b => (b, b)) := by
  intro r w v o hv ho
  simp [cloneT, Prog.bind_run, getObj, readT, allocT, hv, ho]

theorem detachCloneT_allocates (b : Bool) :
    Allocates (detachCloneT (α := α) b) id (fun _ => (b, false)) := by
  intro r w v o hv ho
  simp [detachCloneT, Prog.bind_run, getObj, readT, allocT, hv, ho]

theorem negT_allocates [Neg α] : Allocates (negT (α := α)) (fun x => -x) (fun b => (b, b)) := by
  intro r w v o hv ho
  simp [negT, Prog.bind_run, getObj, readT, allocT, hv, ho]

/-- The state after a run of allocations whose results are `rs'` with contents `vs`. -/
structure Alloc (w w' : World α) (rs' : List Ref) (vs : List (Option α)) : Prop where
  ext : Ext w w'
  leaves : w'.leaves = w.leaves
  valid : w'.Valid
  fresh : ∀ r ∈ rs', FreshRef w.objs.length w.stores.length w' r
  vals : rs'.map w'.read = vs

theorem extend_valid {w : World α} (hv : w.Valid) (o : TObj) (v : α)
    (ho : o.storage = w.stores.length) :
    World.Valid { w with objs := w.objs ++ [o], stores := w.stores ++ [v] } := by
  refine ⟨?_, ?_⟩
  · intro r o' hr
    simp only [List.length_append, List.length_singleton]
    simp only [List.getElem?_append] at hr
    split at hr
    · have := hv.store r o' hr; omega
    · obtain ⟨hlt, he⟩ := List.getElem?_eq_some_iff.1 hr
      have : o' = o := by simpa using he.symm
      subst this; rw [ho]; exact Nat.lt_succ_self _
  · intro i l hl g r hr
    have := hv.leaf i l hl g r hr
    simpa using Nat.lt_succ_of_lt this

theorem extend_ext (w : World α) (o : TObj) (v : α) :
    Ext w { w with objs := w.objs ++ [o], stores := w.stores ++ [v] } :=
  ⟨List.prefix_append _ _, List.prefix_append _ _⟩

theorem extend_read (w : World α) (o : TObj) (v : α) (ho : o.storage = w.stores.length) :
    World.read { w with objs := w.objs ++ [o], stores := w.stores ++ [v] } w.objs.length
      = some v := by
  simp [World.read, ho]

theorem Alloc.nil (w : World α) (hv : w.Valid) : Alloc w w [] [] :=
  ⟨Ext.refl _, rfl, hv, by simp, rfl⟩

theorem Alloc.cons {w w' : World α} {rs' : List Ref} {vs : List (Option α)} (o : TObj) (v : α)
    (ho : o.storage = w.stores.length)
    (h : Alloc { w with objs := w.objs ++ [o], stores := w.stores ++ [v] } w' rs' vs) :
    Alloc w w' (w.objs.length :: rs') (some v :: vs) := by
  have hext := extend_ext w o v
  refine ⟨hext.trans h.ext, h.leaves, h.valid, ?_, ?_⟩
  · intro r' hr'
    rcases List.mem_cons.1 hr' with rfl | hr'
    · exact ⟨Nat.le_refl _, o, h.ext.obj (by simp), by omega⟩
    · exact (h.fresh r' hr').mono (Ext.refl _) (by simp) (by simp)
  · simp only [List.map_cons, h.ext.read (extend_read w o v ho), h.vals]

theorem mapT_alloc {op : Ref → PM α Ref} {g : α → α} {fl : Bool → Bool × Bool}
    (hop : Allocates op g fl) :
    ∀ (rs : List Ref) (w : World α), w.Valid → (∀ r ∈ rs, r < w.objs.length) →
      ∃ rs' w', mapT op rs w = (.ok rs', w') ∧
        Alloc w w' rs' (rs.map (fun r => (w.read r).map g)) ∧ rs'.length = rs.length
  | [], w, hv, _ => ⟨[], w, rfl, Alloc.nil w hv, rfl⟩
  | r :: rs, w, hv, hl => by
    obtain ⟨o, v, ho, hrd⟩ := hv.read_lt (hl r (by simp))
    have h₁ := hop r w v o hrd ho
    generalize hob : (⟨w.stores.length, o.device, o.dtype, (fl o.requiresGrad).1,
      (fl o.requiresGrad).2⟩ : TObj) = ob at h₁
    have hst : ob.storage = w.stores.length := by rw [← hob]
    have hext := extend_ext w ob (g v)
    obtain ⟨rs', w', h₂, ha, hlen⟩ := mapT_alloc hop rs _ (extend_valid hv ob (g v) hst)
      (fun r hr => hext.lt (hl r (by simp [hr])))
    refine ⟨w.objs.length :: rs', w', ?_, ?_, by simp [hlen]⟩
    · simp [mapT, Prog.bind_run, h₁, h₂]
    · have : rs.map (fun r => (World.read
          { w with objs := w.objs ++ [ob], stores := w.stores ++ [g v] } r).map g)
          = rs.map (fun r => (w.read r).map g) := by
        apply List.map_congr_left
        intro r' hr'
        rw [hext.read_eq hv (hl r' (by simp [hr']))]
      rw [this] at ha
      simpa [hrd] using Alloc.cons ob (g v) hst ha

theorem zipWith_congr_mem {β γ δ : Type} {f g : β → γ → δ} : ∀ {as : List β} {bs : List γ},
    (∀ a ∈ as, ∀ b ∈ bs, f a b = g a b) → List.zipWith f as bs = List.zipWith g as bs
  | [], _, _ => by simp
  | _ :: _, [], _ => by simp
  | a :: as, b :: bs, h => by
    simp only [List.zipWith_cons_cons, h a (by simp) b (by simp)]
    rw [zipWith_congr_mem (fun a ha b hb => h a (by simp [ha]) b (by simp [hb]))]

theorem addZip_alloc [Add α] :
    ∀ (as bs : List Ref) (w : World α), w.Valid → (∀ r ∈ as, r < w.objs.length) →
      (∀ r ∈ bs, r < w.objs.length) →
      ∃ rs' w', addZip as bs w = (.ok rs', w') ∧
        Alloc w w' rs' (List.zipWith (fun a b => addO (w.read a) (w.read b)) as bs)
        ∧ rs'.length = min as.length bs.length
  | [], bs, w, hv, _, _ => ⟨[], w, by simp [addZip], by simpa using Alloc.nil w hv, by simp⟩
  | a :: as, [], w, hv, _, _ => ⟨[], w, by simp [addZip], by simpa using Alloc.nil w hv, by simp⟩
  | a :: as, b :: bs, w, hv, hla, hlb => by
    obtain ⟨oa, va, hoa, hra⟩ := hv.read_lt (hla a (by simp))
    obtain ⟨ob, vb, hob, hrb⟩ := hv.read_lt (hlb b (by simp))
    generalize hon : (⟨w.stores.length, oa.device, oa.dtype, oa.requiresGrad || ob.requiresGrad,
      oa.requiresGrad || ob.requiresGrad⟩ : TObj) = o
    have hst : o.storage = w.stores.length := by rw [← hon]
    have h₁ : addT a b w = (.ok w.objs.length,
        { w with objs := w.objs ++ [o], stores := w.stores ++ [va + vb] }) := by
      simp [addT, Prog.bind_run, getObj, readT, allocT, hoa, hob, hra, hrb, hon]
    have hext := extend_ext w o (va + vb)
    obtain ⟨rs', w', h₂, ha, hlen⟩ := addZip_alloc as bs _ (extend_valid hv o (va + vb) hst)
      (fun r hr => hext.lt (hla r (by simp [hr]))) (fun r hr => hext.lt (hlb r (by simp [hr])))
    refine ⟨w.objs.length :: rs', w', ?_, ?_, by simp [hlen]⟩
    · simp [addZip, Prog.bind_run, h₁, h₂]
    · have : List.zipWith (fun a b => addO
          (World.read { w with objs := w.objs ++ [o], stores := w.stores ++ [va + vb] } a)
          (World.read { w with objs := w.objs ++ [o], stores := w.stores ++ [va + vb] } b)) as bs
          = List.zipWith (fun a b => addO (w.read a) (w.read b)) as bs := by
        exact zipWith_congr_mem (fun a ha b hb => by
          rw [hext.read_eq hv (hla a (by simp [ha])), hext.read_eq hv (hlb b (by simp [hb]))])
      rw [this] at ha
      simpa [hra, hrb, addO] using Alloc.cons o (va + vb) hst ha

/-! ### Writes -/

/-- Objects in `S` and objects in `T` never share a storage. -/
def Apart (w : World α) (S T : Ref → Prop) : Prop :=
  ∀ r r' o o', S r → T r' → w.objs[r]? = some o → w.objs[r']? = some o' →
    r ≠ r' ∧ o.storage ≠ o'.storage

theorem write_apart {w : World α} {S T : Ref → Prop}
    (hst : ∀ (r : Nat) (o : TObj), w.objs[r]? = some o → o.storage < w.stores.length)
    (ha : Apart w S T) (x : Write α) (hx : T x.target) :
    (∀ (r : Nat) (o : TObj), (w.write x).objs[r]? = some o →
      o.storage < (w.write x).stores.length) ∧ Apart (w.write x) S T ∧
      ∀ r, S r → (w.write x).read r = w.read r := by
  cases x with
  | inPlace t v =>
    simp only [Write.target] at hx
    cases ho : w.objs[t]? with
    | none => simp only [World.write, ho]; exact ⟨hst, ha, fun _ _ => trivial⟩
    | some o =>
      simp only [World.write, ho]
      refine ⟨by simpa using hst, ha, ?_⟩
      intro r hr
      simp only [World.read]
      cases ho' : w.objs[r]? with
      | none => rfl
      | some o' =>
        have := (ha r t o' o hr hx ho' ho).2
        simp [List.getElem?_set, Ne.symm this]
  | setData t v =>
    simp only [Write.target] at hx
    cases ho : w.objs[t]? with
    | none => simp only [World.write, ho]; exact ⟨hst, ha, fun _ _ => trivial⟩
    | some o =>
      simp only [World.write, ho]
      refine ⟨?_, ?_, ?_⟩
      · intro r o' hr
        simp only [List.length_append, List.length_singleton]
        rw [List.getElem?_set] at hr
        split at hr
        · split at hr
          · cases hr; simp
          · cases hr
        · have := hst r o' hr; omega
      · intro r r' o₁ o₂ hr hr' h₁ h₂
        have hrt : ∀ x, w.objs[r]? = some x → t ≠ r := fun x hx' => Ne.symm (ha r t x o hr hx hx' ho).1
        rw [List.getElem?_set] at h₁ h₂
        by_cases htr : t = r
        · subst htr
          exact absurd rfl (hrt o ho)
        · rw [if_neg htr] at h₁
          by_cases htr' : t = r'
          · subst htr'
            refine ⟨Ne.symm htr, ?_⟩
            rw [if_pos rfl] at h₂
            split at h₂
            · cases h₂
              have := hst r o₁ h₁
              simp; omega
            · cases h₂
          · rw [if_neg htr'] at h₂
            exact ha r r' o₁ o₂ hr hr' h₁ h₂
      · intro r hr
        simp only [World.read]
        by_cases htr : t = r
        · subst htr
          exact absurd rfl (ha t t o o hr hx ho ho).1
        · rw [List.getElem?_set, if_neg htr]
          cases ho' : w.objs[r]? with
          | none => rfl
          | some o' =>
            simp only
            rw [List.getElem?_append_left (hst r o' ho')]

theorem writes_apart {S T : Ref → Prop} : ∀ (ws : List (Write α)) (w : World α),
    (∀ (r : Nat) (o : TObj), w.objs[r]? = some o → o.storage < w.stores.length) →
    Apart w S T → (∀ x ∈ ws, T x.target) → ∀ r, S r → (w.writes ws).read r = w.read r
  | [], w, _, _, _, r, _ => rfl
  | x :: ws, w, hst, ha, hx, r, hr => by
    obtain ⟨h1, h2, h3⟩ := write_apart hst ha x (hx x (by simp))
    have := writes_apart ws (w.write x) h1 h2 (fun y hy => hx y (by simp [hy])) r hr
    rw [show w.writes (x :: ws) = (w.write x).writes ws from rfl, this, h3 r hr]

theorem Apart.symm {w : World α} {S T : Ref → Prop} (h : Apart w S T) : Apart w T S :=
  fun r r' o o' hr hr' ho ho' =>
    ⟨Ne.symm (h r' r o' o hr' hr ho' ho).1, Ne.symm (h r' r o' o hr' hr ho' ho).2⟩

/-- Fresh objects are apart from the objects that existed before. -/
theorem fresh_apart {w w' : World α} (hv : w.Valid) (he : Ext w w') {S : Ref → Prop}
    (hS : ∀ r, S r → FreshRef w.objs.length w.stores.length w' r) :
    Apart w' S (fun r => r < w.objs.length) := by
  intro r r' o o' hr hr' ho ho'
  obtain ⟨h1, o₁, ho₁, hk⟩ := hS r hr
  rw [ho] at ho₁
  cases ho₁
  have hr'' : r' < w.objs.length := hr'
  have h2 : w.objs[r']? = some w.objs[r'] := by simp [hr'']
  have h3 := he.obj h2
  rw [ho'] at h3
  cases h3
  have := hv.store r' _ h2
  exact ⟨Nat.ne_of_gt (Nat.lt_of_lt_of_le hr'' h1), by omega⟩

end Imodal
