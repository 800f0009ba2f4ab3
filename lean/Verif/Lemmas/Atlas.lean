import Verif.Props.C35
import Verif.Model.Atlas
/-! # Ownership of the tensors of an atlas model -/
set_option autoImplicit false
namespace Imodal
variable {α : Type}

/-- The world grew; the objects that existed hold the tensors they held. -/
structure Grown (w w' : World α) : Prop where
  ext : Ext w w'
  valid : w'.Valid
  keep : ∀ i f, i < w.leaves.length → w'.held f i = w.held f i
  shapes : ∀ (i : Nat) (l : Leaf), w.leaves[i]? = some l → ∃ l', w'.leaves[i]? = some l' ∧ ∀ g, (l'.tc g).shapes = (l.tc g).shapes

theorem Grown.refl {w : World α} (hv : w.Valid) : Grown w w := ⟨Ext.refl w, hv, fun _ _ _ => rfl, fun _ l hl => ⟨l, hl, fun _ => rfl⟩⟩

theorem Grown.len {w w' : World α} (h : Grown w w') : w.leaves.length ≤ w'.leaves.length := by
  refine Nat.le_of_not_lt fun hlt => ?_
  obtain ⟨l', hl', -⟩ := h.shapes w'.leaves.length (w.leaves[w'.leaves.length]) (by simp [hlt])
  have := (List.getElem?_eq_some_iff.1 hl').1
  omega

theorem Grown.trans {w w₁ w₂ : World α} (h₁ : Grown w w₁) (h₂ : Grown w₁ w₂) : Grown w w₂ := by
  refine ⟨h₁.ext.trans h₂.ext, h₂.valid, fun i f hi => (h₂.keep i f (Nat.lt_of_lt_of_le hi h₁.len)).trans (h₁.keep i f hi), fun i l hl => ?_⟩
  obtain ⟨l₁, hl₁, e₁⟩ := h₁.shapes i l hl
  obtain ⟨l₂, hl₂, e₂⟩ := h₂.shapes i l₁ hl₁
  exact ⟨l₂, hl₂, fun g => (e₂ g).trans (e₁ g)⟩

theorem Kept.grown {w w' : World α} (h : Kept w w') : Grown w w' :=
  ⟨h.ext, h.valid, fun _ f hi => h.held hi f, fun _ l hl => ⟨l, prefix_getElem? h.leaves hl, fun _ => rfl⟩⟩

theorem Prepared.grown {w w' : World α} {L init : List Man} {rows : List Ref} (h : Prepared w w' L init rows) : Grown w w' :=
  ⟨h.ext, h.valid, h.keep, h.shapes⟩

theorem Grown.heldVals {w w' : World α} (h : Grown w w') (hv : w.Valid) {i : Nat} (hi : i < w.leaves.length) (f : Fam) :
    w'.heldVals f i = w.heldVals f i := by
  unfold World.heldVals
  rw [h.keep i f hi, map_read_ext h.ext hv _ (fun r hr => hv.held_lt hr)]

theorem Usable.lt {w : World α} {ms : List Man} (h : Usable w ms) : ∀ i ∈ Man.ids.idsList ms, i < w.leaves.length :=
  fun i hi => (h.clonable i hi).lt

theorem Grown.usable {w w' : World α} (h : Grown w w') {ms : List Man} (hu : Usable w ms) : Usable w' ms := by
  refine ⟨hu.1, fun f i hi => ?_⟩
  obtain ⟨l, hl, h1, h2, h3⟩ := hu.2 f i hi
  obtain ⟨l', hl', e⟩ := h.shapes i l hl
  rw [h.keep i f (hu.lt i hi)]
  exact ⟨l', hl', fun g => by rw [e g]; exact h1 g, h2, h3.ext h.ext⟩

/-! ## Copies -/

theorem CopyOf.grown {w w' w'' : World α} {i j : Nat} (h : CopyOf w w' i j) (hg : Grown w' w'') (hv : w'.Valid) (hj : j < w'.leaves.length) :
    CopyOf w w'' i j := by
  refine ⟨fun f => (hg.heldVals hv hj f).trans (h.vals f), fun f => by rw [hg.keep j f hj]; exact (h.kind f).ext hg.ext, fun l hl => ?_⟩
  obtain ⟨l', hl', e⟩ := h.shapes l hl
  obtain ⟨l'', hl'', e'⟩ := hg.shapes j l' hl'
  exact ⟨l'', hl'', fun g => (e' g).trans (e g)⟩

theorem CopyOf.before {w₀ w w' : World α} {i j : Nat} (h : CopyOf w w' i j) (hg : Grown w₀ w) (hv : w₀.Valid) (hi : i < w₀.leaves.length) :
    CopyOf w₀ w' i j := by
  refine ⟨fun f => (h.vals f).trans (hg.heldVals hv hi f), h.kind, fun l hl => ?_⟩
  obtain ⟨l', hl', e⟩ := hg.shapes i l hl
  obtain ⟨l'', hl'', e'⟩ := h.shapes l' hl'
  exact ⟨l'', hl'', fun g => (e' g).trans (e g)⟩

theorem CopyOf.trans {w w' w'' : World α} {i j k : Nat} (h : CopyOf w w' i j) (h' : CopyOf w' w'' j k) : CopyOf w w'' i k := by
  refine ⟨fun f => (h'.vals f).trans (h.vals f), h'.kind, fun l hl => ?_⟩
  obtain ⟨l', hl', e⟩ := h.shapes l hl
  obtain ⟨l'', hl'', e'⟩ := h'.shapes l' hl'
  exact ⟨l'', hl'', fun g => (e' g).trans (e g)⟩

theorem CopyOf.recorded {w w' w'' : World α} {i j : Nat} {T : Slot → Prop} (h : CopyOf w w' i j) (hr : Recorded w' w'' T) : CopyOf w w'' i j := by
  refine ⟨fun f => (hr.vals f j).trans (h.vals f), fun f => hr.kind f j (h.kind f), fun l hl => ?_⟩
  obtain ⟨l', hl', e⟩ := h.shapes l hl
  obtain ⟨l'', hl'', e'⟩ := hr.shapes j l' hl'
  exact ⟨l'', hl'', fun g => (e' g).trans (e g)⟩

/-- Copies of usable objects are usable. -/
theorem copies_usable {w w' : World α} {ms ms' : List Man} (h : List.Forall₂ (PairR (CopyOf w w')) ms ms') (hu : Usable w ms) : Usable w' ms' := by
  refine ⟨pair_plain h, fun f => ?_⟩
  have hr := hu.2 f
  clear hu
  induction h with
  | nil => intro i hi; simp [Man.ids.idsList] at hi
  | @cons m m' ms ms' hm _ ih =>
    intro j hj
    rw [Man.ids.idsList, List.mem_append] at hj
    rcases hj with hj | hj
    · rcases hm with ⟨-, rfl⟩ | ⟨i, j', rfl, rfl, hc⟩
      · simp [Man.ids] at hj
      · simp only [Man.ids, List.mem_singleton] at hj
        subst hj
        obtain ⟨l, hl, h1, h2, -⟩ := hr i (by simp [Man.ids.idsList, Man.ids])
        obtain ⟨l', hl', e⟩ := hc.shapes l hl
        have hlen : (w'.held f j).length = (w.held f i).length := by
          have := congrArg List.length (hc.vals f)
          simpa [World.heldVals] using this
        exact ⟨l', hl', fun g => by rw [e g, hlen]; exact h1 g, by rw [hlen]; exact h2, hc.kind f⟩
    · exact ih (fun i hi => hr i (by simp [Man.ids.idsList, hi])) j hj

theorem pair_trans {R R' R'' : Nat → Nat → Prop} (hR : ∀ i j k, R i j → R' j k → R'' i k) : ∀ {A B C : List Man},
    List.Forall₂ (PairR R) A B → List.Forall₂ (PairR R') B C → List.Forall₂ (PairR R'') A C
  | _, _, _, .nil, .nil => .nil
  | _, _, _, .cons h hs, .cons h' hs' => by
    refine .cons ?_ (pair_trans hR hs hs')
    rcases h with ⟨rfl, rfl⟩ | ⟨i, j, rfl, rfl, h⟩
    · rcases h' with ⟨-, rfl⟩ | ⟨_, _, e, -⟩
      · exact Or.inl ⟨rfl, rfl⟩
      · cases e
    · rcases h' with ⟨e, -⟩ | ⟨j', k, e, rfl, h'⟩
      · cases e
      · cases e
        exact Or.inr ⟨i, k, rfl, rfl, hR _ _ _ h h'⟩

theorem leafDeepcopy_spec {w : World α} {i : Nat} (hv : w.Valid) (hc : Clonable w i) :
    ∃ w', leafDeepcopy i w = (.ok w.leaves.length, w') ∧ Kept w w' ∧ CopyOf w w' i w.leaves.length ∧ w'.leaves.length = w.leaves.length + 1 := by
  obtain ⟨l, hl, hg⟩ := hc
  obtain ⟨c₁, w₁, h₁, hs₁, ha₁, hk₁⟩ := tcClone_alloc (c := l.gd) hv (hg .gd).1 (hg .gd).2
  obtain ⟨c₂, w₂, h₂, hs₂, ha₂, hk₂⟩ := tcClone_alloc (c := l.tan) ha₁.valid ((hg .tan).1.ext ha₁.ext) (hg .tan).2
  obtain ⟨c₃, w₃, h₃, hs₃, ha₃, hk₃⟩ := tcClone_alloc (c := l.cotan) ha₂.valid (((hg .cotan).1.ext ha₁.ext).ext ha₂.ext) (hg .cotan).2
  have hlv : w₃.leaves = w.leaves := by rw [ha₃.leaves, ha₂.leaves, ha₁.leaves]
  let nl : Leaf := { l with gd := c₁, tan := c₂, cotan := c₃ }
  let w₄ : World α := ⟨w₃.objs, w₃.stores, w₃.leaves ++ [nl]⟩
  have hE : ∀ {w' : World α}, Ext w' w₃ → Ext w' w₄ := fun h => ⟨h.objs, h.stores⟩
  have he₃ : Ext w w₃ := (ha₁.ext.trans ha₂.ext).trans ha₃.ext
  have hn : w₄.leaves[w.leaves.length]? = some nl := by simp [w₄, hlv]
  have hv₄ : w₄.Valid := by
    refine ⟨ha₃.valid.store, ?_⟩
    intro k lk hk g r hr
    simp only [w₄, List.getElem?_append] at hk
    split at hk
    · exact ha₃.valid.leaf k lk hk g r hr
    · obtain ⟨_, he⟩ := List.getElem?_eq_some_iff.1 hk
      have : lk = nl := by simpa using he.symm
      subst this
      cases g with
      | gd => exact (ha₂.ext.trans ha₃.ext).lt ((ha₁.fresh r hr).lt)
      | tan => exact ha₃.ext.lt ((ha₂.fresh r hr).lt)
      | cotan => exact (ha₃.fresh r hr).lt
  refine ⟨w₄, ?_, ⟨hE he₃, hv₄, ?_⟩, ⟨?_, ?_, ?_⟩, by simp [w₄, hlv]⟩
  · simp only [leafDeepcopy, Prog.bind_run, getLeaf, hl, h₁, h₂, h₃, Prog.get_run, Prog.set_run, Prog.pure_run]
    rw [hlv]
    simp only [w₄, nl, hlv]
  · simp only [w₄, hlv]
    exact List.prefix_append _ _
  · intro g
    simp only [World.heldVals, World.held, hn, hl]
    cases g with
    | gd =>
      rw [show ((nl.tc .gd).tensors.map w₄.read) = c₁.tensors.map w₃.read from rfl,
        map_read_ext (ha₂.ext.trans ha₃.ext) ha₁.valid _ (fun r hr => (ha₁.fresh r hr).lt), ha₁.vals]
      rfl
    | tan =>
      rw [show ((nl.tc .tan).tensors.map w₄.read) = c₂.tensors.map w₃.read from rfl,
        map_read_ext ha₃.ext ha₂.valid _ (fun r hr => (ha₂.fresh r hr).lt), ha₂.vals]
      exact map_read_ext ha₁.ext hv _ (hv.leaf i l hl .tan)
    | cotan =>
      rw [show ((nl.tc .cotan).tensors.map w₄.read) = c₃.tensors.map w₃.read from rfl, ha₃.vals]
      exact map_read_ext (ha₁.ext.trans ha₂.ext) hv _ (hv.leaf i l hl .cotan)
  · intro g
    simp only [World.held, hn]
    cases g with
    | gd => exact hk₁.ext (hE (ha₂.ext.trans ha₃.ext))
    | tan => exact hk₂.ext (hE ha₃.ext)
    | cotan => exact hk₃.ext (hE (Ext.refl _))
  · intro l' hl'
    rw [hl] at hl'
    cases hl'
    refine ⟨nl, hn, fun g => ?_⟩
    cases g with
    | gd => exact hs₁
    | tan => exact hs₂
    | cotan => exact hs₃

theorem deepcopyList_spec : ∀ (ms : List Man) (w : World α), w.Valid → (∀ m ∈ ms, m.Plain) → (∀ i ∈ Man.ids.idsList ms, Clonable w i) →
    ∃ ms' w', Man.deepcopy.deepcopyList ms w = (.ok ms', w') ∧ Kept w w' ∧ List.Forall₂ (PairR (CopyOf w w')) ms ms' ∧
      ∀ j ∈ Man.ids.idsList ms', w.leaves.length ≤ j ∧ j < w'.leaves.length
  | [], w, hv, _, _ => ⟨[], w, rfl, Kept.refl hv, .nil, by simp [Man.ids.idsList]⟩
  | .empty :: ms, w, hv, hp, hc => by
    obtain ⟨ms', w', h1, hk, hf, hb⟩ := deepcopyList_spec ms w hv (fun m hm => hp m (by simp [hm])) (fun i hi => hc i (by
      simp [Man.ids.idsList, hi]))
    exact ⟨.empty :: ms', w', by simp [Man.deepcopy.deepcopyList, Man.deepcopy, Prog.bind_run, h1], hk, .cons (Or.inl ⟨rfl, rfl⟩) hf,
      by simpa [Man.ids.idsList, Man.ids] using hb⟩
  | .compound l :: ms, w, hv, hp, hc => (hp (.compound l) (by simp)).elim
  | .leaf i :: ms, w, hv, hp, hc => by
    have hci := hc i (by simp [Man.ids.idsList, Man.ids])
    obtain ⟨w₁, h1, hk₁, hcl, hlen⟩ := leafDeepcopy_spec hv hci
    obtain ⟨ms', w', h2, hk, hf, hb⟩ := deepcopyList_spec ms w₁ hk₁.valid (fun m hm => hp m (by simp [hm])) (fun i hi =>
      (hc i (by simp [Man.ids.idsList, hi])).kept hk₁)
    refine ⟨.leaf w.leaves.length :: ms', w', by simp [Man.deepcopy.deepcopyList, Man.deepcopy, Prog.bind_run, h1, h2], hk₁.trans hk,
      .cons (Or.inr ⟨i, _, rfl, rfl, hcl.grown hk.grown hk₁.valid (by omega)⟩) ?_, ?_⟩
    · exact pair_imp hf fun i hi j hj h => h.before hk₁.grown hv (hc i (by simp [Man.ids.idsList, hi])).lt
    · intro j hj
      have := hk.leaves.length_le
      rw [Man.ids.idsList, Man.ids, List.singleton_append, List.mem_cons] at hj
      rcases hj with rfl | hj
      · omega
      · have := hb j hj; omega

/-! ## The population -/

/-- The manifold objects of a subject's model. -/
def Subject.ids (S : Subject) : List Nat := Man.ids.idsList S.model.init

/-- The descriptors of the objects are not recorded for differentiation. -/
def Unrecorded (w : World α) (ids : List Nat) : Prop := ∀ j ∈ ids, ∀ r ∈ w.held .gd j, ∃ o, w.objs[r]? = some o ∧ o.requiresGrad = false

/-- What holds of a population of subjects built between the worlds `w` and `w'`. -/
structure Population (w w' : World α) (T : Man) (ms : List Man) (others : Dict String (List Ref)) (Ss : List Subject) : Prop where
  copies : ∀ S ∈ Ss, List.Forall₂ (PairR (CopyOf w w')) (T :: ms) S.model.init
  plain : ∀ S ∈ Ss, S.model.deformables = 1 ∧ S.model.fitGd = .none ∧ S.model.controls = none ∧ S.model.others = others
  nodup : (Ss.flatMap Subject.ids).Nodup
  range : ∀ j ∈ Ss.flatMap Subject.ids, w.leaves.length ≤ j ∧ j < w'.leaves.length
  own : Own w.objs.length w' (slotsOf (Ss.flatMap Subject.ids)) []
  cotan : ∀ j ∈ Ss.flatMap Subject.ids, ∀ r ∈ w'.held .cotan j, Leafy w' r
  sep : Sep w' (slotsOf (Ss.flatMap Subject.ids))
  place : ∀ s, slotsOf (Ss.flatMap Subject.ids) s → ∀ r ∈ w'.held s.2 s.1, Placed (w.stores.length ≤ ·) w' r

theorem computeParameters_none {M : ParamModel} (hf : M.fitGd = .none) (w : World α) :
    computeParameters M w = (.ok (M.others.foldl (fun d e => d.set e.1 e.2)
      (groups (Man.unroll.unrollList w .cotan M.init) none (M.controls.map List.flatten))), w) :=
  computeParameters_run (by simp [fitTensors, hf])

theorem newSubject_spec {w : World α} (hv : w.Valid) {T : Man} {ms : List Man} (hT : Usable w [T]) (hM : Usable w ms)
    (others : Dict String (List Ref)) :
    ∃ S w', newSubject T ms 1 others w = (.ok S, w') ∧ Grown w w' ∧ Population w w' T ms others [S] ∧ Unrecorded w' S.ids := by
  obtain ⟨T₁, w₁, h₁, k₁, p₁, b₁⟩ := deepcopyList_spec [T] w hv hT.1 hT.clonable
  obtain ⟨T', rfl, q₁⟩ : ∃ T', T₁ = [T'] ∧ T.deepcopy w = (.ok T', w₁) := by
    rw [Man.deepcopy.deepcopyList, Prog.bind_run] at h₁
    rcases h : T.deepcopy w with ⟨_ | T', w₁'⟩ <;> rw [h] at h₁ <;> dsimp only at h₁
    · simp at h₁
    · simp only [Man.deepcopy.deepcopyList, Prog.bind_run, Prog.pure_run, Prod.mk.injEq, Except.ok.injEq] at h₁
      exact ⟨T', h₁.1.symm, by rw [h₁.2]⟩
  obtain ⟨ms', w₂, h₂, k₂, p₂, b₂⟩ := deepcopyList_spec ms w₁ k₁.valid hM.1 fun i hi => (hM.clonable i hi).kept k₁
  have k := k₁.trans k₂
  have hu₁ : Usable w₂ [T'] := k₂.grown.usable (copies_usable p₁ hT)
  have hu₂ : Usable w₂ ms' := copies_usable p₂ (k₁.grown.usable hM)
  have pT : List.Forall₂ (PairR (CopyOf w w₂)) [T] [T'] := pair_imp p₁ fun i hi j hj h => h.grown k₂.grown k₁.valid (b₁ j hj).2
  have pM : List.Forall₂ (PairR (CopyOf w w₂)) ms ms' := pair_imp p₂ fun i hi j hj h => h.before k₁.grown hv (hM.lt i hi)
  obtain ⟨M, rows, w₃, hP, hd, hf, ho, hc, hrl, -, hrun⟩ := new_prepared k.valid hu₁ hu₂ (cs := []) (by simp) none .none others
  obtain ⟨d, hcp⟩ : ∃ d, (do let d ← computeParameters M; pure (M, d) : PM α (ParamModel × Dict String (List Ref))) w₃ = (.ok (M, d), w₃) := by
    rw [Prog.bind_run, computeParameters_none hf]
    exact ⟨_, rfl⟩
  rw [hcp] at hrun
  simp only [List.map_nil] at hrun
  have hg := k.grown.trans hP.grown
  have e1 : w.leaves.length ≤ w₂.leaves.length := k.leaves.length_le
  have e2 : w.objs.length ≤ w₂.objs.length := k.ext.objs.length_le
  have e3 : w.stores.length ≤ w₂.stores.length := k.ext.stores.length_le
  have hrows : rows = [] := List.length_eq_zero_iff.1 hrl
  subst hrows
  have hids : ([⟨M, T', ms'⟩] : List Subject).flatMap Subject.ids = Man.ids.idsList M.init := by simp [Subject.ids]
  refine ⟨⟨M, T', ms'⟩, w₃, ?_, hg, ?_, hP.gd⟩
  · simp [newSubject, Prog.bind_run, q₁, h₂, hrun]
  · refine ⟨?_, ?_, ?_, ?_, ?_, ?_, ?_, ?_⟩
    · intro S hS
      simp only [List.mem_singleton] at hS
      subst hS
      exact pair_trans (fun i j k h h' => h.trans h') (List.rel_append pT pM) hP.pairs
    · intro S hS
      simp only [List.mem_singleton] at hS
      subst hS
      exact ⟨hd, hf, hc, ho⟩
    · rw [hids]; exact hP.nodup
    · rw [hids]
      intro j hj
      have := hP.range j hj
      omega
    · rw [hids]
      have h := hP.own
      exact ⟨h.bound, h.nodup, fun s hs r hr => ⟨Nat.le_trans e2 (h.range s hs r hr).1, (h.range s hs r hr).2⟩, h.apart, .nil, by simp, by simp⟩
    · rw [hids]; exact hP.cotan
    · rw [hids]; exact hP.sep
    · rw [hids]
      intro s hs r hr
      exact (hP.place s hs r hr).mono fun k hk => Nat.le_trans e3 hk

theorem Population.append {w w₁ w₂ : World α} {T : Man} {ms : List Man} {others : Dict String (List Ref)} {A B : List Subject}
    (hv : w.Valid) (hu : ∀ i ∈ Man.ids.idsList (T :: ms), i < w.leaves.length) (h₁ : Grown w w₁) (pA : Population w w₁ T ms others A) (h₂ : Grown w₁ w₂)
    (pB : Population w₁ w₂ T ms others B) : Population w w₂ T ms others (A ++ B) := by
  have hidA : ∀ S ∈ A, ∀ j ∈ Man.ids.idsList S.model.init, j ∈ A.flatMap Subject.ids := fun S hS j hj => List.mem_flatMap.2 ⟨S, hS, hj⟩
  have keepA : ∀ s, slotsOf (A.flatMap Subject.ids) s → w₂.held s.2 s.1 = w₁.held s.2 s.1 := fun s hs => h₂.keep s.1 s.2 (pA.range _ hs).2
  have e1 := h₁.ext.objs.length_le
  have e2 := h₂.ext.objs.length_le
  have e3 := h₁.ext.stores.length_le
  have l1 := h₁.len
  have l2 := h₂.len
  have loA : ∀ s, slotsOf (A.flatMap Subject.ids) s → ∀ r ∈ w₂.at s, w.objs.length ≤ r ∧ r < w₁.objs.length := fun s hs r hr => by
    unfold World.at at hr; rw [keepA s hs] at hr; exact pA.own.range s hs r hr
  refine ⟨?_, ?_, ?_, ?_, ?_, ?_, ?_, ?_⟩
  · intro S hS
    rcases List.mem_append.1 hS with hS | hS
    · exact pair_imp (pA.copies S hS) fun i hi j hj h => h.grown h₂ h₁.valid (pA.range j (hidA S hS j hj)).2
    · exact pair_imp (pB.copies S hS) fun i hi j hj h => h.before h₁ hv (hu i hi)
  · intro S hS
    rcases List.mem_append.1 hS with hS | hS
    · exact pA.plain S hS
    · exact pB.plain S hS
  · rw [List.flatMap_append, List.nodup_append]
    refine ⟨pA.nodup, pB.nodup, fun a ha b hb e => ?_⟩
    have := (pA.range a ha).2
    have := (pB.range b hb).1
    omega
  · intro j hj
    rw [List.flatMap_append, List.mem_append] at hj
    rcases hj with hj | hj
    · have := pA.range j hj; omega
    · have := pB.range j hj; omega
  · rw [List.flatMap_append]
    have hsp : ∀ s, slotsOf (A.flatMap Subject.ids ++ B.flatMap Subject.ids) s → slotsOf (A.flatMap Subject.ids) s ∨ slotsOf (B.flatMap Subject.ids) s :=
      fun s hs => by simpa [slotsOf] using hs
    refine ⟨?_, ?_, ?_, ?_, .nil, by simp, by simp⟩
    · intro s hs
      rcases hsp s hs with hs | hs
      · have := pA.range _ hs; omega
      · exact pB.own.bound s hs
    · intro s hs
      rcases hsp s hs with hs | hs
      · unfold World.at; rw [keepA s hs]; exact pA.own.nodup s hs
      · exact pB.own.nodup s hs
    · intro s hs r hr
      rcases hsp s hs with hs | hs
      · exact ⟨(loA s hs r hr).1, Nat.lt_of_lt_of_le (loA s hs r hr).2 e2⟩
      · exact ⟨Nat.le_trans e1 (pB.own.range s hs r hr).1, (pB.own.range s hs r hr).2⟩
    · intro s s' hs hs' hne r hr hr'
      rcases hsp s hs with hs | hs <;> rcases hsp s' hs' with hs' | hs'
      · unfold World.at at hr hr'
        rw [keepA s hs] at hr
        rw [keepA s' hs'] at hr'
        exact pA.own.apart s s' hs hs' hne r hr hr'
      · exact absurd (pB.own.range s' hs' r hr').1 (Nat.not_le.2 (loA s hs r hr).2)
      · exact absurd (pB.own.range s hs r hr).1 (Nat.not_le.2 (loA s' hs' r hr').2)
      · exact pB.own.apart s s' hs hs' hne r hr hr'
  · intro j hj r hr
    rw [List.flatMap_append, List.mem_append] at hj
    rcases hj with hj | hj
    · rw [keepA (j, .cotan) hj] at hr
      exact (pA.cotan j hj r hr).ext h₂.ext
    · exact pB.cotan j hj r hr
  · rw [List.flatMap_append]
    refine (Sep.union (pA.sep.ext h₂.ext keepA) pB.sep w₁.stores.length ?_ pB.place).mono fun s hs => by simpa [slotsOf] using hs
    intro s hs r hr
    rw [keepA s hs] at hr
    exact (held_placed h₁.valid _ _ r hr).ext h₂.ext
  · intro s hs r hr
    simp only [slotsOf, List.flatMap_append, List.mem_append] at hs
    rcases hs with hs | hs
    · rw [keepA s hs] at hr
      exact (pA.place s hs r hr).ext h₂.ext
    · exact (pB.place s hs r hr).mono fun k hk => Nat.le_trans e3 hk

theorem Population.nil {w : World α} (T : Man) (ms : List Man) (others : Dict String (List Ref)) : Population w w T ms others [] :=
  ⟨by simp, by simp, by simp, by simp, ⟨by simp [slotsOf], by simp [slotsOf], by simp [slotsOf], by simp [slotsOf], .nil, by simp, by simp⟩, by simp,
    fun s _ h => by simp [slotsOf] at h, fun s h => by simp [slotsOf] at h⟩

theorem newSubjects_spec {T : Man} {ms : List Man} (others : Dict String (List Ref)) : ∀ (n : Nat) {w : World α}, w.Valid → Usable w [T] → Usable w ms →
    ∃ Ss w', newSubjects T ms 1 others n w = (.ok Ss, w') ∧ Ss.length = n ∧ Grown w w' ∧ Population w w' T ms others Ss ∧
      Unrecorded w' (Ss.flatMap Subject.ids)
  | 0, w, hv, _, _ => ⟨[], w, rfl, rfl, Grown.refl hv, Population.nil T ms others, by simp [Unrecorded]⟩
  | n + 1, w, hv, hT, hM => by
    obtain ⟨S, w₁, h₁, g₁, p₁, u₁⟩ := newSubject_spec hv hT hM others
    obtain ⟨Ss, w₂, h₂, hl, g₂, p₂, u₂⟩ := newSubjects_spec others n g₁.valid (g₁.usable hT) (g₁.usable hM)
    refine ⟨S :: Ss, w₂, by simp [newSubjects, Prog.bind_run, h₁, h₂], by simp [hl], g₁.trans g₂, ?_, ?_⟩
    · refine p₁.append hv (fun i hi => ?_) g₁ g₂ p₂
      rw [Man.ids.idsList, List.mem_append] at hi
      rcases hi with hi | hi
      · exact hT.lt i (by simpa [Man.ids.idsList] using hi)
      · exact hM.lt i hi
    · intro j hj r hr
      rw [List.flatMap_cons, List.mem_append] at hj
      rcases hj with hj | hj
      · rw [g₂.keep j .gd (p₁.range j (by simpa using hj)).2] at hr
        obtain ⟨o, ho, hb⟩ := u₁ j hj r hr
        exact ⟨o, g₂.ext.obj ho, hb⟩
      · exact u₂ j hj r hr

/-- Recording tensors of the subjects for differentiation. -/
theorem Population.recorded {w w₁ w₂ : World α} {T : Man} {ms : List Man} {others : Dict String (List Ref)} {Ss : List Subject} {X : Slot → Prop}
    (p : Population w w₁ T ms others Ss) (hn : w.objs.length ≤ w₁.objs.length) (h : Recorded w₁ w₂ X) (hX : ∀ s, X s → s.2 = .gd) :
    Population w w₂ T ms others Ss := by
  refine ⟨fun S hS => pair_imp (p.copies S hS) fun i hi j hj hc => hc.recorded h, p.plain, p.nodup, fun j hj => by rw [h.len]; exact p.range j hj,
    (h.own _ _ _ hn p.own).mono fun s hs => Or.inr hs, fun j hj r hr => ?_, h.sep p.sep, fun s hs => h.place _ _ _ (p.place s hs)⟩
  have hk : w₂.held .cotan j = w₁.held .cotan j := h.keep (j, .cotan) fun hx => by simpa using hX _ hx
  rw [hk] at hr
  exact (p.cotan j hj r hr).ext h.ext

/-- New tensors elsewhere. -/
theorem Population.kept {w w₁ w₂ : World α} {T : Man} {ms : List Man} {others : Dict String (List Ref)} {Ss : List Subject}
    (p : Population w w₁ T ms others Ss) (hv : w₁.Valid) (hn : w.objs.length ≤ w₁.objs.length) (h : Kept w₁ w₂) : Population w w₂ T ms others Ss := by
  have hk : ∀ j ∈ Ss.flatMap Subject.ids, ∀ f, w₂.held f j = w₁.held f j := fun j hj f => h.held (p.range j hj).2 f
  refine ⟨fun S hS => pair_imp (p.copies S hS) fun i hi j hj hc => hc.grown h.grown hv (p.range j (List.mem_flatMap.2 ⟨S, hS, hj⟩)).2, p.plain, p.nodup,
    fun j hj => ⟨(p.range j hj).1, Nat.lt_of_lt_of_le (p.range j hj).2 h.leaves.length_le⟩, own_kept p.own hn h, fun j hj r hr => ?_,
    p.sep.ext h.ext fun s hs => hk _ hs _, fun s hs r hr => ?_⟩
  · rw [hk j hj] at hr
    exact (p.cotan j hj r hr).ext h.ext
  · rw [hk _ hs] at hr
    exact (p.place s hs r hr).ext h.ext

/-! ## Recording the descriptors -/

theorem mem_idsList {m : Man} {ms : List Man} (h : m ∈ ms) {i : Nat} (hi : i ∈ m.ids) : i ∈ Man.ids.idsList ms := by
  induction ms with
  | nil => simp at h
  | cons a ms ih =>
    rw [Man.ids.idsList, List.mem_append]
    rcases List.mem_cons.1 h with rfl | h
    · exact Or.inl hi
    · exact Or.inr (ih h)

/-- The slots of the descriptors of module `i` of the subjects. -/
def gdSlots (Ss : List Subject) (i : Nat) : Slot → Prop := fun s => (∃ S ∈ Ss, ∃ m, S.model.init[i + 1]? = some m ∧ s.1 ∈ m.ids) ∧ s.2 = .gd

theorem recordSubjects_spec (i : Nat) : ∀ (Ss : List Subject) {w : World α}, w.Valid → (∀ S ∈ Ss, i + 1 < S.model.init.length) →
    (∀ S ∈ Ss, ∀ m ∈ S.model.init, m.Plain) → (∀ j ∈ Ss.flatMap Subject.ids, j < w.leaves.length) →
    ∃ w', recordSubjects i Ss w = (.ok (), w') ∧ Recorded w w' (gdSlots Ss i)
  | [], w, hv, _, _, _ => ⟨w, rfl, (Recorded.refl hv).congr fun s => by simp [gdSlots]⟩
  | S :: Ss, w, hv, hl, hp, hb => by
    have hi := hl S (by simp)
    have hm : S.model.init[i + 1]? = some S.model.init[i + 1] := by simp [hi]
    have hmem : S.model.init[i + 1] ∈ S.model.init := List.getElem_mem hi
    obtain ⟨w₁, h₁, r₁⟩ := man_record (f := .gd) S.model.init[i + 1] (hp S (by simp) _ hmem) hv fun j hj => hb j (by
      rw [List.flatMap_cons, List.mem_append]; exact Or.inl (mem_idsList hmem hj))
    obtain ⟨w₂, h₂, r₂⟩ := recordSubjects_spec i Ss r₁.valid (fun S hS => hl S (by simp [hS])) (fun S hS => hp S (by simp [hS])) fun j hj => by
      rw [r₁.len]; exact hb j (by rw [List.flatMap_cons, List.mem_append]; exact Or.inr hj)
    refine ⟨w₂, by simp only [recordSubjects, hm, Prog.bind_run, h₁, h₂], (r₁.trans r₂).congr fun s => ?_⟩
    unfold gdSlots
    constructor
    · rintro (⟨h, e⟩ | ⟨⟨S', hS', h⟩, e⟩)
      · exact ⟨⟨S, by simp, _, hm, h⟩, e⟩
      · exact ⟨⟨S', by simp [hS'], h⟩, e⟩
    · rintro ⟨⟨S', hS', m, h, h'⟩, e⟩
      rcases List.mem_cons.1 hS' with rfl | hS'
      · rw [hm] at h; cases h; exact Or.inl ⟨h', e⟩
      · exact Or.inr ⟨⟨S', hS', m, h, h'⟩, e⟩

/-- The slots of the descriptors that are asked for. -/
def fitSlots (fs : List FitGd) (Ss : List Subject) (is : List Nat) : Slot → Prop := fun s => ∃ i ∈ is, fs[i]? = some (.flag true) ∧ gdSlots Ss i s

theorem recordFit_spec (fs : List FitGd) {Ss : List Subject} (hS : Ss ≠ []) (hp : ∀ S ∈ Ss, ∀ m ∈ S.model.init, m.Plain) : ∀ (is : List Nat) {w : World α},
    w.Valid → (∀ i ∈ is, i < fs.length ∧ ∀ S ∈ Ss, i + 1 < S.model.init.length) → (∀ j ∈ Ss.flatMap Subject.ids, j < w.leaves.length) →
    ∃ w', recordFit fs Ss is w = (.ok (), w') ∧ Recorded w w' (fitSlots fs Ss is)
  | [], w, hv, _, _ => ⟨w, rfl, (Recorded.refl hv).congr fun s => by simp [fitSlots]⟩
  | i :: is, w, hv, hl, hb => by
    obtain ⟨hi, hi'⟩ := hl i (by simp)
    have hf : fs[i]? = some fs[i] := by simp [hi]
    generalize fs[i] = f at hf
    have skip : f ≠ .flag true → recordFit fs Ss (i :: is) w = recordFit fs Ss is w := fun h => by
      rw [recordFit.eq_def fs Ss (i :: is)]
      dsimp only
      rw [hf]
      rcases f with (_ | _) | _
      · rfl
      · exact absurd rfl h
      · rfl
    by_cases h : f = .flag true
    · obtain ⟨w₁, h₁, r₁⟩ := recordSubjects_spec i Ss hv hi' hp hb
      obtain ⟨w₂, h₂, r₂⟩ := recordFit_spec fs hS hp is r₁.valid (fun i hi => hl i (by simp [hi])) fun j hj => by rw [r₁.len]; exact hb j hj
      refine ⟨w₂, ?_, (r₁.trans r₂).congr fun s => ?_⟩
      · subst h
        cases Ss with
        | nil => exact absurd rfl hS
        | cons S Ss => simp only [recordFit, hf, Prog.bind_run, h₁, h₂]
      · subst h
        unfold fitSlots
        constructor
        · rintro (h | ⟨i', hi', h⟩)
          · exact ⟨i, by simp, hf, h⟩
          · exact ⟨i', by simp [hi'], h⟩
        · rintro ⟨i', hi', h, h'⟩
          rcases List.mem_cons.1 hi' with rfl | hi'
          · exact Or.inl h'
          · exact Or.inr ⟨i', hi', h, h'⟩
    · obtain ⟨w₂, h₂, r₂⟩ := recordFit_spec fs hS hp is hv (fun i hi => hl i (by simp [hi])) hb
      refine ⟨w₂, by rw [skip h, h₂], r₂.congr fun s => ?_⟩
      unfold fitSlots
      constructor
      · rintro ⟨i', hi', h⟩
        exact ⟨i', by simp [hi'], h⟩
      · rintro ⟨i', hi', h1, h2⟩
        rcases List.mem_cons.1 hi' with rfl | hi'
        · rw [hf] at h1; exact absurd (Option.some.inj h1) h
        · exact ⟨i', hi', h1, h2⟩

/-! ## Collecting the parameters -/

theorem atlasCotan_spec : ∀ (Ss : List Subject) (w : World α), (∀ S ∈ Ss, S.model.fitGd = .none) →
    atlasCotan Ss w = (.ok (Ss.flatMap fun S => Man.unroll.unrollList w .cotan S.model.init), w)
  | [], w, _ => rfl
  | S :: Ss, w, h => by
    simp only [atlasCotan, Prog.bind_run, computeParameters_none (h S (by simp)), Prog.get_run, atlasCotan_spec Ss w fun S hS => h S (by simp [hS]),
      Prog.pure_run, List.flatMap_cons]

/-- The descriptors of module `i` of a model. -/
def gdOf (w : World α) (S : Subject) (i : Nat) : List Ref := (S.model.init[i + 1]?).elim [] fun m => m.unroll w .gd

theorem firstGd_spec (fs : List FitGd) (S : Subject) (Ss : List Subject) (w : World α) : ∀ (is : List Nat),
    (∀ i ∈ is, i < fs.length ∧ i + 1 < S.model.init.length) →
    firstGd fs (S :: Ss) is w = (.ok (is.flatMap fun i => if (fs[i]?).elim false FitGd.truthy then gdOf w S i else []), w)
  | [], _ => rfl
  | i :: is, h => by
    obtain ⟨h1, h2⟩ := h i (by simp)
    have ih := firstGd_spec fs S Ss w is fun i hi => h i (by simp [hi])
    have hf : fs[i]? = some fs[i] := by simp [h1]
    have hm : S.model.init[i + 1]? = some S.model.init[i + 1] := by simp [h2]
    rw [firstGd, hf]
    dsimp only
    by_cases ht : fs[i].truthy = true
    · rw [if_pos ht, hm]
      simp only [Prog.bind_run, Prog.get_run, ih, Prog.pure_run, List.flatMap_cons, gdOf, hm, Option.elim, hf, ht, if_true]
    · rw [if_neg ht, ih, List.flatMap_cons]
      simp only [hf, Option.elim]
      rw [if_neg ht, List.nil_append]

/-- With one flag for each module. -/
theorem flagged_range (w : World α) : ∀ (bs : List Bool) (ms : List Man), bs.length = ms.length →
    ((List.range ms.length).flatMap fun i => if (bs[i]?).getD false then (ms[i]?).elim [] fun m => m.unroll w .gd else []) =
      (flaggedIds bs ms).flatMap fun i => w.held .gd i
  | [], [], _ => rfl
  | [], _ :: _, h => by simp at h
  | _ :: _, [], h => by simp at h
  | b :: bs, m :: ms, h => by
    have ih := flagged_range w bs ms (by simpa using h)
    rw [List.length_cons, List.range_succ_eq_map, List.flatMap_cons, List.flatMap_map]
    simp only [List.getElem?_cons_zero, Option.getD_some, Option.elim_some, List.getElem?_cons_succ]
    rw [ih]
    cases b
    · simp [flaggedIds]
    · rw [flaggedIds, List.flatMap_append, if_pos rfl, unroll_plain]
      rfl

end Imodal
