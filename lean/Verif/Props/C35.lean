import Verif.Lemmas.Params
import Verif.Props.C02
/-!
# C35: the parameters are exactly the requested tensors, and the ones the evaluation uses
-/
set_option autoImplicit false
namespace Imodal
variable {α : Type}

/-- Recorded for differentiation, and not the result of a recorded computation. -/
def Leafy (w : World α) (r : Ref) : Prop := ∃ o, w.objs[r]? = some o ∧ o.requiresGrad = true ∧ o.hasGraph = false

theorem Leafy.ext {w w' : World α} {r : Ref} (h : Leafy w r) (he : Ext w w') : Leafy w' r := by
  obtain ⟨o, ho, h⟩ := h
  exact ⟨o, he.obj ho, h⟩

/-- New tensors `rs` recorded for differentiation were allocated, nothing else changed. -/
structure Allocated (w w' : World α) (rs : List Ref) : Prop where
  ext : Ext w w'
  valid : w'.Valid
  leaves : w'.leaves = w.leaves
  nodup : rs.Nodup
  range : ∀ r ∈ rs, w.objs.length ≤ r ∧ r < w'.objs.length
  leafy : ∀ r ∈ rs, Leafy w' r

theorem Allocated.nil {w : World α} (hv : w.Valid) : Allocated w w [] :=
  ⟨Ext.refl w, hv, rfl, .nil, by simp, by simp⟩

theorem Allocated.append {w w₁ w₂ : World α} {rs rs' : List Ref} (h₁ : Allocated w w₁ rs) (h₂ : Allocated w₁ w₂ rs') :
    Allocated w w₂ (rs ++ rs') := by
  refine ⟨h₁.ext.trans h₂.ext, h₂.valid, h₂.leaves.trans h₁.leaves, ?_, ?_, ?_⟩
  · rw [List.nodup_append]
    refine ⟨h₁.nodup, h₂.nodup, fun a ha b hb e => ?_⟩
    subst e
    exact absurd (h₂.range _ hb).1 (Nat.not_le.2 (h₁.range _ ha).2)
  · intro r hr
    have e1 := h₁.ext.objs.length_le
    have e2 := h₂.ext.objs.length_le
    rcases List.mem_append.1 hr with hr | hr
    · exact ⟨(h₁.range r hr).1, Nat.lt_of_lt_of_le (h₁.range r hr).2 e2⟩
    · exact ⟨Nat.le_trans e1 (h₂.range r hr).1, (h₂.range r hr).2⟩
  · intro r hr
    rcases List.mem_append.1 hr with hr | hr
    · exact (h₁.leafy r hr).ext h₂.ext
    · exact h₂.leafy r hr

theorem alloc_allocated {w : World α} (hv : w.Valid) (dev dt : String) (v : α) :
    ∃ w', allocT dev dt true false v w = (.ok w.objs.length, w') ∧ Allocated w w' [w.objs.length] := by
  refine ⟨_, rfl, extend_ext w ⟨w.stores.length, dev, dt, true, false⟩ v, extend_valid hv _ v rfl, rfl, by simp, ?_, ?_⟩
  · intro r hr
    rw [List.mem_singleton] at hr
    subst hr
    simp
  · intro r hr
    rw [List.mem_singleton] at hr
    subst hr
    exact ⟨⟨w.stores.length, dev, dt, true, false⟩, by simp, rfl, rfl⟩

theorem controlRow_spec (like : α → α) : ∀ (cs : List Ref) {w : World α}, w.Valid → (∀ r ∈ cs, r < w.objs.length) →
    ∃ rs w', controlRow like (cs.map some) w = (.ok rs, w') ∧ Allocated w w' rs ∧ rs.length = cs.length
  | [], w, hv, _ => ⟨[], w, rfl, Allocated.nil hv, rfl⟩
  | r :: cs, w, hv, hl => by
    obtain ⟨o, v, ho, hrd⟩ := hv.read_lt (hl r (by simp))
    obtain ⟨w₁, h₁, a₁⟩ := alloc_allocated hv o.device o.dtype (like v)
    obtain ⟨rs, w₂, h₂, a₂, hlen⟩ := controlRow_spec like cs a₁.valid fun r' hr' => a₁.ext.lt (hl r' (by simp [hr']))
    refine ⟨w.objs.length :: rs, w₂, ?_, a₁.append a₂, by simp [hlen]⟩
    simp [controlRow, Prog.bind_run, getObj, readT, ho, hrd, h₁, h₂]

theorem controlRows_spec (like : α → α) (cs : List Ref) : ∀ (k : Nat) {w : World α}, w.Valid → (∀ r ∈ cs, r < w.objs.length) →
    ∃ rs w', controlRows like (cs.map some) k w = (.ok rs, w') ∧ Allocated w w' rs.flatten ∧ rs.length = k ∧ ∀ row ∈ rs, row.length = cs.length
  | 0, w, hv, _ => ⟨[], w, rfl, Allocated.nil hv, rfl, by simp⟩
  | k + 1, w, hv, hl => by
    obtain ⟨r, w₁, h₁, a₁, l₁⟩ := controlRow_spec like cs hv hl
    obtain ⟨rs, w₂, h₂, a₂, hlen, hrow⟩ := controlRows_spec like cs k a₁.valid fun r' hr' => a₁.ext.lt (hl r' hr')
    refine ⟨r :: rs, w₂, by simp [controlRows, Prog.bind_run, h₁, h₂], by simpa using a₁.append a₂, by simp [hlen], ?_⟩
    intro row hrow'
    rcases List.mem_cons.1 hrow' with rfl | hrow'
    · exact l₁
    · exact hrow row hrow'

theorem Allocated.kept {w w' : World α} {rs : List Ref} (h : Allocated w w' rs) : Kept w w' := ⟨h.ext, h.valid, by rw [h.leaves]; exact List.prefix_refl _⟩

theorem Allocated.own {w w' : World α} {rs : List Ref} (h : Allocated w w' rs) : Own w.objs.length w' (fun _ => False) rs :=
  ⟨fun _ h => h.elim, fun _ h => h.elim, fun _ h => h.elim, fun _ _ h => h.elim, h.nodup, h.range, fun _ _ _ h => h.elim⟩

theorem idsList_append (A B : List Man) : Man.ids.idsList (A ++ B) = Man.ids.idsList A ++ Man.ids.idsList B := by
  induction A with
  | nil => rfl
  | cons a A ih => simp [Man.ids.idsList, ih]

theorem pair_plain {R : Nat → Nat → Prop} {ms ms' : List Man} (h : List.Forall₂ (PairR R) ms ms') : ∀ m ∈ ms', m.Plain := by
  induction h with
  | nil => simp
  | cons h _ ih =>
    intro m hm
    rcases List.mem_cons.1 hm with rfl | hm
    · rcases h with ⟨-, rfl⟩ | ⟨i, j, -, rfl, -⟩ <;> trivial
    · exact ih m hm

theorem pair_imp {R R' : Nat → Nat → Prop} {ms ms' : List Man} (h : List.Forall₂ (PairR R) ms ms')
    (hR : ∀ i ∈ Man.ids.idsList ms, ∀ j ∈ Man.ids.idsList ms', R i j → R' i j) : List.Forall₂ (PairR R') ms ms' := by
  induction h with
  | nil => exact .nil
  | cons h _ ih =>
    refine .cons ?_ (ih fun i hi j hj => hR i (by simp [Man.ids.idsList, hi]) j (by simp [Man.ids.idsList, hj]))
    rcases h with h | ⟨i, j, rfl, rfl, h⟩
    · exact Or.inl h
    · exact Or.inr ⟨i, j, rfl, rfl, hR i (by simp [Man.ids.idsList, Man.ids]) j (by simp [Man.ids.idsList, Man.ids]) h⟩

theorem unrollList_flatMap (w : World α) (f : Fam) (ms : List Man) :
    Man.unroll.unrollList w f ms = (Man.ids.idsList ms).flatMap fun i => w.at (i, f) := by
  rw [Man.unrollList_eq, List.flatMap_def]
  rfl

/-- The caller's objects: they exist and hold, in every family, the number of tensors they are made
for, at least one, of one device and dtype. -/
def Usable (w : World α) (ms : List Man) : Prop := (∀ m ∈ ms, m.Plain) ∧ ∀ f, Ready w (w.held f) (Man.ids.idsList ms)

theorem Usable.clonable {w : World α} {ms : List Man} (h : Usable w ms) : ∀ i ∈ Man.ids.idsList ms, Clonable w i := by
  intro i hi
  obtain ⟨l, hl, -⟩ := h.2 .gd i hi
  refine ⟨l, hl, fun g => ?_⟩
  obtain ⟨l', hl', -, h3, h4⟩ := h.2 g i hi
  rw [hl] at hl'
  cases hl'
  simp only [World.held, hl] at h3 h4
  exact ⟨h4, h3⟩

/-- A copy `j` of object `i`: the same values in all three families, tensors of one kind, and the
same number of them. -/
structure CopyOf (w w' : World α) (i j : Nat) : Prop where
  vals : ∀ f, w'.heldVals f j = w.heldVals f i
  kind : ∀ f, SameKind w' (w'.held f j)
  shapes : ∀ l, w.leaves[i]? = some l → ∃ l', w'.leaves[j]? = some l' ∧ ∀ g, (l'.tc g).shapes = (l.tc g).shapes

/-- What `RegistrationModel.__init__` has done before it computes the parameters. -/
structure Prepared (w w' : World α) (L init : List Man) (rows : List Ref) : Prop where
  ext : Ext w w'
  valid : w'.Valid
  keep : ∀ i f, i < w.leaves.length → w'.held f i = w.held f i
  shapes : ∀ (i : Nat) (l : Leaf), w.leaves[i]? = some l → ∃ l', w'.leaves[i]? = some l' ∧ ∀ g, (l'.tc g).shapes = (l.tc g).shapes
  pairs : List.Forall₂ (PairR (CopyOf w w')) L init
  nodup : (Man.ids.idsList init).Nodup
  range : ∀ j ∈ Man.ids.idsList init, w.leaves.length ≤ j ∧ j < w'.leaves.length
  own : Own w.objs.length w' (slotsOf (Man.ids.idsList init)) rows
  leafy : ∀ r ∈ rows, Leafy w' r
  cotan : ∀ j ∈ Man.ids.idsList init, ∀ r ∈ w'.held .cotan j, Leafy w' r
  gd : ∀ j ∈ Man.ids.idsList init, ∀ r ∈ w'.held .gd j, ∃ o, w'.objs[r]? = some o ∧ o.requiresGrad = false
  sep : Sep w' (slotsOf (Man.ids.idsList init))
  place : ∀ s, slotsOf (Man.ids.idsList init) s → ∀ r ∈ w'.held s.2 s.1, Placed (w.stores.length ≤ ·) w' r

/-- The part of the parameters that are controls. -/
def controlsPart (fit : Option ((α → α) × Nat)) (rows : List (List Ref)) : Option (List (List Ref)) := fit.map fun _ => rows

theorem new_prepared {w : World α} (hv : w.Valid) {Ds ms : List Man} (hD : Usable w Ds) (hM : Usable w ms) {cs : List Ref}
    (hcs : ∀ r ∈ cs, r < w.objs.length) (fit : Option ((α → α) × Nat)) (fitGd : FitArg) (others : Dict String (List Ref)) :
    ∃ (M : ParamModel) (rows : List (List Ref)) (w' : World α), Prepared w w' (Ds ++ ms) M.init rows.flatten ∧
      M.deformables = Ds.length ∧ M.fitGd = fitGd ∧ M.others = others ∧ M.controls = controlsPart fit rows ∧
      rows.length = (fit.elim 0 fun p => p.2) ∧ (∀ row ∈ rows, row.length = cs.length) ∧
      ParamModel.new Ds ms (cs.map some) fit fitGd others w = (do
        let d ← computeParameters M
        pure (M, d) : PM α (ParamModel × Dict String (List Ref))) w' := by
  have hctrl : ∃ rows w₁, newControls (cs.map some) fit w = (.ok (controlsPart fit rows), w₁) ∧ Allocated w w₁ rows.flatten ∧
        rows.length = (fit.elim 0 fun p => p.2) ∧ ∀ row ∈ rows, row.length = cs.length := by
    cases fit with
    | none => exact ⟨[], w, rfl, by simpa using Allocated.nil hv, rfl, by simp⟩
    | some p =>
      obtain ⟨rows, w₁, h, a, hl, hrow⟩ := controlRows_spec p.1 cs p.2 hv hcs
      exact ⟨rows, w₁, by simp [newControls, Prog.bind_run, h, controlsPart], a, hl, hrow⟩
  obtain ⟨rows, w₁, h₁, a₁, hrl, hrow⟩ := hctrl
  have hn₁ := a₁.ext.objs.length_le
  obtain ⟨Ds', w₂, h₂, k₂, p₂, nd₂, b₂, o₂, s₂, q₂⟩ := cloneList_own (n := w.objs.length) false Ds w₁ a₁.valid hD.1
    (fun i hi => (hD.clonable i hi).kept a₁.kept) hn₁
  have hn₂ := Nat.le_trans hn₁ k₂.ext.objs.length_le
  obtain ⟨ms', w₃, h₃, k₃, p₃, nd₃, b₃, o₃, s₃, q₃⟩ := cloneList_own (n := w.objs.length) false ms w₂ k₂.valid hM.1
    (fun i hi => ((hM.clonable i hi).kept a₁.kept).kept k₂) hn₂
  have hn₃ := Nat.le_trans hn₂ k₃.ext.objs.length_le
  have hids : ∀ j ∈ Man.ids.idsList (Ds' ++ ms'), w.leaves.length ≤ j ∧ j < w₃.leaves.length := fun j hj => by
    rw [idsList_append, List.mem_append] at hj
    have e1 : w₁.leaves.length = w.leaves.length := by rw [a₁.leaves]
    have e2 := k₂.leaves.length_le
    have e3 := k₃.leaves.length_le
    rcases hj with hj | hj
    · have := b₂ j hj; omega
    · have := b₃ j hj; omega
  have hpl : ∀ m ∈ Ds' ++ ms', m.Plain := fun m hm => by
    rcases List.mem_append.1 hm with hm | hm
    · exact pair_plain p₂ m hm
    · exact pair_plain p₃ m hm
  obtain ⟨w₄, h₄, r₄⟩ := recordCotans_spec (Ds' ++ ms') hpl k₃.valid fun j hj => (hids j hj).2
  have lower : ∀ s : Slot, s.1 < w.leaves.length → w₄.at s = w₃.at s := fun s hs => r₄.keep s fun h => by
    have := (hids s.1 h.1).1; omega
  have leafs : ∀ i l, i < w.leaves.length → w.leaves[i]? = some l → w₂.leaves[i]? = some l := fun i l _ hl =>
    prefix_getElem? k₂.leaves (by rw [a₁.leaves]; exact hl)
  have hlt : ∀ {ms : List Man}, Usable w ms → ∀ i ∈ Man.ids.idsList ms, i < w.leaves.length := fun h i hi => (h.clonable i hi).lt
  refine ⟨⟨Ds.length, Ds' ++ ms', fitGd, controlsPart fit rows, others⟩, rows, w₄, ⟨?_, r₄.valid, ?_, ?_, ?_, ?_, ?_, ?_, ?_, ?_, ?_, ?_, ?_⟩, rfl, rfl, rfl, rfl,
    hrl, hrow, ?_⟩
  · exact ((a₁.ext.trans k₂.ext).trans k₃.ext).trans r₄.ext
  · intro i f hi
    have e1 : w₁.leaves.length = w.leaves.length := by rw [a₁.leaves]
    refine (lower (i, f) hi).trans ?_
    exact ((k₂.trans k₃).held (by omega) f).trans (by unfold World.held; rw [a₁.leaves])
  · intro i l hl
    exact r₄.shapes i l (prefix_getElem? k₃.leaves (leafs i l (List.getElem?_eq_some_iff.1 hl).1 hl))
  · refine List.rel_append ?_ ?_
    · refine pair_imp p₂ fun i hi j hj hc => ?_
      have hil := hlt hD i hi
      have hc' := hc.kept_right k₃ k₂.valid
      refine ⟨fun f => ?_, fun f => r₄.kind f j (hc'.kind f), fun l hl => ?_⟩
      · rw [r₄.vals, hc'.vals f, a₁.kept.heldVals hv hil]
      · obtain ⟨l', hl', e⟩ := hc'.shapes l (by rw [a₁.leaves]; exact hl)
        obtain ⟨l'', hl'', e'⟩ := r₄.shapes j l' hl'
        exact ⟨l'', hl'', fun g => (e' g).trans (e g)⟩
    · refine pair_imp p₃ fun i hi j hj hc => ?_
      have hil := hlt hM i hi
      refine ⟨fun f => ?_, fun f => r₄.kind f j (hc.kind f), fun l hl => ?_⟩
      · rw [r₄.vals, hc.vals f, (a₁.kept.trans k₂).heldVals hv hil]
      · obtain ⟨l', hl', e⟩ := hc.shapes l (leafs i l hil hl)
        obtain ⟨l'', hl'', e'⟩ := r₄.shapes j l' hl'
        exact ⟨l'', hl'', fun g => (e' g).trans (e g)⟩
  · dsimp only
    rw [idsList_append, List.nodup_append]
    refine ⟨nd₂, nd₃, fun a ha b hb e => ?_⟩
    have := (b₂ a ha).2
    have := (b₃ b hb).1
    omega
  · intro j hj
    rw [r₄.len]
    exact hids j hj
  · refine (r₄.own _ _ _ hn₃ (o₃ _ _ (o₂ _ _ a₁.own))).mono fun s hs => ?_
    simp only [slotsOf, idsList_append, List.mem_append] at hs ⊢
    tauto
  · intro r hr
    exact (a₁.leafy r hr).ext ((k₂.ext.trans k₃.ext).trans r₄.ext)
  · intro j hj r hr
    exact r₄.flags (j, .cotan) ⟨hj, rfl⟩ r hr
  · intro j hj r hr
    have hkeep := r₄.keep (j, .gd) (by simp)
    unfold World.at at hkeep
    dsimp only at hkeep hj
    rw [hkeep] at hr
    have key : ∀ {w₀ w₁ : World α} {A A' : List Man}, List.Forall₂ (PairR (Cloned w₀ w₁ false)) A A' → j ∈ Man.ids.idsList A' →
        ∃ i, Cloned w₀ w₁ false i j := fun {w₀ w₁ A A'} h hj => by
      induction h with
      | nil => simp [Man.ids.idsList] at hj
      | cons h _ ih =>
        rw [Man.ids.idsList, List.mem_append] at hj
        rcases hj with hj | hj
        · rcases h with ⟨-, rfl⟩ | ⟨i', j', -, rfl, h⟩
          · simp [Man.ids] at hj
          · simp only [Man.ids, List.mem_singleton] at hj
            subst hj
            exact ⟨i', h⟩
        · exact ih hj
    rw [idsList_append, List.mem_append] at hj
    rcases hj with hj | hj
    · obtain ⟨i, hc⟩ := key p₂ hj
      obtain ⟨o, ho, hb, -⟩ := (hc.kept_right k₃ k₂.valid).flags .gd r hr
      exact ⟨o, r₄.ext.obj ho, hb⟩
    · obtain ⟨i, hc⟩ := key p₃ hj
      obtain ⟨o, ho, hb, -⟩ := hc.flags .gd r hr
      exact ⟨o, r₄.ext.obj ho, hb⟩
  · refine r₄.sep ((Sep.union (S := slotsOf (Man.ids.idsList Ds')) (S' := slotsOf (Man.ids.idsList ms')) ?_ s₃ w₂.stores.length ?_ q₃).mono fun s hs => ?_)
    · exact s₂.ext k₃.ext fun s hs => k₃.held (b₂ s.1 hs).2 s.2
    · intro s hs r hr
      rw [k₃.held (b₂ s.1 hs).2] at hr
      exact (held_placed k₂.valid _ _ r hr).ext k₃.ext
    · simpa [slotsOf, idsList_append] using hs
  · intro s hs
    refine r₄.place _ _ _ fun r hr => ?_
    simp only [slotsOf, idsList_append, List.mem_append] at hs
    rcases hs with hs | hs
    · rw [k₃.held (b₂ s.1 hs).2] at hr
      exact ((q₂ s hs r hr).mono fun k hk => Nat.le_trans a₁.ext.stores.length_le hk).ext k₃.ext
    · exact (q₃ s hs r hr).mono fun k hk => Nat.le_trans (a₁.ext.trans k₂.ext).stores.length_le hk
  · unfold ParamModel.new
    rw [Prog.bind_run, h₁]
    dsimp only
    rw [Prog.bind_run, h₂]
    dsimp only
    rw [Prog.bind_run, h₃]
    dsimp only
    rw [Prog.bind_run, h₄]


/-- The parameter groups: the costates, the descriptors (if any were asked for), the controls (if
they are optimised), in this order. -/
def groups (cotan : List Ref) (gd controls : Option (List Ref)) : Dict String (List Ref) :=
  ("cotan", cotan) :: ((gd.map fun l => ("gd", l)).toList ++ (controls.map fun l => ("controls", l)).toList)

theorem groups_get (cotan : List Ref) (gd controls : Option (List Ref)) :
    (groups cotan gd controls).get? "cotan" = some cotan ∧ (groups cotan gd controls).get? "gd" = gd ∧
      (groups cotan gd controls).get? "controls" = controls ∧
      ∀ k, k ≠ "cotan" → k ≠ "gd" → k ≠ "controls" → (groups cotan gd controls).get? k = none := by
  cases gd <;> cases controls <;> simp [groups, Dict.get?] <;> (intros; simp_all [eq_comm])

/-- Before `other_parameters` the groups are the three of `groups`. -/
theorem computeParameters_run {M : ParamModel} {w w' : World α} {gd : Option (List Ref)} (h : fitTensors M w = (.ok gd, w')) :
    computeParameters M w = (.ok (M.others.foldl (fun d e => d.set e.1 e.2)
      (groups (Man.unroll.unrollList w .cotan M.init) gd (M.controls.map List.flatten))), w') := by
  simp only [computeParameters, Prog.bind_run, Prog.get_run, h]
  cases gd <;> cases hc : M.controls <;> simp [groups, Dict.set]

/-- The descriptors that were asked for, one flag per module: none without flags. -/
def wantedGd (w : World α) (bs : List Bool) (ms : List Man) : Option (List Ref) :=
  if bs = [] then none else some ((flaggedIds bs ms).flatMap fun i => w.held .gd i)

theorem fitTensors_spec {M : ParamModel} {bs : List Bool} (hb : M.fitGd = .list (bs.map .flag)) {w : World α} (hv : w.Valid)
    (hp : ∀ m ∈ M.init.drop M.deformables, m.Plain) (hnd : (Man.ids.idsList (M.init.drop M.deformables)).Nodup)
    (hl : ∀ i ∈ Man.ids.idsList (M.init.drop M.deformables), i < w.leaves.length) :
    ∃ w', fitTensors M w = (.ok (wantedGd w' bs (M.init.drop M.deformables)), w') ∧
      Recorded w w' (fun s => s.1 ∈ flaggedIds bs (M.init.drop M.deformables) ∧ s.2 = .gd) := by
  cases bs with
  | nil =>
    refine ⟨w, ?_, (Recorded.refl hv).congr fun s => by simp [flaggedIds]⟩
    simp [fitTensors, hb, wantedGd]
  | cons b bs =>
    obtain ⟨rs, w', h, r, e⟩ := fitLoop_spec (b :: bs) _ hp hnd hv hl
    refine ⟨w', ?_, r⟩
    simp only [fitTensors, hb, List.map_cons] at h ⊢
    simp only [Prog.bind_run, h, wantedGd]
    simp [e, World.at]

/-- Every parameter of every group. -/
def allParams (P : Dict String (List Ref)) : List Ref := P.flatMap fun e => e.2

theorem nodup_append_of {A B : List Ref} (h : A.Nodup) (h' : B.Nodup) (hd : ∀ r ∈ A, r ∉ B) : (A ++ B).Nodup :=
  List.nodup_append.2 ⟨h, h', fun a ha b hb e => hd a ha (e ▸ hb)⟩

theorem own_groups {n : Nat} {w : World α} {ids fl : List Nat} {cs : List Ref} (h : Own n w (slotsOf ids) cs) (hnd : ids.Nodup)
    (hfl : fl.Sublist ids) {gd controls : Option (List Ref)} (hgd : gd = none ∨ gd = some (fl.flatMap fun i => w.held .gd i))
    (hc : controls = none ∨ controls = some cs) :
    (allParams (groups (ids.flatMap fun i => w.held .cotan i) gd controls)).Nodup ∧
      ∀ r ∈ allParams (groups (ids.flatMap fun i => w.held .cotan i) gd controls), n ≤ r := by
  have hcot : (ids.flatMap fun i => w.held .cotan i) = (ids.map fun i => ((i, Fam.cotan) : Slot)).flatMap w.at := by
    simp [List.flatMap_map, World.at]
  have hg : (fl.flatMap fun i => w.held .gd i) = (fl.map fun i => ((i, Fam.gd) : Slot)).flatMap w.at := by
    simp [List.flatMap_map, World.at]
  have hall : ∀ s ∈ (ids.map fun i => ((i, Fam.cotan) : Slot)) ++ (fl.map fun i => ((i, Fam.gd) : Slot)), slotsOf ids s := by
    intro s hs
    simp only [List.mem_append, List.mem_map] at hs
    rcases hs with ⟨i, hi, rfl⟩ | ⟨i, hi, rfl⟩
    · exact hi
    · exact hfl.subset hi
  have nd1 : ((ids.map fun i => ((i, Fam.cotan) : Slot)) ++ (fl.map fun i => ((i, Fam.gd) : Slot))).Nodup := by
    refine List.nodup_append.2 ⟨List.Pairwise.map (fun i => ((i, Fam.cotan) : Slot)) (fun a b hab e => hab (Prod.ext_iff.1 e).1) hnd,
      List.Pairwise.map (fun i => ((i, Fam.gd) : Slot)) (fun a b hab e => hab (Prod.ext_iff.1 e).1) (hfl.nodup hnd), ?_⟩
    intro a ha b hb e
    simp only [List.mem_map] at ha hb
    obtain ⟨i, -, rfl⟩ := ha
    obtain ⟨j, -, rfl⟩ := hb
    simp at e
  have ndB := own_flatMap h _ nd1 hall
  rw [List.flatMap_append, ← hcot, ← hg] at ndB
  have rng : ∀ r ∈ (ids.flatMap fun i => w.held .cotan i) ++ (fl.flatMap fun i => w.held .gd i), n ≤ r ∧ r ∉ cs := by
    intro r hr
    rw [hcot, hg, ← List.flatMap_append] at hr
    obtain ⟨s, hs, hr⟩ := List.mem_flatMap.1 hr
    exact ⟨(h.range s (hall s hs) r hr).1, fun hc => h.csApart r hc s (hall s hs) hr⟩
  have ndC := h.csNodup
  have full : ((ids.flatMap fun i => w.held .cotan i) ++ (fl.flatMap fun i => w.held .gd i) ++ cs).Nodup :=
    nodup_append_of ndB ndC fun r hr => (rng r hr).2
  have sub : (allParams (groups (ids.flatMap fun i => w.held .cotan i) gd controls)).Sublist
      ((ids.flatMap fun i => w.held .cotan i) ++ (fl.flatMap fun i => w.held .gd i) ++ cs) := by
    rw [List.append_assoc]
    unfold allParams groups
    rw [List.flatMap_cons, List.flatMap_append]
    refine (List.Sublist.refl _).append (List.Sublist.append ?_ ?_)
    · rcases hgd with rfl | rfl <;> simp
    · rcases hc with rfl | rfl <;> simp
  refine ⟨sub.nodup full, fun r hr => ?_⟩
  rcases List.mem_append.1 (sub.subset hr) with hr | hr
  · exact (rng r hr).1
  · exact (h.csRange r hr).1

/-- What the theorem says of a new model `M` with parameters `P`, in terms of the tensors. -/
structure ParamsOf (w w' : World α) (Ds ms : List Man) (cs : List Ref) (fit : Option ((α → α) × Nat)) (bs : List Bool) (M : ParamModel)
    (P : Dict String (List Ref)) : Prop where
  /-- the model has its own copies, with the values of the given objects, … -/
  copies : List.Forall₂ (PairR (CopyOf w w')) (Ds ++ ms) M.init
  /-- … and the given objects still hold the tensors they held. -/
  given : ∀ (i : Nat) (l : Leaf), w.leaves[i]? = some l →
    ∃ l', w'.leaves[i]? = some l' ∧ ∀ f, (l'.tc f).shapes = (l.tc f).shapes ∧ (l'.tc f).tensors = (l.tc f).tensors
  objects : ∀ j ∈ Man.ids.idsList M.init, w.leaves.length ≤ j
  count : M.deformables = Ds.length
  ext : Ext w w'
  cotan : P.get? "cotan" = some (Man.unroll.unrollList w' .cotan M.init)
  gd : P.get? "gd" = wantedGd w' bs (M.init.drop Ds.length)
  controls : ∃ rows, M.controls = controlsPart fit rows ∧ rows.length = (fit.elim 0 fun p => p.2) ∧
    (∀ row ∈ rows, row.length = cs.length) ∧ P.get? "controls" = (controlsPart fit rows).map List.flatten
  only : ∀ k, k ≠ "cotan" → k ≠ "gd" → k ≠ "controls" → P.get? k = none
  once : (allParams P).Nodup
  fresh : ∀ r ∈ allParams P, w.objs.length ≤ r
  recorded : ∀ r ∈ allParams P, Leafy w' r

theorem C35_partial {w : World α} (hv : w.Valid) {Ds ms : List Man} (hD : Usable w Ds) (hM : Usable w ms) {cs : List Ref}
    (hcs : ∀ r ∈ cs, r < w.objs.length) (fit : Option ((α → α) × Nat)) (bs : List Bool) :
    ∃ (M : ParamModel) (P : Dict String (List Ref)) (w' : World α),
      ParamModel.new Ds ms (cs.map some) fit (.list (bs.map .flag)) [] w = (.ok (M, P), w') ∧ ParamsOf w w' Ds ms cs fit bs M P := by
  obtain ⟨M, rows, w₁, hP, hd, hb, ho, hc, hrl, hrow, hrun⟩ := new_prepared hv hD hM hcs fit (.list (bs.map .flag)) []
  have hsub : (Man.ids.idsList (M.init.drop M.deformables)).Sublist (Man.ids.idsList M.init) := by
    conv_rhs => rw [← List.take_append_drop M.deformables M.init, idsList_append]
    exact List.sublist_append_right _ _
  have hpl := pair_plain hP.pairs
  obtain ⟨w₂, h₂, r₂⟩ := fitTensors_spec hb hP.valid (fun m hm => hpl m (List.mem_of_mem_drop hm)) (hsub.nodup hP.nodup)
    fun i hi => (hP.range i (hsub.subset hi)).2
  have hrun₂ := computeParameters_run h₂
  rw [ho, List.foldl_nil] at hrun₂
  have hun : Man.unroll.unrollList w₁ .cotan M.init = Man.unroll.unrollList w₂ .cotan M.init := by
    rw [unrollList_flatMap, unrollList_flatMap]
    simp only [List.flatMap_def]
    congr 1
    exact List.map_congr_left fun i hi => (r₂.keep (i, .cotan) (by simp)).symm
  have hun' : Man.unroll.unrollList w₂ .cotan M.init = (Man.ids.idsList M.init).flatMap fun i => w₂.held .cotan i := unrollList_flatMap ..
  rw [hun] at hrun₂
  refine ⟨M, _, w₂, by rw [hrun, Prog.bind_run, hrun₂]; rfl, ?_⟩
  have hfl : (flaggedIds bs (M.init.drop M.deformables)).Sublist (Man.ids.idsList M.init) := (flaggedIds_sublist _ _).trans hsub
  obtain ⟨g1, g2, g3, g4⟩ := groups_get (Man.unroll.unrollList w₂ .cotan M.init) (wantedGd w₂ bs (M.init.drop M.deformables))
    (M.controls.map List.flatten)
  have hown : Own w.objs.length w₂ (slotsOf (Man.ids.idsList M.init)) rows.flatten :=
    (r₂.own _ _ _ hP.ext.objs.length_le hP.own).mono fun s hs => Or.inr hs
  have hgd : wantedGd w₂ bs (M.init.drop M.deformables) = none ∨ wantedGd w₂ bs (M.init.drop M.deformables) =
      some ((flaggedIds bs (M.init.drop M.deformables)).flatMap fun i => w₂.held .gd i) := by
    unfold wantedGd; split <;> simp
  have hct : M.controls.map List.flatten = none ∨ M.controls.map List.flatten = some rows.flatten := by
    rw [hc]; cases fit <;> simp [controlsPart]
  obtain ⟨o1, o2⟩ := own_groups hown hP.nodup hfl hgd hct
  rw [← hun'] at o1 o2
  refine ⟨?_, ?_, fun j hj => (hP.range j hj).1, hd, hP.ext.trans r₂.ext, g1, hd ▸ g2, ⟨rows, hc, hrl, hrow, ?_⟩, g4, o1, o2, ?_⟩
  · refine pair_imp hP.pairs fun i hi j hj h => ⟨fun f => (r₂.vals f j).trans (h.vals f), fun f => r₂.kind f j (h.kind f), fun l hl => ?_⟩
    obtain ⟨l', hl', e⟩ := h.shapes l hl
    obtain ⟨l'', hl'', e'⟩ := r₂.shapes j l' hl'
    exact ⟨l'', hl'', fun g => (e' g).trans (e g)⟩
  · intro i l hl
    have hi : i < w.leaves.length := (List.getElem?_eq_some_iff.1 hl).1
    obtain ⟨l₁, hl₁, e₁⟩ := hP.shapes i l hl
    obtain ⟨l₂, hl₂, e₂⟩ := r₂.shapes i l₁ hl₁
    refine ⟨l₂, hl₂, fun f => ⟨(e₂ f).trans (e₁ f), ?_⟩⟩
    have : w₂.held f i = w.held f i := by
      refine Eq.trans (r₂.keep (i, f) fun h => ?_) (hP.keep i f hi)
      have := (hP.range i (hfl.subset h.1)).1
      omega
    simpa [World.held, hl, hl₂] using this
  · rw [g3, hc]
  · intro r hr
    have : r ∈ Man.unroll.unrollList w₂ .cotan M.init ∨ r ∈ (flaggedIds bs (M.init.drop M.deformables)).flatMap (fun i => w₂.held .gd i) ∨
        r ∈ rows.flatten := by
      unfold allParams groups at hr
      rw [List.flatMap_cons, List.flatMap_append, List.mem_append, List.mem_append] at hr
      refine hr.imp id (Or.imp (fun h => ?_) fun h => ?_)
      · rcases hgd with e | e <;> rw [e] at h <;> simpa using h
      · rcases hct with e | e <;> rw [e] at h <;> simpa using h
    rcases this with h | h | h
    · rw [hun', List.mem_flatMap] at h
      obtain ⟨j, hj, h⟩ := h
      have hk : w₂.held .cotan j = w₁.held .cotan j := r₂.keep (j, .cotan) (by simp)
      rw [hk] at h
      exact (hP.cotan j hj r h).ext r₂.ext
    · obtain ⟨j, hj, h⟩ := List.mem_flatMap.1 h
      exact r₂.flags (j, .gd) ⟨hj, rfl⟩ r h
    · exact (hP.leafy r h).ext r₂.ext

/-! ## The tensors an evaluation works on -/

/-- Some slots were given the tensors `c`, the others keep theirs. -/
structure Loaded (c : Fam → Nat → List Ref) (F : Slot → Prop) (w w' : World α) : Prop where
  objs : w'.objs = w.objs
  stores : w'.stores = w.stores
  leaf : ∀ (i : Nat) (l : Leaf), w.leaves[i]? = some l → ∃ l', w'.leaves[i]? = some l' ∧
    (∀ g, (l'.tc g).shapes = (l.tc g).shapes) ∧ (∀ g, F (i, g) → (l'.tc g).tensors = c g i) ∧ ∀ g, ¬ F (i, g) → l'.tc g = l.tc g

theorem Loaded.refl (c : Fam → Nat → List Ref) (w : World α) : Loaded c (fun _ => False) w w :=
  ⟨rfl, rfl, fun _ l hl => ⟨l, hl, fun _ => rfl, fun _ h => h.elim, fun _ _ => rfl⟩⟩

theorem Loaded.trans {c : Fam → Nat → List Ref} {F₁ F₂ : Slot → Prop} {w w₁ w₂ : World α} (h₁ : Loaded c F₁ w w₁) (h₂ : Loaded c F₂ w₁ w₂) :
    Loaded c (fun s => F₁ s ∨ F₂ s) w w₂ := by
  classical
  refine ⟨h₂.objs.trans h₁.objs, h₂.stores.trans h₁.stores, fun i l hl => ?_⟩
  obtain ⟨l₁, hl₁, s₁, f₁, k₁⟩ := h₁.leaf i l hl
  obtain ⟨l₂, hl₂, s₂, f₂, k₂⟩ := h₂.leaf i l₁ hl₁
  refine ⟨l₂, hl₂, fun g => (s₂ g).trans (s₁ g), fun g hg => ?_, fun g hg => ?_⟩
  · by_cases h : F₂ (i, g)
    · exact f₂ g h
    · rw [k₂ g h]; exact f₁ g (hg.resolve_right h)
  · rw [k₂ g fun h => hg (Or.inr h), k₁ g fun h => hg (Or.inl h)]

theorem Loaded.congr {c : Fam → Nat → List Ref} {F F' : Slot → Prop} {w w' : World α} (h : Loaded c F w w') (e : ∀ s, F s ↔ F' s) :
    Loaded c F' w w' := by
  have : F = F' := funext fun s => propext (e s)
  rwa [← this]

theorem Filled.loaded {c : Fam → Nat → List Ref} {f : Fam} {ids : List Nat} {w w' : World α} (h : Filled (c f) f ids w w') :
    Loaded c (fun s => s.1 ∈ ids ∧ s.2 = f) w w' := by
  refine ⟨h.objs, h.stores, fun i l hl => ?_⟩
  obtain ⟨l', hl', h1, h2, h3, h4⟩ := h.lsome i l hl
  refine ⟨l', hl', h1, ?_, ?_⟩
  · rintro g ⟨hi, rfl⟩
    exact h3 hi
  · intro g hg
    by_cases e : g = f
    · rw [h4 fun hi => hg ⟨hi, e⟩]
    · exact h2 g e

theorem Loaded.ready {c : Fam → Nat → List Ref} {F : Slot → Prop} {w w' : World α} (h : Loaded c F w w') {d : Nat → List Ref} {ids : List Nat}
    (hr : Ready w d ids) : Ready w' d ids := by
  intro i hi
  obtain ⟨l, hl, hs, hpos, k⟩ := hr i hi
  obtain ⟨l', hl', hs', -⟩ := h.leaf i l hl
  refine ⟨l', hl', fun g => by rw [hs' g, hs g], hpos, ?_⟩
  obtain ⟨dv, t, hdt⟩ := k
  exact ⟨dv, t, fun r hr => by rw [h.objs]; exact hdt r hr⟩

/-- `copy=False` ignores the flag for differentiation. -/
theorem fill_plain_byRef (f : Fam) (m : Man) (hp : m.Plain) (a : Arg Ref) (b : Option Bool) :
    (Man.fill f ⟨false, b⟩ m a : PM α Unit) = Man.fill f byRef m a := by
  cases m with
  | empty => rfl
  | compound l => exact hp.elim
  | leaf i => rfl

/-- Copy `j` holds, in every family, the tensors `c` gives object `i`, as many as it is made for. -/
def Holds (c : Fam → Nat → List Ref) (w : World α) (i j : Nat) : Prop :=
  ∃ l, w.leaves[j]? = some l ∧ ∀ f, (l.tc f).tensors = c f i ∧ (l.tc f).shapes.length = (c f i).length ∧ 0 < (c f i).length

theorem get_leaf {c : Fam → Nat → List Ref} {w : World α} {i j : Nat} (h : Holds c w i j) (f : Fam) : Man.get w f (.leaf j) = Arg.ofRefs (c f i) := by
  obtain ⟨l, hl, h⟩ := h
  obtain ⟨h1, h2, h3⟩ := h f
  simp only [Man.get, hl, h1, h2]
  match hc : c f i, h3 with
  | [r], _ => simp [Arg.ofRefs]
  | r :: r' :: rs, _ => simp [Arg.ofRefs]

theorem get_pair {c : Fam → Nat → List Ref} {w : World α} {m m' : Man} (h : PairR (Holds c w) m m') (f : Fam) : m'.get w f = m.arg (c f) := by
  rcases h with ⟨rfl, rfl⟩ | ⟨i, j, rfl, rfl, h⟩
  · rfl
  · exact get_leaf h f

theorem getList_pair {c : Fam → Nat → List Ref} {w : World α} {ms ms' : List Man} (h : List.Forall₂ (PairR (Holds c w)) ms ms') (f : Fam) :
    Man.get.getList w f ms' = Man.arg.argList (c f) ms := by
  induction h with
  | nil => rfl
  | cons h _ ih => rw [Man.get.getList, Man.arg.argList, get_pair h, ih]

theorem Loaded.holds {c : Fam → Nat → List Ref} {F : Slot → Prop} {w w' : World α} (h : Loaded c F w w') {ms ms' : List Man}
    (hp : List.Forall₂ (PairR (Holds c w)) ms ms') (hF : ∀ j ∈ Man.ids.idsList ms', ∀ f, ¬ F (j, f)) :
    List.Forall₂ (PairR (Holds c w')) ms ms' := by
  refine pair_imp hp fun i _ j hj ⟨l, hl, e⟩ => ?_
  obtain ⟨l', hl', -, -, k⟩ := h.leaf j l hl
  exact ⟨l', hl', fun f => by rw [k f (hF j hj f)]; exact e f⟩

theorem fillFrom_spec {c : Fam → Nat → List Ref} {w : World α} {m m' : Man} (hp : PairR (Holds c w) m m') (hm : m.Plain)
    (hr : ∀ f, Ready w (c f) m.ids) (hd : ∀ j ∈ m'.ids, j ∉ m.ids) :
    ∃ w', m.fillFrom m' w = (.ok (), w') ∧ Loaded c (fun s => s.1 ∈ m.ids) w w' := by
  have step : ∀ (f : Fam) (w₁ : World α) (F : Slot → Prop), Loaded c F w w₁ → (∀ s, F s → s.1 ∈ m.ids) →
      ∃ w₂, Man.fill f ⟨false, some true⟩ m (m'.get w₁ f) w₁ = (.ok (), w₂) ∧ Loaded c (fun s => F s ∨ s.1 ∈ m.ids ∧ s.2 = f) w w₂ := by
    intro f w₁ F hl hF
    have hp₁ : PairR (Holds c w₁) m m' := by
      have := hl.holds (ms := [m]) (ms' := [m']) (.cons hp .nil) fun j hj g h => hd j (by simpa [Man.ids.idsList] using hj) (hF _ h)
      cases this with
      | cons h _ => exact h
    rw [fill_plain_byRef f m hm, get_pair hp₁]
    obtain ⟨w₂, h, hf⟩ := Man.fill_ready (c := c f) (f := f) m w₁ (hl.ready (hr f))
    exact ⟨w₂, h, hl.trans hf.loaded⟩
  obtain ⟨w₁, h₁, l₁⟩ := step .gd w _ (Loaded.refl c w) fun _ h => h.elim
  obtain ⟨w₂, h₂, l₂⟩ := step .tan w₁ _ l₁ fun s h => by tauto
  obtain ⟨w₃, h₃, l₃⟩ := step .cotan w₂ _ l₂ fun s h => by tauto
  refine ⟨w₃, by simp [Man.fillFrom, Prog.bind_run, h₁, h₂, h₃], l₃.congr fun s => ?_⟩
  constructor
  · tauto
  · intro h
    rcases hs : s.2 <;> tauto

theorem fillEach_spec {c : Fam → Nat → List Ref} : ∀ {Ds A : List Man} (B : List Man) {w : World α}, List.Forall₂ (PairR (Holds c w)) Ds A →
    (∀ m ∈ Ds, m.Plain) → (∀ f, Ready w (c f) (Man.ids.idsList Ds)) → (∀ j ∈ Man.ids.idsList A, j ∉ Man.ids.idsList Ds) →
    ∃ w', fillEach Ds (A ++ B) w = (.ok (), w') ∧ Loaded c (fun s => s.1 ∈ Man.ids.idsList Ds) w w'
  | [], _, B, w, .nil, _, _, _ => ⟨w, rfl, (Loaded.refl c w).congr fun s => by simp [Man.ids.idsList]⟩
  | D :: Ds, m :: A, B, w, .cons h ht, hp, hr, hd => by
    obtain ⟨w₁, h₁, l₁⟩ := fillFrom_spec h (hp D (by simp)) (fun f => (hr f).mono fun i hi => by simp [Man.ids.idsList, hi]) fun j hj hj' =>
      hd j (by simp [Man.ids.idsList, hj]) (by simp [Man.ids.idsList, hj'])
    obtain ⟨w₂, h₂, l₂⟩ := fillEach_spec B (l₁.holds ht fun j hj f hj' => hd j (by simp [Man.ids.idsList, hj]) (by
      simp [Man.ids.idsList, hj'])) (fun m hm => hp m (by simp [hm])) (fun f => l₁.ready ((hr f).mono fun i hi => by simp [Man.ids.idsList, hi]))
      fun j hj hj' => hd j (by simp [Man.ids.idsList, hj]) (by simp [Man.ids.idsList, hj'])
    refine ⟨w₂, by simp [fillEach, Prog.bind_run, h₁, h₂], (l₁.trans l₂).congr fun s => ?_⟩
    simp [Man.ids.idsList]

theorem load_spec {c : Fam → Nat → List Ref} {Ds ms A B : List Man} {w : World α} {M : ParamModel} (hi : M.init = A ++ B) (hn : M.deformables = A.length)
    (hD : List.Forall₂ (PairR (Holds c w)) Ds A) (hM : List.Forall₂ (PairR (Holds c w)) ms B) (hp : ∀ m ∈ Ds ++ ms, m.Plain)
    (hr : ∀ f, Ready w (c f) (Man.ids.idsList (Ds ++ ms)))
    (hd : ∀ j ∈ Man.ids.idsList (A ++ B), j ∉ Man.ids.idsList (Ds ++ ms)) :
    ∃ w', M.load Ds ms w = (.ok (), w') ∧
      Loaded c (fun s => s.1 ∈ Man.ids.idsList Ds ∨ s.1 ∈ Man.ids.idsList ms ∧ s.2 ≠ .tan) w w' := by
  rw [idsList_append] at hd
  simp only [idsList_append, List.mem_append] at hr hd
  have hrM : ∀ f, Ready w (c f) (Man.ids (.compound ms)) := fun f => (hr f).mono fun i hi => by
    simp only [Man.ids] at hi; simp [hi]
  have hdrop : M.init.drop M.deformables = B := by rw [hi, hn]; simp
  obtain ⟨w₁, h₁, f₁⟩ := Man.fill_ready (c := c .gd) (f := .gd) (.compound ms) w (hrM .gd)
  have l₁ := f₁.loaded
  have hM₁ := l₁.holds hM fun j hj f hj' => hd j (Or.inr hj) (Or.inr (by simpa [Man.ids] using hj'.1))
  obtain ⟨w₂, h₂, f₂⟩ := Man.fill_ready (c := c .cotan) (f := .cotan) (.compound ms) w₁ (l₁.ready (hrM .cotan))
  have l₂ := l₁.trans f₂.loaded
  have hD₂ := l₂.holds hD fun j hj f hj' => hd j (Or.inl hj) (Or.inr (by
    simp only [Man.ids] at hj'
    tauto))
  obtain ⟨w₃, h₃, l₃⟩ := fillEach_spec B hD₂ (fun m hm => hp m (by simp [hm])) (fun f => l₂.ready ((hr f).mono fun i hi => by simp [hi]))
    fun j hj hj' => hd j (Or.inl hj) (Or.inl hj')
  refine ⟨w₃, ?_, (l₂.trans l₃).congr fun s => ?_⟩
  · simp only [ParamModel.load, Prog.bind_run, Prog.get_run, hdrop]
    rw [getList_pair hM]
    simp only [Man.arg, byRef] at h₁ h₂
    rw [h₁]
    dsimp only
    rw [getList_pair hM₁, h₂]
    dsimp only
    rw [hi, h₃]
  · simp only [Man.ids]
    rcases hs : s.2 <;> simp <;> tauto

/-- The copy of each object. -/
def partner : List Man → List Man → Nat → Nat
  | .leaf i :: ms, .leaf j :: ms', k => if k = i then j else partner ms ms' k
  | _ :: ms, _ :: ms', k => partner ms ms' k
  | _, _, _ => 0

theorem partner_spec {R : Nat → Nat → Prop} {ms ms' : List Man} (h : List.Forall₂ (PairR R) ms ms') (hn : (Man.ids.idsList ms).Nodup) :
    List.Forall₂ (PairR fun i j => partner ms ms' i = j ∧ R i j) ms ms' := by
  induction h with
  | nil => exact .nil
  | @cons m m' ms ms' h ht ih =>
    rw [Man.ids.idsList, List.nodup_append] at hn
    rcases h with ⟨rfl, rfl⟩ | ⟨i, j, rfl, rfl, h⟩
    · refine .cons (Or.inl ⟨rfl, rfl⟩) ?_
      simpa [partner] using ih hn.2.1
    · refine .cons (Or.inr ⟨i, j, rfl, rfl, by simp [partner], h⟩) (pair_imp (ih hn.2.1) fun i' hi' j' _ e => ⟨?_, e.2⟩)
      have : i' ≠ i := fun e => hn.2.2 i (by simp [Man.ids]) i' hi' e.symm
      simpa [partner, this] using e.1

theorem forall₂_append_left {R : Man → Man → Prop} : ∀ {A B l : List Man}, List.Forall₂ R (A ++ B) l →
    ∃ l₁ l₂, l = l₁ ++ l₂ ∧ List.Forall₂ R A l₁ ∧ List.Forall₂ R B l₂
  | [], B, l, h => ⟨[], l, rfl, .nil, h⟩
  | a :: A, B, b :: l, .cons h ht => by
    obtain ⟨l₁, l₂, rfl, h1, h2⟩ := forall₂_append_left ht
    exact ⟨b :: l₁, l₂, rfl, .cons h h1, h2⟩

/-- An evaluation works on the model's tensors themselves: after it has put them in place, every
deformable and module object holds the very descriptors and costates of its copy in the model, of
which the parameters are taken. -/
theorem C35_used {w : World α} (hv : w.Valid) {Ds ms : List Man} (hD : Usable w Ds) (hM : Usable w ms)
    (hnd : (Man.ids.idsList (Ds ++ ms)).Nodup) {cs : List Ref}
    (hcs : ∀ r ∈ cs, r < w.objs.length) (fit : Option ((α → α) × Nat)) (bs : List Bool) :
    ∃ (M : ParamModel) (P : Dict String (List Ref)) (w' w'' : World α),
      ParamModel.new Ds ms (cs.map some) fit (.list (bs.map .flag)) [] w = (.ok (M, P), w') ∧
      M.load Ds ms w' = (.ok (), w'') ∧ ParamsOf w w' Ds ms cs fit bs M P ∧
      w''.objs = w'.objs ∧ w''.stores = w'.stores ∧
      List.Forall₂ (PairR fun i j => w''.held .gd i = w'.held .gd j ∧ w''.held .cotan i = w'.held .cotan j ∧
        ∀ f, w''.held f j = w'.held f j) (Ds ++ ms) M.init := by
  obtain ⟨M, P, w', hrun, h⟩ := C35_partial hv hD hM hcs fit bs
  have hu : Usable w (Ds ++ ms) := ⟨fun m hm => (List.mem_append.1 hm).elim (hD.1 m) (hM.1 m), fun f i hi => by
    rw [idsList_append, List.mem_append] at hi
    exact hi.elim (hD.2 f i) (hM.2 f i)⟩
  let c : Fam → Nat → List Ref := fun f i => w'.held f (partner (Ds ++ ms) M.init i)
  have hc : List.Forall₂ (PairR fun i j => partner (Ds ++ ms) M.init i = j ∧ CopyOf w w' i j) (Ds ++ ms) M.init := partner_spec h.copies hnd
  have hlen : ∀ i ∈ Man.ids.idsList (Ds ++ ms), ∀ j, CopyOf w w' i j → ∀ f, ∃ l l', w.leaves[i]? = some l ∧ w'.leaves[j]? = some l' ∧
      (∀ g, (l.tc g).shapes.length = (w'.held f j).length ∧ (l'.tc g).shapes.length = (w'.held f j).length) ∧ 0 < (w'.held f j).length := by
    intro i hi j hj f
    obtain ⟨l, hl, h1, h2, -⟩ := hu.2 f i hi
    obtain ⟨l', hl', e⟩ := hj.shapes l hl
    have hlen : (w'.held f j).length = (w.held f i).length := by simpa [World.heldVals] using congrArg List.length (hj.vals f)
    refine ⟨l, l', hl, hl', fun g => ⟨(h1 g).trans hlen.symm, ?_⟩, hlen ▸ h2⟩
    rw [e g, h1 g, hlen]
  have hh : List.Forall₂ (PairR (Holds c w')) (Ds ++ ms) M.init := pair_imp hc fun i hi j _ ⟨e, hj⟩ => by
    obtain ⟨l, l', hl, hl', -⟩ := hlen i hi j hj .gd
    refine ⟨l', hl', fun f => ?_⟩
    obtain ⟨l₁, l₁', -, hl₁', h1, h2⟩ := hlen i hi j hj f
    rw [hl'] at hl₁'
    cases hl₁'
    simp only [c, e]
    refine ⟨by simp [World.held, hl'], (h1 f).2, h2⟩
  have hr : ∀ f, Ready w' (c f) (Man.ids.idsList (Ds ++ ms)) := by
    intro f i hi
    have key : ∀ {A A' : List Man}, List.Forall₂ (PairR fun i j => partner (Ds ++ ms) M.init i = j ∧ CopyOf w w' i j) A A' →
        i ∈ Man.ids.idsList A → CopyOf w w' i (partner (Ds ++ ms) M.init i) := fun {A A'} hA hi => by
      induction hA with
      | nil => simp [Man.ids.idsList] at hi
      | cons h _ ih =>
        rw [Man.ids.idsList, List.mem_append] at hi
        rcases hi with hi | hi
        · rcases h with ⟨rfl, -⟩ | ⟨i', j', rfl, -, h⟩
          · simp [Man.ids] at hi
          · simp only [Man.ids, List.mem_singleton] at hi
            subst hi
            rw [h.1]; exact h.2
        · exact ih hi
    have hj := key hc hi
    obtain ⟨l, l', hl, hl', h1, h2⟩ := hlen i hi _ hj f
    obtain ⟨l'', hl'', e⟩ := h.given i l hl
    exact ⟨l'', hl'', fun g => by rw [(e g).1]; exact (h1 g).1, h2, hj.kind f⟩
  obtain ⟨A, B, hAB, hA, hB⟩ := forall₂_append_left hh
  have hnA : M.deformables = A.length := by rw [h.count, hA.length_eq]
  have hdis : ∀ j ∈ Man.ids.idsList M.init, j ∉ Man.ids.idsList (Ds ++ ms) := fun j hj hj' =>
    absurd (h.objects j hj) (Nat.not_le.2 (hu.clonable j hj').lt)
  obtain ⟨w'', hload, hl⟩ := load_spec hAB hnA hA hB hu.1 hr (hAB ▸ hdis)
  refine ⟨M, P, w', w'', hrun, hload, h, hl.objs, hl.stores, pair_imp hc fun i hi j hj ⟨e, hcp⟩ => ?_⟩
  have hi' := hi
  rw [idsList_append, List.mem_append] at hi'
  obtain ⟨l, hli, -⟩ := hr .gd i hi
  obtain ⟨l₁, hl₁, -, f₁, -⟩ := hl.leaf i l hli
  obtain ⟨-, l', -, hl', -⟩ := hlen i hi j hcp .gd
  obtain ⟨l₂, hl₂, -, -, k₂⟩ := hl.leaf j l' hl'
  have hnot : ∀ f, ¬ ((j, f).1 ∈ Man.ids.idsList Ds ∨ (j, f).1 ∈ Man.ids.idsList ms ∧ (j, f).2 ≠ Fam.tan) := fun f hf => by
    have := hdis j hj
    rw [idsList_append, List.mem_append] at this
    tauto
  refine ⟨?_, ?_, fun f => ?_⟩
  · have := f₁ .gd (hi'.imp id fun h => ⟨h, by simp⟩)
    simp only [c, e] at this
    simpa [World.held, hl₁] using this
  · have := f₁ .cotan (hi'.imp id fun h => ⟨h, by simp⟩)
    simp only [c, e] at this
    simpa [World.held, hl₁] using this
  · have := k₂ f (hnot f)
    simp [World.held, hl₂, hl', this]

/-- A flag per tensor in `fit_gd` makes the optimiser vary tensors that are not recorded for
differentiation: no gradient ever reaches them. -/
theorem C35_per_tensor_disagreement {w : World α} (hv : w.Valid) {Ds : List Man} (hD : Usable w Ds) {i : Nat} (hM : Usable w [.leaf i]) (bs : List Bool) :
    ∃ (M : ParamModel) (P : Dict String (List Ref)) (w' : World α) (r : Ref) (rest : List Ref) (o : TObj),
      ParamModel.new Ds [.leaf i] [] none (.list [.tensors (true :: bs)]) [] w = (.ok (M, P), w') ∧ P.get? "gd" = some (r :: rest) ∧
        w'.objs[r]? = some o ∧ o.requiresGrad = false := by
  obtain ⟨M, rows, w₁, hP, hd, hb, ho, hc, -, -, hrun⟩ := new_prepared hv hD hM (cs := []) (by simp) none (.list [.tensors (true :: bs)]) []
  rw [List.map_nil] at hrun
  obtain ⟨A, B, hAB, hA, hB⟩ := forall₂_append_left hP.pairs
  have hdrop : M.init.drop M.deformables = B := by rw [hAB, hd, hA.length_eq]; simp
  obtain ⟨j, rfl, hcp⟩ : ∃ j, B = [.leaf j] ∧ CopyOf w w₁ i j := by
    match B, hB with
    | _ :: _, .cons h hn =>
      cases hn
      rcases h with ⟨h, -⟩ | ⟨i', j, h, rfl, hc⟩
      · cases h
      · cases h; exact ⟨j, rfl, hc⟩
  have hjm : j ∈ Man.ids.idsList M.init := by rw [hAB, idsList_append]; simp [Man.ids.idsList, Man.ids]
  obtain ⟨l, hl, -, hpos, -⟩ := hM.2 .gd i (by simp [Man.ids.idsList, Man.ids])
  have hlen : (w₁.held .gd j).length = (w.held .gd i).length := by simpa [World.heldVals] using congrArg List.length (hcp.vals .gd)
  match hh : w₁.held .gd j with
  | [] => rw [hh] at hlen; simp at hlen; omega
  | r :: rs =>
    obtain ⟨o, ho', hf⟩ := hP.gd j hjm r (by rw [hh]; simp)
    have hft : fitTensors M w₁ = (.ok (some (r :: selectTensors bs rs)), w₁) := by
      have hu : Man.unroll w₁ .gd (.leaf j) = r :: rs := by rw [unroll_plain]; simp [Man.ids, World.at, hh]
      simp [fitTensors, hb, hdrop, fitLoop, Prog.bind_run, hu, selectTensors]
    have hcp := computeParameters_run hft
    rw [ho, List.foldl_nil] at hcp
    exact ⟨M, _, w₁, r, selectTensors bs rs, o, by rw [hrun, Prog.bind_run, hcp]; rfl, (groups_get _ _ _).2.1, ho', hf⟩

/-- A single `fit_gd=True` for all modules raises. -/
theorem C35_single_flag_disagreement {w : World α} (hv : w.Valid) {Ds ms : List Man} (hD : Usable w Ds) (hM : Usable w ms) :
    ∃ w', ParamModel.new Ds ms [] none (.bool true) [] w = (.error .type, w') := by
  obtain ⟨M, rows, w₁, hP, hd, hb, ho, hc, -, -, hrun⟩ := new_prepared hv hD hM (cs := []) (by simp) none (.bool true) []
  rw [List.map_nil] at hrun
  refine ⟨w₁, ?_⟩
  rw [hrun]
  simp [computeParameters, fitTensors, hb, Prog.bind_run]

/-- `other_parameters` are added to the groups, and replace a group of the same name. -/
theorem C35_others {Ds ms : List Man} {cs : List (Option Ref)} {fit : Option ((α → α) × Nat)} {fa : FitArg} {w w' : World α} {M : ParamModel}
    {P : Dict String (List Ref)} (h : ParamModel.new Ds ms cs fit fa [] w = (.ok (M, P), w')) (others : Dict String (List Ref)) :
    ParamModel.new Ds ms cs fit fa others w = (.ok ({ M with others := others }, others.foldl (fun d e => d.set e.1 e.2) P), w') := by
  unfold ParamModel.new at h ⊢
  simp only [Prog.bind_run] at h ⊢
  rcases h₁ : newControls cs fit w with ⟨_ | a, w₁⟩ <;> rw [h₁] at h <;> dsimp only at h ⊢
  · simp at h
  rcases h₂ : Man.clone.cloneList (some false) Ds w₁ with ⟨_ | a₂, w₂⟩ <;> rw [h₂] at h <;> dsimp only at h ⊢
  · simp at h
  rcases h₃ : Man.clone.cloneList (some false) ms w₂ with ⟨_ | a₃, w₃⟩ <;> rw [h₃] at h <;> dsimp only at h ⊢
  · simp at h
  rcases h₄ : recordCotans (a₂ ++ a₃) w₃ with ⟨_ | a₄, w₄⟩ <;> rw [h₄] at h <;> dsimp only at h ⊢
  · simp at h
  have e : (fitTensors ⟨Ds.length, a₂ ++ a₃, fa, a, others⟩ : PM α _) = fitTensors ⟨Ds.length, a₂ ++ a₃, fa, a, []⟩ := rfl
  rcases h₅ : (fitTensors ⟨Ds.length, a₂ ++ a₃, fa, a, []⟩ : PM α _) w₄ with ⟨x | g, w₅⟩
  · simp [computeParameters, Prog.bind_run, h₅] at h
  · rw [computeParameters_run h₅] at h
    rw [computeParameters_run (e ▸ h₅)]
    simp only [Prog.pure_run, Prod.mk.injEq, Except.ok.injEq] at h ⊢
    obtain ⟨⟨rfl, rfl⟩, rfl⟩ := h
    exact ⟨⟨rfl, rfl⟩, rfl⟩

/-! Non-vacuity: one deformable, one module with two tensors and a silent module without manifold;
the descriptors of the module and three rows of controls are optimised. -/

theorem exWorld_usable (i : Nat) (hi : i = 0 ∨ i = 1) (rest : List Man) (hr : rest = [] ∨ rest = [.empty]) : Usable exWorld (.leaf i :: rest) := by
  refine ⟨fun m hm => ?_, fun f j hj => ?_⟩
  · rcases hr with rfl | rfl <;> simp at hm <;> rcases hm with rfl | rfl <;> trivial
  · have : j = i := by rcases hr with rfl | rfl <;> simpa [Man.ids.idsList, Man.ids] using hj
    subst this
    rcases hi with rfl | rfl <;> refine ⟨_, rfl, fun g => by cases g <;> cases f <;> rfl, by cases f <;> decide, "cpu", "float32", ?_⟩ <;>
      intro r hr <;> cases f <;> fin_cases hr <;> exact ⟨_, rfl, rfl, rfl⟩

example : ∃ (M : ParamModel) (P : Dict String (List Ref)) (w' w'' : World Int),
    ParamModel.new [.leaf 0] [.leaf 1, .empty] [some 3] (some (fun _ => 0, 3)) (.list [.flag true, .flag false]) [] exWorld = (.ok (M, P), w') ∧
      M.load [.leaf 0] [.leaf 1, .empty] w' = (.ok (), w'') ∧
        ∃ r₁ r₂, P.get? "gd" = some [r₁, r₂] := by
  obtain ⟨M, P, w', w'', h1, h2, h, -⟩ := C35_used (w := exWorld) exWorld_valid (exWorld_usable 0 (by simp) [] (by simp))
    (exWorld_usable 1 (by simp) [.empty] (by simp)) (by decide) (cs := [3]) (by decide) (some (fun _ => 0, 3)) [true, false]
  obtain ⟨A, B, hAB, hA, hB⟩ := forall₂_append_left h.copies
  obtain ⟨b, rfl, hb⟩ : ∃ b, B = [.leaf b, .empty] ∧ CopyOf exWorld w' 1 b := by
    match B, hB with
    | _ :: _ :: _, .cons h₁ (.cons h₂ hn) =>
      cases hn
      rcases h₁ with ⟨e, -⟩ | ⟨i, j, e, rfl, hc⟩
      · cases e
      · rcases h₂ with ⟨-, rfl⟩ | ⟨_, _, e', -⟩
        · cases e; exact ⟨j, rfl, hc⟩
        · cases e'
  have hv : ((w'.held .gd b).map w'.read).length = 2 := congrArg List.length (hb.vals .gd)
  rw [List.length_map] at hv
  obtain ⟨r₁, r₂, e⟩ := List.length_eq_two.1 hv
  refine ⟨M, P, w', w'', h1, h2, r₁, r₂, h.gd.trans ?_⟩
  have hl := hA.length_eq
  rw [hAB, hl]
  simp [wantedGd, flaggedIds, Man.ids, e]

end Imodal
