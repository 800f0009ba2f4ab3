import Verif.Lemmas.Atlas
/-!
# C84: the parameters of an atlas

What is claimed: an atlas model gives every subject its own copies of the template and of the
modules; its parameters are the costates of all subjects and, if asked for, the descriptors of the
modules, which all subjects share, and the costate of the template. `C84_partial` has everything
but the sharing; `C84_shared_disagreement` shows that the descriptors are those of the first subject
alone.
-/
set_option autoImplicit false
namespace Imodal
variable {α : Type}

/-- The argument `fit_gd`: `None` or one flag for each module. -/
def fitFlags (fit : Option (List Bool)) : FitArg := fit.elim .none fun bs => .list (bs.map .flag)

/-- What the theorem says of a new atlas model `A` with parameters `P`. -/
structure AtlasOf (w w' : World α) (zero : α → α) (T : Man) (ms : List Man) (n : Nat) (optimise : Bool) (fit : Option (List Bool)) (A : AtlasParams)
    (P : Dict String (List Ref)) : Prop where
  count : A.subjects.length = n
  /-- every subject has its own copies, with the values of the given objects, … -/
  copies : ∀ S ∈ A.subjects, List.Forall₂ (PairR (CopyOf w w')) (T :: ms) S.model.init
  /-- … no two tensors of the population lie in one storage, … -/
  apart : Sep w' (slotsOf (A.subjects.flatMap Subject.ids))
  /-- … no object of the population existed before, … -/
  objects : (A.subjects.flatMap Subject.ids).Nodup ∧ ∀ j ∈ A.subjects.flatMap Subject.ids, w.leaves.length ≤ j
  /-- … and the given objects still hold the tensors they held. -/
  given : ∀ i f, i < w.leaves.length → w'.held f i = w.held f i
  ext : Ext w w'
  cotan : P.get? "cotan" = some (A.subjects.flatMap fun S => Man.unroll.unrollList w' .cotan S.model.init)
  gd : P.get? "gd" = fit.map fun bs => (A.subjects.take 1).flatMap fun S => (flaggedIds bs (S.model.init.drop 1)).flatMap fun i => w'.held .gd i
  ht : P.get? "ht" = A.ht.map fun r => [r]
  htSome : A.ht.isSome = optimise
  htZero : ∀ r, A.ht = some r → ∃ r₀ v, T.get w .gd = .tensor r₀ ∧ w.read r₀ = some v ∧ w'.read r = some (zero v)
  only : ∀ k, k ≠ "cotan" → k ≠ "gd" → k ≠ "ht" → P.get? k = none
  keys : (P.map Prod.fst).Nodup
  once : (allParams P).Nodup
  fresh : ∀ r ∈ allParams P, w.objs.length ≤ r
  recorded : ∀ r ∈ allParams P, Leafy w' r
  /-- the descriptors asked for are recorded for differentiation in every subject -/
  recordedAll : ∀ bs, fit = some bs → ∀ S ∈ A.subjects, ∀ j ∈ flaggedIds bs (S.model.init.drop 1), ∀ r ∈ w'.held .gd j, Leafy w' r
  /-- the costate of the template lies in a storage of its own -/
  htApart : ∀ r, A.ht = some r → ∀ j ∈ A.subjects.flatMap Subject.ids, ∀ f, ∀ r' ∈ w'.held f j, ∃ Q : Nat → Prop, Placed Q w' r ∧ Placed (fun k => ¬ Q k) w' r'

theorem mem_flaggedIds {j : Nat} : ∀ {bs : List Bool} {ms : List Man}, j ∈ flaggedIds bs ms →
    ∃ (i : Nat) (m : Man), bs[i]? = some true ∧ ms[i]? = some m ∧ j ∈ m.ids
  | [], _, h => by simp [flaggedIds] at h
  | true :: _, [], h => by simp [flaggedIds] at h
  | false :: _, [], h => by simp [flaggedIds] at h
  | true :: bs, m :: ms, h => by
    rw [flaggedIds, List.mem_append] at h
    rcases h with h | h
    · exact ⟨0, m, rfl, rfl, h⟩
    · obtain ⟨i, m', h1, h2, h3⟩ := mem_flaggedIds h
      exact ⟨i + 1, m', by simpa using h1, by simpa using h2, h3⟩
  | false :: bs, m :: ms, h => by
    rw [flaggedIds] at h
    obtain ⟨i, m', h1, h2, h3⟩ := mem_flaggedIds h
    exact ⟨i + 1, m', by simpa using h1, by simpa using h2, h3⟩

theorem get_grown {w w' : World α} (h : Grown w w') {T : Man} (hp : T.Plain) (hl : ∀ i ∈ T.ids, i < w.leaves.length) (f : Fam) : T.get w' f = T.get w f := by
  cases T with
  | empty => rfl
  | compound l => exact hp.elim
  | leaf i =>
    have hi := hl i (by simp [Man.ids])
    have hl : w.leaves[i]? = some w.leaves[i] := by simp [hi]
    obtain ⟨l', hl', e⟩ := h.shapes i _ hl
    have hk := h.keep i f hi
    simp only [World.held, hl, hl'] at hk
    simp only [Man.get, hl, hl', e f, hk]

/-- The groups of an atlas. -/
def atlasGroups (cotan : List Ref) (gd ht : Option (List Ref)) : Dict String (List Ref) :=
  ("cotan", cotan) :: ((gd.map fun l => ("gd", l)).toList ++ (ht.map fun l => ("ht", l)).toList)

theorem atlasGroups_get (cotan : List Ref) (gd ht : Option (List Ref)) :
    (atlasGroups cotan gd ht).get? "cotan" = some cotan ∧ (atlasGroups cotan gd ht).get? "gd" = gd ∧
      (atlasGroups cotan gd ht).get? "ht" = ht ∧ ∀ k, k ≠ "cotan" → k ≠ "gd" → k ≠ "ht" → (atlasGroups cotan gd ht).get? k = none := by
  cases gd <;> cases ht <;> simp [atlasGroups, Dict.get?] <;> (intros; simp_all [eq_comm])

theorem fitFlags_list (bs : List Bool) : fitFlags (some bs) = .list (bs.map .flag) := rfl

theorem compute_run {A : AtlasParams} {w : World α} (ho : A.others = []) (hf : ∀ S ∈ A.subjects, S.model.fitGd = .none) {fit : Option (List Bool)}
    (hfit : A.fitGd = fitFlags fit) (hS : A.subjects ≠ []) (hl : ∀ S ∈ A.subjects, S.model.init.length = A.count + 1)
    (hb : ∀ bs, fit = some bs → bs.length = A.count) :
    A.compute w = (.ok (atlasGroups (A.subjects.flatMap fun S => Man.unroll.unrollList w .cotan S.model.init)
      (fit.map fun bs => (A.subjects.take 1).flatMap fun S => (flaggedIds bs (S.model.init.drop 1)).flatMap fun i => w.held .gd i)
      (A.ht.map fun r => [r])), w) := by
  simp only [AtlasParams.compute, Prog.bind_run, atlasCotan_spec _ w hf, ho, List.foldl_nil]
  cases fit with
  | none =>
    rw [hfit]
    cases hh : A.ht <;> simp [fitFlags, FitArg.loop, atlasGroups, Dict.set]
  | some bs =>
    obtain ⟨S, Ss, hSs⟩ : ∃ S Ss, A.subjects = S :: Ss := List.exists_cons_of_ne_nil hS
    have hlen := hl S (by simp [hSs])
    have hbs := hb bs rfl
    have hg := firstGd_spec (bs.map .flag) S Ss w (List.range A.count) fun i hi => by
      rw [List.mem_range] at hi
      rw [List.length_map]
      omega
    have e : ((List.range A.count).flatMap fun i => if ((bs.map FitGd.flag)[i]?).elim false FitGd.truthy then gdOf w S i else []) =
        (flaggedIds bs (S.model.init.drop 1)).flatMap fun i => w.held .gd i := by
      rw [← flagged_range w bs (S.model.init.drop 1) (by rw [List.length_drop]; omega), List.length_drop, hlen, Nat.add_sub_cancel]
      rw [List.flatMap_def, List.flatMap_def]
      congr 1
      refine List.map_congr_left fun i _ => ?_
      have h1 : ((bs.map FitGd.flag)[i]?).elim false FitGd.truthy = (bs[i]?).getD false := by
        rw [List.getElem?_map]
        cases bs[i]? <;> rfl
      rw [h1, gdOf, List.getElem?_drop, Nat.add_comm 1 i]
    rw [e] at hg
    rw [hfit, hSs, fitFlags_list]
    simp only [FitArg.loop, hg]
    cases hh : A.ht <;> simp [atlasGroups, Dict.set]

theorem newHt_spec {w : World α} (hv : w.Valid) (zero : α → α) {T : Man} (optimise : Bool) (h : optimise = true → ∃ r, T.get w .gd = .tensor r ∧ r < w.objs.length) :
    ∃ (ht : Option Ref) (w' : World α), newHt zero T optimise w = (.ok ht, w') ∧ Allocated w w' ht.toList ∧ ht.isSome = optimise ∧
      ∀ r, ht = some r → ∃ r₀ v, T.get w .gd = .tensor r₀ ∧ w.read r₀ = some v ∧ w'.read r = some (zero v) ∧ Placed (w.stores.length ≤ ·) w' r := by
  cases optimise with
  | false => exact ⟨none, w, rfl, by simpa using Allocated.nil hv, rfl, by simp⟩
  | true =>
    obtain ⟨r, hr, hlt⟩ := h rfl
    have ho : w.objs[r]? = some w.objs[r] := by simp [hlt]
    generalize w.objs[r] = o at ho
    obtain ⟨v, hrd, -⟩ := hv.read_some ho
    obtain ⟨w', h₁, ha⟩ := alloc_allocated hv o.device o.dtype (zero v)
    refine ⟨some w.objs.length, w', ?_, ha, rfl, ?_⟩
    · simp only [newHt, if_true, Prog.bind_run, Prog.get_run, hr, getObj, ho, readT, hrd, h₁]
      rfl
    · intro r' hr'
      cases hr'
      rw [allocT] at h₁
      have e := (Prod.ext_iff.1 h₁).2
      dsimp only at e
      subst e
      exact ⟨r, v, hr, hrd, by simp [World.read], ⟨⟨w.stores.length, o.device, o.dtype, true, false⟩, by simp, Nat.le_refl _⟩⟩

theorem get_lt {w : World α} (hv : w.Valid) {T : Man} {f : Fam} {r : Ref} (h : T.get w f = .tensor r) : r < w.objs.length := by
  cases T with
  | empty => simp [Man.get] at h
  | compound l => simp [Man.get] at h
  | leaf i =>
    cases hl : w.leaves[i]? with
    | none => simp [Man.get, hl] at h
    | some l =>
      simp only [Man.get, hl] at h
      split at h
      · cases ht : (l.tc f).tensors with
        | nil => simp [ht] at h
        | cons r' rs =>
          rw [ht] at h
          simp only [Arg.tensor.injEq] at h
          subst h
          exact hv.leaf i l hl f r' (by simp [ht])
      · simp at h

theorem C84_partial {w : World α} (hv : w.Valid) {T : Man} {ms : List Man} (hT : Usable w [T]) (hM : Usable w ms) (zero : α → α) {n : Nat} (hn : 0 < n)
    {mode : String} (hmode : mode = "sequential" ∨ mode = "parallel") {t : TemplateArgs} (ht : t.check = .ok ())
    (hopt : t.optimise = true → ∃ r, T.get w .gd = .tensor r) (fit : Option (List Bool)) (hfit : ∀ bs, fit = some bs → bs.length = ms.length) :
    ∃ (A : AtlasParams) (P : Dict String (List Ref)) (w' : World α),
      AtlasParams.new zero T ms 1 n mode t (fitFlags fit) [] w = (.ok (A, P), w') ∧ AtlasOf w w' zero T ms n t.optimise fit A P ∧ w'.Valid := by
  obtain ⟨Ss, w₁, h₁, hlen, g₁, p₁, -⟩ := newSubjects_spec (T := T) (ms := ms) [] n hv hT hM
  have hS : Ss ≠ [] := by rintro rfl; simp at hlen; omega
  have hinit : ∀ S ∈ Ss, S.model.init.length = ms.length + 1 := fun S hS => by
    have := (p₁.copies S hS).length_eq
    simpa using this.symm
  have hpl : ∀ S ∈ Ss, ∀ m ∈ S.model.init, m.Plain := fun S hS => pair_plain (p₁.copies S hS)
  -- recording
  obtain ⟨X, w₂, h₂, r₂, hX, hXS, hflag⟩ : ∃ (X : Slot → Prop) (w₂ : World α),
      ((fitFlags fit).loop ms.length () fun fs => recordFit fs Ss (List.range ms.length)) w₁ = (.ok (), w₂) ∧ Recorded w₁ w₂ X ∧ (∀ s, X s → s.2 = .gd) ∧
      (∀ s, X s → s.1 ∈ Ss.flatMap Subject.ids) ∧
      ∀ bs, fit = some bs → ∀ S ∈ Ss, ∀ j ∈ flaggedIds bs (S.model.init.drop 1), X (j, .gd) := by
    cases fit with
    | none => exact ⟨_, w₁, rfl, Recorded.refl g₁.valid, fun _ h => h.elim, fun _ h => h.elim, by simp⟩
    | some bs =>
      obtain ⟨w₂, h₂, r₂⟩ := recordFit_spec (bs.map .flag) hS hpl (List.range ms.length) g₁.valid (fun i hi => by
        rw [List.mem_range] at hi
        refine ⟨by rw [List.length_map, hfit bs rfl]; exact hi, fun S hS => by rw [hinit S hS]; omega⟩) fun j hj => (p₁.range j hj).2
      refine ⟨_, w₂, h₂, r₂, ?_, ?_, ?_⟩
      · rintro s ⟨i, -, -, -, e⟩
        exact e
      · rintro s ⟨i, -, -, ⟨S, hS, m, hm, hs⟩, -⟩
        exact List.mem_flatMap.2 ⟨S, hS, mem_idsList (List.mem_of_getElem? hm) hs⟩
      · intro bs' hbs' S hS j hj
        cases hbs'
        obtain ⟨i, m, h1, h2, h3⟩ := mem_flaggedIds hj
        rw [List.getElem?_drop, Nat.add_comm] at h2
        have : i < ms.length := by
          have := (List.getElem?_eq_some_iff.1 h1).1
          rw [hfit bs rfl] at this
          exact this
        exact ⟨i, by simpa using this, by simp [h1], ⟨S, hS, m, h2, h3⟩, rfl⟩
  have e1 := g₁.ext.objs.length_le
  have p₂ := p₁.recorded e1 r₂ hX
  have g₂ : Grown w w₂ := by
    refine ⟨g₁.ext.trans r₂.ext, r₂.valid, fun i f hi => Eq.trans (r₂.keep (i, f) fun h => ?_) (g₁.keep i f hi), fun i l hl => ?_⟩
    · have := (p₁.range _ (hXS _ h)).1
      dsimp only at this
      omega
    · obtain ⟨l₁, hl₁, e₁⟩ := g₁.shapes i l hl
      obtain ⟨l₂, hl₂, e₂⟩ := r₂.shapes i l₁ hl₁
      exact ⟨l₂, hl₂, fun g => (e₂ g).trans (e₁ g)⟩
  -- the costate of the template
  have hget : T.get w₂ .gd = T.get w .gd := get_grown g₂ (hT.1 T (by simp)) (fun i hi => hT.lt i (by simpa [Man.ids.idsList] using hi)) .gd
  obtain ⟨htr, w₃, h₃, a₃, hsome, hval⟩ := newHt_spec r₂.valid zero (T := T) t.optimise fun ho => by
    obtain ⟨r, hr⟩ := hopt ho
    rw [hget]
    exact ⟨r, hr, g₂.ext.lt (get_lt hv hr)⟩
  have e2 := g₂.ext.objs.length_le
  have p₃ := p₂.kept r₂.valid e2 a₃.kept
  have g₃ := g₂.trans a₃.kept.grown
  have hcomp := compute_run (A := ⟨Ss, ms.length, fitFlags fit, [], htr⟩) (w := w₃) rfl (fun S hS => (p₁.plain S hS).2.1) rfl hS hinit hfit
  dsimp only at hcomp
  obtain ⟨P, hP, hcomp⟩ : ∃ P, P = _ ∧ AtlasParams.compute ⟨Ss, ms.length, fitFlags fit, [], htr⟩ w₃ = (.ok P, w₃) := ⟨_, rfl, hcomp⟩
  refine ⟨⟨Ss, ms.length, fitFlags fit, [], htr⟩, P, w₃, ?_, ?_, a₃.valid⟩
  · have hm : ∃ m, AtlasMode.ofString mode = .ok m := by rcases hmode with rfl | rfl <;> exact ⟨_, rfl⟩
    obtain ⟨m, hm⟩ := hm
    simp only [AtlasParams.new, Prog.bind_run, Prog.lift_run, hm, ht, h₁, h₂, h₃, hcomp, Prog.pure_run]
  · clear hcomp
    subst hP
    obtain ⟨q1, q2, q3, q4⟩ := atlasGroups_get (Ss.flatMap fun S => Man.unroll.unrollList w₃ .cotan S.model.init)
      (fit.map fun bs => (Ss.take 1).flatMap fun S => (flaggedIds bs (S.model.init.drop 1)).flatMap fun i => w₃.held .gd i) (htr.map fun r => [r])
    have held₃ : ∀ j ∈ Ss.flatMap Subject.ids, ∀ f, w₃.held f j = w₂.held f j := fun j hj f => a₃.kept.held (p₂.range j hj).2 f
    have hleafgd : ∀ bs, fit = some bs → ∀ S ∈ Ss, ∀ j ∈ flaggedIds bs (S.model.init.drop 1), ∀ r ∈ w₃.held .gd j, Leafy w₃ r := fun bs hbs S hS j hj r hr => by
      have hx := hflag bs hbs S hS j hj
      rw [held₃ j (hXS _ hx)] at hr
      exact Leafy.ext (r₂.flags (j, .gd) hx r hr) a₃.ext
    -- the slots that are parameters
    let first : List Nat := fit.elim [] fun bs => (Ss.take 1).flatMap fun S => flaggedIds bs (S.model.init.drop 1)
    have hfirst : first.Sublist (Ss.flatMap Subject.ids) := by
      cases fit with
      | none => exact List.nil_sublist _
      | some bs =>
        obtain ⟨S, Ss', rfl⟩ := List.exists_cons_of_ne_nil hS
        simp only [first, Option.elim, List.take_succ_cons, List.take_zero, List.flatMap_cons, List.flatMap_nil, List.append_nil]
        refine List.Sublist.trans ?_ (List.sublist_append_left _ _)
        refine (flaggedIds_sublist _ _).trans ?_
        have : Man.ids.idsList S.model.init = Man.ids.idsList (S.model.init.take 1) ++ Man.ids.idsList (S.model.init.drop 1) := by
          rw [← idsList_append, List.take_append_drop]
        unfold Subject.ids
        rw [this]
        exact List.sublist_append_right _ _
    have hall : allParams (atlasGroups (Ss.flatMap fun S => Man.unroll.unrollList w₃ .cotan S.model.init)
        (fit.map fun bs => (Ss.take 1).flatMap fun S => (flaggedIds bs (S.model.init.drop 1)).flatMap fun i => w₃.held .gd i) (htr.map fun r => [r])) =
        ((Ss.flatMap Subject.ids).map (fun i => ((i, Fam.cotan) : Slot)) ++ first.map (fun i => ((i, Fam.gd) : Slot))).flatMap w₃.at ++ htr.toList := by
      have c : (Ss.flatMap fun S => Man.unroll.unrollList w₃ .cotan S.model.init) = ((Ss.flatMap Subject.ids).map (fun i => ((i, Fam.cotan) : Slot))).flatMap w₃.at := by
        rw [List.flatMap_map, List.flatMap_assoc]
        rw [List.flatMap_def, List.flatMap_def]
        congr 1
        exact List.map_congr_left fun S _ => unrollList_flatMap ..
      rw [c, List.flatMap_append, List.append_assoc]
      unfold allParams atlasGroups
      rw [List.flatMap_cons, List.flatMap_append]
      congr 1
      congr 1
      · cases fit with
        | none => simp [first]
        | some bs => simp [first, List.flatMap_map, List.flatMap_assoc, World.at]
      · cases htr <;> simp
    have hslots : ∀ s ∈ (Ss.flatMap Subject.ids).map (fun i => ((i, Fam.cotan) : Slot)) ++ first.map (fun i => ((i, Fam.gd) : Slot)),
        slotsOf (Ss.flatMap Subject.ids) s := by
      intro s hs
      simp only [List.mem_append, List.mem_map] at hs
      rcases hs with ⟨i, hi, rfl⟩ | ⟨i, hi, rfl⟩
      · exact hi
      · exact hfirst.subset hi
    have hnds : ((Ss.flatMap Subject.ids).map (fun i => ((i, Fam.cotan) : Slot)) ++ first.map (fun i => ((i, Fam.gd) : Slot))).Nodup := by
      refine List.nodup_append.2 ⟨List.Pairwise.map (fun i => ((i, Fam.cotan) : Slot)) (fun a b hab e => hab (Prod.ext_iff.1 e).1) p₃.nodup,
        List.Pairwise.map (fun i => ((i, Fam.gd) : Slot)) (fun a b hab e => hab (Prod.ext_iff.1 e).1) (hfirst.nodup p₃.nodup), ?_⟩
      intro a ha b hb e
      simp only [List.mem_map] at ha hb
      obtain ⟨i, -, rfl⟩ := ha
      obtain ⟨j, -, rfl⟩ := hb
      simp at e
    have hrange : ∀ r ∈ ((Ss.flatMap Subject.ids).map (fun i => ((i, Fam.cotan) : Slot)) ++ first.map (fun i => ((i, Fam.gd) : Slot))).flatMap w₃.at,
        w.objs.length ≤ r ∧ r < w₂.objs.length := by
      intro r hr
      obtain ⟨s, hs, hr⟩ := List.mem_flatMap.1 hr
      have hs' := hslots s hs
      refine ⟨(p₃.own.range s hs' r hr).1, ?_⟩
      unfold World.at at hr
      rw [held₃ _ hs'] at hr
      exact (p₂.own.range s hs' r hr).2
    refine ⟨hlen, p₃.copies, p₃.sep, ⟨p₃.nodup, fun j hj => (p₃.range j hj).1⟩, g₃.keep, g₃.ext, q1, q2, q3, hsome, ?_, q4, ?_, ?_, ?_, ?_, hleafgd, ?_⟩
    · intro r hr
      obtain ⟨r₀, v, h1, h2, h3, -⟩ := hval r hr
      rw [hget] at h1
      exact ⟨r₀, v, h1, by rw [← h2]; exact (g₂.ext.read_eq hv (get_lt hv h1)).symm, h3⟩
    · cases fit <;> cases htr <;> simp [atlasGroups]
    · rw [hall]
      refine nodup_append_of (own_flatMap p₃.own _ hnds hslots) a₃.nodup fun r hr h => ?_
      exact absurd (a₃.range r h).1 (Nat.not_le.2 (hrange r hr).2)
    · rw [hall]
      intro r hr
      rcases List.mem_append.1 hr with hr | hr
      · exact (hrange r hr).1
      · exact Nat.le_trans e2 (a₃.range r hr).1
    · rw [hall]
      intro r hr
      rcases List.mem_append.1 hr with hr | hr
      · obtain ⟨s, hs, hrs⟩ := List.mem_flatMap.1 hr
        clear hr
        simp only [List.mem_append, List.mem_map] at hs
        rcases hs with ⟨i, hi, rfl⟩ | ⟨i, hi, rfl⟩
        · exact p₃.cotan i hi r hrs
        · cases fit with
          | none => simp [first] at hi
          | some bs =>
            simp only [first, Option.elim] at hi
            obtain ⟨S, hS', hi⟩ := List.mem_flatMap.1 hi
            exact hleafgd bs rfl S (List.mem_of_mem_take hS') i hi r hrs
      · exact a₃.leafy r hr
    · intro r hr j hj f r' hr'
      obtain ⟨-, -, -, -, -, hp⟩ := hval r hr
      refine ⟨_, hp, ?_⟩
      rw [held₃ j hj] at hr'
      exact ((held_placed r₂.valid f j r' hr').mono fun k hk => by omega).ext a₃.ext

/-- What an optimiser may do: write new values into the tensors of the parameters. -/
structure Updated (P : Dict String (List Ref)) (w w' : World α) : Prop where
  objs : w'.objs = w.objs
  leaves : w'.leaves = w.leaves
  stores : ∀ k, (∀ r ∈ allParams P, Placed (fun k' => k' ≠ k) w r) → w'.stores[k]? = w.stores[k]?

/-- The value `v` in every parameter. -/
noncomputable def World.setParams (w : World α) (P : Dict String (List Ref)) (v : α) : World α := by
  classical
  exact { w with stores := w.stores.mapIdx fun k x => if ∀ r ∈ allParams P, Placed (fun k' => k' ≠ k) w r then x else v }

theorem setParams_updated (w : World α) (P : Dict String (List Ref)) (v : α) : Updated P w (w.setParams P v) := by
  refine ⟨rfl, rfl, fun k hk => ?_⟩
  simp only [World.setParams, List.getElem?_mapIdx]
  cases w.stores[k]? with
  | none => rfl
  | some x =>
    simp only [Option.map_some, Option.some.injEq]
    exact if_pos hk

theorem setParams_read {w : World α} (hv : w.Valid) {P : Dict String (List Ref)} {r : Ref} (hr : r ∈ allParams P) {o : TObj} (ho : w.objs[r]? = some o) (v : α) :
    (w.setParams P v).read r = some v := by
  have hs := hv.store r o ho
  have h1 : (w.setParams P v).objs[r]? = some o := ho
  have h2 : ¬ ∀ r' ∈ allParams P, Placed (fun k' => k' ≠ o.storage) w r' := fun h => by
    obtain ⟨o', ho', hne⟩ := h r hr
    rw [ho] at ho'
    cases ho'
    exact hne rfl
  simp only [World.read, h1, Option.bind_some]
  simp only [World.setParams, List.getElem?_mapIdx, List.getElem?_eq_getElem hs, Option.map_some, Option.some.injEq]
  exact if_neg h2

/-- The parameters of an atlas are tensors of the population and the costate of the template. -/
theorem AtlasOf.param {w w' : World α} {zero : α → α} {T : Man} {ms : List Man} {n : Nat} {optimise : Bool} {fit : Option (List Bool)} {A : AtlasParams}
    {P : Dict String (List Ref)} (h : AtlasOf w w' zero T ms n optimise fit A P) {r : Ref} (hr : r ∈ allParams P) :
    (∃ S ∈ A.subjects, ∃ j ∈ S.ids, r ∈ w'.held .cotan j) ∨ (∃ bs, fit = some bs ∧ ∃ S ∈ A.subjects.take 1, ∃ j ∈ flaggedIds bs (S.model.init.drop 1), r ∈ w'.held .gd j) ∨
      A.ht = some r := by
  obtain ⟨⟨k, l⟩, hk, hr⟩ := List.mem_flatMap.1 hr
  dsimp only at hr
  have hget : P.get? k = some l := by
    have : ∀ (P : Dict String (List Ref)), (P.map Prod.fst).Nodup → (k, l) ∈ P → P.get? k = some l := by
      intro P
      induction P with
      | nil => intro _ h; simp at h
      | cons e P ih =>
        intro hn he
        rw [List.map_cons, List.nodup_cons] at hn
        rcases List.mem_cons.1 he with rfl | he
        · simp [Dict.get?]
        · have hne : e.1 ≠ k := fun e' => hn.1 (e' ▸ List.mem_map_of_mem (f := Prod.fst) he)
          have := ih hn.2 he
          simp only [Dict.get?, List.find?_cons] at this ⊢
          rw [show decide (e.1 = k) = false by simp [hne]]
          exact this
    exact this P h.keys hk
  by_cases h1 : k = "cotan"
  · subst h1
    rw [h.cotan] at hget
    cases hget
    obtain ⟨S, hS, hr⟩ := List.mem_flatMap.1 hr
    rw [unrollList_flatMap] at hr
    obtain ⟨j, hj, hr⟩ := List.mem_flatMap.1 hr
    exact Or.inl ⟨S, hS, j, hj, hr⟩
  by_cases h2 : k = "gd"
  · subst h2
    rw [h.gd] at hget
    cases fit with
    | none => simp at hget
    | some bs =>
      cases hget
      obtain ⟨S, hS, hr⟩ := List.mem_flatMap.1 hr
      obtain ⟨j, hj, hr⟩ := List.mem_flatMap.1 hr
      exact Or.inr (Or.inl ⟨bs, rfl, S, hS, j, hj, hr⟩)
  by_cases h3 : k = "ht"
  · subst h3
    rw [h.ht] at hget
    cases hh : A.ht with
    | none => simp [hh] at hget
    | some r' =>
      rw [hh] at hget
      cases hget
      rw [List.mem_singleton] at hr
      exact Or.inr (Or.inr (by rw [hr]))
  · rw [h.only k h1 h2 h3] at hget
    cases hget

theorem held_updated {P : Dict String (List Ref)} {w w' : World α} (h : Updated P w w') (f : Fam) (j : Nat) : w'.held f j = w.held f j := by
  unfold World.held; rw [h.leaves]

/-- A step of the optimiser leaves the descriptors of all subjects but the first alone. -/
theorem AtlasOf.unchanged {w w' : World α} (hv : w'.Valid) {zero : α → α} {T : Man} {ms : List Man} {n : Nat} {optimise : Bool} {fit : Option (List Bool)}
    {A : AtlasParams} {P : Dict String (List Ref)} (h : AtlasOf w w' zero T ms n optimise fit A P) {w'' : World α} (hu : Updated P w' w'') {S : Subject}
    (hS : S ∈ A.subjects.drop 1) {j : Nat} (hj : j ∈ S.ids) : w''.heldVals .gd j = w'.heldVals .gd j := by
  unfold World.heldVals
  rw [held_updated hu]
  refine List.map_congr_left fun r hr => ?_
  have hlt := hv.held_lt hr
  have ho : w'.objs[r]? = some w'.objs[r] := by simp [hlt]
  generalize w'.objs[r] = o at ho
  have hmem : ∀ S' ∈ A.subjects, ∀ j' ∈ S'.ids, j' ∈ A.subjects.flatMap Subject.ids := fun S' hS' j' hj' => List.mem_flatMap.2 ⟨S', hS', hj'⟩
  have hSA := List.mem_of_mem_drop hS
  have key : ∀ s : Slot, slotsOf (A.subjects.flatMap Subject.ids) s → s ≠ (j, .gd) → ∀ r' ∈ w'.held s.2 s.1, Placed (fun k => k ≠ o.storage) w' r' := by
    intro s hs hne r' hr'
    obtain ⟨Q, h1, h2⟩ := h.apart s (j, .gd) hs (hmem S hSA j hj) hne
    obtain ⟨o', ho', hq⟩ := h2 r hr
    rw [ho] at ho'
    cases ho'
    exact (h1 r' hr').mono fun k hk e => hq (e ▸ hk)
  have hst : w''.stores[o.storage]? = w'.stores[o.storage]? := by
    refine hu.stores _ fun r' hr' => ?_
    rcases h.param hr' with ⟨S', hS', j', hj', hr'⟩ | ⟨bs, hbs, S', hS', j', hj', hr'⟩ | hht
    · exact key (j', .cotan) (hmem S' hS' j' hj') (by simp) r' hr'
    · have hj'' : j' ∈ S'.ids := by
        unfold Subject.ids
        rw [← List.take_append_drop 1 S'.model.init, idsList_append, List.mem_append]
        exact Or.inr ((flaggedIds_sublist _ _).subset hj')
      refine key (j', .gd) (hmem S' (List.mem_of_mem_take hS') j' hj'') ?_ r' hr'
      intro e
      have e := (Prod.ext_iff.1 e).1
      dsimp only at e
      subst e
      have hnd := h.objects.1
      rw [← List.take_append_drop 1 A.subjects, List.flatMap_append, List.nodup_append] at hnd
      exact hnd.2.2 j' (List.mem_flatMap.2 ⟨S', hS', hj''⟩) j' (List.mem_flatMap.2 ⟨S, hS, hj⟩) rfl
    · obtain ⟨Q, h1, h2⟩ := h.htApart r' hht j (hmem S hSA j hj) .gd r hr
      obtain ⟨o', ho', hq⟩ := h2
      rw [ho] at ho'
      cases ho'
      exact h1.mono fun k hk e => hq (e ▸ hk)
  simp only [World.read, hu.objs, ho, Option.bind_some, hst]

/-- Whatever an optimiser writes into the parameters, the second and every further subject keeps the
descriptors it was given, while those of the first subject can be given any value: the descriptors
are not shared. -/
theorem C84_shared_disagreement {w : World α} (hv : w.Valid) {T : Man} {ms : List Man} (hT : Usable w [T]) (hM : Usable w ms) (zero : α → α) {n : Nat} (hn : 0 < n)
    {mode : String} (hmode : mode = "sequential" ∨ mode = "parallel") {t : TemplateArgs} (ht : t.check = .ok ())
    (hopt : t.optimise = true → ∃ r, T.get w .gd = .tensor r) (bs : List Bool) (hfit : bs.length = ms.length) :
    ∃ (A : AtlasParams) (P : Dict String (List Ref)) (w' : World α),
      AtlasParams.new zero T ms 1 n mode t (.list (bs.map .flag)) [] w = (.ok (A, P), w') ∧ A.subjects.length = n ∧
      (∀ w'', Updated P w' w'' → ∀ S ∈ A.subjects.drop 1,
        List.Forall₂ (PairR fun i j => w''.heldVals .gd j = w.heldVals .gd i) (T :: ms) S.model.init) ∧
      ∀ v, ∃ w'', Updated P w' w'' ∧ ∀ S ∈ A.subjects.take 1, ∀ j ∈ flaggedIds bs (S.model.init.drop 1), ∀ x ∈ w''.heldVals .gd j, x = some v := by
  obtain ⟨A, P, w', hrun, h, hv'⟩ := C84_partial hv hT hM zero hn hmode ht hopt (some bs) (by rintro _ ⟨⟩; exact hfit)
  refine ⟨A, P, w', hrun, h.count, fun w'' hu S hS => ?_, fun v => ⟨_, setParams_updated w' P v, fun S hS j hj x hx => ?_⟩⟩
  · exact pair_imp (h.copies S (List.mem_of_mem_drop hS)) fun i hi j hj hc => (h.unchanged hv' hu hS hj).trans (hc.vals .gd)
  · obtain ⟨r, hr, rfl⟩ := List.mem_map.1 hx
    rw [held_updated (setParams_updated w' P v)] at hr
    obtain ⟨o, ho, -⟩ := h.recordedAll bs rfl S (List.mem_of_mem_take hS) j hj r hr
    refine setParams_read hv' ?_ ho v
    have : P.get? "gd" = _ := h.gd
    simp only [Option.map_some] at this
    obtain ⟨e, he, hl⟩ : ∃ e ∈ P, e.2 = (A.subjects.take 1).flatMap fun S => (flaggedIds bs (S.model.init.drop 1)).flatMap fun i => w'.held .gd i := by
      simp only [Dict.get?, Option.map_eq_some_iff] at this
      obtain ⟨e, he, h2⟩ := this
      exact ⟨e, List.mem_of_find?_eq_some he, h2⟩
    refine List.mem_flatMap.2 ⟨e, he, ?_⟩
    rw [hl]
    exact List.mem_flatMap.2 ⟨S, hS, List.mem_flatMap.2 ⟨j, hj, hr⟩⟩

/-! ## What is refused -/

/-- Another evaluation mode raises `RuntimeError`, also `'heterogeneous'`. -/
theorem C84_modes (zero : α → α) (T : Man) (ms : List Man) (k n : Nat) {mode : String} (h : mode ≠ "sequential") (h' : mode ≠ "parallel") (t : TemplateArgs)
    (fit : FitArg) (others : Dict String (List Ref)) (w : World α) : AtlasParams.new zero T ms k n mode t fit others w = (.error .runtime, w) := by
  have : AtlasMode.ofString mode = .error .runtime := by
    unfold AtlasMode.ofString
    split
    · rfl
    · simp [h, h']
  simp [AtlasParams.new, Prog.bind_run, Prog.lift_run, this]

theorem ofString_ok {mode : String} (hmode : mode = "sequential" ∨ mode = "parallel") : ∃ m, AtlasMode.ofString mode = .ok m := by
  rcases hmode with rfl | rfl <;> exact ⟨_, rfl⟩

/-- A template to optimise needs `ht_sigma`. -/
theorem C84_sigma (zero : α → α) (T : Man) (ms : List Man) (k n : Nat) {mode : String} (hmode : mode = "sequential" ∨ mode = "parallel") {t : TemplateArgs}
    (ho : t.optimise = true) (hs : t.sigma = false) (fit : FitArg) (others : Dict String (List Ref)) (w : World α) :
    AtlasParams.new zero T ms k n mode t fit others w = (.error .runtime, w) := by
  obtain ⟨m, hm⟩ := ofString_ok hmode
  simp [AtlasParams.new, Prog.bind_run, Prog.lift_run, hm, TemplateArgs.check, ho, hs]

/-- `htgd` without `htgd_settings` raises `TypeError`, with settings without `'sigma'` `RuntimeError`. -/
theorem C84_htgd (zero : α → α) (T : Man) (ms : List Man) (k n : Nat) {mode : String} (hmode : mode = "sequential" ∨ mode = "parallel") {t : TemplateArgs}
    (ho : t.optimise = true → t.sigma = true) (hh : t.htgd = true) (fit : FitArg) (others : Dict String (List Ref)) (w : World α) :
    (t.keys = none → AtlasParams.new zero T ms k n mode t fit others w = (.error .type, w)) ∧
      ∀ ks, t.keys = some ks → "sigma" ∉ ks → AtlasParams.new zero T ms k n mode t fit others w = (.error .runtime, w) := by
  obtain ⟨m, hm⟩ := ofString_ok hmode
  have h0 : (t.optimise && !t.sigma) = false := by
    cases h : t.optimise with
    | false => rfl
    | true => simp [ho h]
  refine ⟨fun hk => ?_, fun ks hk hs => ?_⟩ <;> simp [AtlasParams.new, Prog.bind_run, Prog.lift_run, hm, TemplateArgs.check, h0, hh, hk]
  simp [hs]

/-- There must be exactly one attachment: `AssertionError` otherwise. -/
theorem C84_attachments {w : World α} (hv : w.Valid) {T : Man} {ms : List Man} (hT : Usable w [T]) (hM : Usable w ms) (zero : α → α) {k n : Nat} (hk : k ≠ 1)
    (hn : 0 < n) {mode : String} (hmode : mode = "sequential" ∨ mode = "parallel") {t : TemplateArgs} (ht : t.check = .ok ()) (fit : FitArg)
    (others : Dict String (List Ref)) : ∃ w', AtlasParams.new zero T ms k n mode t fit others w = (.error .assertion, w') := by
  obtain ⟨m, hm⟩ := ofString_ok hmode
  obtain ⟨T₁, w₁, h₁, k₁, -, -⟩ := deepcopyList_spec [T] w hv hT.1 hT.clonable
  obtain ⟨T', q₁⟩ : ∃ T', T.deepcopy w = (.ok T', w₁) := by
    rw [Man.deepcopy.deepcopyList, Prog.bind_run] at h₁
    rcases h : T.deepcopy w with ⟨_ | T', w₁'⟩ <;> rw [h] at h₁ <;> dsimp only at h₁
    · simp at h₁
    · simp only [Man.deepcopy.deepcopyList, Prog.bind_run, Prog.pure_run, Prod.mk.injEq, Except.ok.injEq] at h₁
      exact ⟨T', by rw [h₁.2]⟩
  obtain ⟨ms', w₂, h₂, -, -, -⟩ := deepcopyList_spec ms w₁ k₁.valid hM.1 fun i hi => (hM.clonable i hi).kept k₁
  obtain ⟨n, rfl⟩ := Nat.exists_eq_add_of_lt hn
  have : newSubjects T ms k others (0 + n + 1) w = (.error .assertion, w₂) := by
    simp [newSubjects, newSubject, Prog.bind_run, q₁, h₂, hk]
  exact ⟨w₂, by simp only [AtlasParams.new, Prog.bind_run, Prog.lift_run, hm, ht, this]⟩

/-- `fit_gd=True` and `fit_gd=False` raise `TypeError`. -/
theorem C84_single_flag_disagreement {w : World α} (hv : w.Valid) {T : Man} {ms : List Man} (hT : Usable w [T]) (hM : Usable w ms) (hne : ms ≠ []) (zero : α → α)
    (n : Nat) {mode : String} (hmode : mode = "sequential" ∨ mode = "parallel") {t : TemplateArgs} (ht : t.check = .ok ()) (b : Bool)
    (others : Dict String (List Ref)) : ∃ w', AtlasParams.new zero T ms 1 n mode t (.bool b) others w = (.error .type, w') := by
  obtain ⟨m, hm⟩ := ofString_ok hmode
  obtain ⟨Ss, w₁, h₁, -⟩ := newSubjects_spec (T := T) (ms := ms) others n hv hT hM
  have hl : ms.length ≠ 0 := fun e => hne (List.length_eq_zero_iff.1 e)
  exact ⟨w₁, by simp only [AtlasParams.new, Prog.bind_run, Prog.lift_run, hm, ht, h₁, FitArg.loop, hl, if_false]; rfl⟩

/-- One flag per tensor of a module: all descriptors of the first subject's module become
parameters, whatever the flags, and none of them is recorded for differentiation. -/
theorem C84_per_tensor_disagreement {w : World α} (hv : w.Valid) {T : Man} (hT : Usable w [T]) {i : Nat} (hM : Usable w [.leaf i]) (zero : α → α) {n : Nat} (hn : 0 < n)
    {mode : String} (hmode : mode = "sequential" ∨ mode = "parallel") {t : TemplateArgs} (ht : t.check = .ok ()) (ho : t.optimise = false) (b : Bool) (bs : List Bool) :
    ∃ (A : AtlasParams) (P : Dict String (List Ref)) (w' : World α) (j : Nat),
      AtlasParams.new zero T [.leaf i] 1 n mode t (.list [.tensors (b :: bs)]) [] w = (.ok (A, P), w') ∧
        P.get? "gd" = some (w'.held .gd j) ∧ w'.heldVals .gd j = w.heldVals .gd i ∧ ∀ r ∈ w'.held .gd j, ¬ Leafy w' r := by
  obtain ⟨m, hm⟩ := ofString_ok hmode
  obtain ⟨Ss, w₁, h₁, hlen, g₁, p₁, u₁⟩ := newSubjects_spec (T := T) (ms := [.leaf i]) [] n hv hT hM
  obtain ⟨S, Ss, rfl⟩ : ∃ S Ss', Ss = S :: Ss' := List.exists_cons_of_ne_nil (by rintro rfl; simp at hlen; omega)
  obtain ⟨T', j, hin, hc⟩ : ∃ T' j, S.model.init = [T', .leaf j] ∧ CopyOf w w₁ i j := by
    have h := p₁.copies S (by simp)
    generalize S.model.init = I at h
    match I, h with
    | _, .cons _ (.cons h₂ hn) =>
      cases hn
      rcases h₂ with ⟨e, -⟩ | ⟨i', j, e, rfl, hc⟩
      · cases e
      · cases e
        exact ⟨_, j, rfl, hc⟩
  have hcot := atlasCotan_spec (S :: Ss) w₁ fun S hS => (p₁.plain S hS).2.1
  have hht : newHt zero T t.optimise w₁ = (.ok none, w₁) := by rw [ho]; rfl
  have hgd : firstGd [.tensors (b :: bs)] (S :: Ss) (List.range 1) w₁ = (.ok (w₁.held .gd j), w₁) := by
    rw [firstGd_spec _ S Ss w₁ (List.range 1) (by simp [hin])]
    simp [List.range_succ, FitGd.truthy, gdOf, hin, Man.unroll]
    unfold World.held; cases w₁.leaves[j]? <;> rfl
  refine ⟨⟨S :: Ss, 1, .list [.tensors (b :: bs)], [], none⟩, [("cotan", (S :: Ss).flatMap fun S => Man.unroll.unrollList w₁ .cotan S.model.init),
    ("gd", w₁.held .gd j)], w₁, j, ?_, by simp [Dict.get?], hc.vals .gd, fun r hr hl => ?_⟩
  · have hrec : recordFit [.tensors (b :: bs)] (S :: Ss) (List.range [Man.leaf i].length) w₁ = (.ok (), w₁) := rfl
    have hcomp : AtlasParams.compute ⟨S :: Ss, 1, .list [.tensors (b :: bs)], [], none⟩ w₁ = (.ok [("cotan", (S :: Ss).flatMap fun S => Man.unroll.unrollList w₁ .cotan S.model.init),
        ("gd", w₁.held .gd j)], w₁) := by
      simp only [AtlasParams.compute, Prog.bind_run, hcot, FitArg.loop, hgd]
      simp [Dict.set]
    simp only [AtlasParams.new, Prog.bind_run, Prog.lift_run, hm, ht, h₁, FitArg.loop, hrec, hht]
    rw [show [Man.leaf i].length = 1 from rfl, hcomp]
    rfl
  · have hj : j ∈ (S :: Ss).flatMap Subject.ids := by
      rw [List.flatMap_cons, List.mem_append]
      exact Or.inl (by simp [Subject.ids, hin, Man.ids.idsList, Man.ids])
    obtain ⟨o, ho, hb⟩ := u₁ j hj r hr
    obtain ⟨o', ho', hb', -⟩ := hl
    rw [ho] at ho'
    cases ho'
    rw [hb] at hb'
    exact absurd hb' (by decide)

/-! Non-vacuity: two subjects, a module with two tensors that are asked for and a silent module. The
second subject keeps its descriptors whatever is written into the parameters. -/
example : ∃ (A : AtlasParams) (P : Dict String (List Ref)) (w' : World Int),
    AtlasParams.new (fun _ => 0) (.leaf 0) [.leaf 1, .empty] 1 2 "sequential" ⟨false, false, false, none⟩ (.list [.flag true, .flag false]) [] exWorld = (.ok (A, P), w') ∧
      ∃ S₁ S₂ j₁ j₂, A.subjects = [S₁, S₂] ∧ j₁ ∈ S₁.ids ∧ j₂ ∈ S₂.ids ∧
        (∃ w'', Updated P w' w'' ∧ w''.heldVals .gd j₁ = [some 7, some 7]) ∧ ∀ w'', Updated P w' w'' → w''.heldVals .gd j₂ = exWorld.heldVals .gd 1 := by
  obtain ⟨A, P, w', hrun, hlen, h1, h2⟩ := C84_shared_disagreement (w := exWorld) exWorld_valid (exWorld_usable 0 (by simp) [] (by simp))
    (exWorld_usable 1 (by simp) [.empty] (by simp)) (fun _ => 0) (n := 2) (by decide) (Or.inl rfl) (t := ⟨false, false, false, none⟩) rfl (by simp) [true, false] rfl
  obtain ⟨A', P', w₁, hrun', hA, -⟩ := C84_partial (w := exWorld) exWorld_valid (exWorld_usable 0 (by simp) [] (by simp))
    (exWorld_usable 1 (by simp) [.empty] (by simp)) (fun _ => 0) (n := 2) (by decide) (Or.inl rfl) (t := ⟨false, false, false, none⟩) rfl (by simp) (some [true, false])
    (by rintro _ ⟨⟩; rfl)
  rw [show fitFlags (some [true, false]) = .list ([true, false].map .flag) from rfl, hrun] at hrun'
  simp only [Prod.mk.injEq, Except.ok.injEq] at hrun'
  obtain ⟨⟨rfl, rfl⟩, rfl⟩ := hrun'
  obtain ⟨S₁, S₂, hS⟩ := List.length_eq_two.1 hlen
  have cop : ∀ {R : Nat → Nat → Prop} {I : List Man}, List.Forall₂ (PairR R) [.leaf 0, .leaf 1, .empty] I → ∃ k j, I = [.leaf k, .leaf j, .empty] ∧ R 1 j := by
    intro R I h
    match I, h with
    | _, .cons h₀ (.cons h₁ (.cons h₂ hn)) =>
      cases hn
      rcases h₀ with ⟨e, -⟩ | ⟨_, k, e, rfl, -⟩
      · cases e
      rcases h₁ with ⟨e, -⟩ | ⟨_, j, e', rfl, hr⟩
      · cases e
      rcases h₂ with ⟨-, rfl⟩ | ⟨_, _, e'', -⟩
      · cases e'; exact ⟨k, j, rfl, hr⟩
      · cases e''
  obtain ⟨k₁, j₁, e₁, c₁⟩ := cop (hA.copies S₁ (by simp [hS]))
  obtain ⟨k₂, j₂, e₂, -⟩ := cop (hA.copies S₂ (by simp [hS]))
  refine ⟨A, P, w', hrun, S₁, S₂, j₁, j₂, hS, by simp [Subject.ids, e₁, Man.ids.idsList, Man.ids], by simp [Subject.ids, e₂, Man.ids.idsList, Man.ids], ?_, ?_⟩
  · obtain ⟨w'', hu, h⟩ := h2 7
    refine ⟨w'', hu, ?_⟩
    have hall := h S₁ (by simp [hS]) j₁ (by simp [e₁, flaggedIds, Man.ids])
    have hl : (w''.heldVals .gd j₁).length = 2 := by
      have h3 : (w''.heldVals .gd j₁).length = (w'.heldVals .gd j₁).length := by simp [World.heldVals, held_updated hu]
      rw [h3, c₁.vals .gd]
      rfl
    obtain ⟨x, y, e⟩ := List.length_eq_two.1 hl
    rw [e] at hall ⊢
    rw [hall x (by simp), hall y (by simp)]
  · intro w'' hu
    obtain ⟨_, j, e, c⟩ := cop (h1 w'' hu S₂ (by simp [hS]))
    rw [e₂] at e
    cases e
    exact c

/-! Non-vacuity with an optimised template, whose descriptor is a single tensor. -/
example : ∃ (A : AtlasParams) (P : Dict String (List Ref)) (w' : World Int) (r : Ref),
    AtlasParams.new (fun _ => 0) (.leaf 0) [.leaf 1, .empty] 1 3 "sequential" ⟨true, true, false, none⟩ .none [] exWorld = (.ok (A, P), w') ∧
      P.get? "ht" = some [r] ∧ w'.read r = some 0 ∧ P.get? "gd" = none := by
  obtain ⟨A, P, w', hrun, h, -⟩ := C84_partial (w := exWorld) exWorld_valid (exWorld_usable 0 (by simp) [] (by simp))
    (exWorld_usable 1 (by simp) [.empty] (by simp)) (fun _ => 0) (n := 3) (by decide) (Or.inl rfl) (t := ⟨true, true, false, none⟩) rfl (fun _ => ⟨_, rfl⟩) none
    (by rintro _ ⟨⟩)
  obtain ⟨r, hr⟩ := Option.isSome_iff_exists.1 h.htSome
  obtain ⟨_, _, -, -, h0⟩ := h.htZero r hr
  exact ⟨A, P, w', r, hrun, by rw [h.ht, hr]; rfl, h0, h.gd⟩

end Imodal
