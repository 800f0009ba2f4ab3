import Verif.Spec.Manifold
import Mathlib.Tactic.Common
/-!
# Helper lemmas: rolling and filling manifold trees
-/
set_option autoImplicit false
namespace Imodal

variable {α : Type}

theorem collectProps_map {α β : Type} (prop : α → Py (Option β)) (g : α → β)
    (ts : List α) (h : ∀ t ∈ ts, prop t = .ok (some (g t))) :
    collectProps prop (ts.map some) = .ok (ts.map g) := by
  induction ts with
  | nil => rfl
  | cons t ts ih =>
    simp [collectProps, h t (by simp), ih (fun t' ht' => h t' (by simp [ht']))]

theorem argShared_sameKind (w : World α) (p : TObj → String) (d : String) (rs : List Ref)
    (hne : rs ≠ []) (h : ∀ r ∈ rs, ∃ o, w.objs[r]? = some o ∧ p o = d) :
    argShared w p (.list (rs.map .tensor)) = .ok (some d) := by
  have h1 : (rs.map Arg.tensor).map Arg.toOption = (rs.map Arg.tensor).map some := by
    simp [Arg.toOption]
  have h2 : ∀ t ∈ rs.map (Arg.tensor (τ := Ref)), argProp w p t = .ok (some ((fun _ => d) t)) := by
    intro t ht
    obtain ⟨r, hr, rfl⟩ := List.mem_map.1 ht
    obtain ⟨o, ho, hp⟩ := h r hr
    simp [argProp, ho, hp]
  simp only [argShared, sharedProperty]
  rw [h1, collectProps_map _ _ _ h2]
  cases rs with
  | nil => exact absurd rfl hne
  | cons r rs =>
    have : List.map ((fun _ => d) ∘ Arg.tensor) rs = List.replicate rs.length d := by
      simp [List.map_const', Function.comp_def]
    simp [this]

/-- Result of filling family `f` of the objects `ids` with `c`. -/
structure Filled (c : Nat → List Ref) (f : Fam) (ids : List Nat) (w w' : World α) : Prop where
  objs : w'.objs = w.objs
  stores : w'.stores = w.stores
  lnone : ∀ i : Nat, w.leaves[i]? = none → w'.leaves[i]? = none
  lsome : ∀ (i : Nat) (l : Leaf), w.leaves[i]? = some l → ∃ l', w'.leaves[i]? = some l' ∧
    (∀ g, (l'.tc g).shapes = (l.tc g).shapes) ∧ (∀ g, g ≠ f → l'.tc g = l.tc g) ∧
    (i ∈ ids → (l'.tc f).tensors = c i) ∧ (i ∉ ids → l' = l)

theorem Filled.refl (c : Nat → List Ref) (f : Fam) (w : World α) : Filled c f [] w w :=
  ⟨rfl, rfl, fun _ h => h, fun i l h => ⟨l, h, fun _ => rfl, fun _ _ => rfl, by simp, fun _ => rfl⟩⟩

theorem Filled.trans {c : Nat → List Ref} {f : Fam} {ids₁ ids₂ ids : List Nat}
    {w w₁ w₂ : World α} (hm : ∀ i, i ∈ ids ↔ i ∈ ids₁ ∨ i ∈ ids₂)
    (h₁ : Filled c f ids₁ w w₁) (h₂ : Filled c f ids₂ w₁ w₂) : Filled c f ids w w₂ := by
  refine ⟨h₂.objs.trans h₁.objs, h₂.stores.trans h₁.stores,
    fun i h => h₂.lnone i (h₁.lnone i h), ?_⟩
  intro i l hl
  obtain ⟨l₁, hl₁, hs₁, ho₁, hin₁, hout₁⟩ := h₁.lsome i l hl
  obtain ⟨l₂, hl₂, hs₂, ho₂, hin₂, hout₂⟩ := h₂.lsome i l₁ hl₁
  refine ⟨l₂, hl₂, fun g => (hs₂ g).trans (hs₁ g), fun g hg => (ho₂ g hg).trans (ho₁ g hg), ?_, ?_⟩
  · intro hi
    by_cases h2 : i ∈ ids₂
    · exact hin₂ h2
    · have h1 : i ∈ ids₁ := ((hm i).1 hi).resolve_right h2
      rw [hout₂ h2]; exact hin₁ h1
  · intro hi
    have := mt (hm i).2 hi
    push Not at this
    rw [hout₂ this.2, hout₁ this.1]

theorem Filled.ready {c : Nat → List Ref} {f : Fam} {ids ids' : List Nat} {w w' : World α}
    (h : Filled c f ids w w') (hr : Ready w c ids') : Ready w' c ids' := by
  intro i hi
  obtain ⟨l, hl, hs, hpos, hk⟩ := hr i hi
  obtain ⟨l', hl', hs', -⟩ := h.lsome i l hl
  refine ⟨l', hl', fun g => by rw [hs' g, hs g], hpos, ?_⟩
  obtain ⟨d, t, hdt⟩ := hk
  exact ⟨d, t, fun r hr => by rw [h.objs]; exact hdt r hr⟩

theorem Ready.mono {w : World α} {c : Nat → List Ref} {ids ids' : List Nat}
    (h : Ready w c ids) (hs : ∀ i ∈ ids', i ∈ ids) : Ready w c ids' :=
  fun i hi => h i (hs i hi)

theorem argRefs_map (l : List Ref) : argRefs (l.map .tensor) = .ok l := by
  induction l with
  | nil => rfl
  | cons r l ih => simp [argRefs, ih]

theorem Leaf.tc_setTc_same (l : Leaf) (c : TC) (f : Fam) : (l.setTc c f).tc f = c := by
  cases f <;> rfl

theorem Leaf.tc_setTc_ne (l : Leaf) (c : TC) {f g : Fam} (h : g ≠ f) :
    (l.setTc c f).tc g = l.tc g := by
  cases f <;> cases g <;> first | rfl | exact absurd rfl h

theorem argShared_ofRefs {w : World α} {rs : List Ref} (hk : SameKind w rs) (hpos : 0 < rs.length) :
    ∃ d t, argShared w TObj.device (Arg.ofRefs rs) = .ok (some d) ∧
      argShared w TObj.dtype (Arg.ofRefs rs) = .ok (some t) := by
  obtain ⟨d, t, h⟩ := hk
  refine ⟨d, t, ?_⟩
  match rs, hpos with
  | [r], _ =>
    obtain ⟨o, ho, hd, ht⟩ := h r (by simp)
    simp [Arg.ofRefs, argShared, argProp, ho, hd, ht]
  | r :: r' :: rs, _ =>
    have h1 := argShared_sameKind w TObj.device d (r :: r' :: rs) (by simp)
      (fun r hr => by obtain ⟨o, ho, hd, _⟩ := h r hr; exact ⟨o, ho, hd⟩)
    have h2 := argShared_sameKind w TObj.dtype t (r :: r' :: rs) (by simp)
      (fun r hr => by obtain ⟨o, ho, _, hd⟩ := h r hr; exact ⟨o, ho, hd⟩)
    exact ⟨h1, h2⟩

theorem fillRefs_ofRefs (rs : List Ref) (hpos : 0 < rs.length) :
    fillRefs rs.length (Arg.ofRefs rs) = .ok rs := by
  match rs, hpos with
  | [r], _ => simp [Arg.ofRefs, fillRefs]
  | r :: r' :: rs, _ => exact argRefs_map _

theorem leafFill_ready {w : World α} {c : Nat → List Ref} {f : Fam} {i : Nat}
    (hr : Ready w c [i]) :
    ∃ w', leafFill i f byRef (Arg.ofRefs (c i)) w = (.ok (), w') ∧ Filled c f [i] w w' := by
  obtain ⟨l, hl, hs, hpos, hk⟩ := hr i (by simp)
  obtain ⟨d, t, hd, ht⟩ := argShared_ofRefs hk hpos
  obtain ⟨hi, hli⟩ := List.getElem?_eq_some_iff.1 hl
  simp only [leafFill, tcFill, Prog.bind_run, Prog.get_run, Prog.lift_run, hd, ht, modifyTc,
    Prog.modify_run, getLeaf, List.getElem?_modify, hl, Option.map_eq_map, Option.map_some, if_true,
    Leaf.tc_setTc_same, hs f, fillRefs_ofRefs _ hpos, fillTensors, byRef, Prog.pure_run,
    Bool.false_eq_true, if_false]
  refine ⟨_, rfl, ?_⟩
  refine ⟨rfl, rfl, ?_, ?_⟩
  · intro j hj
    simp [hj, List.getElem?_modify]
  · intro j lj hj
    by_cases hij : i = j
    · subst hij
      have : lj = l := by rw [hl] at hj; exact (Option.some.inj hj).symm
      subst this
      refine ⟨_, by simp [List.getElem?_modify, hl]; rfl, ?_, ?_, ?_, ?_⟩
      · intro g; cases f <;> cases g <;> rfl
      · intro g hg; cases f <;> cases g <;> first | rfl | exact absurd rfl hg
      · intro _; cases f <;> rfl
      · intro h; simp at h
    · refine ⟨lj, by simp [List.getElem?_modify, hij, hj], fun _ => rfl, fun _ _ => rfl, ?_, fun _ => rfl⟩
      intro h; simp at h; exact absurd h.symm hij

mutual
theorem Man.fill_ready {c : Nat → List Ref} {f : Fam} : ∀ (m : Man) (w : World α),
    Ready w c m.ids → ∃ w', Man.fill f byRef m (m.arg c) w = (.ok (), w') ∧ Filled c f m.ids w w'
  | .empty, w, _ => ⟨w, rfl, Filled.refl c f w⟩
  | .leaf i, w, h => leafFill_ready h
  | .compound ms, w, h => by
    obtain ⟨w₁, h₁, hf₁⟩ := Man.fillZip_ready (c := c) (f := f) ms w h
    by_cases hf : f = .gd
    · obtain ⟨w₂, h₂, hf₂⟩ := Man.fillIdx_ready (c := c) (f := f) ms w₁ (hf₁.ready h)
      refine ⟨w₂, ?_, hf₁.trans (by simp [Man.ids]) hf₂⟩
      subst hf
      simp [Man.arg, Man.fill, Prog.bind_run, h₁, h₂]
    · refine ⟨w₁, ?_, hf₁⟩
      simp [Man.arg, Man.fill, Prog.bind_run, h₁, hf]
theorem Man.fillZip_ready {c : Nat → List Ref} {f : Fam} : ∀ (ms : List Man) (w : World α),
    Ready w c (Man.ids.idsList ms) →
    ∃ w', Man.fill.fillZip f byRef ms (Man.arg.argList c ms) w = (.ok (), w') ∧
      Filled c f (Man.ids.idsList ms) w w'
  | [], w, _ => ⟨w, rfl, Filled.refl c f w⟩
  | m :: ms, w, h => by
    obtain ⟨w₁, h₁, hf₁⟩ := Man.fill_ready (c := c) (f := f) m w (h.mono (by simp [Man.ids.idsList]; tauto))
    obtain ⟨w₂, h₂, hf₂⟩ := Man.fillZip_ready (c := c) (f := f) ms w₁
      (hf₁.ready (h.mono (by simp [Man.ids.idsList]; tauto)))
    refine ⟨w₂, ?_, hf₁.trans (by simp [Man.ids.idsList]) hf₂⟩
    simp [Man.arg.argList, Man.fill.fillZip, Prog.bind_run, h₁, h₂]
theorem Man.fillIdx_ready {c : Nat → List Ref} {f : Fam} : ∀ (ms : List Man) (w : World α),
    Ready w c (Man.ids.idsList ms) →
    ∃ w', Man.fill.fillIdx f byRef ms (Man.arg.argList c ms) w = (.ok (), w') ∧
      Filled c f (Man.ids.idsList ms) w w'
  | [], w, _ => ⟨w, rfl, Filled.refl c f w⟩
  | m :: ms, w, h => by
    obtain ⟨w₁, h₁, hf₁⟩ := Man.fill_ready (c := c) (f := f) m w (h.mono (by simp [Man.ids.idsList]; tauto))
    obtain ⟨w₂, h₂, hf₂⟩ := Man.fillIdx_ready (c := c) (f := f) ms w₁
      (hf₁.ready (h.mono (by simp [Man.ids.idsList]; tauto)))
    refine ⟨w₂, ?_, hf₁.trans (by simp [Man.ids.idsList]) hf₂⟩
    simp [Man.arg.argList, Man.fill.fillIdx, Prog.bind_run, h₁, h₂]
end

theorem popN_append {τ : Type} (l rest : List τ) : popN l.length (l ++ rest) = .ok (l, rest) := by
  induction l with
  | nil => rfl
  | cons t l ih => simp [popN, ih]

theorem rollShapes_append (l rest : List Ref) (hpos : 0 < l.length) :
    rollShapes l.length (l ++ rest) = .ok (Arg.ofRefs l, rest) := by
  match l, hpos with
  | [t], _ => rfl
  | t :: t' :: l, _ =>
    have := popN_append (t :: t' :: l) rest
    simp only [List.cons_append, List.length_cons] at this
    simp [rollShapes, this, Arg.ofRefs]

mutual
theorem Man.roll_ready {w : World α} {c : Nat → List Ref} {f : Fam} (hf : f ≠ .tan) :
    ∀ (m : Man) (rest : List Ref), Ready w c m.ids →
    m.roll w f ((m.ids.map c).flatten ++ rest) = .ok (m.arg c, rest)
  | .empty, rest, _ => rfl
  | .leaf i, rest, h => by
    obtain ⟨l, hl, hs, hpos, _⟩ := h i (by simp [Man.ids])
    simp [Man.roll, Man.ids, hl, hs f, Man.arg, rollShapes_append _ _ hpos]
  | .compound ms, rest, h => by
    have := Man.rollList_ready hf ms rest h
    simp [Man.roll, Man.ids, Man.arg, hf, this]
theorem Man.rollList_ready {w : World α} {c : Nat → List Ref} {f : Fam} (hf : f ≠ .tan) :
    ∀ (ms : List Man) (rest : List Ref), Ready w c (Man.ids.idsList ms) →
    Man.roll.rollList w f ms (((Man.ids.idsList ms).map c).flatten ++ rest)
      = .ok (Man.arg.argList c ms, rest)
  | [], rest, _ => rfl
  | m :: ms, rest, h => by
    have h₁ := Man.roll_ready hf m (((Man.ids.idsList ms).map c).flatten ++ rest)
      (h.mono (by simp [Man.ids.idsList]; tauto))
    have h₂ := Man.rollList_ready hf ms rest (h.mono (by simp [Man.ids.idsList]; tauto))
    simp [Man.ids.idsList, Man.roll.rollList, Man.arg.argList, h₁, h₂]
end

mutual
theorem Man.unroll_eq (w : World α) (f : Fam) : ∀ m : Man,
    m.unroll w f = (m.ids.map (w.held f)).flatten
  | .empty => rfl
  | .leaf i => by
    simp only [Man.unroll, Man.ids, World.held, List.map_cons, List.map_nil, List.flatten_cons,
      List.flatten_nil, List.append_nil]
    rfl
  | .compound ms => by
    simp [Man.unroll, Man.ids, Man.unrollList_eq w f ms]
theorem Man.unrollList_eq (w : World α) (f : Fam) : ∀ ms : List Man,
    Man.unroll.unrollList w f ms = ((Man.ids.idsList ms).map (w.held f)).flatten
  | [] => rfl
  | m :: ms => by
    simp [Man.unroll.unrollList, Man.ids.idsList, Man.unroll_eq w f m, Man.unrollList_eq w f ms]
end

end Imodal
