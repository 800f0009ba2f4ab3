import Verif.Lemmas.Device
import Verif.Props.C35
/-!
# C99: moving a registration model to a device, and giving it another initial state
-/
set_option autoImplicit false
namespace Imodal
variable {α : Type}

/-- Every manifold object in `I` is on the device `dev` in the state `w'`, with the values it had in `w`; the descriptors
of the objects in `fit` are recorded, all other tensors are recorded exactly if they were; other objects are left alone. -/
structure OnDevice (dev : String) (w w' : World α) (I fit : List Nat) : Prop where
  device : ∀ i ∈ I, ∀ f, ∀ r ∈ w'.held f i, ∃ o, w'.objs[r]? = some o ∧ o.device = dev ∧ o.hasGraph = false
  vals : ∀ i f, w'.heldVals f i = w.heldVals f i
  pairs : ∀ i ∈ I, ∀ f, (f = .gd → i ∉ fit) → List.Forall₂ (Moved dev w w') (w.held f i) (w'.held f i)
  fitted : ∀ i ∈ fit, ∀ r ∈ w'.held .gd i, ∃ o, w'.objs[r]? = some o ∧ o.requiresGrad = true
  rest : ∀ i, i ∉ I → i ∉ fit → ∀ f, w'.held f i = w.held f i
  old : ∀ (r : Ref) (o : TObj), w.objs[r]? = some o → w'.objs[r]? = some o ∧ w'.read r = w.read r

theorem heldVals_of_moved {dev : String} {w w' : World α} {rs rs' : List Ref} (h : List.Forall₂ (Moved dev w w') rs rs') :
    rs'.map w'.read = rs.map w.read := by
  induction h with
  | nil => rfl
  | cons h _ ih =>
    obtain ⟨o, o', -, -, -, -, -, -, e⟩ := h
    simp [e, ih]

theorem device_of_moved {dev : String} {w w' : World α} {rs rs' : List Ref} (h : List.Forall₂ (Moved dev w w') rs rs') :
    ∀ r ∈ rs', ∃ o, w'.objs[r]? = some o ∧ o.device = dev ∧ o.hasGraph = false := by
  induction h with
  | nil => simp
  | cons h _ ih =>
    obtain ⟨o, o', -, h1, h2, -, -, h3, -⟩ := h
    intro r hr
    rcases List.mem_cons.1 hr with rfl | hr
    · exact ⟨o', h1, h2, h3⟩
    · exact ih r hr

theorem Relocated.vals {dev : String} {w w' : World α} {I : Nat → Prop} (hv : w.Valid) (h : Relocated dev w w' I) (f : Fam) (i : Nat) :
    w'.heldVals f i = w.heldVals f i := by
  classical
  unfold World.heldVals
  by_cases hi : I i
  · exact heldVals_of_moved (h.moved i hi f)
  · rw [held_of_leaf (h.keep i hi)]
    exact List.map_congr_left fun r hr => h.ext.read_eq hv (hv.held_lt hr)

theorem onDevice_of {dev : String} {w w₁ w₂ : World α} (hv : w.Valid) {I fit : List Nat} (h : Relocated dev w w₁ (fun i => i ∈ I))
    (hr : Recorded w₁ w₂ (fun s => s.1 ∈ fit ∧ s.2 = .gd)) : OnDevice dev w w₂ I fit := by
  have keep : ∀ i f, (f = .gd → i ∉ fit) → w₂.held f i = w₁.held f i := fun i f hf =>
    hr.keep (i, f) fun e => hf e.2 e.1
  refine ⟨fun i hi f r hr' => ?_, fun i f => (hr.vals f i).trans (h.vals hv f i), fun i hi f hf => ?_, fun i hi r hr' => ?_, fun i hi hf f => ?_, fun r o ho => ?_⟩
  · by_cases hf : f = .gd → i ∉ fit
    · rw [keep i f hf] at hr'
      obtain ⟨o, ho, h1, h2⟩ := device_of_moved (h.moved i hi f) r hr'
      exact ⟨o, hr.ext.obj ho, h1, h2⟩
    · rw [Classical.not_imp, Classical.not_not] at hf
      obtain ⟨o, ho, h1⟩ := hr.kindOf (fun d _ => d = dev) f i (fun r hr => by
        obtain ⟨o, ho, h1, -⟩ := device_of_moved (h.moved i hi f) r hr
        exact ⟨o, ho, h1⟩) r hr'
      obtain ⟨o', ho', -, h2⟩ := hr.flags (i, f) ⟨hf.2, hf.1⟩ r hr'
      rw [ho] at ho'
      cases ho'
      exact ⟨o, ho, h1, h2⟩
  · rw [keep i f hf]
    exact moved_right h.valid hr.ext (h.moved i hi f)
  · obtain ⟨o, ho, h1, -⟩ := hr.flags (i, .gd) ⟨hi, rfl⟩ r hr'
    exact ⟨o, ho, h1⟩
  · rw [keep i f fun _ => hf, held_of_leaf (h.keep i hi)]
  · have e := h.ext.trans hr.ext
    exact ⟨e.obj ho, e.read_eq hv (List.getElem?_eq_some_iff.1 ho).1⟩

theorem unroll_held {w w' : World α} {ms : List Man} (h : ∀ i ∈ Man.ids.idsList ms, w'.held .cotan i = w.held .cotan i) :
    Man.unroll.unrollList w' .cotan ms = Man.unroll.unrollList w .cotan ms := by
  rw [unrollList_flatMap, unrollList_flatMap]
  exact List.flatMap_congr h

/-- Moving a model whose modules are single modules: the manifolds of the modules, of the deformables and of the initial state
are on the device with the same values, and the parameters are the moved tensors of the initial state; the learned controls
are the same tensors as before. -/
theorem C99_to_device_partial {w : World α} (hv : w.Valid) {M : ParamModel} {bs : List Bool} (hb : M.fitGd = .list (bs.map .flag))
    (ho : M.others = []) (hp : ∀ m ∈ M.init, m.Plain) (hnd : (Man.ids.idsList M.init).Nodup) {mods Ds : List Man}
    (hl : ∀ i ∈ Man.ids.idsList (mods ++ Ds ++ M.init), i < w.leaves.length) (dev : String) :
    ∃ (P : Dict String (List Ref)) (w' : World α), M.toDevice (mods.map .single) Ds dev w = (.ok P, w') ∧
      OnDevice dev w w' (Man.ids.idsList (mods ++ Ds ++ M.init)) (flaggedIds bs (M.init.drop M.deformables)) ∧
      P.get? "cotan" = some (Man.unroll.unrollList w' .cotan M.init) ∧
      P.get? "gd" = wantedGd w' bs (M.init.drop M.deformables) ∧
      P.get? "controls" = M.controls.map List.flatten ∧
      ∀ k, k ≠ "cotan" → k ≠ "gd" → k ≠ "controls" → P.get? k = none := by
  simp only [idsList_append, List.mem_append] at hl
  obtain ⟨w₁, e₁, r₁⟩ := modules_moved dev mods [] hv fun i hi => hl i (.inl (.inl hi))
  rw [List.append_nil] at e₁
  obtain ⟨w₂, e₂, r₂⟩ := men_moved dev Ds r₁.valid fun i hi => by rw [r₁.len]; exact hl i (.inl (.inr hi))
  obtain ⟨w₃, e₃, r₃⟩ := men_moved dev M.init r₂.valid fun i hi => by rw [r₂.len, r₁.len]; exact hl i (.inr hi)
  have hsub : (Man.ids.idsList (M.init.drop M.deformables)).Sublist (Man.ids.idsList M.init) := by
    conv_rhs => rw [← List.take_append_drop M.deformables M.init, idsList_append]
    exact List.sublist_append_right _ _
  have R := ((r₁.trans hv r₂).trans hv r₃)
  obtain ⟨w₄, e₄, r₄⟩ := fitTensors_spec hb r₃.valid (fun m hm => hp m (List.mem_of_mem_drop hm)) (hsub.nodup hnd)
    fun i hi => by rw [R.len]; exact hl i (.inr (hsub.subset hi))
  have hrun := computeParameters_run e₄
  rw [ho, List.foldl_nil] at hrun
  obtain ⟨g1, g2, g3, g4⟩ := groups_get (Man.unroll.unrollList w₃ .cotan M.init) (wantedGd w₄ bs (M.init.drop M.deformables)) (M.controls.map List.flatten)
  refine ⟨_, w₄, ?_, onDevice_of hv (R.congr fun i => by simp [idsList_append, or_assoc]) r₄, ?_, g2, g3, g4⟩
  · have e₁' : modulesToDevice dev (mods.map .single) w = (.ok (), w₁) := e₁
    simp only [ParamModel.toDevice, Prog.bind_run, e₁', e₂, e₃, hrun]
  · rw [g1, unroll_held fun i hi => r₄.keep (i, .cotan) fun e => by simp at e]

/-- Learned controls stay where they were: after the move they are on the device only if they were before. -/
theorem C99_controls_disagreement {w : World α} (hv : w.Valid) {M : ParamModel} {bs : List Bool} (hb : M.fitGd = .list (bs.map .flag))
    (ho : M.others = []) (hp : ∀ m ∈ M.init, m.Plain) (hnd : (Man.ids.idsList M.init).Nodup) {mods Ds : List Man}
    (hl : ∀ i ∈ Man.ids.idsList (mods ++ Ds ++ M.init), i < w.leaves.length) (dev : String) {rows : List (List Ref)} (hc : M.controls = some rows)
    {r : Ref} (hr : r ∈ rows.flatten) {o : TObj} (hro : w.objs[r]? = some o) (hdev : o.device ≠ dev) :
    ∃ (P : Dict String (List Ref)) (w' : World α) (rs : List Ref), M.toDevice (mods.map .single) Ds dev w = (.ok P, w') ∧
      P.get? "controls" = some rs ∧ r ∈ rs ∧ ∃ o', w'.objs[r]? = some o' ∧ o'.device ≠ dev := by
  obtain ⟨P, w', h, d, -, -, g, -⟩ := C99_to_device_partial hv hb ho hp hnd hl dev
  rw [hc] at g
  exact ⟨P, w', _, h, g, hr, o, (d.old r o hro).1, hdev⟩

/-- `other_parameters` are not moved: they are added to the groups as they were given, whatever the device. -/
theorem C99_others {M : ParamModel} {mods : List Movable} {Ds : List Man} {dev : String} {w w' : World α} {P : Dict String (List Ref)}
    (h : ({ M with others := [] } : ParamModel).toDevice mods Ds dev w = (.ok P, w')) :
    M.toDevice mods Ds dev w = (.ok (M.others.foldl (fun d e => d.set e.1 e.2) P), w') := by
  unfold ParamModel.toDevice at h ⊢
  simp only [Prog.bind_run] at h ⊢
  rcases h₁ : modulesToDevice dev mods w with ⟨_ | a, w₁⟩ <;> rw [h₁] at h <;> dsimp only at h ⊢
  · simp at h
  rcases h₂ : Man.toDevice.devList dev Ds w₁ with ⟨_ | a₂, w₂⟩ <;> rw [h₂] at h <;> dsimp only at h ⊢
  · simp at h
  rcases h₃ : Man.toDevice.devList dev M.init w₂ with ⟨_ | a₃, w₃⟩ <;> rw [h₃] at h <;> dsimp only at h ⊢
  · simp at h
  have e : (fitTensors { M with others := [] } : PM α _) = fitTensors M := rfl
  rcases h₄ : (fitTensors M : PM α _) w₃ with ⟨x | g, w₄⟩
  · simp only [computeParameters, Prog.bind_run, Prog.get_run, e, h₄] at h
    simp at h
  · rw [computeParameters_run (e ▸ h₄)] at h
    rw [computeParameters_run h₄]
    simp only [List.foldl_nil, Prod.mk.injEq, Except.ok.injEq] at h
    rw [← h.1, h.2]

/-- A compound among the deformation modules has no method to move it: the call raises, after the modules listed before it have
been moved and before anything else has, so the model is then spread over two devices. -/
theorem C99_compound_disagreement {w : World α} (hv : w.Valid) (M : ParamModel) {mods : List Man} (cs : List Man) (rest : List Movable) (Ds : List Man)
    (hl : ∀ i ∈ Man.ids.idsList mods, i < w.leaves.length) (dev : String) :
    ∃ w', M.toDevice (mods.map .single ++ .compound cs :: rest) Ds dev w = (.error .attribute, w') ∧
      OnDevice dev w w' (Man.ids.idsList mods) [] := by
  obtain ⟨w₁, e₁, r₁⟩ := modules_moved dev mods (.compound cs :: rest) hv hl
  refine ⟨w₁, ?_, onDevice_of hv r₁ ((Recorded.refl r₁.valid).congr fun s => by simp)⟩
  simp only [ParamModel.toDevice, Prog.bind_run, e₁]
  simp [modulesToDevice, Movable.toDevice, Prog.bind_run]

/-- A given initial state is used as it is: the momenta to optimise are the very tensors of the given manifolds, and they are
recorded only if the caller's tensors are; only the descriptors asked for by `fit_gd` are recorded. -/
theorem C99_fill_init {w : World α} (hv : w.Valid) {M : ParamModel} {bs : List Bool} (hb : M.fitGd = .list (bs.map .flag)) (ho : M.others = [])
    {init : List Man} (hp : ∀ m ∈ init, m.Plain) (hnd : (Man.ids.idsList init).Nodup) (hl : ∀ i ∈ Man.ids.idsList init, i < w.leaves.length) :
    ∃ (P : Dict String (List Ref)) (w' : World α), M.fillInit init w = (.ok ({ M with init := init }, P), w') ∧
      P.get? "cotan" = some (Man.unroll.unrollList w .cotan init) ∧ P.get? "gd" = wantedGd w' bs (init.drop M.deformables) ∧
      P.get? "controls" = M.controls.map List.flatten ∧
      (∀ i f, w'.heldVals f i = w.heldVals f i) ∧
      (∀ i f, (f = .gd → i ∉ flaggedIds bs (init.drop M.deformables)) → w'.held f i = w.held f i) ∧
      (∀ i ∈ flaggedIds bs (init.drop M.deformables), ∀ r ∈ w'.held .gd i, Leafy w' r) ∧
      ∀ (r : Ref) (o : TObj), w.objs[r]? = some o → w'.objs[r]? = some o := by
  obtain ⟨nd, i₀, fg, ct, ot⟩ := M
  dsimp only at hb ho ⊢
  subst hb ho
  have hsub : (Man.ids.idsList (init.drop nd)).Sublist (Man.ids.idsList init) := by
    conv_rhs => rw [← List.take_append_drop nd init, idsList_append]
    exact List.sublist_append_right _ _
  obtain ⟨w₄, e₄, r₄⟩ := fitTensors_spec (M := ⟨nd, init, .list (bs.map .flag), ct, []⟩) rfl hv (fun m hm => hp m (List.mem_of_mem_drop hm)) (hsub.nodup hnd)
    fun i hi => hl i (hsub.subset hi)
  have hrun := computeParameters_run e₄
  simp only [List.foldl_nil] at hrun
  obtain ⟨g1, g2, g3, -⟩ := groups_get (Man.unroll.unrollList w .cotan init) (wantedGd w₄ bs (init.drop nd)) (ct.map List.flatten)
  refine ⟨_, w₄, ?_, g1, g2, g3, fun i f => r₄.vals f i, fun i f hf => r₄.keep (i, f) fun e => hf e.2 e.1, fun i hi r hr => ?_, fun r o h => r₄.ext.obj h⟩
  · simp only [ParamModel.fillInit, Prog.bind_run, hrun, Prog.pure_run]
  · exact r₄.flags (i, .gd) ⟨hi, rfl⟩ r hr

/-- So after giving an initial state whose momenta are not recorded, the optimiser is handed momenta it cannot differentiate. -/
theorem C99_fill_init_disagreement {w : World α} (hv : w.Valid) {M : ParamModel} {bs : List Bool} (hb : M.fitGd = .list (bs.map .flag)) (ho : M.others = [])
    {init : List Man} (hp : ∀ m ∈ init, m.Plain) (hnd : (Man.ids.idsList init).Nodup) (hl : ∀ i ∈ Man.ids.idsList init, i < w.leaves.length)
    {r : Ref} (hr : r ∈ Man.unroll.unrollList w .cotan init) {o : TObj} (hro : w.objs[r]? = some o) (hg : o.requiresGrad = false) :
    ∃ (P : Dict String (List Ref)) (w' : World α) (rs : List Ref), M.fillInit init w = (.ok ({ M with init := init }, P), w') ∧
      P.get? "cotan" = some rs ∧ r ∈ rs ∧ ∃ o', w'.objs[r]? = some o' ∧ o'.requiresGrad = false := by
  obtain ⟨P, w', h, h1, -, -, -, -, -, h2⟩ := C99_fill_init hv hb ho hp hnd hl
  exact ⟨P, w', _, h, h1, hr, o, h2 r o hro, hg⟩

/-! Non-vacuity: one deformable and one module, each with its copy in the initial state; the descriptors of the module and
one row of controls are learned. -/

example (dev : String) (hd : dev ≠ "cpu") : ∃ (P : Dict String (List Ref)) (w' : World Int),
    (⟨1, [.leaf 0, .leaf 1], .list [.flag true], some [[3]], []⟩ : ParamModel).toDevice [.single (.leaf 1)] [.leaf 0] dev exWorld = (.ok P, w') ∧
      (∀ r ∈ w'.held .gd 1, ∃ o, w'.objs[r]? = some o ∧ o.device = dev ∧ o.hasGraph = false) ∧
      w'.heldVals .gd 1 = exWorld.heldVals .gd 1 ∧ (w'.held .gd 1).length = 2 ∧
      P.get? "gd" = some (w'.held .gd 1) ∧ P.get? "controls" = some [3] ∧ ∃ o, w'.objs[3]? = some o ∧ o.device ≠ dev := by
  have hl : ∀ i ∈ Man.ids.idsList ([.leaf 1] ++ [.leaf 0] ++ [.leaf 0, .leaf 1]), i < exWorld.leaves.length := by decide
  obtain ⟨P, w', h, d, -, g, c, -⟩ := C99_to_device_partial (w := exWorld) exWorld_valid
    (M := ⟨1, [.leaf 0, .leaf 1], .list [.flag true], some [[3]], []⟩) (bs := [true]) rfl rfl
    (by intro m hm; fin_cases hm <;> trivial) (by decide) (mods := [.leaf 1]) (Ds := [.leaf 0]) hl dev
  have hv := d.vals 1 .gd
  refine ⟨P, w', h, d.device 1 (by decide) .gd, hv, ?_, ?_, c, ?_⟩
  · have := congrArg List.length hv
    simp only [World.heldVals, List.length_map] at this
    rw [this]; rfl
  · simpa [wantedGd, flaggedIds, Man.ids] using g
  · exact ⟨_, (d.old 3 _ rfl).1, fun e => hd e.symm⟩

end Imodal
