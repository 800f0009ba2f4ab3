import Verif.Model.Access
import Verif.Lemmas.Dict
/-!
# C128: models and optimisers answer what they were built from

A registration model, an atlas and an optimiser are built once and asked often. Whatever is assigned
from outside and whatever their methods and subclasses write in between, the properties return what
the constructor was given; `init_manifold` and `learnable_controls` return what was assigned last.
Assigning to any other property raises and changes nothing.

Three properties of atlases and one of optimisers do not do so: see the disagreements.
-/
set_option autoImplicit false
namespace Imodal
variable {V : Type}

namespace Spec

/-- What may happen to an object of class `C` whose own methods write only the names `ws`: any
assignment from outside, any write of another class under its own name. -/
def Ordinary (C : ClassDef) (ws : List String) : Event V → Prop
  | .assign n _ => n.startsWith "_" = false
  | .method cls n _ => cls = C.name → n ∈ ws

/-- What was assigned last to `n`, or what was there at first. -/
def lastAssigned (n : String) (first : Val V) : List (Event V) → Val V
  | [] => first
  | .assign m v :: es => if m = n then lastAssigned n v es else lastAssigned n first es
  | .method _ _ _ :: es => lastAssigned n first es

end Spec

/-! ## Attributes nothing writes -/

theorem Obj.read_set_self (o : Obj V) (a : Attr) (v : Val V) : Obj.read (Dict.set o a v) a = .ok v := by
  simp [Obj.read, Dict.get?_set_self]

theorem Obj.read_set_ne (o : Obj V) {a b : Attr} (v : Val V) (h : b ≠ a) : Obj.read (Dict.set o a v) b = Obj.read o b := by
  simp [Obj.read, Dict.get?_set_ne o v h]

theorem Obj.read_set (o : Obj V) (a b : Attr) (v : Val V) : Obj.read (Dict.set o a v) b = if b = a then .ok v else Obj.read o b := by
  by_cases h : b = a
  · rw [if_pos h, h, Obj.read_set_self]
  · rw [if_neg h, Obj.read_set_ne o v h]

theorem get_reads (C : ClassDef) (o : Obj V) (n x : String) (s : Option String) (h : C.prop n = some ⟨n, .reads x, s⟩) :
    C.get o n = Obj.read o ⟨some C.name, x⟩ := by
  unfold ClassDef.get
  rw [h]
  rfl

theorem assign_read (C : ClassDef) (o : Obj V) (n : String) (v : Val V) (x : String)
    (hs : ∀ p ∈ C.props, p.setter ≠ some x) : Obj.read (C.assign o n v).2 ⟨some C.name, x⟩ = Obj.read o ⟨some C.name, x⟩ := by
  unfold ClassDef.assign
  cases hp : C.prop n with
  | none => exact Obj.read_set_ne _ _ (by simp)
  | some p =>
    have hm : p ∈ C.props := List.mem_of_find?_eq_some hp
    dsimp only
    cases hq : p.setter with
    | none => rfl
    | some s =>
      refine Obj.read_set_ne _ _ ?_
      intro e
      injection e with _ e
      exact hs p hm (by rw [hq, e])

/-- A private attribute that neither a setter nor a method writes stays what it is. -/
theorem after_read (C : ClassDef) (ws : List String) (x : String) (hs : ∀ p ∈ C.props, p.setter ≠ some x) (hx : x ∉ ws)
    (es : List (Event V)) : ∀ (o : Obj V), (∀ e ∈ es, Spec.Ordinary C ws e) →
      Obj.read (C.after o es) ⟨some C.name, x⟩ = Obj.read o ⟨some C.name, x⟩ := by
  induction es with
  | nil => intro o _; rfl
  | cons e es ih =>
    intro o he
    have ht : ∀ e ∈ es, Spec.Ordinary C ws e := fun e' h => he e' (List.mem_cons_of_mem _ h)
    have h0 := he e List.mem_cons_self
    cases e with
    | assign n v => rw [ClassDef.after, ih _ ht, assign_read C o n v x hs]
    | method cls n v =>
      rw [ClassDef.after, ih _ ht]
      refine Obj.read_set_ne _ _ ?_
      intro e
      injection e with e1 e2
      injection e1 with e1
      exact hx (e2 ▸ h0 e1.symm)

/-! ## Registration models -/

/-- **C128.** After any history a registration model answers what it was built from. -/
theorem C128_registration (a : RegArgs V) (manifold all controls parameters : Val V) (es : List (Event V))
    (he : ∀ e ∈ es, Spec.Ordinary registrationClass ["parameters"] e) :
    let o := registrationClass.after (a.init manifold all controls parameters) es
    registrationClass.get o "deformables" = .ok a.deformables ∧
    registrationClass.get o "attachments" = .ok (.list a.attachments) ∧
    registrationClass.get o "deformation_modules" = .ok a.modules ∧
    registrationClass.get o "modules" = .ok all ∧
    registrationClass.get o "precompute_callback" = .ok a.callback ∧
    registrationClass.get o "fit_gd" = .ok a.fitGd ∧
    registrationClass.get o "lam" = .ok a.lam ∧
    registrationClass.get o "init_other_parameters" = .ok a.others := by
  intro o
  have key : ∀ x, (∀ p ∈ registrationClass.props, p.setter ≠ some x) → x ∉ ["parameters"] →
      Obj.read o ⟨some "RegistrationModel", x⟩ = Obj.read (a.init manifold all controls parameters) ⟨some "RegistrationModel", x⟩ :=
    fun x h1 h2 => after_read registrationClass ["parameters"] x h1 h2 es _ he
  refine ⟨?_, ?_, ?_, ?_, ?_, ?_, ?_, ?_⟩
  · rw [get_reads registrationClass o "deformables" "deformables" none (by simp [ClassDef.prop, registrationClass])]
    exact (key "deformables" (by decide) (by decide)).trans (by simp [RegArgs.init, Obj.build, Obj.read_set])
  · rw [get_reads registrationClass o "attachments" "attachments" none (by simp [ClassDef.prop, registrationClass])]
    exact (key "attachments" (by decide) (by decide)).trans (by simp [RegArgs.init, Obj.build, Obj.read_set])
  · rw [get_reads registrationClass o "deformation_modules" "deformation_modules" none (by simp [ClassDef.prop, registrationClass])]
    exact (key "deformation_modules" (by decide) (by decide)).trans (by simp [RegArgs.init, Obj.build, Obj.read_set])
  · rw [get_reads registrationClass o "modules" "modules" none (by simp [ClassDef.prop, registrationClass])]
    exact (key "modules" (by decide) (by decide)).trans (by simp [RegArgs.init, Obj.build, Obj.read_set])
  · rw [get_reads registrationClass o "precompute_callback" "precompute_callback" none (by simp [ClassDef.prop, registrationClass])]
    exact (key "precompute_callback" (by decide) (by decide)).trans (by simp [RegArgs.init, Obj.build, Obj.read_set])
  · rw [get_reads registrationClass o "fit_gd" "fit_gd" none (by simp [ClassDef.prop, registrationClass])]
    exact (key "fit_gd" (by decide) (by decide)).trans (by simp [RegArgs.init, Obj.build, Obj.read_set])
  · rw [get_reads registrationClass o "lam" "lam" none (by simp [ClassDef.prop, registrationClass])]
    exact (key "lam" (by decide) (by decide)).trans (by simp [RegArgs.init, Obj.build, Obj.read_set])
  · rw [get_reads registrationClass o "init_other_parameters" "init_other_parameters" none (by simp [ClassDef.prop, registrationClass])]
    exact (key "init_other_parameters" (by decide) (by decide)).trans (by simp [RegArgs.init, Obj.build, Obj.read_set])

/-- A name that can be assigned returns what was assigned last, if the attribute behind it has no
other way of being written. -/
theorem after_last (C : ClassDef) (ws : List String) (n : String) (a : Attr)
    (hw : ∀ (o : Obj V) v, C.assign o n v = (.ok (), Dict.set o a v))
    (hn : ∀ (o : Obj V) m v, m ≠ n → Obj.read (C.assign o m v).2 a = Obj.read o a)
    (ha : a.cls = none ∨ (a.cls = some C.name ∧ a.name ∉ ws)) (es : List (Event V)) :
    ∀ (o : Obj V) (first : Val V), Obj.read o a = .ok first → (∀ e ∈ es, Spec.Ordinary C ws e) →
      Obj.read (C.after o es) a = .ok (Spec.lastAssigned n first es) := by
  induction es with
  | nil => intro o first h _; exact h
  | cons e es ih =>
    intro o first h he
    have ht : ∀ e ∈ es, Spec.Ordinary C ws e := fun e' h => he e' (List.mem_cons_of_mem _ h)
    have h0 := he e List.mem_cons_self
    cases e with
    | assign m v =>
      rw [ClassDef.after, Spec.lastAssigned]
      by_cases hm : m = n
      · rw [if_pos hm]
        subst hm
        refine ih _ v ?_ ht
        rw [hw]
        exact Obj.read_set_self _ _ _
      · rw [if_neg hm]
        exact ih _ first ((hn o m v hm).trans h) ht
    | method cls m v =>
      rw [ClassDef.after, Spec.lastAssigned]
      refine ih _ first ?_ ht
      rw [Obj.read_set_ne _ _ ?_]
      · exact h
      · intro e
        subst e
        rcases ha with ha | ⟨h1, h2⟩
        · simp at ha
        · simp only [Option.some.injEq] at h1
          exact h2 (h0 h1)

theorem prop_name (C : ClassDef) (n : String) (p : PropDef) (h : C.prop n = some p) : p.name = n := by
  have := List.find?_some h
  simpa using this

/-- **C128.** After any history the initial manifold and the learnable controls of a registration
model are those assigned last. -/
theorem C128_assigned (a : RegArgs V) (manifold all controls parameters : Val V) (es : List (Event V))
    (he : ∀ e ∈ es, Spec.Ordinary registrationClass ["parameters"] e) :
    let o := registrationClass.after (a.init manifold all controls parameters) es
    registrationClass.get o "init_manifold" = .ok (Spec.lastAssigned "init_manifold" manifold es) ∧
    registrationClass.get o "learnable_controls" = .ok (Spec.lastAssigned "learnable_controls" controls es) := by
  intro o
  constructor
  · rw [get_reads registrationClass o "init_manifold" "init_manifold" (some "init_manifold") (by simp [ClassDef.prop, registrationClass])]
    refine after_last registrationClass ["parameters"] "init_manifold" ⟨some "RegistrationModel", "init_manifold"⟩
      (fun o v => by simp [ClassDef.assign, ClassDef.prop, registrationClass]) ?_ (Or.inr ⟨rfl, by decide⟩) es _ manifold
      (by simp [RegArgs.init, Obj.build, Obj.read_set]) he
    intro o m v hm
    unfold ClassDef.assign
    cases hp : registrationClass.prop m with
    | none => exact Obj.read_set_ne _ _ (by simp)
    | some p =>
      have hmem : p ∈ registrationClass.props := List.mem_of_find?_eq_some hp
      have hname := prop_name _ _ _ hp
      have hset : p.setter = none := by
        have : ∀ p ∈ registrationClass.props, p.setter = none ∨ p.name = "init_manifold" := by decide
        rcases this p hmem with h | h
        · exact h
        · exact absurd (hname.symm.trans h) hm
      simp only [hset]
  · have hg : registrationClass.get o "learnable_controls" = Obj.read o ⟨none, "learnable_controls"⟩ := by
      simp [ClassDef.get, ClassDef.prop, registrationClass]
    rw [hg]
    refine after_last registrationClass ["parameters"] "learnable_controls" ⟨none, "learnable_controls"⟩
      (fun o v => by simp [ClassDef.assign, ClassDef.prop, registrationClass]) ?_ (Or.inl rfl) es _ controls
      (by simp [RegArgs.init, Obj.build, Obj.read_set]) he
    intro o m v hm
    unfold ClassDef.assign
    cases hp : registrationClass.prop m with
    | none => exact Obj.read_set_ne _ _ (by simpa using fun h => hm h.symm)
    | some p =>
      dsimp only
      cases hq : p.setter with
      | none => rfl
      | some s => exact Obj.read_set_ne _ _ (by simp)

/-! ## Assignments -/

/-- **C128.** Assigning to a property other than `init_manifold` raises `AttributeError` and leaves the
object as it was, for registration models, atlases and optimisers. -/
theorem C128_refused (C : ClassDef) (hC : C = registrationClass ∨ C = atlasClass ∨ C = optimizerClass) (o : Obj V)
    (n : String) (v : Val V) (hn : n ∈ C.props.map (·.name)) (hi : n ≠ "init_manifold") :
    C.assign o n v = (.error .attribute, o) := by
  have hset : ∀ p ∈ C.props, p.setter = none ∨ p.name = "init_manifold" := by
    rcases hC with rfl | rfl | rfl <;> decide
  unfold ClassDef.assign
  cases hp : C.prop n with
  | none =>
    exfalso
    obtain ⟨p, hm, rfl⟩ := List.mem_map.1 hn
    have := List.find?_eq_none.1 hp p hm
    simp at this
  | some p =>
    have hmem : p ∈ C.props := List.mem_of_find?_eq_some hp
    rcases hset p hmem with h | h
    · simp only [h]
    · exact absurd ((prop_name _ _ _ hp).symm.trans h) hi

/-- **C128.** Any other name takes the value and gives it back, and no property changes by it. -/
theorem C128_public (C : ClassDef) (o : Obj V) (n : String) (v : Val V) (hn : n ∉ C.props.map (·.name)) :
    (C.assign o n v).1 = .ok () ∧ C.get (C.assign o n v).2 n = .ok v ∧
    ∀ m, m ≠ n → C.get (C.assign o n v).2 m = C.get o m := by
  have hp : C.prop n = none := by
    refine List.find?_eq_none.2 fun p hm => ?_
    intro h
    exact hn (List.mem_map.2 ⟨p, hm, by simpa using h⟩)
  have ha : C.assign o n v = (.ok (), Dict.set o ⟨none, n⟩ v) := by
    unfold ClassDef.assign
    rw [hp]
  rw [ha]
  refine ⟨rfl, ?_, ?_⟩
  · unfold ClassDef.get
    rw [hp]
    exact Obj.read_set_self _ _ _
  · intro m hm
    unfold ClassDef.get
    cases hq : C.prop m with
    | none => exact Obj.read_set_ne _ _ (by simpa using hm)
    | some p =>
      dsimp only
      have hr : ∀ x, Obj.read (Dict.set o ⟨none, n⟩ v) ⟨some C.name, x⟩ = Obj.read o ⟨some C.name, x⟩ :=
        fun x => Obj.read_set_ne _ _ (by simp)
      cases p.getter with
      | reads x => exact hr x
      | passes => rfl
      | firsts x => simp only [Getter.run, hr]

/-! ## Atlases -/

theorem firstColumn_replicate (a : V) (as : List V) (p : Nat) :
    firstColumn (List.replicate (p + 1) (a :: as)) = .ok (List.replicate (p + 1) a) := by
  have h : (List.replicate (p + 1) (a :: as)).filterMap List.head? = List.replicate (p + 1) a := by
    generalize p + 1 = q
    induction q with
    | zero => rfl
    | succ q ih => rw [List.replicate_succ, List.filterMap_cons, ih]; rfl
  have e : List.replicate (p + 1) (a :: as) = (a :: as) :: List.replicate p (a :: as) := rfl
  rw [e] at h ⊢
  unfold firstColumn
  dsimp only
  rw [if_pos (by simp), h]

/-- **C128.** After any history an atlas answers the weight, the callback and one registration model
for every subject. With one or more subjects its attachments are the first given attachment, once for
every subject. -/
theorem C128_atlas_partial (a : AtlasArgs V) (parameters : Val V) (es : List (Event V))
    (he : ∀ e ∈ es, Spec.Ordinary atlasClass ["parameters"] e) :
    let o := atlasClass.after (a.init parameters) es
    atlasClass.get o "lam" = .ok (.given a.lam) ∧
    atlasClass.get o "precompute_callback" = .ok a.callback ∧
    atlasClass.get o "registration_models" = .ok (.models (List.replicate a.count a.attachements)) ∧
    ∀ (x : V) (xs : List V), a.attachements = x :: xs → 0 < a.count →
      atlasClass.get o "attachments" = .ok (.list (List.replicate a.count x)) := by
  intro o
  have key : ∀ x, (∀ p ∈ atlasClass.props, p.setter ≠ some x) → x ∉ ["parameters"] →
      Obj.read o ⟨some "AtlasModel", x⟩ = Obj.read (a.init parameters) ⟨some "AtlasModel", x⟩ :=
    fun x h1 h2 => after_read atlasClass ["parameters"] x h1 h2 es _ he
  have hm : Obj.read o ⟨some "AtlasModel", "registration_models"⟩ = .ok (.models (List.replicate a.count a.attachements)) :=
    (key "registration_models" (by decide) (by decide)).trans (by simp [AtlasArgs.init, Obj.build, Obj.read_set])
  have hp : ∀ n, atlasClass.prop n = some ⟨n, .reads n, none⟩ → atlasClass.get o n = Obj.read o ⟨some "AtlasModel", n⟩ :=
    fun n h => get_reads atlasClass o n n none h
  refine ⟨?_, ?_, ?_, ?_⟩
  · rw [hp "lam" (by simp [ClassDef.prop, atlasClass])]
    exact (key "lam" (by decide) (by decide)).trans (by simp [AtlasArgs.init, Obj.build, Obj.read_set])
  · rw [hp "precompute_callback" (by simp [ClassDef.prop, atlasClass])]
    exact (key "precompute_callback" (by decide) (by decide)).trans (by simp [AtlasArgs.init, Obj.build, Obj.read_set])
  · rw [hp "registration_models" (by simp [ClassDef.prop, atlasClass])]
    exact hm
  intro x xs hx hc
  have hg : atlasClass.get o "attachments" = Getter.run "AtlasModel" o (.firsts "registration_models") := by
    simp [ClassDef.get, ClassDef.prop, atlasClass]
  rw [hg]
  unfold Getter.run
  dsimp only
  rw [hm]
  dsimp only
  obtain ⟨q, hq⟩ : ∃ q, a.count = q + 1 := ⟨a.count - 1, by omega⟩
  rw [hx, hq, firstColumn_replicate]
  rfl

/-- **C128, where the code disagrees.** Whatever an atlas was built from and whatever happened since,
asking for `compute_mode` or `attachement` raises `AttributeError`, and `template` is `None`. Without
subjects `attachments` raises `IndexError`. -/
theorem C128_atlas_disagreement (a : AtlasArgs V) (parameters : Val V) (es : List (Event V))
    (he : ∀ e ∈ es, Spec.Ordinary atlasClass ["parameters"] e) :
    let o := atlasClass.after (a.init parameters) es
    atlasClass.get o "compute_mode" = .error .attribute ∧ atlasClass.get o "attachement" = .error .attribute ∧
    atlasClass.get o "template" = .ok .none ∧ (a.count = 0 → atlasClass.get o "attachments" = .error .index) := by
  intro o
  have key : ∀ x, (∀ p ∈ atlasClass.props, p.setter ≠ some x) → x ∉ ["parameters"] →
      Obj.read o ⟨some "AtlasModel", x⟩ = Obj.read (a.init parameters) ⟨some "AtlasModel", x⟩ :=
    fun x h1 h2 => after_read atlasClass ["parameters"] x h1 h2 es _ he
  have hm : Obj.read o ⟨some "AtlasModel", "registration_models"⟩ = .ok (.models (List.replicate a.count a.attachements)) :=
    (key "registration_models" (by decide) (by decide)).trans (by simp [AtlasArgs.init, Obj.build, Obj.read_set])
  have hp : ∀ n, atlasClass.prop n = some ⟨n, .reads n, none⟩ → atlasClass.get o n = Obj.read o ⟨some "AtlasModel", n⟩ :=
    fun n h => get_reads atlasClass o n n none h
  refine ⟨?_, ?_, ?_, ?_⟩
  · rw [hp "compute_mode" (by simp [ClassDef.prop, atlasClass])]
    exact (key "compute_mode" (by decide) (by decide)).trans (by simp [AtlasArgs.init, Obj.build, Obj.read_set]; rfl)
  · rw [hp "attachement" (by simp [ClassDef.prop, atlasClass])]
    exact (key "attachement" (by decide) (by decide)).trans (by simp [AtlasArgs.init, Obj.build, Obj.read_set]; rfl)
  · simp [ClassDef.get, ClassDef.prop, atlasClass, Getter.run]
  intro hc
  have hg : atlasClass.get o "attachments" = Getter.run "AtlasModel" o (.firsts "registration_models") := by
    simp [ClassDef.get, ClassDef.prop, atlasClass]
  rw [hg]
  unfold Getter.run
  dsimp only
  rw [hm, hc]
  rfl

/-! ## Optimisers -/

theorem build_other (l : List (Attr × Val V)) (x : Attr) (h : ∀ e ∈ l, e.1 ≠ x) :
    Obj.read (Obj.build l) x = .error .attribute := by
  have gen : ∀ (l : List (Attr × Val V)) (o : Obj V), (∀ e ∈ l, e.1 ≠ x) →
      Obj.read (l.foldl (fun o e => Dict.set o e.1 e.2) o) x = Obj.read o x := by
    intro l
    induction l with
    | nil => intro o _; rfl
    | cons e l ih =>
      intro o h
      rw [List.foldl_cons, ih _ fun e' h' => h e' (List.mem_cons_of_mem _ h')]
      exact Obj.read_set_ne _ _ (h e List.mem_cons_self).symm
  exact (gen l [] h).trans rfl

/-- **C128.** Whatever attributes its own class sets before and after, an optimiser answers the model it
was created for. -/
theorem C128_optimizer (own : List (Attr × Val V)) (model : Val V) (es : List (Event V))
    (he : ∀ e ∈ es, Spec.Ordinary optimizerClass [] e) :
    optimizerClass.get (optimizerClass.after (optimizerInit own model) es) "model" = .ok model := by
  rw [get_reads optimizerClass _ "model" "model" none (by simp [ClassDef.prop, optimizerClass])]
  exact (after_read optimizerClass [] "model" (by decide) (by decide) es _ he).trans (Obj.read_set_self _ _ _)

/-- **C128, where the code disagrees.** The `kwargs` of an optimiser can never be read: no constructor
keeps them, and no later event of the optimiser can. -/
theorem C128_kwargs_disagreement (own : List (Attr × Val V)) (model : Val V) (es : List (Event V))
    (ho : ∀ e ∈ own, e.1.cls ≠ some "BaseOptimizer") (he : ∀ e ∈ es, Spec.Ordinary optimizerClass [] e) :
    optimizerClass.get (optimizerClass.after (optimizerInit own model) es) "kwargs" = .error .attribute := by
  rw [get_reads optimizerClass _ "kwargs" "kwargs" none (by simp [ClassDef.prop, optimizerClass])]
  refine (after_read optimizerClass [] "kwargs" (by decide) (by decide) es _ he).trans ?_
  refine (Obj.read_set_ne _ _ (by decide)).trans (build_other own _ ?_)
  intro e h hx
  exact ho e h (by rw [hx]; rfl)

/-! ## Concrete cases -/

/-- A user tries to change the weight, assigns another manifold and a note; the model recomputes its parameters. -/
def someEvents : List (Event Nat) :=
  [.assign "lam" (.given 7), .assign "init_manifold" (.given 5), .method "RegistrationModel" "parameters" (.list [1, 2]), .assign "note" (.given 3)]

example : ∀ e ∈ someEvents, Spec.Ordinary registrationClass ["parameters"] e := by
  intro e he
  simp only [someEvents, List.mem_cons, List.not_mem_nil, or_false] at he
  rcases he with rfl | rfl | rfl | rfl <;> simp [Spec.Ordinary] <;> decide

example : Spec.lastAssigned "init_manifold" (.given 1) someEvents = .given 5 := by simp [someEvents, Spec.lastAssigned]

/-- An atlas of three subjects. -/
def threeSubjects : AtlasArgs Nat := ⟨10, [20], 3, 30, .none, .none, 40⟩

example : atlasClass.get (threeSubjects.init .none) "attachments" = .ok (.list [20, 20, 20]) :=
  (C128_atlas_partial threeSubjects .none [] (by simp)).2.2.2 20 [] rfl (by decide)

/-- What `OptimizerScipy` sets before. -/
example : ∀ e ∈ ([(⟨some "OptimizerScipy", "scipy_method"⟩, .given 1), (⟨some "OptimizerScipy", "need_grad"⟩, .given 0)] : List (Attr × Val Nat)),
    e.1.cls ≠ some "BaseOptimizer" := by
  intro e he
  simp only [List.mem_cons, List.not_mem_nil, or_false] at he
  rcases he with rfl | rfl <;> decide

end Imodal
