import Verif.Lemmas.Reset
import Verif.Props.C21
/-!
# C25: field and cost reflect the current controls and descriptors

A history is a list of calls of `fill_controls`, `compute_geodesic_control`, and updates of the
descriptors and momenta of the manifold of a module.
-/
set_option autoImplicit false
namespace Imodal
noncomputable section
variable {d : Nat}

/-- A call changing a module. -/
inductive ModOp (d : Nat)
  | fill (c : Ctrl d)
  | geodesic (man : Mfd d)
  /-- `module.manifold.fill_gd(module.manifold.roll_gd(…))` with these entries. -/
  | gd (x : Row)
  /-- The same for the momenta. -/
  | cot (x : Row)

def ModOp.apply : ModOp d → DefModule d → Py (DefModule d)
  | .fill c, m => m.fillControls c
  | .geodesic man, m => m.geodesic man
  | .gd x, m => .ok (m.withGd x 0)
  | .cot x, m => .ok (m.withCot x 0)

def runOps : List (ModOp d) → DefModule d → Py (DefModule d)
  | [], m => .ok m
  | o :: os, m =>
    match o.apply m with
    | .error e => .error e
    | .ok m' => runOps os m'

/-- The update of the descriptors is what `roll_gd` and `fill_gd` do. -/
theorem gd_op_eq (m : DefModule d) (x : Row) :
    (ModOp.gd x).apply m = (match m.rollFillGd (slicesOf x m.manifold) with
      | .error e => .error e
      | .ok r => .ok r.1) := by
  have := DefModule.rollFillGd_slices x m 0 []
  rw [List.append_nil] at this
  unfold slicesOf
  rw [show (sliceLoop x (m.manifold.unrollGd.map List.length) 0).1 = slicesAt x m.manifold.unrollGd 0 from rfl, this]
  rfl

/-- Field and cost are those the module has when its own controls are set afresh, for the
descriptors it has now. -/
def Current (m : DefModule d) : Prop :=
  ∃ m', m.fillControls m.controls = .ok m' ∧ m.field = m'.field ∧ m.cost = m'.cost

/-- **C25.** Right after `fill_controls`, for every module. -/
theorem C25_after_fill {m m' : DefModule d} {c : Ctrl d} (h : m.fillControls c = .ok m') : Current m' :=
  ⟨m', fill_again h, rfl, rfl⟩

/-- Right after `compute_geodesic_control`, for every module. -/
theorem C25_after_geodesic {m m' : DefModule d} {man : Mfd d} (h : m.geodesic man = .ok m') : Current m' :=
  ⟨m', fill_again (geodesic_fill man m h), rfl, rfl⟩

mutual
/-- The module computes field and cost without cached results: all but the implicit modules of
order 1, the divergence free and the as-rigid-as-possible ones. -/
def DefModule.Cacheless : DefModule d → Prop
  | .translations _ => True
  | .implicit0 _ => True
  | .oriented _ => True
  | .constrained _ => True
  | .globalTranslation _ => True
  | .linear _ => True
  | .implicit1 _ => False
  | .divFree _ => False
  | .arap _ => False
  | .silent _ => True
  | .compound ms => DefModule.AllCacheless ms
def DefModule.AllCacheless : List (DefModule d) → Prop
  | [] => True
  | m :: ms => m.Cacheless ∧ DefModule.AllCacheless ms
end

mutual
theorem cacheless_reset : (m : DefModule d) → (m.reset.Cacheless ↔ m.Cacheless)
  | .translations _ => by rw [DefModule.reset, DefModule.Cacheless, DefModule.Cacheless]
  | .implicit0 _ => by rw [DefModule.reset, DefModule.Cacheless, DefModule.Cacheless]
  | .oriented _ => by rw [DefModule.reset, DefModule.Cacheless, DefModule.Cacheless]
  | .constrained _ => by rw [DefModule.reset, DefModule.Cacheless, DefModule.Cacheless]
  | .globalTranslation _ => by rw [DefModule.reset, DefModule.Cacheless, DefModule.Cacheless]
  | .linear _ => by rw [DefModule.reset, DefModule.Cacheless, DefModule.Cacheless]
  | .implicit1 _ => by rw [DefModule.reset, DefModule.Cacheless, DefModule.Cacheless]
  | .divFree _ => by rw [DefModule.reset, DefModule.Cacheless, DefModule.Cacheless]
  | .arap _ => by rw [DefModule.reset, DefModule.Cacheless, DefModule.Cacheless]
  | .silent _ => by rw [DefModule.reset]
  | .compound ms => by rw [DefModule.reset, DefModule.Cacheless, DefModule.Cacheless, cacheless_resetAll ms]
theorem cacheless_resetAll : (ms : List (DefModule d)) →
    (DefModule.AllCacheless (DefModule.resetAll ms) ↔ DefModule.AllCacheless ms)
  | [] => by rw [DefModule.resetAll]
  | m :: ms => by
    rw [DefModule.resetAll, DefModule.AllCacheless, DefModule.AllCacheless, cacheless_reset m, cacheless_resetAll ms]
end

mutual
theorem cacheless_withGd (x : Row) : (m : DefModule d) → (off : Nat) → m.Cacheless → (m.withGd x off).Cacheless
  | .translations _, _, _ => by rw [DefModule.withGd, DefModule.Cacheless]; trivial
  | .implicit0 _, _, _ => by rw [DefModule.withGd, DefModule.Cacheless]; trivial
  | .oriented _, _, _ => by rw [DefModule.withGd, DefModule.Cacheless]; trivial
  | .constrained _, _, _ => by rw [DefModule.withGd, DefModule.Cacheless]; trivial
  | .globalTranslation _, _, _ => by rw [DefModule.withGd, DefModule.Cacheless]; trivial
  | .linear _, _, _ => by rw [DefModule.withGd, DefModule.Cacheless]; trivial
  | .implicit1 _, _, h => by rw [DefModule.Cacheless] at h; exact h.elim
  | .divFree _, _, h => by rw [DefModule.Cacheless] at h; exact h.elim
  | .arap _, _, h => by rw [DefModule.Cacheless] at h; exact h.elim
  | .silent _, _, _ => by rw [DefModule.withGd, DefModule.Cacheless]; trivial
  | .compound ms, off, h => by
    rw [DefModule.Cacheless] at h
    rw [DefModule.withGd, DefModule.Cacheless]
    exact cacheless_withGdAll x ms off h
theorem cacheless_withGdAll (x : Row) : (ms : List (DefModule d)) → (off : Nat) → DefModule.AllCacheless ms →
    DefModule.AllCacheless (DefModule.withGdAll x off ms)
  | [], _, _ => by rw [DefModule.withGdAll, DefModule.AllCacheless]; trivial
  | m :: ms, off, h => by
    rw [DefModule.AllCacheless] at h
    rw [DefModule.withGdAll, DefModule.AllCacheless]
    exact ⟨cacheless_withGd x m _ h.1, cacheless_withGdAll x ms _ h.2⟩
end

mutual
theorem cacheless_withCot (x : Row) : (m : DefModule d) → (off : Nat) → m.Cacheless → (m.withCot x off).Cacheless
  | .translations _, _, _ => by rw [DefModule.withCot, DefModule.Cacheless]; trivial
  | .implicit0 _, _, _ => by rw [DefModule.withCot, DefModule.Cacheless]; trivial
  | .oriented _, _, _ => by rw [DefModule.withCot, DefModule.Cacheless]; trivial
  | .constrained _, _, _ => by rw [DefModule.withCot, DefModule.Cacheless]; trivial
  | .globalTranslation _, _, _ => by rw [DefModule.withCot, DefModule.Cacheless]; trivial
  | .linear _, _, _ => by rw [DefModule.withCot, DefModule.Cacheless]; trivial
  | .implicit1 _, _, h => by rw [DefModule.Cacheless] at h; exact h.elim
  | .divFree _, _, h => by rw [DefModule.Cacheless] at h; exact h.elim
  | .arap _, _, h => by rw [DefModule.Cacheless] at h; exact h.elim
  | .silent _, _, _ => by rw [DefModule.withCot, DefModule.Cacheless]; trivial
  | .compound ms, off, h => by
    rw [DefModule.Cacheless] at h
    rw [DefModule.withCot, DefModule.Cacheless]
    exact cacheless_withCotAll x ms off h
theorem cacheless_withCotAll (x : Row) : (ms : List (DefModule d)) → (off : Nat) → DefModule.AllCacheless ms →
    DefModule.AllCacheless (DefModule.withCotAll x off ms)
  | [], _, _ => by rw [DefModule.withCotAll, DefModule.AllCacheless]; trivial
  | m :: ms, off, h => by
    rw [DefModule.AllCacheless] at h
    rw [DefModule.withCotAll, DefModule.AllCacheless]
    exact ⟨cacheless_withCot x m _ h.1, cacheless_withCotAll x ms _ h.2⟩
end

mutual
theorem cacheless_fill_self : (m : DefModule d) → m.Cacheless → m.fillControls m.controls = .ok m
  | .translations m, _ => by rw [DefModule.controls, DefModule.fillControls, dif_pos rfl]
  | .implicit0 m, _ => by rw [DefModule.controls, DefModule.fillControls, dif_pos rfl]
  | .oriented m, _ => by rw [DefModule.controls, DefModule.fillControls, dif_pos rfl]
  | .constrained m, _ => by rw [DefModule.controls, DefModule.fillControls]
  | .globalTranslation m, _ => by rw [DefModule.controls, DefModule.fillControls]
  | .linear m, _ => by rw [DefModule.controls, DefModule.fillControls]
  | .implicit1 _, h => by rw [DefModule.Cacheless] at h; exact h.elim
  | .divFree _, h => by rw [DefModule.Cacheless] at h; exact h.elim
  | .arap _, h => by rw [DefModule.Cacheless] at h; exact h.elim
  | .silent _, _ => by rw [DefModule.controls, DefModule.fillControls]
  | .compound ms, h => by
    rw [DefModule.Cacheless] at h
    obtain ⟨e1, e2⟩ := cacheless_fill_selfAll ms h
    rw [DefModule.controls, DefModule.fillControls, if_pos e1, e2]
theorem cacheless_fill_selfAll : (ms : List (DefModule d)) → DefModule.AllCacheless ms →
    (DefModule.controlsAll ms).length = ms.length ∧ DefModule.fillAll ms (DefModule.controlsAll ms) = .ok ms
  | [], _ => by rw [DefModule.controlsAll, fillAll_nil]; exact ⟨rfl, rfl⟩
  | m :: ms, h => by
    rw [DefModule.AllCacheless] at h
    obtain ⟨e1, e2⟩ := cacheless_fill_selfAll ms h.2
    rw [DefModule.controlsAll, DefModule.fillAll, cacheless_fill_self m h.1, e2, List.length_cons, e1]
    exact ⟨rfl, rfl⟩
end

theorem cacheless_apply {o : ModOp d} {m m' : DefModule d} (h : m.Cacheless) (ho : o.apply m = .ok m') : m'.Cacheless := by
  cases o with
  | fill c => exact (cacheless_reset m').mp (by rw [reset_fill m ho]; exact (cacheless_reset m).mpr h)
  | geodesic man => exact (cacheless_reset m').mp (by rw [reset_geodesic ho]; exact (cacheless_reset m).mpr h)
  | gd x => rw [← Except.ok.inj ho]; exact cacheless_withGd x m 0 h
  | cot x => rw [← Except.ok.inj ho]; exact cacheless_withCot x m 0 h

/-- After any history, for every module without cached results and every compound of such. -/
theorem C25_history_partial {m m' : DefModule d} (hm : m.Cacheless) (ops : List (ModOp d)) (h : runOps ops m = .ok m') :
    Current m' := by
  suffices m'.Cacheless from ⟨m', cacheless_fill_self m' this, rfl, rfl⟩
  induction ops generalizing m with
  | nil => rw [← Except.ok.inj h]; exact hm
  | cons o os ih =>
    rw [runOps] at h
    cases h1 : o.apply m with
    | error e => rw [h1] at h; cases h
    | ok m1 => rw [h1] at h; exact ih (cacheless_apply hm h1) h

theorem runOps_append {m m' : DefModule d} {ops ops' : List (ModOp d)} (h : runOps (ops ++ ops') m = .ok m') :
    ∃ m1, runOps ops m = .ok m1 ∧ runOps ops' m1 = .ok m' := by
  induction ops generalizing m with
  | nil => exact ⟨m, rfl, h⟩
  | cons o os ih =>
    rw [List.cons_append, runOps] at h
    cases h1 : o.apply m with
    | error e => rw [h1] at h; cases h
    | ok m1 =>
      rw [h1] at h
      obtain ⟨m2, h2, h3⟩ := ih h
      exact ⟨m2, by rw [runOps, h1]; exact h2, h3⟩

/-- What a history does to everything but the controls: the last descriptors and momenta written. -/
theorem runOps_reset {m m' : DefModule d} {ops : List (ModOp d)} (h : runOps ops m = .ok m') (x y : Row) :
    ((m'.withGd x 0).withCot y 0).reset = ((m.withGd x 0).withCot y 0).reset := by
  induction ops generalizing m with
  | nil => rw [Except.ok.inj h]
  | cons o os ih =>
    rw [runOps] at h
    cases h1 : o.apply m with
    | error e => rw [h1] at h; cases h
    | ok m1 =>
      rw [h1] at h
      rw [ih h]
      cases o with
      | fill c => rw [reset_withCot, reset_withGd, reset_fill m h1, ← reset_withGd, ← reset_withCot]
      | geodesic man => rw [reset_withCot, reset_withGd, reset_geodesic h1, ← reset_withGd, ← reset_withCot]
      | gd z => rw [← Except.ok.inj h1, DefModule.withGd_withGd]
      | cot z =>
        rw [← Except.ok.inj h1, DefModule.withGd_withCot, DefModule.withCot_withCot]

/-- For every module: a history ending with the controls being set leaves exactly the module that
setting the last descriptors, momenta and controls on the initial module gives. Nothing older
remains. -/
theorem C25_no_memory {m m' : DefModule d} (ops : List (ModOp d)) (x y : Row) (c : Ctrl d)
    (h : runOps (ops ++ [.gd x, .cot y, .fill c]) m = .ok m') :
    ((m.withGd x 0).withCot y 0).fillControls c = .ok m' := by
  obtain ⟨m1, h1, h2⟩ := runOps_append h
  have h3 : ((m1.withGd x 0).withCot y 0).fillControls c = .ok m' := by
    simp only [runOps, ModOp.apply] at h2
    cases h4 : ((m1.withGd x 0).withCot y 0).fillControls c with
    | error e => rw [h4] at h2; cases h2
    | ok m2 => rw [h4] at h2; exact h2
  rw [← fill_reset, ← runOps_reset h1 x y, fill_reset]
  exact h3

/-- The same with geodesic controls. -/
theorem C25_no_memory_geodesic {m m' : DefModule d} (ops : List (ModOp d)) (x y : Row) (man : Mfd d)
    (h : runOps (ops ++ [.gd x, .cot y, .geodesic man]) m = .ok m') :
    ((m.withGd x 0).withCot y 0).geodesic man = .ok m' := by
  obtain ⟨m1, h1, h2⟩ := runOps_append h
  have h3 : ((m1.withGd x 0).withCot y 0).geodesic man = .ok m' := by
    simp only [runOps, ModOp.apply] at h2
    cases h4 : ((m1.withGd x 0).withCot y 0).geodesic man with
    | error e => rw [h4] at h2; cases h2
    | ok m2 => rw [h4] at h2; exact h2
  rw [← geodesic_reset, ← runOps_reset h1 x y, geodesic_reset]
  exact h3

/-! ## Stale results -/

/-- Where the full statement fails: after new frames the field of an implicit module of order 1
still has the strains of the old frames, and the cost is the old one. Setting the same controls
again changes both. -/
theorem C25_implicit1_stale {n p : Nat} (m m' m'' : Implicit1 d n p) (h : Fin p → ℝ) (R' : Fin n → Mat d)
    (hf : m.fill h = .ok m') (hν : m.ν = 0) (he : d = 2 ∨ d = 3)
    (hf' : ({ m' with R := R' } : Implicit1 d n p).fill m'.ctrl = .ok m'') :
    ({ m' with R := R' } : Implicit1 d n p).cost = m'.cost ∧
    (∃ f J, ({ m' with R := R' } : Implicit1 d n p).field = .ok f ∧ f.jacobians m.gd = .ok J ∧ ∀ i b c,
      (J i b c + J i c b) / 2 = ∑ a, m.R i b a * (∑ k, m.C i a k * h k) * m.R i c a) ∧
    (∃ f J, m''.field = .ok f ∧ f.jacobians m.gd = .ok J ∧ ∀ i b c,
      (J i b c + J i c b) / 2 = ∑ a, R' i b a * (∑ k, m.C i a k * h k) * R' i c a) := by
  obtain ⟨f, J, h1, h2, h3⟩ := C21_implicit1_exact m m' h hf hν he
  obtain ⟨-, e⟩ := Implicit1.fill_ok hf
  subst e
  obtain ⟨f', J', h1', h2', h3'⟩ := C21_implicit1_exact _ m'' _ hf' hν he
  exact ⟨rfl, ⟨f, J, h1, h2, h3⟩, ⟨f', J', h1', h2', h3'⟩⟩

theorem sks_one {d : Nat} (he : d = 2 ∨ d = 3) (σ : ℝ) (x : Fin 1 → Vec d) :
    computeSks1 σ x = (1 / (σ * σ)) • (1 : Matrix (Fin 1 × Fin (symDim d)) (Fin 1 × Fin (symDim d)) ℝ) := by
  obtain ⟨e, he⟩ := (C22_dimensions d).1.mpr he
  funext ⟨i, t⟩ ⟨j, u⟩
  obtain rfl := Subsingleton.elim i j
  have hg : ∀ a c, -gaussRow2 σ (relDiff (x i) (x i)) a c = if a = c then 1 / (σ * σ) else 0 := fun a c => by
    rw [gaussRow2_eq]
    unfold g2 gauss0 relDiff
    split <;> simp
    ring
  unfold computeSks1
  simp only [hg, mul_ite, mul_zero, Finset.sum_ite_eq, Finset.mem_univ, if_true, ← Finset.sum_mul]
  have := C22_orthonormal he t u
  simp only [sksU_eq, etaOf_eq he]
  rw [this]
  simp only [Matrix.smul_apply, Matrix.one_apply, smul_eq_mul, Prod.mk.injEq, true_and]
  rw [mul_comm]

/-- One point with the unit frame, a stretch along the first axis, and the frame turned by a right
angle after the controls were set. -/
def turned : Implicit1 2 1 1 := ⟨.torch, fun _ => 0, fun _ => 1, fun _ => 0, fun _ => 0, fun _ a _ => if a = 0 then 1 else 0, 1, 0, 1, fun _ => 1, none⟩

/-- The full statement fails: a history of one `fill_controls` and one update of the frames after
which the field is not that of the current controls and descriptors. -/
theorem C25_disagreement : ∃ (m m' : DefModule 2) (ops : List (ModOp 2)), runOps ops m = .ok m' ∧ ¬Current m' := by
  have hdet : turned.sks.det ≠ 0 := by
    have : turned.sks = 1 := by
      unfold Implicit1.sks turned
      dsimp only
      rw [sks_one (Or.inl rfl)]; simp
    rw [this, Matrix.det_one]; exact one_ne_zero
  let x : Row := rowOf (flatVecs (fun _ : Fin 1 => (0 : Vec 2)) ++ flatMats (fun _ : Fin 1 => (!![0, -1; 1, 0] : Mat 2)))
  have hx := (Starts.append (x := x) (off := 0)).mp (starts_rowOf _)
  have hw : (DefModule.implicit1 (turned.done fun _ => 1)).withGd x 0
      = .implicit1 { turned.done (fun _ => 1) with R := fun _ => !![0, -1; 1, 0] } := by
    rw [DefModule.withGd, view_of_starts hx.1, viewMats_of_starts (by simpa [length_flatVecs] using hx.2)]
    rfl
  refine ⟨.implicit1 turned, .implicit1 { turned.done (fun _ => 1) with R := fun _ => !![0, -1; 1, 0] },
    [.fill (.scalars fun _ : Fin 1 => 1), .gd x], ?_, ?_⟩
  · simp only [runOps, ModOp.apply, DefModule.fillControls, dif_pos]
    rw [show turned.fill (fun i => (fun _ : Fin 1 => (1 : ℝ)) i) = _ from Implicit1.fill_of_det hdet _]
    simp only [wrap]
    rw [hw]
  · rintro ⟨m', h1, h2, -⟩
    rw [DefModule.controls, DefModule.fillControls, dif_pos rfl] at h1
    have hd' : ({ turned.done (fun _ => 1) with R := fun _ => !![0, -1; 1, 0] } : Implicit1 2 1 1).sks.det ≠ 0 := hdet
    rw [show ({ turned.done (fun _ => 1) with R := fun _ => !![0, -1; 1, 0] } : Implicit1 2 1 1).fill _ = _ from
      Implicit1.fill_of_det hd' _] at h1
    rw [← Except.ok.inj h1, DefModule.field, DefModule.field] at h2
    obtain ⟨-, ⟨f, J, e1, e2, e3⟩, f', J', e1', e2', e3'⟩ := C25_implicit1_stale turned _ _ (fun _ => 1)
      (fun _ => !![0, -1; 1, 0]) (Implicit1.fill_of_det hdet _) rfl (Or.inl rfl) (Implicit1.fill_of_det hd' _)
    have hff : f = f' := Except.ok.inj (e1.symm.trans (h2.trans e1'))
    subst hff
    have hJ : J = J' := Except.ok.inj (e2.symm.trans e2')
    subst hJ
    have := (e3 0 0 0).symm.trans (e3' 0 0 0)
    simp [turned, Fin.sum_univ_two] at this

/-! The histories exist: any descriptors, controls set in between. -/
example (n : Nat) (m : Translations 2 n) (x y z : Row) (h : Fin n → Vec 2) :
    ∃ m', runOps [.gd x, .cot y, .fill (.list [.vecs h, .none]), .gd z] (.compound [.translations m, .silent .empty]) = .ok m' := by
  simp [runOps, ModOp.apply, DefModule.withGd, DefModule.withCot, DefModule.withGdAll, DefModule.withCotAll,
    DefModule.fillControls, DefModule.fillAll]
example {n p : Nat} (m : Implicit1 3 n p) (hν : 0 < m.ν) (x y : Row) (h : Fin p → ℝ) :
    ∃ m', runOps ([.gd y] ++ [.gd x, .cot y, .fill (.scalars h)]) (.implicit1 m) = .ok m' := by
  simp only [List.cons_append, List.nil_append, runOps, ModOp.apply, DefModule.withGd, DefModule.withCot, DefModule.fillControls, dif_pos]
  rw [Implicit1.fill_of_det (det_ne_zero_of_pos (Implicit1.sks_pos _ (by exact hν)))]
  exact ⟨_, rfl⟩

end
end Imodal
