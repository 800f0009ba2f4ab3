import Verif.Props.C120
import Verif.Props.C31
/-!
# C121: every point is carried on its own
-/
set_option autoImplicit false
namespace Imodal
noncomputable section
open Set Spec
variable {d : Nat} {G : Type}

theorem map_silent_eq (Ds : List (Deformable d G)) :
    Ds.map Deformable.silent = (Ds.map fun D => Mfd.landmarks D.gd D.cot).map DefModule.silent := by
  rw [List.map_map]; rfl

theorem behind_pad (k : Nat) (controls : List (List (Ctrl d))) :
    (controls.map fun c => Ctrl.list (List.replicate k .none ++ c)).map (Ctrl.behind k) = controls.map .list := by
  rw [List.map_map]
  refine List.map_congr_left fun c _ => ?_
  show Ctrl.list ((List.replicate k Ctrl.none ++ c).drop k) = _
  rw [List.drop_left' (by simp)]

/-- The shot of a call with given controls. -/
theorem given_shot {Ds : List (Deformable d G)} {ms : List (DefModule d)} {s : Solver} {it : Nat} {want : Bool}
    {controls : List (List (Ctrl d))} {t1 : ℝ} {red : Reduce} {r : Deformed d G}
    (h : computeDeformed Ds ms (.fixed s) it want (some controls) t1 red = .ok r) :
    shootControls s it t1 (controls.map fun c => .list (List.replicate Ds.length .none ++ c))
      (.compound ((Ds.map fun D => Mfd.landmarks D.gd D.cot).map DefModule.silent ++ ms)) = .ok r.shot := by
  obtain ⟨-, -, costs, hs, -⟩ := computeDeformed_inv h
  rw [← map_silent_eq]
  exact (fixed_shot hs).1

/-- **C121, given controls.** The modules, the solver, the number of steps, the duration and the controls decide one smooth map of space;
whatever deformables are given, their points are taken where that map takes them. With Euler's method and positive coefficients, small costs
make the map a diffeomorphism. -/
theorem C121_carried {ms : List (DefModule d)} (hne : ms ≠ []) (s : Solver) (it : Nat) (t1 : ℝ) (controls : List (List (Ctrl d))) :
    ∃ Φ : Vec d → Vec d, (∀ n, ContDiff ℝ n Φ) ∧
      ∀ (G : Type) (Ds : List (Deformable d G)) (want : Bool) (red : Reduce) (r : Deformed d G),
        computeDeformed Ds ms (.fixed s) it want (some controls) t1 red = .ok r →
        (∀ (i : Nat) (D : Deformable d G), Ds[i]? = some D → ∃ g, r.geometries[i]? = some g ∧ D.toDeformed ⟨D.n, fun p => Φ (D.gd p)⟩ = .ok g) ∧
        (s = .euler → DefModule.AllPositiveWeights ms → (∀ a ∈ r.shot.costs, (t1 / it) ^ 2 * (2 * DefModule.stretches ms * a) < 1) →
          (∀ x, 0 < (fderiv ℝ Φ x).det) ∧ ∃ Ψ : Vec d → Vec d, (∀ n, ContDiff ℝ n Ψ) ∧ (∀ x, Ψ (Φ x) = x) ∧ ∀ y, Φ (Ψ y) = y) := by
  refine ⟨probe s it t1 (controls.map .list) (.compound ms), fun n => probe_smooth s it t1 _ _ n, fun G Ds want red r h => ?_⟩
  have hs := given_shot h
  have e := probe_silents (Ds.map fun D => Mfd.landmarks D.gd D.cot) hne hs
  rw [List.length_map, behind_pad] at e
  refine ⟨fun i D hD => geometry_at h hD ?_, ?_⟩
  · rw [← e]
    refine probe_at hs ?_
    rw [← map_silent_eq]
    exact deformable_at hD
  · rintro rfl hw hsm
    rw [← e]
    rw [← map_silent_eq] at hs ⊢
    have hw' : (DefModule.compound (Ds.map Deformable.silent ++ ms)).PositiveWeights := by
      rw [DefModule.PositiveWeights]
      exact ⟨fun e => by simp [List.append_eq_nil_iff] at e; tauto, silents_positive Ds hw⟩
    have hst : (DefModule.compound (Ds.map Deformable.silent ++ ms)).stretch = DefModule.stretches ms := by
      rw [DefModule.stretch, silents_stretch]
    exact euler_inverse hw' hs (C105_bounds (Or.inr hne) hw h).1 (by rw [hst]; exact hsm)

theorem behind_add (k l : Nat) (c : Ctrl d) : Ctrl.behind l (Ctrl.behind k c) = Ctrl.behind (k + l) c := by
  cases c <;> simp [Ctrl.behind]

theorem behind_without (c : Ctrl d) : Ctrl.without 0 c = Ctrl.behind 1 c := by
  cases c <;> simp [Ctrl.behind, Ctrl.without]

/-- Shapes without momentum leave the controls of the others as they are. -/
theorem ctrls_silents {B : List (DefModule d)} {s : Solver} {it : Nat} {t1 : ℝ} {r : Shot d}
    (h : shootMoments s it t1 (.compound B) = .ok r) : ∀ Es : List (Deformable d G), (∀ E ∈ Es, ∀ p c, E.cot p c = 0) → ∃ R,
      shootMoments s it t1 (.compound (Es.map Deformable.silent ++ B)) = .ok R ∧ R.ctrls.map (Ctrl.behind Es.length) = r.ctrls ∧ R.costs = r.costs
  | [], _ => ⟨r, h, by
    have : (Ctrl.behind 0 : Ctrl d → Ctrl d) = id := by funext c; cases c <;> simp [Ctrl.behind]
    rw [List.length_nil, this, List.map_id], rfl⟩
  | E :: Es, hz => by
    obtain ⟨R, h1, h2, h3⟩ := ctrls_silents h Es fun E' hE => hz E' (List.mem_cons_of_mem _ hE)
    have hM : (Mfd.landmarks E.gd E.cot).Passive (.compound ([] ++ (Es.map Deformable.silent ++ B))) := by
      refine ⟨?_, trivial, fun _ _ => trivial⟩
      intro a ha
      simp only [Mfd.unrollCot, flatVecs, List.flatten_cons, List.flatten_nil, List.append_nil, List.mem_ofFn] at ha
      obtain ⟨k, rfl⟩ := ha
      exact hz E (List.mem_cons_self ..) _ _
    have key := C31_solver_partial (ms₁ := []) hM (by simp [Mfd.Plain, Mfd.hasShapeGd]) (shoot_plain h1).2 s it t1
    rw [List.nil_append, List.nil_append] at key
    cases hb : shootMoments s it t1 (.compound (DefModule.silent (.landmarks E.gd E.cot) :: (Es.map Deformable.silent ++ B))) with
    | error e => rw [hb, h1] at key; exact key.elim
    | ok R' =>
      rw [hb, h1] at key
      have key' : Shot.Without 0 R' R := key
      refine ⟨R', hb, ?_, key'.costs.symm.trans h3⟩
      rw [← h2, key'.ctrls, List.map_map]
      refine List.map_congr_left fun c _ => ?_
      show _ = Ctrl.behind _ (Ctrl.without 0 c)
      rw [behind_without, behind_add, List.length_cons, Nat.add_comm]

/-- **C121, momenta.** A call from momenta decides one smooth map of space: it carries the deformables of the call, and whatever deformables
without momentum are put in front of them. Their company changes nothing for the others. -/
theorem C121_momenta {Ds : List (Deformable d G)} {ms : List (DefModule d)} (hne : Ds ≠ [] ∨ ms ≠ []) {s : Solver} {it : Nat} {t1 : ℝ}
    {want : Bool} {red : Reduce} {r : Deformed d G} (h : computeDeformed Ds ms (.fixed s) it want none t1 red = .ok r) :
    ∃ Φ : Vec d → Vec d, (∀ n, ContDiff ℝ n Φ) ∧
      (∀ (i : Nat) (D : Deformable d G), Ds[i]? = some D → ∃ g, r.geometries[i]? = some g ∧ D.toDeformed ⟨D.n, fun p => Φ (D.gd p)⟩ = .ok g) ∧
      ∀ (Es : List (Deformable d G)) (want' : Bool) (red' : Reduce) (r' : Deformed d G), (∀ E ∈ Es, ∀ p c, E.cot p c = 0) →
        computeDeformed (Es ++ Ds) ms (.fixed s) it want' none t1 red' = .ok r' → r'.shot.costs = r.shot.costs ∧
        ∀ (i : Nat) (D : Deformable d G), (Es ++ Ds)[i]? = some D → ∃ g, r'.geometries[i]? = some g ∧ D.toDeformed ⟨D.n, fun p => Φ (D.gd p)⟩ = .ok g := by
  have hB : Ds.map Deformable.silent ++ ms ≠ [] := by
    rcases hne with h | h <;> simp [h]
  obtain ⟨-, -, costs, hs, -⟩ := computeDeformed_inv h
  have hs : shootMoments s it t1 (.compound (Ds.map Deformable.silent ++ ms)) = .ok r.shot := (fixed_shot hs).1
  have key : ∀ (Es : List (Deformable d G)) (want' : Bool) (red' : Reduce) (r' : Deformed d G), (∀ E ∈ Es, ∀ p c, E.cot p c = 0) →
      computeDeformed (Es ++ Ds) ms (.fixed s) it want' none t1 red' = .ok r' → r'.shot.costs = r.shot.costs ∧
      ∀ (i : Nat) (D : Deformable d G), (Es ++ Ds)[i]? = some D → ∃ g, r'.geometries[i]? = some g ∧
        D.toDeformed ⟨D.n, fun p => probe s it t1 r.shot.ctrls (.compound (Ds.map Deformable.silent ++ ms)) (D.gd p)⟩ = .ok g := by
    intro Es want' red' r' hz h'
    obtain ⟨-, -, costs', hs', -⟩ := computeDeformed_inv h'
    have hs' : shootMoments s it t1 (.compound ((Es ++ Ds).map Deformable.silent ++ ms)) = .ok r'.shot := (fixed_shot hs').1
    obtain ⟨R, k1, k2, k3⟩ := ctrls_silents hs Es hz
    have k1' : shootMoments s it t1 (.compound ((Es ++ Ds).map Deformable.silent ++ ms)) = .ok R := by
      rw [List.map_append, List.append_assoc]; exact k1
    rw [hs'] at k1'
    obtain rfl := Except.ok.inj k1'
    refine ⟨k3, fun i D hD => ?_⟩
    obtain ⟨-, r₂, q1, -, q2, -, -⟩ := C71_solver _ _ it t1 hs'
    have ha := at_replay hs' q1 q2 (deformable_at hD) (probe_at q1 (deformable_at hD))
    have q1' : shootControls s it t1 r'.shot.ctrls (.compound ((Es.map fun D => Mfd.landmarks D.gd D.cot).map DefModule.silent ++
        (Ds.map Deformable.silent ++ ms))) = .ok r₂ := by
      rw [← map_silent_eq, ← List.append_assoc, ← List.map_append]; exact q1
    have e := probe_silents _ hB q1'
    rw [← map_silent_eq, ← List.append_assoc, ← List.map_append, List.length_map, k2] at e
    rw [e] at ha
    exact geometry_at h' hD ha
  exact ⟨_, fun n => probe_smooth s it t1 _ _ n, (key [] want red r (by simp) h).2, key⟩

/-- **C121, `torch_euler`.** From momenta the same: one smooth map of space carries the deformables of the call, and whatever deformables
without momentum are put in front of them. -/
theorem C121_torch {Ds : List (Deformable d G)} {ms : List (DefModule d)} (hp : PlainMembers ms) {D : Deformable d G} (hD : D ∈ Ds) (hd : 0 < D.n * d)
    {it : Nat} {t1 : ℝ} {want : Bool} {red : Reduce} {r : Deformed d G} (h : computeDeformed Ds ms .torchEuler it want none t1 red = .ok r) :
    ∃ Φ : Vec d → Vec d, (∀ n, ContDiff ℝ n Φ) ∧
      (∀ (i : Nat) (D : Deformable d G), Ds[i]? = some D → ∃ g, r.geometries[i]? = some g ∧ D.toDeformed ⟨D.n, fun p => Φ (D.gd p)⟩ = .ok g) ∧
      ∀ (Es : List (Deformable d G)) (t1' : ℝ) (want' : Bool) (red' : Reduce) (r' : Deformed d G), (∀ E ∈ Es, ∀ p c, E.cot p c = 0) →
        computeDeformed (Es ++ Ds) ms .torchEuler it want' none t1' red' = .ok r' →
        ∀ (i : Nat) (D : Deformable d G), (Es ++ Ds)[i]? = some D → ∃ g, r'.geometries[i]? = some g ∧ D.toDeformed ⟨D.n, fun p => Φ (D.gd p)⟩ = .ok g := by
  obtain ⟨q, h1, h2, -⟩ := torch_as_euler hp hD hd h
  obtain ⟨Φ, k1, k2, k3⟩ := C121_momenta (Or.inl (List.ne_nil_of_mem hD)) h1
  rw [h2] at k2
  refine ⟨Φ, k1, k2, fun Es t1' want' red' r' hz h' => ?_⟩
  obtain ⟨q', h3, h4, -⟩ := torch_as_euler hp (List.mem_append_right Es hD) hd h'
  rw [← h4]
  exact (k3 Es false red' q' hz h3).2

/-! The contraction of the line with one control: the map is the same whatever points are looked at, and the two points 0 and 1 tell where it
takes these two places. -/
example (u : ℝ) (h0 : 0 ≤ u) (h1 : u ≤ 1) : ∃ Φ : Vec 1 → Vec 1, (∀ n, ContDiff ℝ n Φ) ∧ Φ 0 = 0 ∧ (Φ fun _ => 1) = (fun _ => 1 - u) ∧
    ∀ (n : Nat) (x : Fin n → Vec 1) (r : Deformed 1 (Points 1)),
      computeDeformed [⟨n, x, 0, none, fun p => .ok p⟩] [.linear shrink] (.fixed .euler) 1 true (some [[.scalar u]]) 1 .sum = .ok r →
      r.geometries[0]? = some ⟨n, fun p => Φ (x p)⟩ := by
  obtain ⟨Φ, k1, k2⟩ := C121_carried (ms := [.linear shrink]) (by simp) .euler 1 1 [[.scalar u]]
  obtain ⟨r, hr, hg, -⟩ := C105_tight u h0 h1
  obtain ⟨g, q1, q2⟩ := (k2 _ _ _ _ r hr).1 0 couple rfl
  rw [hg] at q1
  obtain rfl := Option.some.inj q1
  have q3 : (⟨2, fun p => Φ (couple.gd p)⟩ : Points 1) = ⟨2, fun (p : Fin 2) _ => (1 - u) * (p : ℕ)⟩ := Except.ok.inj q2
  have q4 : (fun p : Fin 2 => Φ (couple.gd p)) = fun (p : Fin 2) _ => (1 - u) * ((p : ℕ) : ℝ) := by simpa using q3
  refine ⟨Φ, k1, ?_, ?_, fun n x r hr' => ?_⟩
  · have := congrFun q4 0
    have e : couple.gd (0 : Fin 2) = 0 := by funext c; simp [couple]
    rw [e] at this
    rw [this]; funext c; simp
  · have := congrFun q4 1
    have e : couple.gd (1 : Fin 2) = fun _ => 1 := by funext c; simp [couple]
    rw [e] at this
    rw [this]; funext c; simp
  · obtain ⟨g, p1, p2⟩ := (k2 _ _ _ _ r hr').1 0 _ rfl
    rw [p1, ← Except.ok.inj p2]

/-! A shape with momentum, a regularised translation, and a shape without momentum put in front: both calls return. -/
example (a b : Fin 1 → Vec 2) (c : Fin 3 → Vec 2) (q p : Fin 4 → Vec 2) : ∃ r r',
    computeDeformed [⟨1, a, b, none, fun p => .ok p⟩] [.implicit0 ⟨.torch, q, p, 2, 1, 1, 0⟩] (.fixed .rk4) 10 true none 1 .sum = .ok r ∧
    computeDeformed ([⟨3, c, 0, none, fun p => .ok p⟩] ++ [⟨1, a, b, none, fun p => .ok p⟩]) [.implicit0 ⟨.torch, q, p, 2, 1, 1, 0⟩] (.fixed .rk4)
      10 true none 1 .sum = .ok r' ∧ r'.geometries[1]? = r.geometries[0]? := by
  have hp : ∀ m ∈ DefModule.manifolds [DefModule.implicit0 ⟨.torch, q, p, 2, 1, 1, 0⟩], m.Plain := fun m hm => by
    simp only [DefModule.manifolds, DefModule.manifold, Implicit0.manifold, List.mem_cons, List.not_mem_nil, or_false] at hm
    subst hm; exact Or.inr rfl
  obtain ⟨r, hr⟩ := C33_returns (G := Points 2) (Ds := [⟨1, a, b, none, fun p => .ok p⟩]) (by simp) (by simp)
    (List.mem_cons_self ..) (by norm_num) (ms := [.implicit0 ⟨.torch, q, p, 2, 1, 1, 0⟩]) (by simp [DefModule.AllRegular, DefModule.Regular]) hp
    .rk4 10 one_ne_zero true
  obtain ⟨r', hr'⟩ := C33_returns (G := Points 2) (Ds := [⟨3, c, 0, none, fun p => .ok p⟩] ++ [⟨1, a, b, none, fun p => .ok p⟩]) (by simp) (by simp)
    (List.mem_cons_self ..) (by norm_num) (ms := [.implicit0 ⟨.torch, q, p, 2, 1, 1, 0⟩]) (by simp [DefModule.AllRegular, DefModule.Regular]) hp
    .rk4 10 one_ne_zero true
  obtain ⟨Φ, -, k2, k3⟩ := C121_momenta (Or.inl (by simp)) hr
  obtain ⟨-, k4⟩ := k3 _ _ _ _ (by simp) hr'
  obtain ⟨g, g1, g2⟩ := k2 0 _ rfl
  obtain ⟨g', g3, g4⟩ := k4 1 _ rfl
  refine ⟨r, r', hr, hr', ?_⟩
  rw [g1, g3, ← Except.ok.inj g2, ← Except.ok.inj g4]

end
end Imodal
