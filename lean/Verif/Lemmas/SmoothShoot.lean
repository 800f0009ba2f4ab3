import Verif.Spec.SmoothPy
import Verif.Lemmas.HamFlow
import Verif.Props.C27
/-!
# Shooting depends smoothly on where it starts
-/
set_option autoImplicit false
namespace Imodal
noncomputable section
open Filter Topology
variable {E V W : Type} [NormedAddCommGroup E] [NormedSpace ℝ E] [NormedAddCommGroup V] [NormedSpace ℝ V] [NormedAddCommGroup W] [NormedSpace ℝ W]
  {n : WithTop ℕ∞} {e₀ : E}

/-! ## Computations -/

theorem SmPy.congr {f f' : E → Py V} (h : SmPy n e₀ f) (he : ∀ᶠ e in 𝓝 e₀, f' e = f e) : SmPy n e₀ f' := by
  obtain ⟨g, h1, h2⟩ := h
  exact ⟨g, h1, by filter_upwards [h2, he] with e a b; rw [b, a]⟩

theorem SmPy.of_ok {g : E → V} (h : ContDiffAt ℝ n g e₀) : SmPy n e₀ fun e => .ok (g e) := ⟨g, h, .of_forall fun _ => rfl⟩

theorem SmPy.comp {X : V → Py W} {y : E → V} (hX : SmPy n (y e₀) X) (hy : ContDiffAt ℝ n y e₀) : SmPy n e₀ fun e => X (y e) := by
  obtain ⟨g, h1, h2⟩ := hX
  exact ⟨fun e => g (y e), h1.comp e₀ hy, hy.continuousAt.eventually h2⟩

theorem SmPy.bind {f : E → Py V} {k : E → V → Py W} (hf : SmPy n e₀ f) (hk : ∀ g : E → V, ContDiffAt ℝ n g e₀ → f e₀ = .ok (g e₀) → SmPy n e₀ fun e => k e (g e)) :
    SmPy n e₀ fun e => (f e).bind (k e) := by
  obtain ⟨g, h1, h2⟩ := hf
  exact (hk g h1 h2.self_of_nhds).congr (by filter_upwards [h2] with e he; rw [he]; rfl)

theorem SmPy.map {f : E → Py V} {k : E → V → W} (hf : SmPy n e₀ f) (hk : ∀ g : E → V, ContDiffAt ℝ n g e₀ → ContDiffAt ℝ n (fun e => k e (g e)) e₀) :
    SmPy n e₀ fun e => (f e).map (k e) := by
  obtain ⟨g, h1, h2⟩ := hf
  exact (SmPy.of_ok (hk g h1)).congr (by filter_upwards [h2] with e he; rw [he]; rfl)

/-- Where it returns, it is smooth. -/
def SmFlow (n : WithTop ℕ∞) (X : V → Py W) : Prop := ∀ y, (∃ k, X y = .ok k) → SmPy n y X

theorem SmFlow.comp {X : V → Py W} (hX : SmFlow n X) {y : E → V} (hy : ContDiffAt ℝ n y e₀) (h : ∃ k, X (y e₀) = .ok k) : SmPy n e₀ fun e => X (y e) :=
  (hX _ h).comp hy

theorem py_bind_ok {α β : Type} {a : Py α} {f : α → Py β} {b : β} (h : a.bind f = .ok b) : ∃ x, a = .ok x ∧ f x = .ok b := by
  cases a with
  | error e => cases h
  | ok x => exact ⟨x, rfl, h⟩
theorem py_map_ok {α β : Type} {a : Py α} {f : α → β} {b : β} (h : a.map f = .ok b) : ∃ x, a = .ok x ∧ f x = b := by
  cases a with
  | error e => cases h
  | ok x => exact ⟨x, rfl, Except.ok.inj h⟩

/-! ## Steps -/

theorem SmFlow.step {X : V → Py V} (hX : SmFlow n X) (s : Solver) (t t' : ℝ) : SmFlow n (stepOf s X t t') := by
  intro y h
  cases s with
  | euler =>
    simp only [funext fun y => stepOf_euler X t t' y] at h ⊢
    obtain ⟨_, h⟩ := h
    obtain ⟨k, h1, -⟩ := py_map_ok h
    exact (hX y ⟨k, h1⟩).map fun g hg => contDiffAt_id.add (hg.const_smul _)
  | midpoint =>
    simp only [funext fun y => stepOf_midpoint X t t' y] at h ⊢
    obtain ⟨_, h⟩ := h
    obtain ⟨k, h1, h⟩ := py_bind_ok h
    obtain ⟨k', h2, -⟩ := py_map_ok h
    refine (hX y ⟨k, h1⟩).bind fun g hg e1 => ?_
    have := Except.ok.inj (h1.symm.trans e1); subst this
    exact (hX.comp (y := fun y => y + (0.5 * (t' - t)) • g y) (contDiffAt_id.add (hg.const_smul _)) ⟨k', h2⟩).map
      fun g hg => contDiffAt_id.add (hg.const_smul _)
  | rk4 =>
    simp only [funext fun y => stepOf_rk4 X t t' y] at h ⊢
    obtain ⟨_, h⟩ := h
    obtain ⟨k₁, h1, h⟩ := py_bind_ok h
    obtain ⟨k₂, h2, h⟩ := py_bind_ok h
    obtain ⟨k₃, h3, h⟩ := py_bind_ok h
    obtain ⟨k₄, h4, -⟩ := py_map_ok h
    refine (hX y ⟨k₁, h1⟩).bind fun g₁ hg₁ e1 => ?_
    have := Except.ok.inj (h1.symm.trans e1); subst this
    refine (hX.comp (y := fun y => y + ((t' - t) * (1 / 3)) • g₁ y) (contDiffAt_id.add (hg₁.const_smul _)) ⟨k₂, h2⟩).bind fun g₂ hg₂ e2 => ?_
    have := Except.ok.inj (h2.symm.trans e2); subst this
    refine (hX.comp (y := fun y => y + (t' - t) • (g₂ y - (1 / 3 : ℝ) • g₁ y)) (contDiffAt_id.add ((hg₂.sub (hg₁.const_smul _)).const_smul _)) ⟨k₃, h3⟩).bind
      fun g₃ hg₃ e3 => ?_
    have := Except.ok.inj (h3.symm.trans e3); subst this
    refine (hX.comp (y := fun y => y + (t' - t) • (g₁ y - g₂ y + g₃ y)) (contDiffAt_id.add (((hg₁.sub hg₂).add hg₃).const_smul _)) ⟨k₄, h4⟩).map
      fun g₄ hg₄ => ?_
    exact contDiffAt_id.add (((hg₁.add ((hg₂.add hg₃).const_smul _)).add hg₄).const_smul _)

theorem SmFlow.rk4End {X : V → Py V} (hX : SmFlow n X) (h : ℝ) : SmFlow n (Imodal.rk4End (fun _ => X) h) := by
  intro y hy
  unfold Imodal.rk4End at hy ⊢
  obtain ⟨_, hy⟩ := hy
  obtain ⟨k₁, h1, hy⟩ := py_bind_ok hy
  obtain ⟨k₂, h2, hy⟩ := py_bind_ok hy
  obtain ⟨k₃, h3, -⟩ := py_map_ok hy
  refine (hX y ⟨k₁, h1⟩).bind fun g₁ hg₁ e1 => ?_
  have := Except.ok.inj (h1.symm.trans e1); subst this
  refine (hX.comp (y := fun y => y + (h * (1 / 3)) • g₁ y) (contDiffAt_id.add (hg₁.const_smul _)) ⟨k₂, h2⟩).bind fun g₂ hg₂ e2 => ?_
  have := Except.ok.inj (h2.symm.trans e2); subst this
  exact (hX.comp (y := fun y => y + h • (g₂ y - (1 / 3 : ℝ) • g₁ y)) (contDiffAt_id.add ((hg₂.sub (hg₁.const_smul _)).const_smul _)) ⟨k₃, h3⟩).map
      fun g₃ hg₃ => contDiffAt_id.add (((hg₁.sub hg₂).add hg₃).const_smul _)

/-! ## Trajectories -/

theorem SmFlow.orbitFrom {X : V → Py V} (hX : SmFlow n X) (s : Solver) (t1 : ℝ) (it : Nat) : ∀ (k i : Nat) {y : E → V}, ContDiffAt ℝ n y e₀ →
    (∃ l, Imodal.orbitFrom s X t1 it i k (y e₀) = .ok l) →
    ∃ L : List (E → V), L.length = k + 1 ∧ (∀ g ∈ L, ContDiffAt ℝ n g e₀) ∧ ∀ᶠ e in 𝓝 e₀, Imodal.orbitFrom s X t1 it i k (y e) = .ok (L.map fun g => g e)
  | 0, i, y, hy, _ => ⟨[y], rfl, by simpa using hy, .of_forall fun e => by rw [Imodal.orbitFrom]; rfl⟩
  | k + 1, i, y, hy, h => by
    obtain ⟨l, h⟩ := h
    rw [Imodal.orbitFrom] at h
    cases h1 : stepOf s X (gridTime t1 it i) (gridTime t1 it (i + 1)) (y e₀) with
    | error e => rw [h1] at h; cases h
    | ok y' =>
      rw [h1] at h
      dsimp only at h
      obtain ⟨g, hg, he⟩ := (hX.step s _ _).comp hy ⟨y', h1⟩
      have e1 : y' = g e₀ := Except.ok.inj (h1.symm.trans he.self_of_nhds)
      cases h2 : Imodal.orbitFrom s X t1 it (i + 1) k y' with
      | error e => rw [h2] at h; cases h
      | ok l' =>
        obtain ⟨L, hL, hL', hL''⟩ := SmFlow.orbitFrom hX s t1 it k (i + 1) hg ⟨l', e1 ▸ h2⟩
        refine ⟨y :: L, by rw [List.length_cons, hL], ?_, ?_⟩
        · intro g hg
          rcases List.mem_cons.1 hg with rfl | hg
          · exact hy
          · exact hL' g hg
        · filter_upwards [he, hL''] with e a b
          rw [Imodal.orbitFrom, a]
          dsimp only
          rw [b]
          rfl

theorem SmFlow.orbit {X : V → Py V} (hX : SmFlow n X) (s : Solver) (t1 : ℝ) (it : Nat) {y : E → V} (hy : ContDiffAt ℝ n y e₀)
    (h : ∃ l, Imodal.orbit s X t1 it (y e₀) = .ok l) :
    ∃ L : List (E → V), L.length = it + 1 ∧ (∀ g ∈ L, ContDiffAt ℝ n g e₀) ∧ ∀ᶠ e in 𝓝 e₀, Imodal.orbit s X t1 it (y e) = .ok (L.map fun g => g e) := by
  simp only [orbit_eq] at h ⊢
  by_cases hz : it ≠ 0 ∧ t1 = 0
  · obtain ⟨l, h⟩ := h
    rw [if_pos hz] at h; cases h
  · simp only [if_neg hz] at h ⊢
    exact hX.orbitFrom s t1 it it 0 hy h

/-! ## The Hamiltonian system -/
variable {d : Nat}

theorem rhsV_geodesic {m : DefModule d} {v k : Fins (numCoords m)} (h : rhsV m v = .ok k) : ∃ m', Hamiltonian.geodesicControls (rowsMod m (finRows v)) = .ok m' := by
  unfold rhsV at h
  obtain ⟨x, h, -⟩ := py_map_ok h
  unfold rhs at h
  cases h1 : evalAt m (finRows v) with
  | error e => rw [h1] at h; cases h
  | ok m' => exact evalAt_geodesic h1

theorem rhsV_smooth {m : DefModule d} {k : Nat} (hm : m.Smooth n) (hn : (k : WithTop ℕ∞) + 1 ≤ n) : SmFlow k (rhsV m) := fun y ⟨_, h⟩ =>
  ⟨hamField m, hamField_contDiffAt hm hn (rhsV_geodesic h)⟩

/-- Where geodesic controls exist, their cost is the value of the Hamiltonian. -/
theorem geodesicCost_at {m : DefModule d} (hm : m.Smooth n) {x : Row × Row} {m' : DefModule d}
    (h1 : Hamiltonian.geodesicControls (rowsMod m x) = .ok m') : m'.cost = .ok (ham m x.1 x.2) := by
  have hman : (rowsMod m x).manifold = (m.manifold.withGd x.1 0).withCot x.2 0 := by
    unfold rowsMod; rw [DefModule.manifold_withCot, DefModule.manifold_withGd]
  have h := ok_smGeo (E := ℝ) (n := n) (e₀ := 0) (man := fun _ => (rowsMod m x).manifold) (J := m.manifold.NoDirections) (q := fun _ => x.1)
    (by simp only [hman]; exact sm_momAtoms (E := ℝ) (q := fun _ => x.1) (p := fun _ => x.2) (fun _ => contDiffAt_const) (fun _ => contDiffAt_const) _ _ _)
    (fun e => by rw [hman, Mfd.noEmpty_cot, Mfd.noEmpty_gd]; exact smooth_noEmpty m hm)
    (fun hJ e => by rw [hman, Mfd.noDir_cot, Mfd.noDir_gd]; exact hJ)
    (fun _ => x.2) (fun _ => contDiffAt_const) m 0 0 (smooth_tame _ m 0 hm) ⟨m', h1⟩
  obtain ⟨H, -, h⟩ := h
  obtain ⟨m'', h3, ι, i, Q, s, h, a1, a2, a3⟩ := h.self_of_nhds
  have e : m'' = m' := Except.ok.inj (h3.symm.trans h1)
  subst e
  have hv := hamiltonian_geo a1 a2
  obtain ⟨f, -, -, -, -, hc⟩ := a1
  rw [a2] at hc
  rw [hc]
  unfold ham
  rw [hamFn_eq, h1]
  dsimp only
  unfold Hamiltonian.value
  rw [geodesic_manifold h1, hv]
  rfl

/-- The cost with geodesic controls is the value of the Hamiltonian. -/
theorem geodesicCost_ham {m : DefModule d} (hm : m.Smooth n) {x : Row × Row} {a : ℝ} (h : GeodesicCostAt m x a) : a = ham m x.1 x.2 := by
  obtain ⟨m', h1, h2⟩ := h
  exact Except.ok.inj (h2.symm.trans (geodesicCost_at hm h1))

theorem hamV_smooth {m : DefModule d} (hm : m.Smooth n) {v : Fins (numCoords m)} (hok : ∃ m', Hamiltonian.geodesicControls (rowsMod m (finRows v)) = .ok m') :
    ContDiffAt ℝ n (hamV m) v := by
  have := (hamV_contDiffAt hm hok).2
  rwa [entries_finRows] at this

theorem rk4End_entries (m : DefModule d) (h : ℝ) (x : Row × Row) :
    (rk4End (fun _ => rhs m) h x).map (entries (numCoords m)) = rk4End (fun _ => rhsV m) h (entries (numCoords m) x) := by
  unfold rk4End
  dsimp only
  rw [rhsV_entries]
  cases rhs m x with
  | error e => rfl
  | ok k₁ =>
    dsimp only [Except.bind, Except.map]
    have e1 : entries (numCoords m) x + (h * (1 / 3)) • entries (numCoords m) k₁ = entries (numCoords m) (x + (h * (1 / 3)) • k₁) := rfl
    rw [e1, rhsV_entries]
    cases rhs m (x + (h * (1 / 3)) • k₁) with
    | error e => rfl
    | ok k₂ =>
      dsimp only [Except.bind, Except.map]
      have e2 : entries (numCoords m) x + h • (entries (numCoords m) k₂ - (1 / 3 : ℝ) • entries (numCoords m) k₁)
        = entries (numCoords m) (x + h • (k₂ - (1 / 3 : ℝ) • k₁)) := rfl
      rw [e2, rhsV_entries]
      cases rhs m (x + h • (k₂ - (1 / 3 : ℝ) • k₁)) with
      | error e => rfl
      | ok k₃ => rfl

theorem rhs_same {m m' : DefModule d} (h : Same m m') : rhs m = rhs m' := by
  funext x
  unfold rhs
  rw [evalAt_same h, hamVec_same h]

/-- What shooting from `rowsMod m x` gives, in terms of the trajectory of the entries. -/
theorem shoot_entries {ms : List (DefModule d)} (hp : PlainMembers ms) (hn : 0 < numCoords (.compound ms)) (hm : (DefModule.compound ms).Smooth n)
    (s : Solver) (it : Nat) (t1 : ℝ) (v : Fins (numCoords (.compound ms))) :
    match orbit s (rhsV (.compound ms)) t1 it v with
    | .error e => shootMoments s it t1 (rowsMod (.compound ms) (finRows v)) = .error e
    | .ok l => ∃ r, shootMoments s it t1 (rowsMod (.compound ms) (finRows v)) = .ok r ∧ r.costs.length = it ∧
        r.module.reset = (rowsMod (.compound ms) (finRows (l.getLastD v))).reset ∧
        ∀ j < it, ∃ w, (∃ m', Hamiltonian.geodesicControls (rowsMod (.compound ms) (finRows w)) = .ok m') ∧ r.costs[j]? = some (hamV (.compound ms) w) ∧
          (s ≠ .rk4 ∨ j = 0 → l[j]? = some w) ∧
          (s = .rk4 → ∀ i, j = i + 1 → ∃ u, l[i]? = some u ∧ rk4End (fun _ => rhsV (.compound ms)) (t1 / it) u = .ok w) := by
  have hsame : Same (rowsMod (.compound ms) (finRows v)) (.compound ms) := same_rowsMod _ _
  obtain ⟨ms', hms⟩ : ∃ ms', rowsMod (.compound ms) (finRows v) = .compound ms' := ⟨_, rowsMod_compound _ _⟩
  have hp' : PlainMembers ms' := by
    have := rowsMod_compound ms (finRows v)
    rw [hms] at this
    rw [DefModule.compound.inj this]
    exact plainMembers_withCot _ _ (plainMembers_withGd _ _ hp)
  have hN' : numCoords (.compound ms') = numCoords (.compound ms) := by rw [← hms, numCoords_rowsMod]
  have hrow : gdRow (.compound ms') = cut (numCoords (.compound ms)) (finRows v).1 ∧ cotRow (.compound ms') = cut (numCoords (.compound ms)) (finRows v).2 := by
    rw [← hms, gdRow_rowsMod, cotRow_rowsMod]; exact ⟨rfl, rfl⟩
  have hv : entries (numCoords (.compound ms)) (gdRow (.compound ms'), cotRow (.compound ms')) = v := by
    rw [hrow.1, hrow.2]
    refine Eq.trans ?_ (entries_finRows v)
    refine Prod.ext (funext fun j => ?_) (funext fun j => ?_)
    · exact cut_of_lt j.2
    · exact cut_of_lt j.2
  rw [hms] at hsame ⊢
  have hr : rhs (.compound ms') = rhs (.compound ms) := rhs_same hsame
  have horb := orbit_entries (.compound ms) s t1 it (gdRow (.compound ms'), cotRow (.compound ms'))
  rw [hv, ← hr] at horb
  have hc := shoot_cases hp' (by rw [hN']; exact hn) s it t1
  rw [← horb]
  cases ho : orbit s (rhs (.compound ms')) t1 it (gdRow (.compound ms'), cotRow (.compound ms')) with
  | error e => rw [ho] at hc; exact hc
  | ok xs =>
    rw [ho] at hc
    obtain ⟨g, h1, h2, h3⟩ := hc
    dsimp only [Except.map]
    refine ⟨_, h3, ?_⟩
    have hsh := h3
    obtain ⟨a, cs, b, c, e⟩ := (clocked_moments ms' t1 it).odeint (inv_init hp') h1
    have hcs : g.costs = cs := by rw [b]; simp [GradObj.init]
    dsimp only
    refine ⟨by rw [hcs, c], ?_, fun j hj => ?_⟩
    · obtain ⟨ms'', e1, -, e2⟩ := h2
      rw [e1, e2, hsame]
      congr 1
      rw [← rowsMod_entries]
      congr 2
      rw [← hv]
      clear * -
      induction xs using List.reverseRecOn with
      | nil => rfl
      | append_singleton l a _ => simp
    · obtain ⟨x, n', u, e1, ⟨m', e2, e2'⟩, e3, e4⟩ := e j hj
      rw [geodesicControls_of_reset (hsame x)] at e2
      have hu := geodesicCost_ham hm ⟨m', e2, e2'⟩
      refine ⟨entries (numCoords (.compound ms)) x, ⟨m', ?_⟩, ?_, fun h => ?_, fun hs i hi => ?_⟩
      · rw [rowsMod_entries]; exact e2
      · rw [hcs, e1, hu]
        exact congrArg some (rowFn_entries (ham_reads _) x).symm
      · rw [List.getElem?_map, (e3 h).1]; rfl
      · obtain ⟨y, f1, f2⟩ := (e4 hs i hi).2
        refine ⟨entries (numCoords (.compound ms)) y, by rw [List.getElem?_map, f1]; rfl, ?_⟩
        rw [← rk4End_entries]
        rw [hr] at f2
        rw [f2]
        rfl

theorem shoot_smooth {ms : List (DefModule d)} {k : Nat} (hm : (DefModule.compound ms).Smooth n) (hk : (k : WithTop ℕ∞) + 1 ≤ n) (hp : PlainMembers ms)
    (hn : 0 < numCoords (.compound ms)) (s : Solver) (it : Nat) (t1 : ℝ) {v : E → Fins (numCoords (.compound ms))} (hv : ContDiffAt ℝ k v e₀)
    (hok : ∃ r, shootMoments s it t1 (rowsMod (.compound ms) (finRows (v e₀))) = .ok r) :
    ∃ (w : E → Fins (numCoords (.compound ms))) (c : E → ℝ), ContDiffAt ℝ k w e₀ ∧ ContDiffAt ℝ k c e₀ ∧
      ∀ᶠ e in 𝓝 e₀, ∃ r, shootMoments s it t1 (rowsMod (.compound ms) (finRows (v e))) = .ok r ∧ r.costs.sum = c e ∧
        r.module.reset = (rowsMod (.compound ms) (finRows (w e))).reset := by
  have hX := rhsV_smooth (k := k) hm hk
  have hn' : (k : WithTop ℕ∞) ≤ n := le_self_add.trans hk
  obtain ⟨r₀, hok⟩ := hok
  have h0 := shoot_entries hp hn hm s it t1 (v e₀)
  cases ho : orbit s (rhsV (.compound ms)) t1 it (v e₀) with
  | error e => rw [ho] at h0; rw [h0] at hok; cases hok
  | ok l₀ =>
    obtain ⟨L, hL, hLs, hLe⟩ := hX.orbit s t1 it hv ⟨l₀, ho⟩
    have hl₀ : l₀ = L.map fun g => g e₀ := Except.ok.inj (ho.symm.trans hLe.self_of_nhds)
    rw [ho] at h0
    obtain ⟨r, -, -, -, h0⟩ := h0
    have hcost : ∀ j : Fin it, ∃ c : E → ℝ, ContDiffAt ℝ k c e₀ ∧ ∀ᶠ e in 𝓝 e₀, ∀ r, shootMoments s it t1 (rowsMod (.compound ms) (finRows (v e))) = .ok r →
        r.costs[(j : Nat)]? = some (c e) := fun j => by
      obtain ⟨w, hw, -, hw1, hw2⟩ := h0 j j.2
      by_cases hs : s ≠ .rk4 ∨ (j : Nat) = 0
      · have hjL : (j : Nat) < L.length := by rw [hL]; omega
        have e1 : w = L[(j : Nat)] e₀ := by
          have := hw1 hs
          rw [hl₀, List.getElem?_map, List.getElem?_eq_getElem hjL] at this
          exact (Option.some.inj this).symm
        refine ⟨fun e => hamV (.compound ms) (L[(j : Nat)] e), ?_, ?_⟩
        · have hs1 : ContDiffAt ℝ k (hamV (.compound ms)) (L[(j : Nat)] e₀) := by rw [← e1]; exact (hamV_smooth hm hw).of_le hn'
          exact hs1.comp e₀ (hLs _ (List.getElem_mem hjL))
        · filter_upwards [hLe] with e he r hr
          have hat := shoot_entries hp hn hm s it t1 (v e)
          rw [he] at hat
          obtain ⟨r', h1, -, -, h2⟩ := hat
          have : r' = r := Except.ok.inj (h1.symm.trans hr)
          subst this
          obtain ⟨w', -, h3, h4, -⟩ := h2 j j.2
          have := h4 hs
          rw [List.getElem?_map, List.getElem?_eq_getElem hjL] at this
          rw [h3, ← Option.some.inj this]
      · rw [not_or, not_not] at hs
        obtain ⟨i, hi⟩ := Nat.exists_eq_succ_of_ne_zero hs.2
        have hiL : i < L.length := by rw [hL]; omega
        obtain ⟨u, hu, hu'⟩ := hw2 hs.1 i hi
        have e1 : u = L[i] e₀ := by
          rw [hl₀, List.getElem?_map, List.getElem?_eq_getElem hiL] at hu
          exact (Option.some.inj hu).symm
        obtain ⟨g, hg, hge⟩ := (hX.rk4End (t1 / it)).comp (hLs _ (List.getElem_mem hiL)) ⟨w, e1 ▸ hu'⟩
        have e2 : w = g e₀ := Except.ok.inj ((e1 ▸ hu').symm.trans hge.self_of_nhds)
        refine ⟨fun e => hamV (.compound ms) (g e), ?_, ?_⟩
        · have hs1 : ContDiffAt ℝ k (hamV (.compound ms)) (g e₀) := by rw [← e2]; exact (hamV_smooth hm hw).of_le hn'
          exact hs1.comp e₀ hg
        · filter_upwards [hLe, hge] with e he he' r hr
          have hat := shoot_entries hp hn hm s it t1 (v e)
          rw [he] at hat
          obtain ⟨r', h1, -, -, h2⟩ := hat
          have : r' = r := Except.ok.inj (h1.symm.trans hr)
          subst this
          obtain ⟨w', -, h3, -, h4⟩ := h2 j j.2
          obtain ⟨u', h5, h6⟩ := h4 hs.1 i hi
          rw [List.getElem?_map, List.getElem?_eq_getElem hiL] at h5
          rw [← Option.some.inj h5] at h6
          rw [h3, ← Except.ok.inj (he'.symm.trans h6)]
    choose c hc hce using hcost
    have hLast : ∃ w : E → Fins (numCoords (.compound ms)), ContDiffAt ℝ k w e₀ ∧ ∀ e, (L.map fun g => g e).getLastD (v e) = w e := by
      induction L using List.reverseRecOn with
      | nil => simp at hL
      | append_singleton l a _ => exact ⟨a, hLs a (by simp), fun e => by simp⟩
    obtain ⟨w, hw, hwe⟩ := hLast
    refine ⟨w, fun e => ∑ j, c j e, hw, ContDiffAt.sum fun j _ => hc j, ?_⟩
    filter_upwards [hLe, eventually_all.2 hce] with e he hc'
    have hat := shoot_entries hp hn hm s it t1 (v e)
    rw [he] at hat
    obtain ⟨r, h1, h2, h3, -⟩ := hat
    refine ⟨r, h1, ?_, by rw [h3, hwe]⟩
    have hlist : r.costs = List.ofFn fun j => c j e := by
      refine List.ext_getElem? fun i => ?_
      rw [List.getElem?_ofFn]
      by_cases hi : i < it
      · rw [dif_pos hi]; exact hc' ⟨i, hi⟩ r h1
      · rw [dif_neg hi]; exact List.getElem?_eq_none (by omega)
    rw [hlist, List.sum_ofFn]

end
end Imodal
