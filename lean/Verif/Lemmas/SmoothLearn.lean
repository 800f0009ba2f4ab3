import Verif.Lemmas.SmoothFill
import Verif.Lemmas.SmoothReg
import Verif.Lemmas.OwnCotFill
import Verif.Lemmas.ShootCtrl
import Mathlib.Data.List.GetD
/-!
# Shooting with controls depends smoothly on the controls and on where it starts
-/
set_option autoImplicit false
namespace Imodal
noncomputable section
open Matrix Filter Topology
variable {d : Nat} {E : Type} [NormedAddCommGroup E] [NormedSpace ℝ E] {n : WithTop ℕ∞} {e₀ : E}

/-- All entries are smooth. -/
def SmRow (n : WithTop ℕ∞) (e₀ : E) (x : E → Row) : Prop := ∀ j, ContDiffAt ℝ n (fun e => x e j) e₀

theorem SmRow.add {x y : E → Row} (hx : SmRow n e₀ x) (hy : SmRow n e₀ y) : SmRow n e₀ fun e => x e + y e := fun j => (hx j).add (hy j)
theorem SmRow.sub {x y : E → Row} (hx : SmRow n e₀ x) (hy : SmRow n e₀ y) : SmRow n e₀ fun e => x e - y e := fun j => (hx j).sub (hy j)
theorem SmRow.smul {x : E → Row} (a : ℝ) (hx : SmRow n e₀ x) : SmRow n e₀ fun e => a • x e := fun j => (hx j).const_smul a

/-! ## One evaluation -/

theorem dotRow_zero : (l : List ℝ) → (off : Nat) → dotRow (fun _ => 0) off l = 0
  | [], _ => rfl
  | a :: l, off => by rw [dotRow, dotRow_zero l]; simp

/-- The parts of a Hamiltonian that is defined. -/
theorem hamiltonianOn_parts {man : Mfd d} {m : DefModule d} {v : ℝ} (h : hamiltonianOn man m = .ok v) :
    ∃ f a c, m.field = .ok f ∧ man.innerProd f = .ok a ∧ m.cost = .ok c ∧ v = a - c := by
  unfold hamiltonianOn at h
  cases h1 : m.field with
  | error _ => rw [h1] at h; cases h
  | ok f =>
    rw [h1] at h
    dsimp only at h
    cases h2 : man.innerProd f with
    | error _ => rw [h2] at h; cases h
    | ok a =>
      rw [h2] at h
      dsimp only at h
      cases h3 : m.cost with
      | error _ => rw [h3] at h; cases h
      | ok c =>
        rw [h3] at h
        exact ⟨f, a, c, rfl, h2, rfl, (Except.ok.inj h).symm⟩

theorem withGd_rowsMod (m : DefModule d) (x : Row × Row) (q : Row) : (rowsMod m x).withGd q 0 = (m.withGd q 0).withCot x.2 0 := by
  unfold rowsMod
  rw [DefModule.withGd_withCot, DefModule.withGd_withGd]

/-- Where the controls can be set, the module can be evaluated for nearby controls and descriptors, and
its cost and the velocity of the descriptors depend smoothly on them. -/
theorem ctrlEval_smooth {J : Prop} {m : DefModule d} (hm : m.SmoothParts n J) {c : E → Ctrl d} (hc : SmCtrl n e₀ c) (x : E → Row × Row) {q : E → Row}
    (hq : SmRow n e₀ q) (hok : ∃ m', ((rowsMod m (x e₀)).withGd (q e₀) 0).fillControls (c e₀) = .ok m') :
    ∃ (v : E → Row) (a : E → ℝ), SmRow n e₀ v ∧ ContDiffAt ℝ n a e₀ ∧
      ∀ᶠ e in 𝓝 e₀, ∃ m', ctrlEval (rowsMod m (x e)) (c e) (q e) = .ok (m', v e) ∧ m'.cost = .ok (a e) := by
  have key : ∀ r : Row, ∃ H : E → ℝ, ContDiffAt ℝ n H e₀ ∧ ∀ᶠ e in 𝓝 e₀, ∃ m', ((rowsMod m (x e)).withGd (q e) 0).fillControls (c e) = .ok m' ∧
      hamiltonianOn ((m.manifold.withGd (q e) 0).withCot r 0) m' = .ok (H e) := fun r => by
    simp only [withGd_rowsMod] at hok ⊢
    obtain ⟨H, hH, h⟩ := ok_smFill (n := n) (e₀ := e₀) (man := fun e => (m.manifold.withGd (q e) 0).withCot r 0) (J := J)
      (sm_momAtoms (p := fun _ => r) hq (fun _ => contDiffAt_const) _ _ _) (fun e => (x e).2) hq m 0 0 hc (smooth_tame _ m 0 hm) hok
    refine ⟨H, hH, ?_⟩
    filter_upwards [h] with e ⟨m', h1, ι, i, Q, s, h, a1, a2⟩
    exact ⟨m', h1, by rw [hamiltonianOn_has a1, a2]⟩
  choose H hH hHe using key
  let u : Nat → Row := fun j => unitRow (0 + j)
  refine ⟨fun e j => if j < numCoords m then H (u j) e - H (fun _ => 0) e else 0, fun e => - H (fun _ => 0) e, fun j => ?_, (hH _).neg, ?_⟩
  · by_cases hj : j < numCoords m
    · simp only [if_pos hj]; exact (hH _).sub (hH _)
    · simp only [if_neg hj]; exact contDiffAt_const
  · filter_upwards [hHe (fun _ => 0), eventually_all.2 fun j : Fin (numCoords m) => hHe (u j)] with e ⟨m', h1, h2⟩ hu
    obtain ⟨f, a, cst, g1, g2, g3, g4⟩ := hamiltonianOn_parts h2
    obtain ⟨w, hw⟩ : ∃ w, (m.manifold.withGd (q e) 0).action f = .ok w := by
      obtain ⟨w, hw⟩ := action_of_innerProd _ g2
      rw [action_withCot] at hw
      exact ⟨w, hw⟩
    have hman : m'.manifold = (m.manifold.withGd (q e) 0).withCot (x e).2 0 := by
      rw [fill_manifold _ h1, withGd_rowsMod, DefModule.manifold_withCot, DefModule.manifold_withGd]
    have ha : a = 0 := by
      have := innerProd_row (fun _ => 0) _ 0 hw
      rw [dotRow_zero] at this
      exact Except.ok.inj (g2.symm.trans this)
    have hcst : cst = -H (fun _ => 0) e := by rw [g4, ha]; ring
    have hlen : w.unroll.flatten.length = numCoords m := by
      rw [length_fits w (fits_action f _ hw), Mfd.size_withGd, numCoords_eq]
    refine ⟨m', ?_, by rw [g3, hcst]⟩
    unfold ctrlEval
    simp only [h1, g3, g1, hman, action_withCot, hw]
    congr 2
    funext j
    unfold rowOf
    by_cases hj : j < numCoords m
    · rw [if_pos hj]
      obtain ⟨m'', k1, k2⟩ := hu ⟨j, hj⟩
      have e1 : m'' = m' := Except.ok.inj (k1.symm.trans h1)
      subst e1
      obtain ⟨f', a', cst', l1, l2, l3, l4⟩ := hamiltonianOn_parts k2
      have e2 : f' = f := Except.ok.inj (l1.symm.trans g1)
      have e3 : cst' = cst := Except.ok.inj (l3.symm.trans g3)
      subst e2 e3
      have h5 := innerProd_row (u j) _ 0 hw
      have e4 : a' = w.unroll.flatten.getD j 0 := by
        rw [← dotRow_unit j w.unroll.flatten 0]
        exact Except.ok.inj (l2.symm.trans h5)
      dsimp only at l4
      rw [l4, ← e4, hcst]; ring
    · rw [if_neg hj]
      exact List.getD_eq_default _ _ (by omega)

/-! ## Steps -/

/-- Near `e₀` it returns, and all entries of what it returns are smooth. -/
def SmPyRow (n : WithTop ℕ∞) (e₀ : E) (f : E → Py Row) : Prop := ∃ g : E → Row, SmRow n e₀ g ∧ ∀ᶠ e in 𝓝 e₀, f e = .ok (g e)

theorem SmPyRow.congr {f f' : E → Py Row} (h : SmPyRow n e₀ f) (he : ∀ᶠ e in 𝓝 e₀, f' e = f e) : SmPyRow n e₀ f' := by
  obtain ⟨g, h1, h2⟩ := h
  exact ⟨g, h1, by filter_upwards [h2, he] with e a b; rw [b, a]⟩

theorem SmPyRow.bind {f : E → Py Row} {k : E → Row → Py Row} (hf : SmPyRow n e₀ f)
    (hk : ∀ g : E → Row, SmRow n e₀ g → f e₀ = .ok (g e₀) → SmPyRow n e₀ fun e => k e (g e)) : SmPyRow n e₀ fun e => (f e).bind (k e) := by
  obtain ⟨g, h1, h2⟩ := hf
  exact (hk g h1 h2.self_of_nhds).congr (by filter_upwards [h2] with e he; rw [he]; rfl)

theorem SmPyRow.map {f : E → Py Row} {k : E → Row → Row} (hf : SmPyRow n e₀ f) (hk : ∀ g : E → Row, SmRow n e₀ g → SmRow n e₀ fun e => k e (g e)) :
    SmPyRow n e₀ fun e => (f e).map (k e) := by
  obtain ⟨g, h1, h2⟩ := hf
  exact ⟨fun e => k e (g e), hk g h1, by filter_upwards [h2] with e he; rw [he]; rfl⟩

/-- Where it returns at `e₀`, it is smooth. -/
def SmRhs (n : WithTop ℕ∞) (e₀ : E) (Y : E → Row → Py Row) : Prop :=
  ∀ x : E → Row, SmRow n e₀ x → (∃ k, Y e₀ (x e₀) = .ok k) → SmPyRow n e₀ fun e => Y e (x e)

theorem SmRhs.step {Y : E → Nat → Row → Py Row} {s : Solver} (hY : ∀ j, SmRhs n e₀ fun e => Y e j) (h : ℝ) : SmRhs n e₀ fun e => stepWith s (Y e) h := by
  intro x hx hok
  obtain ⟨_, hok⟩ := hok
  cases s with
  | euler =>
    simp only [stepWith] at hok ⊢
    obtain ⟨k, h1, -⟩ := py_map_ok hok
    exact (hY 0 x hx ⟨k, h1⟩).map fun g hg => hx.add (hg.smul _)
  | midpoint =>
    simp only [stepWith] at hok ⊢
    obtain ⟨k, h1, hok⟩ := py_bind_ok hok
    obtain ⟨k', h2, -⟩ := py_map_ok hok
    refine (hY 0 x hx ⟨k, h1⟩).bind fun g hg e1 => ?_
    have := Except.ok.inj (h1.symm.trans e1); subst this
    exact (hY 1 _ (hx.add (hg.smul _)) ⟨k', h2⟩).map fun g hg => hx.add (hg.smul _)
  | rk4 =>
    simp only [stepWith] at hok ⊢
    obtain ⟨k₁, h1, hok⟩ := py_bind_ok hok
    obtain ⟨k₂, h2, hok⟩ := py_bind_ok hok
    obtain ⟨k₃, h3, hok⟩ := py_bind_ok hok
    obtain ⟨k₄, h4, -⟩ := py_map_ok hok
    refine (hY 0 x hx ⟨k₁, h1⟩).bind fun g₁ hg₁ e1 => ?_
    have := Except.ok.inj (h1.symm.trans e1); subst this
    refine (hY 1 _ (hx.add (hg₁.smul _)) ⟨k₂, h2⟩).bind fun g₂ hg₂ e2 => ?_
    have := Except.ok.inj (h2.symm.trans e2); subst this
    refine (hY 2 _ (hx.add ((hg₂.sub (hg₁.smul _)).smul _)) ⟨k₃, h3⟩).bind fun g₃ hg₃ e3 => ?_
    have := Except.ok.inj (h3.symm.trans e3); subst this
    exact (hY 3 _ (hx.add (((hg₁.sub hg₂).add hg₃).smul _)) ⟨k₄, h4⟩).map fun g₄ hg₄ => hx.add (((hg₁.add ((hg₂.add hg₃).smul _)).add hg₄).smul _)

theorem SmRhs.rk4End {Y : E → Nat → Row → Py Row} (hY : ∀ j, SmRhs n e₀ fun e => Y e j) (h : ℝ) : SmRhs n e₀ fun e => Imodal.rk4End (Y e) h := by
  intro x hx hok
  obtain ⟨_, hok⟩ := hok
  simp only [Imodal.rk4End] at hok ⊢
  obtain ⟨k₁, h1, hok⟩ := py_bind_ok hok
  obtain ⟨k₂, h2, hok⟩ := py_bind_ok hok
  obtain ⟨k₃, h3, -⟩ := py_map_ok hok
  refine (hY 0 x hx ⟨k₁, h1⟩).bind fun g₁ hg₁ e1 => ?_
  have := Except.ok.inj (h1.symm.trans e1); subst this
  refine (hY 1 _ (hx.add (hg₁.smul _)) ⟨k₂, h2⟩).bind fun g₂ hg₂ e2 => ?_
  have := Except.ok.inj (h2.symm.trans e2); subst this
  exact (hY 2 _ (hx.add ((hg₂.sub (hg₁.smul _)).smul _)) ⟨k₃, h3⟩).map fun g₃ hg₃ => hx.add (((hg₁.sub hg₂).add hg₃).smul _)

theorem SmRhs.orbit {Y : E → Nat → Nat → Row → Py Row} {s : Solver} (hY : ∀ i j, SmRhs n e₀ fun e => Y e i j) (h : ℝ) : ∀ (k i : Nat) {x : E → Row},
    SmRow n e₀ x → (∃ l, orbitWith s (Y e₀) h i k (x e₀) = .ok l) →
    ∃ L : List (E → Row), L.length = k + 1 ∧ (∀ g ∈ L, SmRow n e₀ g) ∧ ∀ᶠ e in 𝓝 e₀, orbitWith s (Y e) h i k (x e) = .ok (L.map fun g => g e)
  | 0, i, x, hx, _ => ⟨[x], rfl, by simpa using hx, .of_forall fun e => by rw [orbitWith]; rfl⟩
  | k + 1, i, x, hx, hok => by
    obtain ⟨l, hok⟩ := hok
    rw [orbitWith] at hok
    cases h1 : stepWith s (Y e₀ i) h (x e₀) with
    | error e => rw [h1] at hok; cases hok
    | ok y' =>
      rw [h1] at hok
      dsimp only at hok
      obtain ⟨g, hg, he⟩ := SmRhs.step (s := s) (Y := fun e => Y e i) (hY i) h x hx ⟨y', h1⟩
      have e1 : y' = g e₀ := Except.ok.inj (h1.symm.trans he.self_of_nhds)
      cases h2 : orbitWith s (Y e₀) h (i + 1) k y' with
      | error e => rw [h2] at hok; cases hok
      | ok l' =>
        obtain ⟨L, hL, hL', hL''⟩ := SmRhs.orbit hY h k (i + 1) hg ⟨l', e1 ▸ h2⟩
        refine ⟨x :: L, by rw [List.length_cons, hL], ?_, ?_⟩
        · intro g hg
          rcases List.mem_cons.1 hg with rfl | hg
          · exact hx
          · exact hL' g hg
        · filter_upwards [he, hL''] with e a b
          rw [orbitWith, a]
          dsimp only
          rw [b]
          rfl

/-! ## The controlled system -/

/-- Which controls are picked does not depend on their values. -/
theorem pick_map (cs : List (E → Ctrl d)) (it : Nat) (cur : Int) (calls : Nat) :
    (∃ c ∈ cs, ∀ e, pickControls (cs.map fun c => c e) it cur calls = .ok (c e)) ∨
    ∀ e, pickControls (cs.map fun c => c e) it cur calls = .error .index := by
  unfold pickControls
  simp only [List.length_map, List.getElem?_map]
  cases h : cs[if cs.length = it then cur.toNat else if it < cs.length then calls else 0]? with
  | none => exact .inr fun e => rfl
  | some c => exact .inl ⟨c, List.mem_of_getElem? h, fun e => rfl⟩

theorem pickRhs_smooth {J : Prop} {m : DefModule d} (hm : m.SmoothParts n J) {cs : List (E → Ctrl d)} (hcs : ∀ c ∈ cs, SmCtrl n e₀ c) (x : E → Row × Row)
    (t1 : ℝ) (it : Nat) (t : ℝ) (k : Nat) : SmRhs n e₀ fun e => pickRhs (rowsMod m (x e)) (cs.map fun c => c e) t1 it t k := by
  intro q hq hok
  obtain ⟨v, hok⟩ := hok
  unfold pickRhs at hok ⊢
  rcases pick_map cs it (tToIt t1 it t) k with ⟨c, hc, hp⟩ | hp
  · simp only [hp, Except.bind] at hok ⊢
    unfold ctrlRhs at hok ⊢
    obtain ⟨r, hr, -⟩ := py_map_ok hok
    obtain ⟨v, a, hv, -, hev⟩ := ctrlEval_smooth hm (hcs c hc) x hq ⟨r.1, (ctrlEval_ok hr).1⟩
    refine ⟨v, hv, ?_⟩
    filter_upwards [hev] with e ⟨m', h1, _⟩
    rw [h1]; rfl
  · simp only [hp, Except.bind] at hok
    cases hok

/-- The cost recorded with the picked controls. -/
theorem pickCost_smooth {J : Prop} {m : DefModule d} (hm : m.SmoothParts n J) {cs : List (E → Ctrl d)} (hcs : ∀ c ∈ cs, SmCtrl n e₀ c) (x : E → Row × Row)
    (t1 : ℝ) (it : Nat) (t : ℝ) (k : Nat) {q : E → Row} (hq : SmRow n e₀ q) {a₀ : ℝ}
    (hok : ∃ c, pickControls (cs.map fun c => c e₀) it (tToIt t1 it t) k = .ok c ∧ CtrlCostAt (rowsMod m (x e₀)) c (q e₀) a₀) :
    ∃ a : E → ℝ, ContDiffAt ℝ n a e₀ ∧ ∀ᶠ e in 𝓝 e₀, ∀ b, (∃ c, pickControls (cs.map fun c => c e) it (tToIt t1 it t) k = .ok c ∧
      CtrlCostAt (rowsMod m (x e)) c (q e) b) → b = a e := by
  obtain ⟨c₀, h1, m', h2, -⟩ := hok
  rcases pick_map cs it (tToIt t1 it t) k with ⟨c, hc, hp⟩ | hp
  · rw [hp] at h1
    have := Except.ok.inj h1; subst this
    obtain ⟨v, a, -, ha, hev⟩ := ctrlEval_smooth hm (hcs c hc) x hq ⟨m', h2⟩
    refine ⟨a, ha, ?_⟩
    filter_upwards [hev] with e ⟨m'', h3, h4⟩ b ⟨c', h5, m3, h6, h7⟩
    rw [hp] at h5
    have := Except.ok.inj h5; subst this
    have e1 : m'' = m3 := Except.ok.inj ((ctrlEval_ok h3).1.symm.trans h6)
    subst e1
    exact Except.ok.inj (h7.symm.trans h4)
  · rw [hp] at h1; cases h1

/-! ## Shooting -/

/-- The number of evaluations before the one whose cost is recorded for step `j`. -/
def costCall (s : Solver) (j : Nat) : Nat := if s = .rk4 ∧ j ≠ 0 then 4 * (j - 1) + 3 else s.stages * j

/-- What shooting with controls gives, in terms of the trajectory. -/
theorem shootC_parts {ms : List (DefModule d)} {s : Solver} {it : Nat} {t1 : ℝ} {controls : List (Ctrl d)} {r : Shot d}
    (h : shootControls s it t1 controls (.compound ms) = .ok r) :
    (it = 0 ∨ t1 ≠ 0) ∧ ∃ xs, orbitWith s (fun i j => pickRhs (.compound ms) controls t1 it
        (s.stageTime (gridTime t1 it i) (gridTime t1 it (i + 1)) j) (s.stages * i + j)) (t1 / it) 0 it (gdRow (.compound ms)) = .ok xs
      ∧ r.states = xs.map (fun x => ((DefModule.compound ms).withGd x 0).manifold)
      ∧ r.module.reset = ((DefModule.compound ms).withGd (xs.getLastD (gdRow (.compound ms))) 0).reset
      ∧ r.costs.length = it ∧ ∀ j < it, ∃ y a, r.costs[j]? = some a ∧
        (∃ c, pickControls controls it (tToIt t1 it (gridTime t1 it j)) (costCall s j) = .ok c ∧ CtrlCostAt (.compound ms) c y a) ∧
        (s ≠ .rk4 ∨ j = 0 → xs[j]? = some y) ∧ (s = .rk4 → ∀ i, j = i + 1 → ∃ u, xs[i]? = some u ∧
          rk4End (fun l => pickRhs (.compound ms) controls t1 it (Solver.rk4.stageTime (gridTime t1 it i) (gridTime t1 it (i + 1)) l) (4 * i + l)) (t1 / it) u
            = .ok y) := by
  obtain ⟨ht, xs, h1, h2, h3, g, h4, h5⟩ := shootC_ok h
  obtain ⟨-, cs, b, c, e⟩ := (clocked_control ms controls t1 it).odeint (invC_init (shootC_plain h).1) h4
  have hcs : r.costs = cs := by rw [h5, b]; simp [GradObj.init]
  refine ⟨ht, xs, h1, h2, h3, by rw [hcs, c], fun j hj => ?_⟩
  obtain ⟨y, k, a, e1, e2, e3, e4⟩ := e j hj
  have h0 : (GradObj.init (.compound ms)).it = 0 := rfl
  rw [h0] at e3 e4
  have hk : k = costCall s j := by
    unfold costCall
    by_cases hs : s = .rk4 ∧ j ≠ 0
    · rw [if_pos hs]
      obtain ⟨i, hi⟩ := Nat.exists_eq_succ_of_ne_zero hs.2
      rw [(e4 hs.1 i hi).1]; omega
    · rw [if_neg hs, (e3 (by tauto)).2]; omega
  refine ⟨y, a, by rw [hcs, e1], by rw [← hk]; exact e2, fun h => (e3 h).1, fun hs i hi => ?_⟩
  obtain ⟨u, f1, f2⟩ := (e4 hs i hi).2
  refine ⟨u, f1, ?_⟩
  simpa only [Nat.zero_add] using f2

theorem SmRow.cut {x : E → Row} (hx : SmRow n e₀ x) (N : Nat) : SmRow n e₀ fun e => Imodal.cut N (x e) := fun j => by
  unfold Imodal.cut
  by_cases hj : j < N
  · simp only [if_pos hj]; exact hx j
  · simp only [if_neg hj]; exact contDiffAt_const

theorem shootC_smooth {J : Prop} {ms : List (DefModule d)} (hm : (DefModule.compound ms).SmoothParts n J) (hp : PlainMembers ms)
    (hn : 0 < numCoords (.compound ms)) (s : Solver) (it : Nat) (t1 : ℝ) {x : E → Row × Row} (hx : SmRow n e₀ fun e => (x e).1) {cs : List (E → Ctrl d)}
    (hcs : ∀ c ∈ cs, SmCtrl n e₀ c) (hok : ∃ r, shootControls s it t1 (cs.map fun c => c e₀) (rowsMod (.compound ms) (x e₀)) = .ok r) :
    ∃ (L : List (E → Row)) (w : E → Row) (c : E → ℝ), L.length = it + 1 ∧ (∀ g ∈ L, SmRow n e₀ g) ∧ SmRow n e₀ w ∧ ContDiffAt ℝ n c e₀ ∧
      ∀ᶠ e in 𝓝 e₀, ∃ r, shootControls s it t1 (cs.map fun c => c e) (rowsMod (.compound ms) (x e)) = .ok r ∧ r.costs.sum = c e ∧
        r.states = L.map (fun g => ((rowsMod (.compound ms) (x e)).withGd (g e) 0).manifold) ∧
        r.module.reset = ((rowsMod (.compound ms) (x e)).withGd (w e) 0).reset := by
  have hcomp : ∀ e, ∃ ms', rowsMod (.compound ms) (x e) = .compound ms' ∧ PlainMembers ms' ∧ 0 < numCoords (.compound ms') ∧
      gdRow (.compound ms') = Imodal.cut (numCoords (.compound ms)) (x e).1 := fun e => by
    refine ⟨_, rowsMod_compound _ _, plainMembers_withCot _ _ (plainMembers_withGd _ _ hp), ?_, ?_⟩
    · rw [← rowsMod_compound, numCoords_rowsMod]; exact hn
    · rw [← rowsMod_compound, gdRow_rowsMod]
  let Y : E → Nat → Nat → Row → Py Row := fun e i j => pickRhs (rowsMod (.compound ms) (x e)) (cs.map fun c => c e) t1 it
    (s.stageTime (gridTime t1 it i) (gridTime t1 it (i + 1)) j) (s.stages * i + j)
  have hY : ∀ i j, SmRhs n e₀ fun e => Y e i j := fun i j => pickRhs_smooth hm hcs x t1 it _ _
  have hx' : SmRow n e₀ fun e => Imodal.cut (numCoords (.compound ms)) (x e).1 := hx.cut _
  obtain ⟨r₀, hok⟩ := hok
  have hparts : ∀ {e r}, shootControls s it t1 (cs.map fun c => c e) (rowsMod (.compound ms) (x e)) = .ok r →
      (it = 0 ∨ t1 ≠ 0) ∧ ∃ xs, orbitWith s (Y e) (t1 / it) 0 it (Imodal.cut (numCoords (.compound ms)) (x e).1) = .ok xs
      ∧ r.states = xs.map (fun y => ((rowsMod (.compound ms) (x e)).withGd y 0).manifold)
      ∧ r.module.reset = ((rowsMod (.compound ms) (x e)).withGd (xs.getLastD (Imodal.cut (numCoords (.compound ms)) (x e).1)) 0).reset
      ∧ r.costs.length = it ∧ ∀ j < it, ∃ y a, r.costs[j]? = some a ∧
        (∃ c, pickControls (cs.map fun c => c e) it (tToIt t1 it (gridTime t1 it j)) (costCall s j) = .ok c ∧ CtrlCostAt (rowsMod (.compound ms) (x e)) c y a) ∧
        (s ≠ .rk4 ∨ j = 0 → xs[j]? = some y) ∧ (s = .rk4 → ∀ i, j = i + 1 → ∃ u, xs[i]? = some u ∧ rk4End (Y e i) (t1 / it) u = .ok y) := by
    intro e r hr
    obtain ⟨ms', e1, e2, e3, e4⟩ := hcomp e
    rw [e1] at hr
    have := shootC_parts hr
    rw [e4, ← e1] at this
    obtain ⟨ht, xs, a1, a2, a3, a4, a5⟩ := this
    refine ⟨ht, xs, a1, a2, a3, a4, fun j hj => ?_⟩
    obtain ⟨y, a, b1, b2, b3, b4⟩ := a5 j hj
    refine ⟨y, a, b1, b2, b3, fun hs i hi => ?_⟩
    obtain ⟨u, f1, f2⟩ := b4 hs i hi
    refine ⟨u, f1, ?_⟩
    subst hs
    exact f2
  obtain ⟨ht, xs₀, ho, -, -, -, h0⟩ := hparts hok
  obtain ⟨L, hL, hLs, hLe⟩ := SmRhs.orbit (s := s) hY (t1 / it) it 0 hx' ⟨xs₀, ho⟩
  have hxs₀ : xs₀ = L.map fun g => g e₀ := Except.ok.inj (ho.symm.trans hLe.self_of_nhds)
  have hcost : ∀ j : Fin it, ∃ c : E → ℝ, ContDiffAt ℝ n c e₀ ∧ ∀ᶠ e in 𝓝 e₀, ∀ r,
      shootControls s it t1 (cs.map fun c => c e) (rowsMod (.compound ms) (x e)) = .ok r → r.costs[(j : Nat)]? = some (c e) := fun j => by
    obtain ⟨y, a, -, hw, hw1, hw2⟩ := h0 j j.2
    by_cases hs : s ≠ .rk4 ∨ (j : Nat) = 0
    · have hjL : (j : Nat) < L.length := by rw [hL]; omega
      have e1 : y = L[(j : Nat)] e₀ := by
        have := hw1 hs
        rw [hxs₀, List.getElem?_map, List.getElem?_eq_getElem hjL] at this
        exact (Option.some.inj this).symm
      obtain ⟨b, hb, hbe⟩ := pickCost_smooth hm hcs x t1 it (gridTime t1 it j) (costCall s j) (hLs _ (List.getElem_mem hjL)) (by rw [← e1]; exact hw)
      refine ⟨b, hb, ?_⟩
      filter_upwards [hLe, hbe] with e he hb' r hr
      obtain ⟨-, xs, k1, -, -, -, k2⟩ := hparts hr
      have := Except.ok.inj (k1.symm.trans he); subst this
      obtain ⟨y', a', l1, l2, l3, -⟩ := k2 j j.2
      have := l3 hs
      rw [List.getElem?_map, List.getElem?_eq_getElem hjL] at this
      have := Option.some.inj this; subst this
      rw [l1, hb' a' l2]
    · rw [not_or, not_not] at hs
      obtain ⟨i, hi⟩ := Nat.exists_eq_succ_of_ne_zero hs.2
      have hiL : i < L.length := by rw [hL]; omega
      obtain ⟨u, hu, hu'⟩ := hw2 hs.1 i hi
      have e1 : u = L[i] e₀ := by
        rw [hxs₀, List.getElem?_map, List.getElem?_eq_getElem hiL] at hu
        exact (Option.some.inj hu).symm
      subst e1
      obtain ⟨g, hg, hge⟩ := SmRhs.rk4End (Y := fun e => Y e i) (hY i) (t1 / it) _ (hLs _ (List.getElem_mem hiL)) ⟨y, hu'⟩
      have e2 : y = g e₀ := Except.ok.inj (hu'.symm.trans hge.self_of_nhds)
      obtain ⟨b, hb, hbe⟩ := pickCost_smooth hm hcs x t1 it (gridTime t1 it j) (costCall s j) hg (by rw [← e2]; exact hw)
      refine ⟨b, hb, ?_⟩
      filter_upwards [hLe, hge, hbe] with e he hg' hb' r hr
      obtain ⟨-, xs, k1, -, -, -, k2⟩ := hparts hr
      have := Except.ok.inj (k1.symm.trans he); subst this
      obtain ⟨y', a', l1, l2, -, l4⟩ := k2 j j.2
      obtain ⟨u', f1, f2⟩ := l4 hs.1 i hi
      rw [List.getElem?_map, List.getElem?_eq_getElem hiL] at f1
      have := Option.some.inj f1; subst this
      have := Except.ok.inj (f2.symm.trans hg'); subst this
      rw [l1, hb' a' l2]
  choose c hc hce using hcost
  have hLast : ∃ w : E → Row, SmRow n e₀ w ∧ ∀ e y, (L.map fun g => g e).getLastD y = w e := by
    induction L using List.reverseRecOn with
    | nil => simp at hL
    | append_singleton l a _ => exact ⟨a, hLs a (by simp), fun e y => by simp⟩
  obtain ⟨w, hw, hwe⟩ := hLast
  refine ⟨L, w, fun e => ∑ j, c j e, hL, hLs, hw, ContDiffAt.sum fun j _ => hc j, ?_⟩
  filter_upwards [hLe, eventually_all.2 hce] with e he hc'
  obtain ⟨r, hr⟩ : ∃ r, shootControls s it t1 (cs.map fun c => c e) (rowsMod (.compound ms) (x e)) = .ok r := by
    obtain ⟨ms', e1, e2, e3, e4⟩ := hcomp e
    have := shootC_cases e2 e3 s it t1 (cs.map fun c => c e)
    rw [if_neg (by tauto), e4, ← e1] at this
    have he' : orbitWith s (fun i j => pickRhs (rowsMod (.compound ms) (x e)) (cs.map fun c => c e) t1 it
      (s.stageTime (gridTime t1 it i) (gridTime t1 it (i + 1)) j) (s.stages * i + j)) (t1 / it) 0 it (Imodal.cut (numCoords (.compound ms)) (x e).1)
        = .ok (L.map fun g => g e) := he
    rw [he'] at this
    obtain ⟨g, -, -, h⟩ := this
    exact ⟨_, h⟩
  obtain ⟨-, xs, k1, k2, k3, k4, -⟩ := hparts hr
  have := Except.ok.inj (k1.symm.trans he); subst this
  refine ⟨r, hr, ?_, by rw [k2, List.map_map]; rfl, by rw [k3, hwe]⟩
  have hlist : r.costs = List.ofFn fun j => c j e := by
    refine List.ext_getElem? fun i => ?_
    rw [List.getElem?_ofFn]
    by_cases hi : i < it
    · rw [dif_pos hi]; exact hc' ⟨i, hi⟩ r hr
    · rw [dif_neg hi]; exact List.getElem?_eq_none (by omega)
  rw [hlist, List.sum_ofFn]

end
end Imodal
