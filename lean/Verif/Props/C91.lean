import Verif.Lemmas.SpeedShoot
import Verif.Props.C18
import Verif.Props.C29
import Verif.Props.C34
import Verif.Props.C70
import Verif.Props.C90
import Mathlib.Algebra.Order.Chebyshev
/-!
# C91: the reported cost bounds how far the points are moved
-/
set_option autoImplicit false
namespace Imodal
noncomputable section
variable {d : Nat}

/-! ### Fields -/

/-- With positive weights, and without a linear module, the square of the speed at any point is at
most twice the cost of the controls times the sum of the inverse coefficients. -/
theorem C91_field {m m' : DefModule d} (hw : m.PositiveWeights) (hl : m.NoLinear) {c : Ctrl d} (h : m.fillControls c = .ok m') :
    ∃ f a, m'.field = .ok f ∧ m'.cost = .ok a ∧ 0 ≤ a ∧
      ∀ (n : Nat) (x : Fin n → Vec d), ∃ v, f.values x = .ok v ∧ ∀ i, ∑ b, v i b ^ 2 ≤ 2 * m.mobility * a := by
  obtain ⟨f, a, h1, h2, h3, -, h4, -, h5⟩ := says_fill m hw h
  exact ⟨f, a, h1, h2, h4, fun n x => ⟨_, h3.values x, fun i => h5 hl _⟩⟩

/-- The same for the geodesic controls of any manifold with momenta. -/
theorem C91_geodesic {m m' : DefModule d} (hw : m.PositiveWeights) (hl : m.NoLinear) {man : Mfd d} (h : m.geodesic man = .ok m') :
    ∃ f a, m'.field = .ok f ∧ m'.cost = .ok a ∧ 0 ≤ a ∧
      ∀ (n : Nat) (x : Fin n → Vec d), ∃ v, f.values x = .ok v ∧ ∀ i, ∑ b, v i b ^ 2 ≤ 2 * m.mobility * a :=
  C91_field hw hl (geodesic_fill man m h)

/-- Controls without cost generate no field: values and derivatives vanish everywhere. -/
theorem C91_still {m m' : DefModule d} (hw : m.PositiveWeights) {c : Ctrl d} (h : m.fillControls c = .ok m') (h0 : m'.cost = .ok 0) :
    ∃ f, m'.field = .ok f ∧ ∀ (n : Nat) (x : Fin n → Vec d), f.values x = .ok 0 ∧ f.jacobians x = .ok 0 := by
  obtain ⟨f, a, h1, h2, h3, h4, -, h5, -⟩ := says_fill m hw h
  rw [h0] at h2
  have hz := h5 (Except.ok.inj h2).symm
  refine ⟨f, h1, fun n x => ⟨?_, ?_⟩⟩
  · rw [h3.values]; congr 1; funext i; exact (hz (x i)).1
  · rw [h4.jacobians]; congr 1; funext i; exact (hz (x i)).2

/-! ### Euler's method -/

theorem sum_costs (l : List ℝ) : l.sum = ∑ i ∈ Finset.range l.length, l.getD i 0 := by
  induction l with
  | nil => simp
  | cons a l ih =>
    rw [List.sum_cons, List.length_cons, Finset.sum_range_succ', ih, add_comm]
    simp

theorem far_euler {it : Nat} {h w : ℝ} {X K : Nat → Vec d} {a : Nat → ℝ} (hX : ∀ l < it, X (l + 1) = X l + h • K l)
    (hK : ∀ l < it, ∑ b, K l b ^ 2 ≤ 2 * w * a l) :
    ∑ b, (X it b - X 0 b) ^ 2 ≤ it * h ^ 2 * (2 * w * ∑ l ∈ Finset.range it, a l) := by
  have e : ∀ n ≤ it, ∀ b, X n b - X 0 b = ∑ l ∈ Finset.range n, h * K l b := by
    intro n hn b
    induction n with
    | zero => simp
    | succ n ih =>
      rw [Finset.sum_range_succ, ← ih (by omega), hX n (by omega), Pi.add_apply, Pi.smul_apply, smul_eq_mul]; ring
  calc ∑ b, (X it b - X 0 b) ^ 2 ≤ ∑ b, (it : ℝ) * ∑ l ∈ Finset.range it, (h * K l b) ^ 2 := by
        refine Finset.sum_le_sum fun b _ => ?_
        rw [e it le_rfl b]
        have := sq_sum_le_card_mul_sum_sq (s := Finset.range it) (f := fun l => h * K l b)
        rwa [Finset.card_range] at this
    _ = it * h ^ 2 * ∑ l ∈ Finset.range it, ∑ b, K l b ^ 2 := by
        rw [← Finset.mul_sum, Finset.sum_comm, mul_assoc, Finset.mul_sum (s := Finset.range it) (a := h ^ 2)]
        refine congrArg _ (Finset.sum_congr rfl fun l _ => ?_)
        rw [Finset.mul_sum]
        exact Finset.sum_congr rfl fun b _ => by ring
    _ ≤ it * h ^ 2 * (2 * w * ∑ l ∈ Finset.range it, a l) := by
        refine mul_le_mul_of_nonneg_left ?_ (by positivity)
        rw [Finset.mul_sum]
        exact Finset.sum_le_sum fun l hl => hK l (Finset.mem_range.mp hl)

theorem getLastD_eq {xs : List Row} {it : Nat} (hl : xs.length = it + 1) (y : Row) : xs.getLastD y = xs.getD it 0 := by
  rw [List.getLastD_eq_getLast?, List.getLast?_eq_getElem?, hl, Nat.add_sub_cancel, List.getD_eq_getElem?_getD,
    List.getElem?_eq_getElem (show it < xs.length by omega)]
  rfl

theorem far_controls {ms : List (DefModule d)} (hw : (DefModule.compound ms).PositiveWeights) (hn : (DefModule.compound ms).NoLinear)
    {it : Nat} {t1 : ℝ} {controls : List (Ctrl d)} {r : Shot d} (h : shootControls .euler it t1 controls (.compound ms) = .ok r) :
    (∀ a ∈ r.costs, 0 ≤ a) ∧ ∀ (i n : Nat) (x : Fin n → Vec d), (DefModule.compound ms).manifold.At i x → ∃ y : Fin n → Vec d,
      r.module.manifold.At i y ∧ ∀ p, it * ∑ b, (y p b - x p b) ^ 2 ≤ 2 * (DefModule.compound ms).mobility * t1 ^ 2 * r.costs.sum := by
  obtain ⟨hc, xs, hl, h0, -, hm, hs⟩ := euler_costs h
  refine ⟨fun a ha => ?_, fun i n x hx => ⟨block ((DefModule.compound ms).manifold.off i) (xs.getD it 0), ?_, fun p => ?_⟩⟩
  · obtain ⟨l, hlt, rfl⟩ := List.getElem_of_mem ha
    obtain ⟨_, _, c, a, _, _, e, q, _⟩ := hs l (by omega)
    rw [List.getElem?_eq_getElem hlt] at e
    rw [Option.some.inj e]
    exact q.nonneg hw
  · rw [hm, DefModule.manifold_withGd, getLastD_eq hl]
    exact (hx.withGd _).1
  · have key : ∀ l, ∃ K : Vec d, l < it → block (d := d) (n := n) ((DefModule.compound ms).manifold.off i) (xs.getD (l + 1) 0) p
        = block (d := d) (n := n) ((DefModule.compound ms).manifold.off i) (xs.getD l 0) p + (t1 / it) • K ∧
        ∑ b, K b ^ 2 ≤ 2 * (DefModule.compound ms).mobility * r.costs.getD l 0 := by
      intro l
      by_cases hlt : l < it
      · obtain ⟨x', k, c, a, e1, e2, e3, e4, e5⟩ := hs l hlt
        refine ⟨block (d := d) (n := n) ((DefModule.compound ms).manifold.off i) k p, fun _ => ⟨?_, ?_⟩⟩
        · rw [List.getD_eq_getElem?_getD, List.getD_eq_getElem?_getD, e1, e2, Option.getD_some, Option.getD_some, block_add, block_smul]
          rfl
        · rw [List.getD_eq_getElem?_getD, e3]
          exact e4.slow hw hn e5 hx p
      · exact ⟨0, fun h => absurd h hlt⟩
    choose K hK using key
    have hx0 : block (d := d) (n := n) ((DefModule.compound ms).manifold.off i) (xs.getD 0 0) = x := by
      rw [List.getD_eq_getElem?_getD, h0, Option.getD_some]; exact hx.row
    have := far_euler (X := fun l => block (d := d) (n := n) ((DefModule.compound ms).manifold.off i) (xs.getD l 0) p)
      (fun l hl => (hK l hl).1) (fun l hl => (hK l hl).2)
    rw [hx0] at this
    rw [sum_costs, hc]
    refine (mul_le_mul_of_nonneg_left this (Nat.cast_nonneg it)).trans (le_of_eq ?_)
    rcases Nat.eq_zero_or_pos it with rfl | hp
    · simp
    · have : (it : ℝ) ≠ 0 := by positivity
      field_simp

/-- Where a shooting from momenta leaves points is where shooting with the recorded controls does. -/
theorem at_replay {ms : List (DefModule d)} {s : Solver} {it : Nat} {t1 : ℝ} {controls : List (Ctrl d)} {r r' : Shot d}
    (h : shootMoments s it t1 (.compound ms) = .ok r) (h' : shootControls s it t1 controls (.compound ms) = .ok r')
    (e : r'.module.manifold.unrollGd = r.module.manifold.unrollGd) {i n : Nat} {x y : Fin n → Vec d}
    (hx : (DefModule.compound ms).manifold.At i x) (hy : r'.module.manifold.At i y) : r.module.manifold.At i y := by
  obtain ⟨hp, hn⟩ := shoot_plain h
  obtain ⟨xs, -, -, h5, -⟩ := shoot_ok hp hn h
  have em := manifold_of_reset h5
  have ha := At_rowsMod hx (xs.getLastD (gdRow (.compound ms), cotRow (.compound ms)))
  rw [← em] at ha
  have q1 := ha.row
  have q2 := hy.row
  have o1 : r.module.manifold.off i = (DefModule.compound ms).manifold.off i := by
    rw [em, rowsMod, DefModule.manifold_withCot, DefModule.manifold_withGd, ((hx.withGd _).1.withCot _).2, (hx.withGd _).2]
  have o2 : r'.module.manifold.off i = (DefModule.compound ms).manifold.off i := by
    obtain ⟨-, ys, -, -, k, -⟩ := shootC_ok h'
    rw [manifold_of_reset k, DefModule.manifold_withGd, (hx.withGd _).2]
  rw [o1, ← e] at q1
  rw [o2] at q2
  rw [show y = block (n := n) ((DefModule.compound ms).manifold.off i)
    (xs.getLastD (gdRow (.compound ms), cotRow (.compound ms))).1 by rw [← q2, q1]]
  exact ha

/-! ### Deformables -/
variable {G : Type}

theorem silents_positive : ∀ (Ds : List (Deformable d G)) {ms : List (DefModule d)}, DefModule.AllPositiveWeights ms →
    DefModule.AllPositiveWeights (Ds.map Deformable.silent ++ ms)
  | [], ms, h => h
  | D :: Ds, ms, h => by
    rw [List.map_cons, List.cons_append, DefModule.AllPositiveWeights]
    exact ⟨by unfold Deformable.silent; rw [DefModule.PositiveWeights]; trivial, silents_positive Ds h⟩
theorem silents_noLinear : ∀ (Ds : List (Deformable d G)) {ms : List (DefModule d)}, DefModule.AllNoLinear ms →
    DefModule.AllNoLinear (Ds.map Deformable.silent ++ ms)
  | [], ms, h => h
  | D :: Ds, ms, h => by
    rw [List.map_cons, List.cons_append, DefModule.AllNoLinear]
    exact ⟨by unfold Deformable.silent; simp [DefModule.NoLinear], silents_noLinear Ds h⟩
theorem silents_mobility : ∀ (Ds : List (Deformable d G)) (ms : List (DefModule d)),
    DefModule.mobilities (Ds.map Deformable.silent ++ ms) = DefModule.mobilities ms
  | [], ms => rfl
  | D :: Ds, ms => by
    rw [List.map_cons, List.cons_append, DefModule.mobilities, silents_mobility Ds ms]
    unfold Deformable.silent
    rw [DefModule.mobility, zero_add]

theorem deformable_at {Ds : List (Deformable d G)} {ms : List (DefModule d)} {i : Nat} {D : Deformable d G} (hD : Ds[i]? = some D) :
    (DefModule.compound (Ds.map Deformable.silent ++ ms)).manifold.At i D.gd := by
  have hi : i < Ds.length := (List.getElem?_eq_some_iff.1 hD).1
  rw [DefModule.manifold, at_getElem?]
  refine ⟨D.cot, ?_⟩
  rw [manifolds_getElem?, List.getElem?_append_left (by simpa using hi), List.getElem?_map, hD]
  rfl

/-- The geometry is made from where the points of the deformable ended. -/
theorem geometry_at {Ds : List (Deformable d G)} {ms : List (DefModule d)} {s : SolverName} {it : Nat} {wantCosts : Bool}
    {controls : Option (List (List (Ctrl d)))} {t1 : ℝ} {red : Reduce} {r : Deformed d G}
    (h : computeDeformed Ds ms s it wantCosts controls t1 red = .ok r) {i : Nat} {D : Deformable d G} (hD : Ds[i]? = some D)
    {y : Fin D.n → Vec d} (hy : r.shot.module.manifold.At i y) : ∃ g, r.geometries[i]? = some g ∧ D.toDeformed ⟨D.n, y⟩ = .ok g := by
  obtain ⟨-, F, -, hF⟩ := C33_partial h
  obtain ⟨-, hg, costs, hs, -⟩ := computeDeformed_inv h
  obtain ⟨L, hL, hlen⟩ := same_compound (shoot_same hs)
  dsimp only at hL
  rw [hL, DefModule.members] at hg
  obtain ⟨hl, hget⟩ := toGeometries_ok hg
  have hlen' : L.length = Ds.length + ms.length := by rw [hlen]; simp
  have hi : i < Ds.length := (List.getElem?_eq_some_iff.1 hD).1
  obtain ⟨m, hmi⟩ : ∃ m, L[i]? = some m := ⟨_, List.getElem?_eq_getElem (by omega)⟩
  obtain ⟨p, g, hp, hgd, hgi⟩ := hget i D m hD hmi
  refine ⟨g, hgi, ?_⟩
  rw [hL, DefModule.manifold, at_getElem?] at hy
  obtain ⟨cot, hc⟩ := hy
  rw [manifolds_getElem?, hmi] at hc
  simp only [Option.map_some, Option.some.injEq] at hc
  unfold pointsOf at hp
  split at hp
  · next n gd cot' =>
    cases hp
    rw [DefModule.manifold] at hc
    cases hc
    exact hgd
  · cases hp

theorem fixed_shot {ms : List (DefModule d)} {s : Solver} {it : Nat} {t1 : ℝ} {controls : Option (List (Ctrl d))} {r : Shot d × Option (List ℝ)}
    (h : shoot (.fixed s) it t1 controls (.compound ms) = .ok r) : shootOde s it t1 controls (.compound ms) = .ok r.1 ∧ r.2 = some r.1.costs := by
  unfold shoot at h
  dsimp only at h
  cases h1 : shootOde s it t1 controls (.compound ms) with
  | error e => rw [h1] at h; cases h
  | ok r' => rw [h1] at h; cases h; exact ⟨rfl, rfl⟩

/-- **C91.** The call with Euler's method, from momenta or with given controls, and the reduction
`'sum'`, reports a cost `c` that bounds how far each point of each deformable was moved: the square
of its displacement, times the number of steps, is at most twice the sum of the inverse
coefficients of the modules, times the square of the duration, times `c`. -/
theorem C91_bound {Ds : List (Deformable d G)} {ms : List (DefModule d)} {it : Nat} {controls : Option (List (List (Ctrl d)))} {t1 : ℝ}
    {r : Deformed d G} (hne : Ds ≠ [] ∨ ms ≠ []) (hw : DefModule.AllPositiveWeights ms) (hn : DefModule.AllNoLinear ms)
    (h : computeDeformed Ds ms (.fixed .euler) it true controls t1 .sum = .ok r) :
    ∃ c, r.cost = some c ∧ 0 ≤ c ∧ ∀ (i : Nat) (D : Deformable d G), Ds[i]? = some D → ∃ (y : Fin D.n → Vec d) (g : G),
      r.geometries[i]? = some g ∧ D.toDeformed ⟨D.n, y⟩ = .ok g ∧
      ∀ p, it * ∑ b, (y p b - D.gd p b) ^ 2 ≤ 2 * DefModule.mobilities ms * t1 ^ 2 * c := by
  obtain ⟨c, h1, h2, h3⟩ := C34_partial h (by decide)
  obtain ⟨-, -, costs, hs, -⟩ := computeDeformed_inv h
  obtain ⟨hs, -⟩ := fixed_shot hs
  have hw' : (DefModule.compound (Ds.map Deformable.silent ++ ms)).PositiveWeights := by
    rw [DefModule.PositiveWeights]
    exact ⟨fun e => by simp [List.append_eq_nil_iff] at e; tauto, silents_positive Ds hw⟩
  have hn' : (DefModule.compound (Ds.map Deformable.silent ++ ms)).NoLinear := by
    rw [DefModule.NoLinear]; exact silents_noLinear Ds hn
  have hmob : (DefModule.compound (Ds.map Deformable.silent ++ ms)).mobility = DefModule.mobilities ms := by
    rw [DefModule.mobility, silents_mobility]
  have key : (∀ a ∈ r.shot.costs, 0 ≤ a) ∧ ∀ (i n : Nat) (x : Fin n → Vec d),
      (DefModule.compound (Ds.map Deformable.silent ++ ms)).manifold.At i x → ∃ y : Fin n → Vec d,
      r.shot.module.manifold.At i y ∧ ∀ p, it * ∑ b, (y p b - x p b) ^ 2 ≤ 2 * DefModule.mobilities ms * t1 ^ 2 * r.shot.costs.sum := by
    dsimp only at hs
    rw [← hmob]
    cases hc : padControls Ds.length controls with
    | some us => rw [hc] at hs; exact far_controls hw' hn' hs
    | none =>
      rw [hc] at hs
      obtain ⟨-, r', q1, -, q2, q3, -⟩ := C71_solver _ _ it t1 hs
      obtain ⟨a1, a2⟩ := far_controls hw' hn' q1
      rw [q3] at a1 a2
      refine ⟨a1, fun i n x hx => ?_⟩
      obtain ⟨y, hy, hb⟩ := a2 i n x hx
      exact ⟨y, at_replay hs q1 q2 hx hy, hb⟩
  refine ⟨c, h1, by rw [h3]; exact List.sum_nonneg key.1, fun i D hD => ?_⟩
  obtain ⟨y, hy, hb⟩ := key.2 i D.n D.gd (deformable_at hD)
  obtain ⟨g, hg, hg'⟩ := geometry_at h hD hy
  exact ⟨y, g, hg, hg', fun p => by rw [h3]; exact hb p⟩

/-! ### No cost, no motion: given controls -/

theorem stepWith_rest {V : Type} [AddCommGroup V] [Module ℝ V] {s : Solver} {Y : Nat → V → Py V} {h : ℝ} {y b : V}
    (hY : ∀ j < s.stages, ∀ k, Y j y = .ok k → k = 0) (hb : stepWith s Y h y = .ok b) : b = y := by
  cases s with
  | euler =>
    obtain ⟨k, h1, rfl⟩ := map_eq_ok hb
    rw [hY 0 (by decide) k h1, smul_zero, add_zero]
  | midpoint =>
    obtain ⟨k, h1, hb⟩ := bind_eq_ok hb
    obtain rfl := hY 0 (by decide) k h1
    rw [smul_zero, add_zero] at hb
    obtain ⟨k', h2, rfl⟩ := map_eq_ok hb
    rw [hY 1 (by decide) k' h2, smul_zero, add_zero]
  | rk4 =>
    obtain ⟨k₁, h1, hb⟩ := bind_eq_ok hb
    obtain rfl := hY 0 (by decide) k₁ h1
    rw [smul_zero, add_zero] at hb
    obtain ⟨k₂, h2, hb⟩ := bind_eq_ok hb
    obtain rfl := hY 1 (by decide) k₂ h2
    simp only [smul_zero, sub_zero, add_zero] at hb
    obtain ⟨k₃, h3, hb⟩ := bind_eq_ok hb
    obtain rfl := hY 2 (by decide) k₃ h3
    simp only [smul_zero, sub_zero, add_zero] at hb
    obtain ⟨k₄, h4, rfl⟩ := map_eq_ok hb
    rw [hY 3 (by decide) k₄ h4]
    simp

theorem rk4End_rest {V : Type} [AddCommGroup V] [Module ℝ V] {Y : Nat → V → Py V} {h : ℝ} {y b : V}
    (hY : ∀ j < 3, ∀ k, Y j y = .ok k → k = 0) (hb : rk4End Y h y = .ok b) : b = y := by
  obtain ⟨k₁, h1, hb⟩ := bind_eq_ok hb
  obtain rfl := hY 0 (by decide) k₁ h1
  rw [smul_zero, add_zero] at hb
  obtain ⟨k₂, h2, hb⟩ := bind_eq_ok hb
  obtain rfl := hY 1 (by decide) k₂ h2
  simp only [smul_zero, sub_zero, add_zero] at hb
  obtain ⟨k₃, h3, rfl⟩ := map_eq_ok hb
  obtain rfl := hY 2 (by decide) k₃ h3
  simp

theorem pick_indep {controls : List (Ctrl d)} {it : Nat} (hl : controls.length ≤ it) (cur : Int) (n n' : Nat) :
    pickControls controls it cur n = pickControls controls it cur n' := by
  unfold pickControls
  simp only [show ¬ it < controls.length by omega, if_false]

/-- The controls are constant, or one per step, or the method is Euler's. -/
theorem rest_controls {ms : List (DefModule d)} (hw : (DefModule.compound ms).PositiveWeights) {s : Solver} {it : Nat} {t1 : ℝ}
    {controls : List (Ctrl d)} {r : Shot d} (hl : s = .euler ∨ controls.length ≤ it)
    (h : shootControls s it t1 controls (.compound ms) = .ok r) (h0 : ∀ a ∈ r.costs, a = 0) :
    r.states = List.replicate (it + 1) (DefModule.compound ms).manifold ∧ r.module.manifold = (DefModule.compound ms).manifold := by
  obtain ⟨hp, -⟩ := shootC_plain h
  obtain ⟨ht, xs, h1, h2, h3, g, h4, h5⟩ := shootC_ok h
  obtain ⟨-, cs, b, cl, e⟩ := (clocked_control ms controls t1 it).odeint (invC_init hp) h4
  have hcs : r.costs = cs := by rw [h5, b]; simp [GradObj.init]
  obtain ⟨q1, q2, q3⟩ := orbitWith_steps h1
  have hz : ∀ {j : Nat} {a : ℝ}, cs[j]? = some a → a = 0 := fun e => h0 _ (by rw [hcs]; exact List.mem_of_getElem? e)
  have hstill : ∀ {cur cur' : Int} {n n' : Nat} {c : Ctrl d} {x : Row}, cur = cur' → (controls.length ≤ it ∨ n = n') →
      pickControls controls it cur n = .ok c → CtrlCostAt (.compound ms) c x 0 →
      ∀ k, (pickControls controls it cur' n').bind (fun c => ctrlRhs (.compound ms) c x) = .ok k → k = 0 := by
    rintro cur _ n n' c x rfl hn hc ha k hk
    have : pickControls controls it cur n' = .ok c := by
      rcases hn with hn | rfl
      · rw [pick_indep hn cur n' n]; exact hc
      · exact hc
    rw [this] at hk
    exact ha.still hw hk
  have hi0 : (GradObj.init (DefModule.compound ms)).it = 0 := rfl
  have key : ∀ i ≤ it, xs[i]? = some (gdRow (.compound ms)) ∧ (i < it → ∃ n c, (controls.length ≤ it ∨ n = s.stages * i) ∧
      pickControls controls it (i : Nat) n = .ok c ∧ CtrlCostAt (.compound ms) c (gdRow (.compound ms)) 0) := by
    intro i
    induction i with
    | zero =>
      intro _
      refine ⟨q2, fun hi => ?_⟩
      obtain ⟨x, n, a, e1, ⟨c, e2, e3⟩, e4, -⟩ := e 0 hi
      obtain ⟨e5, e6⟩ := e4 (Or.inr rfl)
      rw [q2] at e5
      obtain rfl := Option.some.inj e5
      rw [tToIt_grid (ht.resolve_left (by omega)) hi] at e2
      obtain rfl := hz e1
      exact ⟨n, c, Or.inr (by rw [e6, hi0]; simp), e2, e3⟩
    | succ i ih =>
      intro hi
      have ht' : t1 ≠ 0 := ht.resolve_left (by omega)
      obtain ⟨hx, hc⟩ := ih (by omega)
      obtain ⟨n, c, hn, hc1, hc2⟩ := hc (by omega)
      -- the control of the next step costs nothing either
      have hnext : s = .rk4 → i + 1 < it → ∃ n' c', pickControls controls it ((i + 1 : Nat) : Int) n' = .ok c' ∧
          CtrlCostAt (.compound ms) c' (gdRow (.compound ms)) 0 := by
        intro hs hlt
        have hle : controls.length ≤ it := hl.resolve_left (by rw [hs]; decide)
        obtain ⟨x, n', a, e1, ⟨c', e2, e3⟩, -, e4⟩ := e (i + 1) hlt
        obtain ⟨-, y, e5, e6⟩ := e4 hs i rfl
        rw [hx] at e5
        obtain rfl := Option.some.inj e5
        rw [tToIt_grid ht' hlt] at e2
        obtain rfl := hz e1
        have := rk4End_rest (fun j hj k hk => by
          unfold pickRhs at hk
          rw [tToIt_stage ht' (by omega) .rk4 (show j < 4 by omega)] at hk
          exact hstill (cur := (i : Nat)) (by
            match j, hj with
            | 0, _ => rfl
            | 1, _ => rfl
            | 2, _ => rfl) (Or.inl hle) hc1 hc2 k hk) e6
        rw [this] at e3
        exact ⟨n', c', e2, e3⟩
      have hxi : xs[i + 1]? = some (gdRow (.compound ms)) := by
        obtain ⟨y, y', r1, r2, r3⟩ := q3 i (by omega)
        rw [hx] at r1
        obtain rfl := Option.some.inj r1
        rw [r2, stepWith_rest (fun j hj k hk => ?_) r3]
        rw [Nat.zero_add] at hk
        unfold pickRhs at hk
        rw [tToIt_stage ht' (by omega) s hj] at hk
        by_cases hj3 : s.stageIt it i j = i
        · rw [hj3] at hk
          refine hstill rfl ?_ hc1 hc2 k hk
          rcases hn with hn | hn
          · exact Or.inl hn
          · rcases hl with hs | hl
            · subst hs
              obtain rfl : j = 0 := by simp only [Solver.stages] at hj; omega
              exact Or.inr (by rw [hn]; rfl)
            · exact Or.inl hl
        · have hs : s = .rk4 ∧ j = 3 := by
            cases s with
            | euler => exact absurd rfl hj3
            | midpoint => exact absurd rfl hj3
            | rk4 =>
              match j, hj with
              | 0, _ => exact absurd rfl hj3
              | 1, _ => exact absurd rfl hj3
              | 2, _ => exact absurd rfl hj3
              | 3, _ => exact ⟨rfl, rfl⟩
          obtain ⟨rfl, rfl⟩ := hs
          have hle : controls.length ≤ it := hl.resolve_left (by decide)
          have hst : Solver.rk4.stageIt it i 3 = min (i + 1) (it - 1) := rfl
          rw [hst] at hj3 hk
          have hlt : i + 1 < it := by omega
          obtain ⟨n', c', w1, w2⟩ := hnext rfl hlt
          exact hstill (by congr 1; omega) (Or.inl hle) w1 w2 k hk
      refine ⟨hxi, fun hlt => ?_⟩
      by_cases hs : s = .rk4
      · obtain ⟨n', c', w1, w2⟩ := hnext hs hlt
        exact ⟨n', c', Or.inl (hl.resolve_left (by rw [hs]; decide)), w1, w2⟩
      · obtain ⟨x, n', a, e1, ⟨c', e2, e3⟩, e4, -⟩ := e (i + 1) hlt
        obtain ⟨e5, e6⟩ := e4 (Or.inl hs)
        rw [hxi] at e5
        obtain rfl := Option.some.inj e5
        rw [tToIt_grid ht' hlt] at e2
        obtain rfl := hz e1
        exact ⟨n', c', Or.inr (by rw [e6, hi0, Nat.zero_add]), e2, e3⟩
  have hall : xs = List.replicate (it + 1) (gdRow (.compound ms)) := by
    refine List.ext_getElem? fun i => ?_
    rw [List.getElem?_replicate]
    split
    · next hi => exact (key i (by omega)).1
    · next hi => exact List.getElem?_eq_none (by omega)
  have hself : (DefModule.compound ms).withGd (gdRow (.compound ms)) 0 = .compound ms := DefModule.withGd_gdRow _
  refine ⟨by rw [h2, hall, List.map_replicate, hself], ?_⟩
  rw [manifold_of_reset h3, hall]
  rw [show (List.replicate (it + 1) (gdRow (.compound ms))).getLastD (gdRow (.compound ms)) = gdRow (.compound ms) by
    rw [List.getLastD_eq_getLast?, List.getLast?_replicate]; simp, hself]

/-! ### No cost, no motion: momenta -/

mutual
theorem positive_nonneg : (m : DefModule d) → m.PositiveWeights → m.NonnegWeights
  | .translations _, _ => by rw [DefModule.NonnegWeights]; trivial
  | .implicit0 _, h => by rw [DefModule.PositiveWeights] at h; rw [DefModule.NonnegWeights]; exact ⟨h.1.le, h.2⟩
  | .oriented _, h => by rw [DefModule.PositiveWeights] at h; rw [DefModule.NonnegWeights]; exact h.le
  | .constrained _, h => by rw [DefModule.PositiveWeights] at h; rw [DefModule.NonnegWeights]; exact h.le
  | .globalTranslation _, h => by rw [DefModule.PositiveWeights] at h; rw [DefModule.NonnegWeights]; exact h.le
  | .linear _, h => by rw [DefModule.PositiveWeights] at h; rw [DefModule.NonnegWeights]; exact h.le
  | .implicit1 _, h => by rw [DefModule.PositiveWeights] at h; rw [DefModule.NonnegWeights]; exact ⟨h.1.le, h.2⟩
  | .divFree _, h => by rw [DefModule.PositiveWeights] at h; rw [DefModule.NonnegWeights]; exact ⟨h.1.le, h.2⟩
  | .arap _, h => by rw [DefModule.PositiveWeights] at h; rw [DefModule.NonnegWeights]; exact ⟨h.1.le, h.2⟩
  | .silent _, _ => by rw [DefModule.NonnegWeights]; trivial
  | .compound ms, h => by
    rw [DefModule.PositiveWeights] at h; rw [DefModule.NonnegWeights]
    exact ⟨h.1, positive_nonnegAll ms h.2⟩
theorem positive_nonnegAll : (ms : List (DefModule d)) → DefModule.AllPositiveWeights ms → DefModule.AllNonnegWeights ms
  | [], _ => by rw [DefModule.AllNonnegWeights]; trivial
  | m :: ms, h => by
    rw [DefModule.AllPositiveWeights] at h; rw [DefModule.AllNonnegWeights]
    exact ⟨positive_nonneg m h.1, positive_nonnegAll ms h.2⟩
end

theorem value_is_cost {m m' : DefModule d} (hw : m.NonnegWeights) (h : Hamiltonian.geodesicControls m = .ok m') :
    ∃ H, Hamiltonian.value m' = .ok H ∧ m'.cost = .ok H ∧ 0 ≤ H := by
  obtain ⟨H, f, h1, h2, -, -, h5⟩ := C18_hamiltonian_is_cost _ _ _ hw h
  exact ⟨H, by unfold Hamiltonian.value; rw [geodesic_manifold h]; exact h1, h2, h5⟩

/-- Where the geodesic controls cost nothing, nothing moves and the momenta do not change. -/
theorem rhs_rest {m : DefModule d} (hw : m.PositiveWeights) {x y : Row × Row} (h0 : GeodesicCostAt m x 0) (h : rhs m x = .ok y) : y = 0 := by
  obtain ⟨m', hg, hc⟩ := h0
  have hn : (rowsMod m x).NonnegWeights := nonneg_withCot _ _ _ (nonneg_withGd _ _ _ (positive_nonneg m hw))
  obtain ⟨H, hv, hH, -⟩ := value_is_cost hn hg
  rw [hc] at hH
  obtain rfl := Except.ok.inj hH
  have e2 : y.1 = 0 := by
    obtain ⟨m1, f, w, h1, h2, h3, h4⟩ := C70_rhs h
    rw [hg] at h1
    obtain rfl := Except.ok.inj h1
    rw [h4]
    obtain ⟨c, hf⟩ : ∃ c, ((m.withGd x.1 0).fillControls c) = .ok (m'.withCot (cotRow (m.withGd x.1 0)) 0) := by
      have := geodesic_fill _ _ hg
      have q := fill_withCot (cotRow (m.withGd x.1 0)) (rowsMod m x) 0 m'.controls
      rw [this, rowsMod, DefModule.withCot_withCot, DefModule.withCot_cotRow] at q
      exact ⟨_, q⟩
    obtain ⟨f', a', q1, q2, -, -, -, q3, -⟩ := says_fill _ (positive_withGd x.1 m 0 hw) hf
    rw [field_withCot, h2] at q1
    rw [cost_withCot, hc] at q2
    obtain rfl := Except.ok.inj q1
    exact action_zero (q3 (Except.ok.inj q2).symm) h3
  have e1 : y.2 = 0 := by
    unfold rhs at h
    cases h1 : evalAt m x with
    | error e => rw [h1] at h; cases h
    | ok m1 =>
      rw [h1] at h
      rw [← Except.ok.inj h]
      unfold hamVec gradH
      dsimp only
      rw [neg_eq_zero]
      funext j
      unfold cut
      split
      · unfold partialQ
        refine IsLocalMin.deriv_eq_zero (Filter.Eventually.of_forall fun t => ?_)
        have hb : valD (hamFn Hamiltonian.geodesicControls (rowsMod m x) (Function.update (gdRow (rowsMod m x)) j (gdRow (rowsMod m x) j)) (cotRow (rowsMod m x))) = 0 := by
          rw [Function.update_eq_self]
          unfold hamFn
          rw [withRows_eq, DefModule.withGd_gdRow, DefModule.withCot_cotRow]
          dsimp only
          rw [hg]
          dsimp only
          rw [hv]
          rfl
        dsimp only
        rw [hb]
        unfold hamFn
        rw [withRows_eq]
        dsimp only
        cases h2 : Hamiltonian.geodesicControls (((rowsMod m x).withGd (Function.update (gdRow (rowsMod m x)) j t) 0).withCot (cotRow (rowsMod m x)) 0) with
        | error e => exact le_rfl
        | ok m2 =>
          obtain ⟨H, k1, -, k2⟩ := value_is_cost (nonneg_withCot _ _ _ (nonneg_withGd _ _ _ hn)) h2
          dsimp only
          rw [k1]
          exact k2
      · rfl
  exact Prod.ext e2 e1

theorem stepOf_rest {V : Type} [AddCommGroup V] [Module ℝ V] {s : Solver} {X : V → Py V} {t t' : ℝ} {y b : V} (hX : ∀ k, X y = .ok k → k = 0)
    (hb : stepOf s X t t' y = .ok b) : b = y := by
  refine stepWith_rest (s := s) (Y := fun _ => X) (h := t' - t) (fun _ _ => hX) ?_
  cases s with
  | euler => rw [stepOf_euler] at hb; exact hb
  | midpoint => rw [stepOf_midpoint] at hb; exact hb
  | rk4 => rw [stepOf_rk4] at hb; exact hb

/-- If the first cost of a shooting from momenta is zero, nothing ever moves: all the states are
the first one and all the costs are zero. For every method. -/
theorem C91_rest_momenta {ms : List (DefModule d)} (hw : (DefModule.compound ms).PositiveWeights) {s : Solver} {it : Nat} {t1 : ℝ} {r : Shot d}
    (h : shootMoments s it t1 (.compound ms) = .ok r) (h0 : ∀ a, r.costs[0]? = some a → a = 0) :
    r.states = List.replicate (it + 1) (DefModule.compound ms).manifold ∧ r.module.manifold = (DefModule.compound ms).manifold ∧
      r.costs = List.replicate it 0 := by
  obtain ⟨hp, hn⟩ := shoot_plain h
  obtain ⟨xs, h1, h2, h3, g, h4, h5, -⟩ := shoot_ok hp hn h
  obtain ⟨-, cs, b, c, e⟩ := (clocked_moments ms t1 it).odeint (inv_init hp) h4
  have hcs : r.costs = cs := by rw [h5, b]; simp [GradObj.init]
  obtain ⟨q1, q2, q3⟩ := orbit_steps h1
  set x0 : Row × Row := (gdRow (.compound ms), cotRow (.compound ms)) with hx0
  have hk : 0 < it → (∀ k, rhs (.compound ms) x0 = .ok k → k = 0) ∧ ∃ m', Hamiltonian.geodesicControls (rowsMod (.compound ms) x0) = .ok m' ∧ m'.cost = .ok 0 := by
    intro hi
    obtain ⟨x, n, a, e1, e2, e3, -⟩ := e 0 hi
    obtain ⟨e3, -⟩ := e3 (Or.inr rfl)
    rw [q2] at e3
    obtain rfl := Option.some.inj e3
    obtain rfl := h0 a (by rw [hcs]; exact e1)
    exact ⟨fun k hk => rhs_rest hw e2 hk, e2⟩
  have key : ∀ i ≤ it, xs[i]? = some x0 := by
    intro i
    induction i with
    | zero => exact fun _ => q2
    | succ i ih =>
      intro hi
      obtain ⟨a, b, r1, r2, r3⟩ := q3 i (by omega)
      rw [ih (by omega)] at r1
      obtain rfl := Option.some.inj r1
      rw [r2, stepOf_rest (hk (by omega)).1 r3]
  have hall : xs = List.replicate (it + 1) x0 := by
    refine List.ext_getElem? fun i => ?_
    rw [List.getElem?_replicate]
    split
    · next hi => exact key i (by omega)
    · next hi => exact List.getElem?_eq_none (by omega)
  have hself : rowsMod (DefModule.compound ms) x0 = .compound ms := rowsMod_self _
  refine ⟨by rw [h2, hall, List.map_replicate, hself], ?_, ?_⟩
  · rw [manifold_of_reset h3, hall]
    rw [show (List.replicate (it + 1) x0).getLastD x0 = x0 by
      rw [List.getLastD_eq_getLast?, List.getLast?_replicate]; simp, hself]
  · rw [hcs]
    refine List.ext_getElem? fun i => ?_
    rw [List.getElem?_replicate]
    split
    · next hi =>
      obtain ⟨hr, m', hm, hc⟩ := hk (by omega)
      obtain ⟨x, n, a, e1, ⟨m'', e2, e2'⟩, e3, e4⟩ := e i hi
      rw [e1]
      have : x = x0 := by
        by_cases hs : s ≠ .rk4 ∨ i = 0
        · have := (e3 hs).1
          rw [key i hi.le] at this
          exact (Option.some.inj this).symm
        · obtain ⟨hs, hi0⟩ := not_or.mp hs
          obtain ⟨-, y, w1, w2⟩ := e4 (not_not.mp hs) (i - 1) (by omega)
          rw [key (i - 1) (by omega)] at w1
          obtain rfl := Option.some.inj w1
          exact rk4End_rest (fun _ _ => hr) w2
      subst this
      rw [hm] at e2
      obtain rfl := Except.ok.inj e2
      rw [hc] at e2'
      rw [Except.ok.inj e2']
    · next hi => exact List.getElem?_eq_none (by omega)

/-- The same with given controls, constant or one per step, or with Euler's method. -/
theorem C91_rest_controls_partial {ms : List (DefModule d)} (hw : (DefModule.compound ms).PositiveWeights) {s : Solver} {it : Nat} {t1 : ℝ}
    {controls : List (Ctrl d)} {r : Shot d} (hl : s = .euler ∨ controls.length ≤ it)
    (h : shootControls s it t1 controls (.compound ms) = .ok r) (h0 : ∀ a ∈ r.costs, a = 0) :
    r.states = List.replicate (it + 1) (DefModule.compound ms).manifold ∧ r.module.manifold = (DefModule.compound ms).manifold :=
  rest_controls hw hl h h0

theorem sum_zero {l : List ℝ} (h : ∀ a ∈ l, 0 ≤ a) (h0 : l.sum = 0) : ∀ a ∈ l, a = 0 := by
  induction l with
  | nil => simp
  | cons b l ih =>
    have hb := h b (by simp)
    have hl := List.sum_nonneg fun a ha => h a (List.mem_cons_of_mem _ ha)
    rw [List.sum_cons] at h0
    intro a ha
    rcases List.mem_cons.mp ha with rfl | ha
    · linarith
    · exact ih (fun a ha => h a (List.mem_cons_of_mem _ ha)) (by linarith) a ha

theorem costs_nonneg {ms : List (DefModule d)} (hw : (DefModule.compound ms).PositiveWeights) {s : Solver} {it : Nat} {t1 : ℝ}
    {controls : List (Ctrl d)} {r : Shot d} (h : shootControls s it t1 controls (.compound ms) = .ok r) : ∀ a ∈ r.costs, 0 ≤ a := by
  intro a ha
  obtain ⟨hl, xs, -, hx⟩ := C27_controls ms h
  obtain ⟨l, hlt, rfl⟩ := List.getElem_of_mem ha
  obtain ⟨x, a, c, e, -, q, -⟩ := hx l (by omega)
  rw [List.getElem?_eq_getElem hlt] at e
  rw [Option.some.inj e]
  exact q.nonneg hw

/-- **C91**, the case of no cost. If the cost the call reports under the reduction `'sum'` is zero,
the geometries are those of the undeformed points: from momenta for every method, and with given
controls for Euler's method or when there are not more controls than steps. Linear modules are
allowed. Missing: one control per evaluation (`C91_free_disagreement`). -/
theorem C91_rest_partial {Ds : List (Deformable d G)} {ms : List (DefModule d)} {s : Solver} {it : Nat} {controls : Option (List (List (Ctrl d)))}
    {t1 : ℝ} {r : Deformed d G} (hw : DefModule.AllPositiveWeights ms)
    (hl : s = .euler ∨ ∀ cs, controls = some cs → cs.length ≤ it)
    (h : computeDeformed Ds ms (.fixed s) it true controls t1 .sum = .ok r) (h0 : r.cost = some 0) {i : Nat} {D : Deformable d G}
    (hD : Ds[i]? = some D) : ∃ g, r.geometries[i]? = some g ∧ D.toDeformed ⟨D.n, D.gd⟩ = .ok g := by
  obtain ⟨c, h1, h2, h3⟩ := C34_partial h (by decide)
  rw [h0] at h1
  obtain rfl := Option.some.inj h1
  obtain ⟨-, -, costs, hs, -⟩ := computeDeformed_inv h
  obtain ⟨hs, -⟩ := fixed_shot hs
  have hw' : (DefModule.compound (Ds.map Deformable.silent ++ ms)).PositiveWeights := by
    rw [DefModule.PositiveWeights]
    refine ⟨fun e => ?_, silents_positive Ds hw⟩
    simp [List.append_eq_nil_iff] at e
    rw [e.1] at hD
    cases hD
  refine geometry_at h hD ?_
  have hat := deformable_at (ms := ms) hD
  suffices r.shot.module.manifold = (DefModule.compound (Ds.map Deformable.silent ++ ms)).manifold by rw [this]; exact hat
  dsimp only at hs
  cases controls with
  | none =>
    obtain ⟨-, r', q1, -, -, q3, -⟩ := C71_solver _ _ it t1 hs
    have hz := sum_zero (by rw [← q3]; exact costs_nonneg hw' q1) h3.symm
    exact (C91_rest_momenta hw' hs fun a ha => hz a (List.mem_of_getElem? ha)).2.1
  | some cs =>
    have hz := sum_zero (costs_nonneg hw' hs) h3.symm
    refine (rest_controls hw' (hl.imp id fun hl => ?_) hs hz).2
    rw [List.length_map]
    exact hl cs rfl

/-! ### One control per evaluation -/

/-- A point on the line. -/
def speck : Deformable 1 (Points 1) := ⟨1, fun _ => 0, 0, none, fun p => .ok p⟩
/-- Controls of the translation of the point, and those of the point and the translation. -/
def shove (u : ℝ) : Ctrl 1 := .list [.none, .vec fun _ => u]

theorem speck_fill (u : ℝ) (x : Row) : ((DefModule.compound [speck.silent, .globalTranslation ⟨1, 0⟩]).withGd x 0).fillControls (shove u)
    = .ok (.compound [.silent (.landmarks (viewVecs x : Fin 1 → Vec 1) 0), .globalTranslation ⟨1, fun _ => u⟩]) := by
  simp only [shove, speck, Deformable.silent, DefModule.withGd, DefModule.withGdAll, Mfd.withGd, DefModule.fillControls, DefModule.fillAll,
    DefModule.manifold, GlobalTranslation.manifold, Mfd.size, List.length_cons, List.length_nil]
  simp

theorem speck_rhs (u : ℝ) (x : Row) : ctrlRhs (.compound [speck.silent, .globalTranslation ⟨1, 0⟩]) (shove u) x
    = .ok fun j => if j = 0 then u else 0 := by
  unfold ctrlRhs ctrlEval
  rw [speck_fill]
  simp only [DefModule.cost, DefModule.costs, DefModule.field, DefModule.fields, mkSumField, DefModule.manifold, DefModule.manifolds, GlobalTranslation.manifold,
    Mfd.action, Mfd.actionAll, actLandmarks, FieldExpr.eval, FieldExpr.evalSum, GlobalTranslation.field]
  have hv : (FieldExpr.sum [FieldExpr.null, FieldExpr.const fun _ => u] : FieldExpr 1).values (viewVecs x : Fin 1 → Vec 1) = .ok fun _ _ => u := by
    simp only [FieldExpr.values, FieldExpr.batch, FieldExpr.eval, FieldExpr.evalSum]
    congr 1
    funext i b
    simp [fieldConst]
  rw [hv]
  simp only [Except.map, Tan.unroll, Tan.unrollAll]
  congr 1
  funext j
  simp only [rowOf, flatVecs, fieldConst]
  cases j with
  | zero => simp
  | succ j => simp

theorem speck_ends {s : SolverName} {it : Nat} {wantCosts : Bool} {controls : Option (List (List (Ctrl 1)))} {t1 u : ℝ} {red : Reduce}
    {r : Deformed 1 (Points 1)} (hr : computeDeformed [speck] [.globalTranslation ⟨1, 0⟩] s it wantCosts controls t1 red = .ok r)
    {xs : List Row} (hl : xs.length = it + 1) (hm : r.shot.module.manifold = ((DefModule.compound [speck.silent, .globalTranslation ⟨1, 0⟩]).withGd
      (xs.getLastD (gdRow (.compound [speck.silent, .globalTranslation ⟨1, 0⟩]))) 0).manifold)
    (hx : xs.getD it 0 = gdRow (.compound [speck.silent, .globalTranslation ⟨1, 0⟩]) + fun j => if j = 0 then u else 0) :
    r.geometries = [⟨1, fun _ _ => u⟩] := by
  have hat : (DefModule.compound [speck.silent, .globalTranslation ⟨1, 0⟩]).manifold.At 0 speck.gd :=
    deformable_at (Ds := [speck]) (ms := [.globalTranslation ⟨1, 0⟩]) rfl
  have hend : r.shot.module.manifold.At 0 (block (d := 1) (n := 1) ((DefModule.compound [speck.silent, .globalTranslation ⟨1, 0⟩]).manifold.off 0) (xs.getD it 0)) := by
    rw [hm, DefModule.manifold_withGd, getLastD_eq hl]
    exact (hat.withGd _).1
  have hblock : block (d := 1) (n := 1) ((DefModule.compound [speck.silent, .globalTranslation ⟨1, 0⟩]).manifold.off 0) (xs.getD it 0) = fun _ _ => u := by
    have h0 : block (d := 1) (n := 1) ((DefModule.compound [speck.silent, .globalTranslation ⟨1, 0⟩]).manifold.off 0)
        (gdRow (.compound [speck.silent, .globalTranslation ⟨1, 0⟩])) = fun _ => 0 := hat.row
    rw [hx, block_add, h0]
    funext i k
    obtain rfl : i = 0 := Subsingleton.elim _ _
    obtain rfl : k = 0 := Subsingleton.elim _ _
    simp [speck, block, viewVecs, Mfd.off, DefModule.manifold, DefModule.manifolds, Mfd.sizeAll]
  rw [hblock] at hend
  obtain ⟨g, hg, hg'⟩ := geometry_at hr (i := 0) (D := speck) rfl hend
  have hlen := (C33_partial hr).1
  have : g = ⟨1, fun _ _ => u⟩ := by
    have : Except.ok (⟨1, fun _ _ => u⟩ : Points 1) = (Except.ok g : Py (Points 1)) := hg'
    exact (Except.ok.inj this).symm
  match hr' : r.geometries with
  | [] => rw [hr'] at hg; cases hg
  | [g'] => rw [hr'] at hg; simp at hg; rw [hg, this]
  | _ :: _ :: _ => rw [hr'] at hlen; simp at hlen

/-- With the midpoint method and one control per evaluation, the reported cost is zero although the
point is moved by `u`, for any `u`: the costs are those of the first control of each step, the
motion is that of the second. -/
theorem C91_free_disagreement (u : ℝ) : ∃ r, computeDeformed [speck] [.globalTranslation ⟨1, 0⟩] (.fixed .midpoint) 1 true
      (some [[.vec fun _ => 0], [.vec fun _ => u]]) 1 .sum = .ok r ∧ r.cost = some 0 ∧ r.geometries = [⟨1, fun _ _ => u⟩] := by
  obtain ⟨r, hr⟩ := C90_deformed_returns (Ds := [speck]) (by simp [speck]) (by simp [speck]) (D := speck) (by simp) (by simp [speck])
    (ms := [.globalTranslation ⟨1, 0⟩]) (by simp [DefModule.AllSettable, DefModule.Settable]) (by
      intro m hm
      simp only [DefModule.manifolds, DefModule.manifold, GlobalTranslation.manifold, List.mem_cons, List.not_mem_nil, or_false] at hm
      rw [hm]; exact Or.inl rfl) .midpoint 1 one_ne_zero true
    (cs := [[.vec fun _ => 0], [.vec fun _ => u]]) (by
      intro row hrow
      simp only [List.mem_cons, List.not_mem_nil, or_false] at hrow
      rcases hrow with rfl | rfl <;> exact .cons (by rw [DefModule.Fits]; exact ⟨_, rfl⟩) .nil) (Or.inr ⟨by simp, by simp [Solver.stages]⟩)
  obtain ⟨c, h1, h2, h3⟩ := C34_partial hr (by decide)
  obtain ⟨-, -, costs, hs, -⟩ := computeDeformed_inv hr
  obtain ⟨hs, -⟩ := fixed_shot hs
  have hs : shootControls .midpoint 1 1 [shove 0, shove u] (.compound [speck.silent, .globalTranslation ⟨1, 0⟩]) = .ok r.shot := hs
  obtain ⟨hp, -⟩ := shootC_plain hs
  obtain ⟨-, xs, q1, q2, q3, g, q4, q5⟩ := shootC_ok hs
  refine ⟨r, hr, ?_, ?_⟩
  · obtain ⟨-, cs, b, cl, e⟩ := (clocked_control _ [shove 0, shove u] 1 1).odeint (invC_init hp) q4
    have hcs : r.shot.costs = cs := by rw [q5, b]; simp [GradObj.init]
    obtain ⟨x, n, a, e1, ⟨c', e2, m', e3, e4⟩, e5, -⟩ := e 0 one_pos
    obtain ⟨-, e6⟩ := e5 (Or.inr rfl)
    have e7 := pick_eval (by simp) e2
    rw [e6, show (GradObj.init (DefModule.compound [speck.silent, .globalTranslation ⟨1, 0⟩])).it = 0 from rfl] at e7
    obtain rfl : c' = shove 0 := by simpa using e7.symm
    rw [speck_fill] at e3
    obtain rfl := Except.ok.inj e3
    have ha : a = 0 := by
      simp [DefModule.cost, DefModule.costs, GlobalTranslation.cost] at e4
      exact e4.symm
    have hcs1 : cs = [0] := by
      match cs, cl, e1 with
      | [b], _, e1 => simp at e1; rw [e1, ha]
    rw [h1, h3, hcs, hcs1]
    simp
  · obtain ⟨-, xs', x1, x2, x3, x4, x5⟩ := C28_per_evaluation _ (by simp) hs
    obtain ⟨a, b, ha, hb, cs, hc, hstep⟩ := x5 0 one_pos
    have c0 : cs 0 = shove 0 := by have := hc 0 (by decide); simpa using this.symm
    have c1 : cs 1 = shove u := by have := hc 1 (by decide); simpa [Solver.stages] using this.symm
    simp only [stepWith, c0, c1, speck_rhs, Except.bind, Except.map] at hstep
    have hb' := Except.ok.inj hstep
    rw [x2] at ha
    obtain rfl := Option.some.inj ha
    refine speck_ends hr x1 x4 ?_
    rw [List.getD_eq_getElem?_getD, hb, ← hb']
    simp

/-- The bound is attained: one step of Euler's method that moves the point by `u` costs `u ^ 2 / 2`.
The hypotheses of `C91_bound` are met here. -/
theorem C91_tight (u : ℝ) : ∃ r, computeDeformed [speck] [.globalTranslation ⟨1, 0⟩] (.fixed .euler) 1 true
      (some [[.vec fun _ => u]]) 1 .sum = .ok r ∧ r.geometries = [⟨1, fun _ _ => u⟩] ∧
      ∃ c, r.cost = some c ∧ u ^ 2 = 2 * DefModule.mobilities [.globalTranslation (⟨1, 0⟩ : GlobalTranslation 1)] * 1 ^ 2 * c := by
  obtain ⟨r, hr⟩ := C90_deformed_returns (Ds := [speck]) (by simp [speck]) (by simp [speck]) (D := speck) (by simp) (by simp [speck])
    (ms := [.globalTranslation ⟨1, 0⟩]) (by simp [DefModule.AllSettable, DefModule.Settable]) (by
      intro m hm
      simp only [DefModule.manifolds, DefModule.manifold, GlobalTranslation.manifold, List.mem_cons, List.not_mem_nil, or_false] at hm
      rw [hm]; exact Or.inl rfl) .euler 1 one_ne_zero true
    (cs := [[.vec fun _ => u]]) (by
      intro row hrow
      simp only [List.mem_cons, List.not_mem_nil, or_false] at hrow
      rw [hrow]; exact .cons (by rw [DefModule.Fits]; exact ⟨_, rfl⟩) .nil) (Or.inl rfl)
  obtain ⟨c, h1, h2, h3⟩ := C34_partial hr (by decide)
  obtain ⟨-, -, costs, hs, -⟩ := computeDeformed_inv hr
  obtain ⟨hs, -⟩ := fixed_shot hs
  have hs : shootControls .euler 1 1 [shove u] (.compound [speck.silent, .globalTranslation ⟨1, 0⟩]) = .ok r.shot := hs
  obtain ⟨hl, ys, hc⟩ := C27_controls _ hs
  obtain ⟨x, a, c', e1, e2, ⟨m', e3, e4⟩, -⟩ := hc.2 0 one_pos
  obtain rfl : c' = shove u := by simpa using e2
  rw [speck_fill] at e3
  obtain rfl := Except.ok.inj e3
  have ha : a = u ^ 2 / 2 := by
    simp [DefModule.cost, DefModule.costs, GlobalTranslation.cost] at e4
    rw [← e4]; ring
  have hcs1 : r.shot.costs = [u ^ 2 / 2] := by
    match r.shot.costs, hl, e1 with
    | [b], _, e1 => simp at e1; rw [e1, ha]
  refine ⟨r, hr, ?_, c, h1, ?_⟩
  · obtain ⟨xs', x1, x2, x3, x4, x5⟩ := C28_per_step_partial _ (by decide) (by simp) hs
    obtain ⟨a, b, ha, hb, c, hc, hstep⟩ := x5 0 one_pos
    obtain rfl : c = shove u := by simpa using hc.symm
    rw [x2] at ha
    obtain rfl := Option.some.inj ha
    simp only [stepWith, speck_rhs, Except.map] at hstep
    refine speck_ends hr x1 x4 ?_
    rw [List.getD_eq_getElem?_getD, hb, ← Except.ok.inj hstep]
    simp
  · rw [h3, hcs1]
    simp [DefModule.mobilities, DefModule.mobility]
    ring

example : DefModule.AllPositiveWeights [.globalTranslation (⟨1, 0⟩ : GlobalTranslation 1)] ∧
    DefModule.AllNoLinear [.globalTranslation (⟨1, 0⟩ : GlobalTranslation 1)] := by
  simp [DefModule.AllPositiveWeights, DefModule.PositiveWeights, DefModule.AllNoLinear, DefModule.NoLinear]

end
end Imodal
