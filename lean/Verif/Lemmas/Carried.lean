import Verif.Props.C71
import Verif.Props.C31
import Verif.Lemmas.RegSame
import Verif.Spec.Registration
/-!
# The points of one member of a compound, along a trajectory
-/
set_option autoImplicit false
namespace Imodal
noncomputable section
variable {d : Nat}

/-- Where the coordinates of member `i` begin. -/
def Mfd.off (i : Nat) : Mfd d → Nat
  | .compound l => Mfd.sizeAll (l.take i)
  | _ => 0

/-- Member `i` is the points `x`. -/
def Mfd.At (M : Mfd d) (i : Nat) {n : Nat} (x : Fin n → Vec d) : Prop :=
  ∃ l₁ l₂ cot, M = .compound (l₁ ++ .landmarks x cot :: l₂) ∧ l₁.length = i

/-- The entries of a row from `off` on, as points. -/
def block (off : Nat) {n : Nat} (x : Row) : Fin n → Vec d := viewVecs fun j => x (off + j)

theorem block_add (off : Nat) {n : Nat} (x y : Row) : block (d := d) (n := n) off (x + y) = block off x + block off y := rfl
theorem block_sub (off : Nat) {n : Nat} (x y : Row) : block (d := d) (n := n) off (x - y) = block off x - block off y := rfl
theorem block_smul (off : Nat) {n : Nat} (a : ℝ) (x : Row) : block (d := d) (n := n) off (a • x) = a • block off x := rfl

theorem Mfd.withGdAll_append (x : Row) : (A B : List (Mfd d)) → (off : Nat) →
    Mfd.withGdAll x off (A ++ B) = Mfd.withGdAll x off A ++ Mfd.withGdAll x (off + Mfd.sizeAll A) B
  | [], B, off => by simp [Mfd.withGdAll, Mfd.sizeAll]
  | m :: A, B, off => by
    rw [List.cons_append, Mfd.withGdAll, Mfd.withGdAll, Mfd.withGdAll_append x A B, Mfd.sizeAll, List.cons_append, Nat.add_assoc]
theorem Mfd.withCotAll_append (x : Row) : (A B : List (Mfd d)) → (off : Nat) →
    Mfd.withCotAll x off (A ++ B) = Mfd.withCotAll x off A ++ Mfd.withCotAll x (off + Mfd.sizeAll A) B
  | [], B, off => by simp [Mfd.withCotAll, Mfd.sizeAll]
  | m :: A, B, off => by
    rw [List.cons_append, Mfd.withCotAll, Mfd.withCotAll, Mfd.withCotAll_append x A B, Mfd.sizeAll, List.cons_append, Nat.add_assoc]
theorem Mfd.length_withGdAll (x : Row) : (l : List (Mfd d)) → (off : Nat) → (Mfd.withGdAll x off l).length = l.length
  | [], _ => by rw [Mfd.withGdAll]
  | m :: l, off => by rw [Mfd.withGdAll, List.length_cons, Mfd.length_withGdAll x l, List.length_cons]
theorem Mfd.length_withCotAll (x : Row) : (l : List (Mfd d)) → (off : Nat) → (Mfd.withCotAll x off l).length = l.length
  | [], _ => by rw [Mfd.withCotAll]
  | m :: l, off => by rw [Mfd.withCotAll, List.length_cons, Mfd.length_withCotAll x l, List.length_cons]

variable {M : Mfd d} {i n : Nat} {x : Fin n → Vec d}

theorem Mfd.At.off_eq {l₁ l₂ : List (Mfd d)} {m : Mfd d} (h : l₁.length = i) : (Mfd.compound (l₁ ++ m :: l₂)).off i = Mfd.sizeAll l₁ := by
  rw [Mfd.off, ← h, List.take_left]

theorem Mfd.At.withGd (h : M.At i x) (y : Row) : (M.withGd y 0).At i (block (n := n) (M.off i) y) ∧ (M.withGd y 0).off i = M.off i := by
  obtain ⟨l₁, l₂, cot, rfl, hi⟩ := h
  have hl : (Mfd.withGdAll y 0 l₁).length = i := by rw [Mfd.length_withGdAll, hi]
  rw [Mfd.withGd, Mfd.withGdAll_append, Mfd.withGdAll, Mfd.withGd, Mfd.At.off_eq hi, Mfd.At.off_eq hl, Mfd.size_withGdAll, Nat.zero_add]
  exact ⟨⟨_, _, _, rfl, hl⟩, rfl⟩

theorem Mfd.At.withCot (h : M.At i x) (y : Row) : (M.withCot y 0).At i x ∧ (M.withCot y 0).off i = M.off i := by
  obtain ⟨l₁, l₂, cot, rfl, hi⟩ := h
  have hl : (Mfd.withCotAll y 0 l₁).length = i := by rw [Mfd.length_withCotAll, hi]
  rw [Mfd.withCot, Mfd.withCotAll_append, Mfd.withCotAll, Mfd.withCot, Mfd.At.off_eq hi, Mfd.At.off_eq hl, Mfd.size_withCotAll]
  exact ⟨⟨_, _, _, rfl, hl⟩, rfl⟩

theorem Mfd.At.row (h : M.At i x) : block (M.off i) (rowOf M.unrollGd.flatten) = x := by
  obtain ⟨l₁, l₂, cot, rfl, hi⟩ := h
  rw [Mfd.At.off_eq hi]
  refine view_of_starts ?_
  have := starts_rowOf (Mfd.compound (l₁ ++ .landmarks x cot :: l₂)).unrollGd.flatten
  rw [Mfd.unrollGd, unrollGdAll_append, List.flatten_append, Starts.append, Mfd.unrollGdAll, List.flatten_append, Starts.append] at this
  have h2 := this.2.1
  rw [Mfd.length_unrollGdAll, Nat.zero_add, Mfd.unrollGd] at h2
  rw [Mfd.unrollGd, unrollGdAll_append, List.flatten_append, Mfd.unrollGdAll, List.flatten_append, Mfd.unrollGd]
  simpa using h2

theorem Mfd.At.action (h : M.At i x) {f : FieldExpr d} {w : Tan d} (hw : M.action f = .ok w) :
    f.values x = .ok (block (M.off i) (rowOf w.unroll.flatten)) := by
  obtain ⟨l₁, l₂, cot, rfl, hi⟩ := h
  obtain ⟨v, hv, hj⟩ := action_member hw
  rw [Mfd.action, actLandmarks] at hv
  cases h1 : f.values x with
  | error e => rw [h1] at hv; cases hv
  | ok u =>
    rw [h1] at hv
    cases hv
    refine congrArg Except.ok ?_
    rw [Mfd.At.off_eq hi]
    refine (view_of_starts fun j hj' => ?_).symm
    rw [length_flatVecs] at hj'
    have := hj j (by rw [Mfd.size]; exact hj')
    rw [Tan.unroll] at this
    unfold rowOf
    rw [this, List.flatten_cons, List.flatten_nil, List.append_nil, List.getD_eq_getElem?_getD,
      List.getElem?_eq_getElem (by rw [length_flatVecs]; exact hj'), Option.getD_some]

theorem Mfd.At.unique (h : M.At i x) {n' : Nat} {x' : Fin n' → Vec d} (h' : M.At i x') : (⟨n, x⟩ : Points d) = ⟨n', x'⟩ := by
  obtain ⟨l₁, l₂, cot, rfl, hi⟩ := h
  obtain ⟨k₁, k₂, cot', e, hi'⟩ := h'
  have e := Mfd.compound.inj e
  have := congrArg (fun l => l[i]?) e
  simp only [List.getElem?_append_right (hi.le), List.getElem?_append_right (hi'.le), hi, hi', Nat.sub_self, List.getElem?_cons_zero] at this
  cases this
  rfl

theorem generatedBy_ctrl {m m' : DefModule d} {y : Row} {c : Ctrl d} {f : FieldExpr d} (h : (m.withGd y 0).fillControls c = .ok m')
    (hf : m'.field = .ok f) : GeneratedBy m f :=
  ⟨y, cotRow (m.withGd y 0), c, _, m', by rw [withRows_eq, DefModule.withCot_cotRow], h, hf⟩

/-! ## Euler's method of the library itself -/

theorem At_rowsMod {m : DefModule d} (h : m.manifold.At i x) (y : Row × Row) :
    (rowsMod m y).manifold.At i (block (n := n) (m.manifold.off i) y.1) := by
  rw [rowsMod, DefModule.manifold_withCot, DefModule.manifold_withGd]
  exact ((h.withGd y.1).1.withCot y.2).1

theorem eulerStep_at {step : ℝ} {controls : Option (List (Ctrl d))} {j : Nat} {m m' m₀ : DefModule d}
    (h : eulerStep step controls j m = .ok m') (hs : Same m m₀) : Same m' m₀ ∧ ∃ f, GeneratedBy m₀ f ∧
      ∀ (i n : Nat) (x : Fin n → Vec d), m.manifold.At i x → ∃ k, f.values x = .ok k ∧ m'.manifold.At i (x + step • k) := by
  obtain ⟨m1, v, h1, h2, rfl⟩ := eulerStep_ok h
  obtain ⟨f, w, hf, hw, -, -, hg⟩ := C70_velocity h1 h2
  have hr := setControls_reset h1
  refine ⟨(same_rowsMod m1 _).trans ((same_of_reset hr).trans hs), f, ?_, fun i n x hx => ?_⟩
  · have hfill : ∃ c, m.fillControls c = .ok m1 := by
      cases controls with
      | none => exact ⟨_, geodesic_fill _ _ h1⟩
      | some cs =>
        unfold setControls at h1
        dsimp only at h1
        cases h3 : cs[j]? with
        | none => rw [h3] at h1; cases h1
        | some c => rw [h3] at h1; exact ⟨c, h1⟩
    obtain ⟨c, hc⟩ := hfill
    have := hs (gdRow m, cotRow m)
    rw [rowsMod_self] at this
    rw [fill_of_reset this] at hc
    exact ⟨gdRow m, cotRow m, c, _, m1, withRows_eq .., hc, hf⟩
  · refine ⟨_, hx.action hw, ?_⟩
    have hm : m1.manifold = m.manifold := manifold_of_reset hr
    have := At_rowsMod (m := m1) (by rw [hm]; exact hx) (gdRow m + step • (gradH (setControls controls j) m).2,
      cotRow m + -step • (gradH (setControls controls j) m).1)
    dsimp only at this
    rw [hm, block_add, block_smul, hg] at this
    have e : block (m.manifold.off i) (gdRow m) = x := hx.row
    rw [e] at this
    rw [hg]; exact this

theorem eulerLoop_at {step : ℝ} {controls : Option (List (Ctrl d))} {m₀ : DefModule d} {k : Nat} : ∀ {j : Nat} {m : DefModule d} {r : Shot d},
    eulerLoop step controls j k m = .ok r → Same m m₀ → ∃ F : Nat → Nat → FieldExpr d, (∀ l < k, ∀ j, GeneratedBy m₀ (F l j)) ∧
      ∀ (i n : Nat) (x : Fin n → Vec d), m.manifold.At i x → ∃ X : Nat → Fin n → Vec d, X 0 = x ∧
        (∀ l < k, Moves .euler step (F l) (X l) (X (l + 1))) ∧ r.module.manifold.At i (X k) := by
  induction k with
  | zero =>
    intro j m r h _
    rw [eulerLoop] at h
    cases h
    exact ⟨fun _ _ => .sum [], fun l hl => absurd hl (by omega), fun i n x hx => ⟨fun _ => x, rfl, fun l hl => absurd hl (by omega), hx⟩⟩
  | succ k ih =>
    intro j m r h hs
    rw [eulerLoop] at h
    cases h1 : eulerStep step controls j m with
    | error e => rw [h1] at h; cases h
    | ok m' =>
      rw [h1] at h
      dsimp only at h
      cases h2 : eulerLoop step controls (j + 1) k m' with
      | error e => rw [h2] at h; cases h
      | ok r' =>
        rw [h2] at h
        cases h
        obtain ⟨hs', f, hf, hstep⟩ := eulerStep_at h1 hs
        obtain ⟨F, hF, hX⟩ := ih h2 hs'
        refine ⟨fun l j => match l with | 0 => f | l + 1 => F l j, fun l hl j => ?_, fun i n x hx => ?_⟩
        · cases l with
          | zero => exact hf
          | succ l => exact hF l (by omega) j
        · obtain ⟨v, hv, hx'⟩ := hstep i n x hx
          obtain ⟨X, h0, hm, he⟩ := hX i n _ hx'
          refine ⟨fun l => match l with | 0 => x | l + 1 => X l, rfl, fun l hl => ?_, he⟩
          cases l with
          | zero => exact ⟨v, hv, h0⟩
          | succ l => exact hm l (by omega)

/-! ## The methods of `torchdiffeq` -/

/-- `f` gives the velocities `k` to the points of every member that is points. -/
def Advects (M : Mfd d) (f : FieldExpr d) (x k : Row) : Prop :=
  ∀ (i n : Nat) (x₀ : Fin n → Vec d), M.At i x₀ → f.values (block (n := n) (M.off i) x) = .ok (block (M.off i) k)

theorem ctrlRhs_advects {m : DefModule d} {c : Ctrl d} {x k : Row} (h : ctrlRhs m c x = .ok k) :
    ∃ f, GeneratedBy m f ∧ Advects m.manifold f x k := by
  unfold ctrlRhs at h
  cases h1 : ctrlEval m c x with
  | error e => rw [h1] at h; cases h
  | ok r =>
    rw [h1] at h
    cases h
    have hfill := (ctrlEval_ok h1).1
    unfold ctrlEval at h1
    rw [hfill] at h1
    dsimp only at h1
    cases h2 : r.1.cost with
    | error e => rw [h2] at h1; cases h1
    | ok a =>
      rw [h2] at h1
      dsimp only at h1
      cases h3 : r.1.field with
      | error e => rw [h3] at h1; cases h1
      | ok f =>
        rw [h3] at h1
        dsimp only at h1
        cases h4 : r.1.manifold.action f with
        | error e => rw [h4] at h1; cases h1
        | ok v =>
          rw [h4] at h1
          have h5 := Except.ok.inj h1
          have e : r.2 = rowOf v.unroll.flatten := by rw [← h5]
          refine ⟨f, generatedBy_ctrl hfill h3, fun i n x₀ hx => ?_⟩
          have hr := reset_fill _ hfill
          have hm : r.1.manifold = m.manifold.withGd x 0 := by rw [manifold_of_reset hr, DefModule.manifold_withGd]
          rw [hm] at h4
          have := (hx.withGd x).1.action h4
          rw [(hx.withGd x).2] at this
          rw [this, e]

theorem bind_eq_ok {α β : Type} {p : Py α} {f : α → Py β} {b : β} (h : p.bind f = .ok b) : ∃ a, p = .ok a ∧ f a = .ok b := by
  cases p with
  | error e => cases h
  | ok a => exact ⟨a, rfl, h⟩
theorem map_eq_ok {α β : Type} {p : Py α} {f : α → β} {b : β} (h : p.map f = .ok b) : ∃ a, p = .ok a ∧ f a = b := by
  cases p with
  | error e => cases h
  | ok a => exact ⟨a, rfl, Except.ok.inj h⟩

theorem stepWith_at {s : Solver} {Y : Nat → Row → Py Row} {h : ℝ} {y y' : Row} {m : DefModule d}
    (hY : ∀ j x k, Y j x = .ok k → ∃ f, GeneratedBy m f ∧ Advects m.manifold f x k) (hs : stepWith s Y h y = .ok y') :
    ∃ F : Nat → FieldExpr d, (∀ j, GeneratedBy m (F j)) ∧ ∀ (i n : Nat) (x₀ : Fin n → Vec d), m.manifold.At i x₀ →
      Moves s h F (block (n := n) (m.manifold.off i) y) (block (m.manifold.off i) y') := by
  cases s with
  | euler =>
    obtain ⟨k, h1, rfl⟩ := map_eq_ok hs
    obtain ⟨f, g, a⟩ := hY _ _ _ h1
    exact ⟨fun _ => f, fun _ => g, fun i n x₀ hx => ⟨_, a i n x₀ hx, rfl⟩⟩
  | midpoint =>
    obtain ⟨k, h1, hs⟩ := bind_eq_ok hs
    obtain ⟨k', h2, rfl⟩ := map_eq_ok hs
    obtain ⟨f, g, a⟩ := hY _ _ _ h1
    obtain ⟨f', g', a'⟩ := hY _ _ _ h2
    refine ⟨fun j => match j with | 0 => f | _ => f', fun j => ?_, fun i n x₀ hx => ⟨_, _, a i n x₀ hx, ?_, rfl⟩⟩
    · cases j with
      | zero => exact g
      | succ j => exact g'
    · have := a' i n x₀ hx
      rw [block_add, block_smul, show (0.5 : ℝ) * h = h / 2 by ring] at this
      exact this
  | rk4 =>
    obtain ⟨k₁, h1, hs⟩ := bind_eq_ok hs
    obtain ⟨k₂, h2, hs⟩ := bind_eq_ok hs
    obtain ⟨k₃, h3, hs⟩ := bind_eq_ok hs
    obtain ⟨k₄, h4, rfl⟩ := map_eq_ok hs
    obtain ⟨f1, g1, a1⟩ := hY _ _ _ h1
    obtain ⟨f2, g2, a2⟩ := hY _ _ _ h2
    obtain ⟨f3, g3, a3⟩ := hY _ _ _ h3
    obtain ⟨f4, g4, a4⟩ := hY _ _ _ h4
    refine ⟨fun j => match j with | 0 => f1 | 1 => f2 | 2 => f3 | _ => f4, fun j => ?_, fun i n x₀ hx =>
      ⟨_, _, _, _, a1 i n x₀ hx, ?_, a3 i n x₀ hx, a4 i n x₀ hx, ?_⟩⟩
    · match j with
      | 0 => exact g1
      | 1 => exact g2
      | 2 => exact g3
      | _ + 3 => exact g4
    · have := a2 i n x₀ hx
      rw [block_add, block_smul, show h * (1 / 3) = h / 3 by ring] at this
      exact this
    · funext a c
      simp only [block, viewVecs, Pi.add_apply, Pi.smul_apply, smul_eq_mul]
      ring

theorem shootControls_at {ms : List (DefModule d)} {s : Solver} {it : Nat} {t1 : ℝ} {controls : List (Ctrl d)} {r : Shot d}
    (h : shootControls s it t1 controls (.compound ms) = .ok r) : ∃ F : Nat → Nat → FieldExpr d,
      (∀ l < it, ∀ j, GeneratedBy (.compound ms) (F l j)) ∧
      ∀ (i n : Nat) (x : Fin n → Vec d), (DefModule.compound ms).manifold.At i x → ∃ X : Nat → Fin n → Vec d, X 0 = x ∧
        (∀ l < it, Moves s (t1 / it) (F l) (X l) (X (l + 1))) ∧ r.module.manifold.At i (X it) := by
  obtain ⟨-, xs, h1, h2, h3, -⟩ := shootC_ok h
  obtain ⟨hl, h0, hst⟩ := orbitWith_steps h1
  have key : ∀ l, ∃ F : Nat → FieldExpr d, l < it → ((∀ j, GeneratedBy (.compound ms) (F j)) ∧
      ∀ (i n : Nat) (x₀ : Fin n → Vec d), (DefModule.compound ms).manifold.At i x₀ →
        Moves s (t1 / it) F (block (n := n) ((DefModule.compound ms).manifold.off i) (xs.getD l 0))
          (block ((DefModule.compound ms).manifold.off i) (xs.getD (l + 1) 0))) := by
    intro l
    by_cases hlt : l < it
    · obtain ⟨a, b, ha, hb, hstep⟩ := hst l hlt
      obtain ⟨F, hF, hM⟩ := stepWith_at (fun j x k hk => by
        obtain ⟨c, -, hk⟩ := bind_eq_ok hk
        exact ctrlRhs_advects hk) hstep
      refine ⟨F, fun _ => ⟨hF, fun i n x₀ hx => ?_⟩⟩
      rw [List.getD_eq_getElem?_getD, List.getD_eq_getElem?_getD, ha, hb]
      exact hM i n x₀ hx
    · exact ⟨fun _ => .sum [], fun h => absurd h hlt⟩
  choose F hF using key
  refine ⟨F, fun l hl j => (hF l hl).1 j, fun i n x hx => ⟨fun l => block ((DefModule.compound ms).manifold.off i) (xs.getD l 0), ?_,
    fun l hl => (hF l hl).2 i n x hx, ?_⟩⟩
  · dsimp only
    rw [List.getD_eq_getElem?_getD, h0, Option.getD_some]
    exact hx.row
  · have e : xs.getLastD (gdRow (.compound ms)) = xs.getD it 0 := by
      rw [List.getLastD_eq_getLast?, List.getLast?_eq_getElem?, hl, Nat.add_sub_cancel, List.getD_eq_getElem?_getD,
        List.getElem?_eq_getElem (show it < xs.length by omega)]
      rfl
    rw [manifold_of_reset h3, DefModule.manifold_withGd, e]
    exact (hx.withGd _).1

end
end Imodal
