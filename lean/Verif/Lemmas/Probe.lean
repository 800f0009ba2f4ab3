import Verif.Lemmas.SpaceSmooth
import Verif.Lemmas.SmoothLearn
import Verif.Lemmas.Carried
import Verif.Lemmas.SilentRows
import Verif.Lemmas.RigidShoot
/-!
# Where a shooting takes any point of space
-/
set_option autoImplicit false
namespace Imodal
noncomputable section
variable {d : Nat}

/-! ## Fields are smooth, available or not -/

theorem fieldVal_smooth (n : WithTop ℕ∞) (f : FieldExpr d) : ContDiff ℝ n (fieldVal f) := by
  rcases eval_uniform 0 f with ⟨e, he⟩ | h
  · have : fieldVal f = fun _ => 0 := by
      funext x b
      unfold fieldVal
      rw [he]
      rfl
    rw [this]
    exact contDiff_const
  · exact fieldVal_contDiff n f h

theorem values_val {f : FieldExpr d} {n : Nat} {pts w : Fin n → Vec d} (h : f.values pts = .ok w) (p : Fin n) : w p = fieldVal f (pts p) := by
  rcases eval_uniform 0 f with ⟨e, he⟩ | h0
  · exfalso
    unfold FieldExpr.values FieldExpr.batch at h
    rw [he] at h
    cases h
  · rw [h0.values] at h
    exact (congrFun (Except.ok.inj h) p).symm

/-! ## Velocity and field -/

/-- The velocity of the descriptors, and the field. -/
def ctrlVel (m : DefModule d) (c : Ctrl d) (y : Row) : Py (Row × FieldExpr d) :=
  (ctrlEval m c y).bind fun r => r.1.field.map fun f => (r.2, f)

theorem ctrlRhs_vel {m : DefModule d} {c : Ctrl d} {x k : Row} (h : ctrlRhs m c x = .ok k) : ∃ f, ctrlVel m c x = .ok (k, f) ∧
    ∀ (i n : Nat) (x₀ : Fin n → Vec d), m.manifold.At i x₀ → ∀ p,
      block (d := d) (n := n) (m.manifold.off i) k p = fieldVal f (block (d := d) (n := n) (m.manifold.off i) x p) := by
  obtain ⟨m', a, f, v, h1, h2, h3, h4, rfl⟩ := ctrlRhs_parts h
  have hm : m'.manifold = m.manifold.withGd x 0 := by rw [manifold_of_reset (reset_fill _ h1), DefModule.manifold_withGd]
  refine ⟨f, ?_, fun i n x₀ hx p => ?_⟩
  · unfold ctrlVel ctrlEval
    rw [h1]
    dsimp only
    rw [h2, h3]
    dsimp only
    rw [hm, h4]
    dsimp only [Except.bind]
    rw [h3]
    rfl
  · have := (hx.withGd x).1.action h4
    rw [(hx.withGd x).2] at this
    exact values_val this p

theorem ctrlVel_rhs {m : DefModule d} {c : Ctrl d} {x k : Row} {f : FieldExpr d} (h : ctrlVel m c x = .ok (k, f)) : ctrlRhs m c x = .ok k := by
  obtain ⟨r, h1, h2⟩ := bind_eq_ok h
  obtain ⟨f', h3, h4⟩ := map_eq_ok h2
  cases h4
  rw [ctrlRhs, h1]
  rfl

/-! ## Silent modules in front -/

theorem dropFront (n : Nat) (x : Row) (j : Nat) : dropBlock 0 n x j = x (n + j) := by
  rw [dropBlock_apply, skip, if_neg (by omega), Nat.add_comm]

/-- A silent module in front changes neither the field nor the velocities of the others. -/
theorem ctrlVel_silent {M : Mfd d} {B : List (DefModule d)} (hB : B ≠ []) {c : Ctrl d} {cs : List (Ctrl d)} {x k : Row} {f : FieldExpr d}
    (h : ctrlVel (.compound (.silent M :: B)) (.list (c :: cs)) x = .ok (k, f)) :
    ∃ f', ctrlVel (.compound B) (.list cs) (dropBlock 0 M.size x) = .ok (dropBlock 0 M.size k, f') ∧ fieldVal f' = fieldVal f := by
  have hk := ctrlVel_rhs h
  obtain ⟨m', a, f₀, v, h1, h2, h3, h4, rfl⟩ := ctrlRhs_parts hk
  have hf : f₀ = f := by
    obtain ⟨f₁, e1, -⟩ := ctrlRhs_vel hk
    obtain ⟨r, q1, q2⟩ := bind_eq_ok h
    obtain ⟨f₂, q3, q4⟩ := map_eq_ok q2
    have := (ctrlEval_ok q1).1
    rw [h1] at this
    obtain rfl := Except.ok.inj this
    rw [h3] at q3
    obtain rfl := Except.ok.inj q3
    exact (Prod.ext_iff.1 q4).2
  subst hf
  have hgd : (DefModule.compound B).withGd (dropBlock 0 M.size x) 0 = .compound (DefModule.withGdAll x M.size B) := by
    rw [DefModule.withGd, DefModule.withGdAll_congr B (off' := M.size) (y := x) fun j _ => by rw [dropFront, Nat.zero_add]]
  rw [DefModule.withGd, DefModule.withGdAll, DefModule.manifold, DefModule.withGd, DefModule.fillControls] at h1
  split at h1
  · next hlen =>
    rw [DefModule.fillAll, DefModule.fillControls] at h1
    dsimp only at h1
    rw [Nat.zero_add] at h1
    cases e : DefModule.fillAll (DefModule.withGdAll x M.size B) cs with
    | error e' => rw [e] at h1; cases h1
    | ok B' =>
      rw [e] at h1
      obtain rfl := Except.ok.inj h1
      have hfill : ((DefModule.compound B).withGd (dropBlock 0 M.size x) 0).fillControls (.list cs) = .ok (.compound B') := by
        rw [hgd, DefModule.fillControls, if_pos (by simpa using hlen), e]
      have hB' : B' ≠ [] := by
        have := manifold_of_reset (reset_fill _ hfill)
        rintro rfl
        rw [hgd] at this
        obtain ⟨b, B₁, rfl⟩ := List.exists_cons_of_ne_nil hB
        rw [DefModule.withGdAll, DefModule.manifold, DefModule.manifold, DefModule.manifolds, DefModule.manifolds] at this
        simp at this
      rcases field_insert (A := []) (B := B') (M.withGd x 0) hB' with ⟨f', g, e1, e2, e3⟩ | ⟨e', e1, -⟩
      · rw [List.nil_append] at e1 e2
        rw [h3] at e1
        obtain rfl := Except.ok.inj e1
        have hc : (DefModule.compound B').cost = .ok a := by
          rw [← h2, DefModule.cost, DefModule.cost]
          have := costs_insert [] B' (M.withGd x 0)
          rw [List.nil_append, List.nil_append] at this
          rw [this]
        rw [DefModule.manifold, DefModule.manifolds, DefModule.manifold, Mfd.withGd, Mfd.withGdAll, Nat.zero_add, Mfd.action, Mfd.actionAll] at h4
        cases a1 : (M.withGd x 0).action f₀ with
        | error e' => rw [a1] at h4; cases h4
        | ok v₁ =>
          rw [a1] at h4
          dsimp only at h4
          cases a2 : Mfd.actionAll f₀ (Mfd.withGdAll x M.size (DefModule.manifolds B)) with
          | error e' => rw [a2] at h4; cases h4
          | ok vs =>
            rw [a2] at h4
            have hm : (DefModule.compound B').manifold = .compound (Mfd.withGdAll x M.size (DefModule.manifolds B)) := by
              rw [manifold_of_reset (reset_fill _ hfill), hgd, DefModule.manifold, DefModule.manifolds_withGd]
            have hact : (DefModule.compound B').manifold.action g = .ok (.compound vs) := by
              rw [hm, Mfd.action, ← e3.actionAll, a2]
            have hv : v = .compound (v₁ :: vs) := (Except.ok.inj h4).symm
            refine ⟨g, ?_, e3.symm.val⟩
            unfold ctrlVel ctrlEval
            rw [hfill]
            dsimp only
            rw [hc, e2]
            dsimp only
            rw [hact]
            dsimp only [Except.bind]
            rw [e2]
            refine congrArg Except.ok (Prod.ext ?_ rfl)
            dsimp only
            have hlen : v₁.unroll.flatten.length = M.size := by
              rw [length_fits v₁ (fits_action f₀ _ a1), Mfd.size_withGd]
            have := dropBlock_rowOf [] v₁.unroll.flatten (Tan.unrollAll vs).flatten
            rw [List.nil_append, List.nil_append, hlen, List.length_nil] at this
            rw [hv, Tan.unroll, Tan.unroll, Tan.unrollAll, List.flatten_append]
            exact this.symm
      · rw [List.nil_append, h3] at e1
        cases e1
  · cases h1

/-- The same for a list of silent modules in front. -/
theorem ctrlVel_silents {B : List (DefModule d)} (hB : B ≠ []) : (S : List (Mfd d)) → (cs₁ cs : List (Ctrl d)) → cs₁.length = S.length → (x k : Row) →
    (f : FieldExpr d) → ctrlVel (.compound (S.map DefModule.silent ++ B)) (.list (cs₁ ++ cs)) x = .ok (k, f) →
    ∃ f', ctrlVel (.compound B) (.list cs) (dropBlock 0 (Mfd.sizeAll S) x) = .ok (dropBlock 0 (Mfd.sizeAll S) k, f') ∧ fieldVal f' = fieldVal f
  | [], [], cs, _, x, k, f, h => by
    have e : ∀ x : Row, dropBlock 0 (Mfd.sizeAll ([] : List (Mfd d))) x = x := fun x => by
      funext j; rw [dropFront, Mfd.sizeAll, Nat.zero_add]
    rw [e, e]
    exact ⟨f, h, rfl⟩
  | M :: S, c :: cs₁, cs, hl, x, k, f, h => by
    rw [List.map_cons, List.cons_append, List.cons_append] at h
    obtain ⟨f₁, h1, e1⟩ := ctrlVel_silent (by simp [hB]) h
    obtain ⟨f₂, h2, e2⟩ := ctrlVel_silents hB S cs₁ cs (by simpa using hl) _ _ _ h1
    have e : ∀ x : Row, dropBlock 0 (Mfd.sizeAll S) (dropBlock 0 M.size x) = dropBlock 0 (Mfd.sizeAll (M :: S)) x := fun x => by
      funext j; rw [dropFront, dropFront, dropFront, Mfd.sizeAll, Nat.add_assoc]
    rw [e, e] at h2
    exact ⟨f₂, h2, e2.trans e1⟩
  | [], _ :: _, _, hl, _, _, _, _ => by cases hl
  | _ :: _, [], _, hl, _, _, _, _ => by cases hl

/-! ## Mapping an orbit -/

section
variable {V W : Type} [AddCommGroup V] [Module ℝ V] [AddCommGroup W] [Module ℝ W]

theorem stepWith_map (π : V →ₗ[ℝ] W) {s : Solver} {Y : Nat → V → Py V} {Z : Nat → W → Py W} (hY : ∀ j y k, Y j y = .ok k → Z j (π y) = .ok (π k))
    {h : ℝ} {y y' : V} (hs : stepWith s Y h y = .ok y') : stepWith s Z h (π y) = .ok (π y') := by
  cases s with
  | euler =>
    obtain ⟨k, h1, rfl⟩ := map_eq_ok hs
    rw [stepWith, hY _ _ _ h1]
    simp [Except.map]
  | midpoint =>
    obtain ⟨k, h1, hs⟩ := bind_eq_ok hs
    obtain ⟨k', h2, rfl⟩ := map_eq_ok hs
    have h2 := hY _ _ _ h2
    simp only [map_add, map_smul] at h2
    rw [stepWith, hY _ _ _ h1]
    simp only [Except.bind]
    rw [h2]
    simp [Except.map]
  | rk4 =>
    obtain ⟨k₁, h1, hs⟩ := bind_eq_ok hs
    obtain ⟨k₂, h2, hs⟩ := bind_eq_ok hs
    obtain ⟨k₃, h3, hs⟩ := bind_eq_ok hs
    obtain ⟨k₄, h4, rfl⟩ := map_eq_ok hs
    have h2 := hY _ _ _ h2
    have h3 := hY _ _ _ h3
    have h4 := hY _ _ _ h4
    simp only [map_add, map_smul, map_sub] at h2 h3 h4
    rw [stepWith, hY _ _ _ h1]
    simp only [Except.bind]
    rw [h2]
    simp only [h3, h4]
    simp [Except.map]

theorem orbitWith_map (π : V →ₗ[ℝ] W) {s : Solver} {Y : Nat → Nat → V → Py V} {Z : Nat → Nat → W → Py W}
    (hY : ∀ i j y k, Y i j y = .ok k → Z i j (π y) = .ok (π k)) {h : ℝ} (k : Nat) : ∀ {i : Nat} {y : V} {l : List V},
      orbitWith s Y h i k y = .ok l → orbitWith s Z h i k (π y) = .ok (l.map π) := by
  induction k with
  | zero =>
    intro i y l hl
    rw [orbitWith] at hl
    obtain rfl := Except.ok.inj hl
    rfl
  | succ k ih =>
    intro i y l hl
    rw [orbitWith] at hl
    cases h1 : stepWith s (Y i) h y with
    | error e => rw [h1] at hl; cases hl
    | ok y' =>
      rw [h1] at hl
      dsimp only at hl
      cases h2 : orbitWith s Y h (i + 1) k y' with
      | error e => rw [h2] at hl; cases hl
      | ok l' =>
        rw [h2] at hl
        obtain rfl := Except.ok.inj hl
        rw [orbitWith, stepWith_map π (hY i) h1]
        dsimp only
        rw [ih h2]
        rfl
end

/-! ## A driven point -/

section
variable {V : Type} [AddCommGroup V] [Module ℝ V]

/-- The first component does not depend on the second, and the second depends smoothly on the point. -/
def Driven (F : Vec d → Py (V × Vec d)) : Prop :=
  (∃ e, ∀ x, F x = .error e) ∨ ∃ k W, (∀ n, ContDiff ℝ n W) ∧ ∀ x, F x = .ok (k, W x)

theorem Driven.step {s : Solver} {Z : Nat → V × Vec d → Py (V × Vec d)}
    (hZ : ∀ j y (W : Vec d → Vec d), (∀ n, ContDiff ℝ n W) → Driven fun x => Z j (y, W x)) (h : ℝ) (y : V) (W : Vec d → Vec d)
    (hW : ∀ n, ContDiff ℝ n W) : Driven fun x => stepWith s Z h (y, W x) := by
  have cs : ∀ (a : ℝ) {U : Vec d → Vec d} {n : WithTop ℕ∞}, ContDiff ℝ n U → ContDiff ℝ n fun x => a • U x :=
    fun a U n hU => (contDiff_const (c := a)).smul hU
  cases s with
  | euler =>
    rcases hZ 0 y W hW with ⟨e, he⟩ | ⟨k, U, hU, hk⟩
    · exact Or.inl ⟨e, fun x => by beta_reduce at *; rw [stepWith, he]; rfl⟩
    · exact Or.inr ⟨y + h • k, fun x => W x + h • U x, fun n => (hW n).add (cs h (hU n)), fun x => by beta_reduce at *; rw [stepWith, hk]; rfl⟩
  | midpoint =>
    rcases hZ 0 y W hW with ⟨e, he⟩ | ⟨k, U, hU, hk⟩
    · exact Or.inl ⟨e, fun x => by beta_reduce at *; rw [stepWith, he]; rfl⟩
    · have e1 : ∀ x, ((y, W x) : V × Vec d) + (0.5 * h) • (k, U x) = (y + (0.5 * h) • k, W x + (0.5 * h) • U x) := fun x => rfl
      rcases hZ 1 (y + (0.5 * h) • k) (fun x => W x + (0.5 * h) • U x) (fun n => (hW n).add (cs _ (hU n))) with ⟨e, he⟩ | ⟨k', U', hU', hk'⟩
      · exact Or.inl ⟨e, fun x => by beta_reduce at *; rw [stepWith, hk]; simp only [Except.bind]; rw [e1, he]; rfl⟩
      · exact Or.inr ⟨y + h • k', fun x => W x + h • U' x, fun n => (hW n).add (cs h (hU' n)), fun x => by
          beta_reduce at *; rw [stepWith, hk]; simp only [Except.bind]; rw [e1, hk']; rfl⟩
  | rk4 =>
    rcases hZ 0 y W hW with ⟨e, he⟩ | ⟨k, U, hU, hk⟩
    · exact Or.inl ⟨e, fun x => by beta_reduce at *; rw [stepWith, he]; rfl⟩
    have e1 : ∀ x, ((y, W x) : V × Vec d) + (h * (1 / 3)) • (k, U x) = (y + (h * (1 / 3)) • k, W x + (h * (1 / 3)) • U x) := fun x => rfl
    rcases hZ 1 _ (fun x => W x + (h * (1 / 3)) • U x) (fun n => (hW n).add (cs _ (hU n))) with ⟨e, he⟩ | ⟨k₂, U₂, hU₂, hk₂⟩
    · exact Or.inl ⟨e, fun x => by beta_reduce at *; rw [stepWith, hk]; simp only [Except.bind]; rw [e1, he]⟩
    have e2 : ∀ x, ((y, W x) : V × Vec d) + h • ((k₂, U₂ x) - (1 / 3 : ℝ) • (k, U x)) = (y + h • (k₂ - (1 / 3 : ℝ) • k), W x + h • (U₂ x - (1 / 3 : ℝ) • U x)) :=
      fun x => rfl
    rcases hZ 2 _ (fun x => W x + h • (U₂ x - (1 / 3 : ℝ) • U x)) (fun n => (hW n).add (cs h ((hU₂ n).sub (cs _ (hU n))))) with
      ⟨e, he⟩ | ⟨k₃, U₃, hU₃, hk₃⟩
    · exact Or.inl ⟨e, fun x => by beta_reduce at *; rw [stepWith, hk]; simp only [Except.bind]; rw [e1, hk₂]; dsimp only; rw [e2, he]⟩
    have e3 : ∀ x, ((y, W x) : V × Vec d) + h • ((k, U x) - (k₂, U₂ x) + (k₃, U₃ x)) = (y + h • (k - k₂ + k₃), W x + h • (U x - U₂ x + U₃ x)) :=
      fun x => rfl
    rcases hZ 3 _ (fun x => W x + h • (U x - U₂ x + U₃ x)) (fun n => (hW n).add (cs h (((hU n).sub (hU₂ n)).add (hU₃ n)))) with
      ⟨e, he⟩ | ⟨k₄, U₄, hU₄, hk₄⟩
    · exact Or.inl ⟨e, fun x => by
        beta_reduce at *; rw [stepWith, hk]; simp only [Except.bind]; rw [e1, hk₂]; dsimp only; rw [e2, hk₃]; dsimp only; rw [e3, he]; rfl⟩
    · exact Or.inr ⟨y + (h * 0.125) • (k + (3 : ℝ) • (k₂ + k₃) + k₄), fun x => W x + (h * 0.125) • (U x + (3 : ℝ) • (U₂ x + U₃ x) + U₄ x),
        fun n => (hW n).add (cs _ (((hU n).add (cs _ ((hU₂ n).add (hU₃ n)))).add (hU₄ n))), fun x => by
          beta_reduce at *; rw [stepWith, hk]; simp only [Except.bind]; rw [e1, hk₂]; dsimp only; rw [e2, hk₃]; dsimp only; rw [e3, hk₄]; rfl⟩

theorem Driven.orbit {s : Solver} {Z : Nat → Nat → V × Vec d → Py (V × Vec d)}
    (hZ : ∀ i j y (W : Vec d → Vec d), (∀ n, ContDiff ℝ n W) → Driven fun x => Z i j (y, W x)) (h : ℝ) (k : Nat) : ∀ (i : Nat) (y : V) (W : Vec d → Vec d),
      (∀ n, ContDiff ℝ n W) → Driven fun x => (orbitWith s Z h i k (y, W x)).map fun l => l.getLastD (y, W x) := by
  induction k with
  | zero => intro i y W hW; exact Or.inr ⟨y, W, hW, fun x => rfl⟩
  | succ k ih =>
    intro i y W hW
    rcases Driven.step (s := s) (hZ i) h y W hW with ⟨e, he⟩ | ⟨y', W', hW', hk⟩
    · exact Or.inl ⟨e, fun x => by beta_reduce at *; rw [orbitWith, he]; rfl⟩
    · rcases ih (i + 1) y' W' hW' with ⟨e, he⟩ | ⟨y'', W'', hW'', hk'⟩
      · refine Or.inl ⟨e, fun x => ?_⟩
        have := he x
        beta_reduce at *
        rw [orbitWith, hk]
        dsimp only
        cases ho : orbitWith s Z h (i + 1) k (y', W' x) with
        | error e' => rw [ho] at this; exact this
        | ok l => rw [ho] at this; cases this
      · refine Or.inr ⟨y'', W'', hW'', fun x => ?_⟩
        have := hk' x
        beta_reduce at *
        rw [orbitWith, hk]
        dsimp only
        cases ho : orbitWith s Z h (i + 1) k (y', W' x) with
        | error e' => rw [ho] at this; cases this
        | ok l =>
          rw [ho] at this
          have hne : l ≠ [] := by
            intro h0
            have := (orbitWith_steps ho).1
            rw [h0] at this
            simp at this
          rw [← this]
          show Except.ok (((y, W x) :: l).getLastD (y, W x)) = Except.ok (l.getLastD (y', W' x))
          rw [List.getLastD_cons]
          obtain ⟨a, t, rfl⟩ := List.exists_cons_of_ne_nil hne
          rw [List.getLastD_cons, List.getLastD_cons]
end

/-! ## Where the point goes -/

/-- The velocities of the descriptors and of a further point, with the controls an evaluation picks. -/
def probeRhs (m : DefModule d) (controls : List (Ctrl d)) (t1 : ℝ) (it : Nat) (t : ℝ) (n : Nat) (z : Row × Vec d) : Py (Row × Vec d) :=
  (pickControls controls it (tToIt t1 it t) n).bind fun c => (ctrlVel m c z.1).map fun v => (v.1, fieldVal v.2 z.2)

def probeOrbit (s : Solver) (it : Nat) (t1 : ℝ) (controls : List (Ctrl d)) (m : DefModule d) (z : Row × Vec d) : Py (List (Row × Vec d)) :=
  orbitWith s (fun i j => probeRhs m controls t1 it (s.stageTime (gridTime t1 it i) (gridTime t1 it (i + 1)) j) (s.stages * i + j)) (t1 / it) 0 it z

/-- Where the shooting takes a point. -/
def probe (s : Solver) (it : Nat) (t1 : ℝ) (controls : List (Ctrl d)) (m : DefModule d) (x : Vec d) : Vec d :=
  match probeOrbit s it t1 controls m (gdRow m, x) with
  | .error _ => x
  | .ok l => (l.getLastD (gdRow m, x)).2

theorem probeRhs_driven (m : DefModule d) (controls : List (Ctrl d)) (t1 : ℝ) (it : Nat) (t : ℝ) (n : Nat) (y : Row) {W : Vec d → Vec d}
    (hW : ∀ n, ContDiff ℝ n W) : Driven fun x => probeRhs m controls t1 it t n (y, W x) := by
  unfold probeRhs
  cases h1 : pickControls controls it (tToIt t1 it t) n with
  | error e => exact Or.inl ⟨e, fun x => rfl⟩
  | ok c =>
    cases h2 : ctrlVel m c y with
    | error e => exact Or.inl ⟨e, fun x => by dsimp only [Except.bind]; rw [h2]; rfl⟩
    | ok v => exact Or.inr ⟨v.1, fun x => fieldVal v.2 (W x), fun n => (fieldVal_smooth n v.2).comp (hW n), fun x => by
        dsimp only [Except.bind]; rw [h2]; rfl⟩

/-- A step of the descriptors is a step of the descriptors and the point. -/
theorem step_lift {s : Solver} {m : DefModule d} {controls : List (Ctrl d)} {t1 : ℝ} {it : Nat} {T : Nat → ℝ} {N : Nat → Nat} {h : ℝ} {y y' : Row}
    (hs : stepWith s (fun j => pickRhs m controls t1 it (T j) (N j)) h y = .ok y') (x : Vec d) :
    ∃ x', stepWith s (fun j => probeRhs m controls t1 it (T j) (N j)) h (y, x) = .ok (y', x') := by
  have key : ∀ {t n y k}, pickRhs m controls t1 it t n y = .ok k → ∃ V : Vec d → Vec d, ∀ x, probeRhs m controls t1 it t n (y, x) = .ok (k, V x) := by
    intro t n y k hk
    obtain ⟨c, h5, h6⟩ := bind_eq_ok hk
    obtain ⟨f, h7, -⟩ := ctrlRhs_vel h6
    refine ⟨fieldVal f, fun x => ?_⟩
    unfold probeRhs
    rw [h5]
    show (ctrlVel m c y).map _ = _
    rw [h7]
    rfl
  cases s with
  | euler =>
    obtain ⟨k, h1, rfl⟩ := map_eq_ok hs
    obtain ⟨V, hV⟩ := key h1
    exact ⟨x + h • V x, by rw [stepWith, hV]; rfl⟩
  | midpoint =>
    obtain ⟨k, h1, hs⟩ := bind_eq_ok hs
    obtain ⟨k', h2, rfl⟩ := map_eq_ok hs
    obtain ⟨V, hV⟩ := key h1
    obtain ⟨V', hV'⟩ := key h2
    have e1 : ((y, x) : Row × Vec d) + (0.5 * h) • (k, V x) = (y + (0.5 * h) • k, x + (0.5 * h) • V x) := rfl
    exact ⟨x + h • V' (x + (0.5 * h) • V x), by rw [stepWith, hV]; simp only [Except.bind]; rw [e1, hV']; rfl⟩
  | rk4 =>
    obtain ⟨k₁, h1, hs⟩ := bind_eq_ok hs
    obtain ⟨k₂, h2, hs⟩ := bind_eq_ok hs
    obtain ⟨k₃, h3, hs⟩ := bind_eq_ok hs
    obtain ⟨k₄, h4, rfl⟩ := map_eq_ok hs
    obtain ⟨V, hV⟩ := key h1
    obtain ⟨V₂, hV₂⟩ := key h2
    obtain ⟨V₃, hV₃⟩ := key h3
    obtain ⟨V₄, hV₄⟩ := key h4
    refine ⟨x + (h * 0.125) • (V x + (3 : ℝ) • (V₂ (x + (h * (1 / 3)) • V x) + V₃ (x + h • (V₂ (x + (h * (1 / 3)) • V x) - (1 / 3 : ℝ) • V x)))
      + V₄ (x + h • (V x - V₂ (x + (h * (1 / 3)) • V x) + V₃ (x + h • (V₂ (x + (h * (1 / 3)) • V x) - (1 / 3 : ℝ) • V x))))), ?_⟩
    rw [stepWith, hV]
    simp only [Except.bind]
    rw [show ((y, x) : Row × Vec d) + (h * (1 / 3)) • (k₁, V x) = (y + (h * (1 / 3)) • k₁, x + (h * (1 / 3)) • V x) from rfl, hV₂]
    dsimp only
    rw [Prod.smul_mk, Prod.mk_sub_mk, Prod.smul_mk, Prod.mk_add_mk, hV₃]
    dsimp only
    exact (congrArg (Except.map _) (hV₄ _)).trans rfl

theorem orbit_lift {s : Solver} {m : DefModule d} {controls : List (Ctrl d)} {t1 : ℝ} {it : Nat} {T : Nat → Nat → ℝ} {N : Nat → Nat → Nat} {h : ℝ}
    {k : Nat} : ∀ {i : Nat} {y : Row} {l : List Row}, orbitWith s (fun i j => pickRhs m controls t1 it (T i j) (N i j)) h i k y = .ok l → ∀ x : Vec d,
      ∃ l', orbitWith s (fun i j => probeRhs m controls t1 it (T i j) (N i j)) h i k (y, x) = .ok l' := by
  induction k with
  | zero => intro i y l _ x; exact ⟨_, rfl⟩
  | succ k ih =>
    intro i y l hl x
    rw [orbitWith] at hl
    cases h1 : stepWith s (fun j => pickRhs m controls t1 it (T i j) (N i j)) h y with
    | error e => rw [h1] at hl; cases hl
    | ok y' =>
      rw [h1] at hl
      dsimp only at hl
      cases h2 : orbitWith s (fun i j => pickRhs m controls t1 it (T i j) (N i j)) h (i + 1) k y' with
      | error e => rw [h2] at hl; cases hl
      | ok l₁ =>
        obtain ⟨x', hx'⟩ := step_lift h1 x
        obtain ⟨l', hl'⟩ := ih h2 x'
        refine ⟨(y, x) :: l', ?_⟩
        rw [orbitWith, hx']
        dsimp only
        rw [hl']

theorem probe_smooth (s : Solver) (it : Nat) (t1 : ℝ) (controls : List (Ctrl d)) (m : DefModule d) (n : WithTop ℕ∞) :
    ContDiff ℝ n (probe s it t1 controls m) := by
  have key := Driven.orbit (s := s) (Z := fun i j => probeRhs m controls t1 it (s.stageTime (gridTime t1 it i) (gridTime t1 it (i + 1)) j) (s.stages * i + j))
    (fun i j y W hW => probeRhs_driven m controls t1 it _ _ y hW) (t1 / it) it 0 (gdRow m) id (fun n => contDiff_id)
  rcases key with ⟨e, he⟩ | ⟨k, W, hW, hk⟩
  · have : probe s it t1 controls m = id := by
      funext x
      have := he x
      unfold probe probeOrbit
      dsimp only [id_eq] at this ⊢
      cases ho : orbitWith s (fun i j => probeRhs m controls t1 it (s.stageTime (gridTime t1 it i) (gridTime t1 it (i + 1)) j) (s.stages * i + j)) (t1 / it) 0 it (gdRow m, x) with
      | error e' => rfl
      | ok l => rw [ho] at this; cases this
    rw [this]
    exact contDiff_id
  · have : probe s it t1 controls m = W := by
      funext x
      have := hk x
      unfold probe probeOrbit
      dsimp only [id_eq] at this ⊢
      cases ho : orbitWith s (fun i j => probeRhs m controls t1 it (s.stageTime (gridTime t1 it i) (gridTime t1 it (i + 1)) j) (s.stages * i + j)) (t1 / it) 0 it (gdRow m, x) with
      | error e' => rw [ho] at this; cases this
      | ok l =>
        rw [ho] at this
        dsimp only
        exact (Prod.ext_iff.1 (Except.ok.inj this)).2
    rw [this]
    exact hW n

/-! ## The points of a shooting -/

/-- The descriptors and one point of a member. -/
def rowPoint (off n : Nat) (p : Fin n) : Row →ₗ[ℝ] Row × Vec d where
  toFun x := (x, block (d := d) (n := n) off x p)
  map_add' _ _ := rfl
  map_smul' _ _ := rfl

theorem probe_of_orbit {s : Solver} {it : Nat} {t1 : ℝ} {controls : List (Ctrl d)} {m : DefModule d} {x : Vec d} {l : List (Row × Vec d)}
    (h : probeOrbit s it t1 controls m (gdRow m, x) = .ok l) : probe s it t1 controls m x = (l.getLastD (gdRow m, x)).2 := by
  unfold probe; rw [h]

/-- The points of every member end where the shooting takes them. -/
theorem probe_at {ms : List (DefModule d)} {s : Solver} {it : Nat} {t1 : ℝ} {controls : List (Ctrl d)} {r : Shot d}
    (h : shootControls s it t1 controls (.compound ms) = .ok r) {i n : Nat} {x : Fin n → Vec d} (hx : (DefModule.compound ms).manifold.At i x) :
    r.module.manifold.At i fun p => probe s it t1 controls (.compound ms) (x p) := by
  obtain ⟨-, xs, h1, h2, h3, -⟩ := shootC_parts h
  rw [manifold_of_reset h3, DefModule.manifold_withGd]
  have := (hx.withGd (xs.getLastD (gdRow (.compound ms)))).1
  refine cast (congrArg _ (funext fun p => ?_)) this
  have ho := orbitWith_map (rowPoint (d := d) ((DefModule.compound ms).manifold.off i) n p) (Z := fun i j => probeRhs (.compound ms) controls t1 it
    (s.stageTime (gridTime t1 it i) (gridTime t1 it (i + 1)) j) (s.stages * i + j)) (fun i' j y k hk => by
      obtain ⟨c, h5, h6⟩ := bind_eq_ok hk
      obtain ⟨f, h7, h8⟩ := ctrlRhs_vel h6
      unfold probeRhs
      rw [h5]
      show (ctrlVel _ c y).map _ = _
      rw [h7]
      show Except.ok _ = Except.ok _
      congr 1
      exact Prod.ext rfl (h8 i n x hx p).symm) it h1
  have e0 : rowPoint (d := d) ((DefModule.compound ms).manifold.off i) n p (gdRow (.compound ms)) = (gdRow (.compound ms), x p) :=
    Prod.ext rfl (congrFun hx.row p)
  rw [e0] at ho
  rw [probe_of_orbit ho, ← e0, getLastD_map]
  rfl

/-! ## Shapes in front -/

theorem gdRow_silents (S : List (Mfd d)) (B : List (DefModule d)) :
    dropBlock 0 (Mfd.sizeAll S) (gdRow (.compound (S.map DefModule.silent ++ B))) = gdRow (.compound B) := by
  unfold gdRow
  have hS : DefModule.manifolds (S.map DefModule.silent) = S := by
    induction S with
    | nil => rfl
    | cons M S ih => rw [List.map_cons, DefModule.manifolds, DefModule.manifold, ih]
  rw [DefModule.manifold, DefModule.manifold, manifolds_append, Mfd.unrollGd, Mfd.unrollGd, unrollGdAll_append, List.flatten_append, hS,
    ← Mfd.length_unrollGdAll]
  have := dropBlock_rowOf [] (Mfd.unrollGdAll S).flatten (Mfd.unrollGdAll (DefModule.manifolds B)).flatten
  rwa [List.nil_append, List.nil_append, List.length_nil] at this

/-- Leaving out the block, and keeping the point. -/
def dropPoint (n : Nat) : Row × Vec d →ₗ[ℝ] Row × Vec d where
  toFun z := (dropBlock 0 n z.1, z.2)
  map_add' _ _ := by simp
  map_smul' _ _ := by simp

/-- The controls without those of the first `k` members. -/
def Ctrl.behind (k : Nat) : Ctrl d → Ctrl d
  | .list l => .list (l.drop k)
  | c => c

theorem ctrlVel_list {ms : List (DefModule d)} {c : Ctrl d} {x : Row} {v : Row × FieldExpr d} (h : ctrlVel (.compound ms) c x = .ok v) :
    ∃ l, c = .list l ∧ l.length = ms.length := by
  obtain ⟨r, h1, -⟩ := bind_eq_ok h
  have h2 := (ctrlEval_ok h1).1
  rw [DefModule.withGd] at h2
  cases c with
  | list l =>
    rw [DefModule.fillControls] at h2
    split at h2
    · next e => exact ⟨l, rfl, by rwa [length_withGds] at e⟩
    · cases h2
  | _ => simp [DefModule.fillControls] at h2

/-- Silent modules in front, whatever controls they are given, do not change where a point goes. -/
theorem probe_silents (S : List (Mfd d)) {B : List (DefModule d)} (hB : B ≠ []) {s : Solver} {it : Nat} {t1 : ℝ} {controls : List (Ctrl d)}
    {r : Shot d}
    (h : shootControls s it t1 controls (.compound (S.map DefModule.silent ++ B)) = .ok r) :
    probe s it t1 controls (.compound (S.map DefModule.silent ++ B)) = probe s it t1 (controls.map (Ctrl.behind S.length)) (.compound B) := by
  obtain ⟨-, xs, h1, -⟩ := shootC_parts h
  funext x
  -- the run of the descriptors alone can be extended by the point
  have hp : ∃ l, probeOrbit s it t1 controls (.compound (S.map DefModule.silent ++ B)) (gdRow (.compound (S.map DefModule.silent ++ B)), x) = .ok l := by
    obtain ⟨l, hl⟩ := orbit_lift h1 x
    exact ⟨l, hl⟩
  obtain ⟨l, hl⟩ := hp
  have ho := orbitWith_map (dropPoint (d := d) (Mfd.sizeAll S)) (Z := fun i j => probeRhs (.compound B) (controls.map (Ctrl.behind S.length)) t1 it
    (s.stageTime (gridTime t1 it i) (gridTime t1 it (i + 1)) j) (s.stages * i + j)) (fun i' j y k hk => by
      obtain ⟨c, h5, h6⟩ := bind_eq_ok hk
      obtain ⟨v, h7, rfl⟩ := map_eq_ok h6
      obtain ⟨l, rfl, hlen⟩ := ctrlVel_list h7
      rw [List.length_append, List.length_map] at hlen
      rw [← List.take_append_drop S.length l] at h7
      obtain ⟨f', h8, h9⟩ := ctrlVel_silents hB S (l.take S.length) (l.drop S.length) (by rw [List.length_take]; omega) _ _ _ h7
      have h10 : pickControls (controls.map (Ctrl.behind S.length)) it (tToIt t1 it (s.stageTime (gridTime t1 it i') (gridTime t1 it (i' + 1)) j)) (s.stages * i' + j)
          = .ok (.list (l.drop S.length)) := by
        unfold pickControls at h5 ⊢
        rw [List.length_map]
        dsimp only at h5 ⊢
        rw [List.getElem?_map]
        split at h5
        · cases h5
        · next c' e => obtain rfl := Except.ok.inj h5; rw [e]; rfl
      unfold probeRhs
      rw [h10]
      show (ctrlVel (.compound B) (.list (l.drop S.length)) (dropBlock 0 (Mfd.sizeAll S) y.1)).map _ = _
      rw [h8]
      exact congrArg (fun V : Vec d → Vec d => Except.ok (dropBlock 0 (Mfd.sizeAll S) v.1, V y.2)) h9) it hl
  rw [probe_of_orbit hl]
  have e0 : dropPoint (d := d) (Mfd.sizeAll S) (gdRow (.compound (S.map DefModule.silent ++ B)), x) = (gdRow (.compound B), x) :=
    Prod.ext (gdRow_silents S B) rfl
  rw [e0] at ho
  rw [probe_of_orbit ho, ← e0, getLastD_map]
  rfl

end
end Imodal
