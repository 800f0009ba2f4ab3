import Verif.Lemmas.Mono
import Verif.Lemmas.Rows
/-!
# A module does not read its own momentum

Geodesic controls are computed from the momentum handed over; the field and the cost from
descriptors and controls.
-/
set_option autoImplicit false
namespace Imodal
noncomputable section
open Matrix
variable {d : Nat}

theorem Translations.geodesic_cot {n : Nat} (m : Translations d n) (c : Fin n → Vec d) (man : Mfd d) :
    ({ m with cot := c } : Translations d n).geodesic man = (m.geodesic man).map fun m' => { m' with cot := c } := by
  unfold Translations.geodesic
  dsimp only
  cases man.cotToVs m.σ m.r with
  | error e => rfl
  | ok vs =>
    dsimp only
    cases vs.values m.gd with
    | error e => rfl
    | ok V =>
      dsimp only
      cases m.r <;> dsimp only
      · cases linSolveCols (Matrix.of (kXX m.σ m.gd)) V <;> rfl
      · cases keopsSolveCols (Matrix.of fun i j => keopsGauss m.σ (m.gd i) (m.gd j)) V <;> rfl

theorem Implicit0.geodesic_cot {n : Nat} (m : Implicit0 d n) (c : Fin n → Vec d) (man : Mfd d) :
    ({ m with cot := c } : Implicit0 d n).geodesic man = (m.geodesic man).map fun m' => { m' with cot := c } := by
  unfold Implicit0.geodesic
  dsimp only
  cases man.cotToVs m.σ m.r with
  | error e => rfl
  | ok vs =>
    dsimp only
    cases vs.values m.gd with
    | error e => rfl
    | ok V =>
      dsimp only
      cases m.r <;> dsimp only
      · cases linSolveCols (Matrix.of (kXX m.σ m.gd) + m.ν • (1 : Matrix (Fin n) (Fin n) ℝ)) V with
        | error e => rfl
        | ok c => dsimp only; cases tdiv 1 m.coeff <;> rfl
      · cases keopsSolveCols (Matrix.of (fun i j => keopsGauss0 m.σ (m.gd i) (m.gd j)) + m.ν • (1 : Matrix (Fin n) (Fin n) ℝ)) V with
        | error e => rfl
        | ok c => dsimp only; cases tdiv 1 m.coeff <;> rfl

theorem Oriented.geodesic_cot {n : Nat} (m : Oriented d n) (c c' : Fin n → Vec d) (man : Mfd d) :
    ({ m with cot := c, cdir := c' } : Oriented d n).geodesic man
      = (m.geodesic man).map fun m' => { m' with cot := c, cdir := c' } := by
  unfold Oriented.geodesic
  dsimp only
  cases man.cotToVs m.σ .torch with
  | error e => rfl
  | ok vs =>
    dsimp only
    cases vs.values m.gd with
    | error e => rfl
    | ok V =>
      dsimp only
      cases linSolve (Matrix.of fun i j => kXX m.σ m.gd i j * ∑ c, m.dir i c * m.dir j c)
          (fun i => ∑ c, V i c * m.dir i c) with
      | error e => rfl
      | ok c => dsimp only; cases tdiv 1 m.coeff <;> rfl

theorem Constrained.geodesic_cot {n p : Nat} (m : Constrained d n p) (c : Fin n → Vec d) (man : Mfd d) :
    ({ m with cot := c } : Constrained d n p).geodesic man = (m.geodesic man).map fun m' => { m' with cot := c } := by
  unfold Constrained.geodesic
  dsimp only
  cases man.innerProd (.f0 .torch (m.fsupp m.gd) (m.fvec m.gd) m.σ) with
  | error e => rfl
  | ok a =>
    dsimp only
    have : ({ m with cot := c } : Constrained d n p).energy = m.energy := rfl
    rw [this]
    cases tdiv a (m.coeff * m.energy) <;> rfl

theorem Linear.geodesic_cot (m : Linear d) (c : Vec d) (man : Mfd d) :
    ({ m with cot := c } : Linear d).geodesic man = (m.geodesic man).map fun m' => { m' with cot := c } := by
  unfold Linear.geodesic
  dsimp only
  cases man.innerProd (.affine m.A m.gd 0) with
  | error e => rfl
  | ok a => dsimp only; cases tdiv a m.coeff <;> rfl

theorem Implicit1.computeMoments_cot {n p : Nat} (m : Implicit1 d n p) (c : Fin n → Vec d) (C : Fin n → Mat d) :
    ({ m with cot := c, cR := C } : Implicit1 d n p).computeMoments
      = m.computeMoments.map fun m' => { m' with cot := c, cR := C } := by
  unfold Implicit1.computeMoments
  have h1 : ({ m with cot := c, cR := C } : Implicit1 d n p).solve = m.solve := rfl
  have h2 : ({ m with cot := c, cR := C } : Implicit1 d n p).aqh = m.aqh := rfl
  dsimp only
  rw [h1, h2]
  cases m.solve (m.aqh m.ctrl) <;> rfl

theorem Implicit1.fill_cot {n p : Nat} (m : Implicit1 d n p) (c : Fin n → Vec d) (C : Fin n → Mat d) (h : Fin p → ℝ) :
    ({ m with cot := c, cR := C } : Implicit1 d n p).fill h = (m.fill h).map fun m' => { m' with cot := c, cR := C } :=
  Implicit1.computeMoments_cot { m with ctrl := h } c C

theorem Implicit1.geodesic_cot {n p : Nat} (m : Implicit1 d n p) (c : Fin n → Vec d) (C : Fin n → Mat d) (man : Mfd d) :
    ({ m with cot := c, cR := C } : Implicit1 d n p).geodesic man
      = (m.geodesic man).map fun m' => { m' with cot := c, cR := C } := by
  unfold Implicit1.geodesic
  have h1 : ({ m with cot := c, cR := C } : Implicit1 d n p).solve = m.solve := rfl
  have h2 : ({ m with cot := c, cR := C } : Implicit1 d n p).aqCol = m.aqCol := rfl
  have h3 : ({ m with cot := c, cR := C } : Implicit1 d n p).aqkiaq = m.aqkiaq := rfl
  rw [h1, h2, h3]
  dsimp only
  cases man.cotToVs m.σ m.r with
  | error e => rfl
  | ok vs =>
    dsimp only
    cases vs.jacobians m.gd with
    | error e => rfl
    | ok J =>
      dsimp only
      cases m.solve (strains J) with
      | error e => rfl
      | ok tl =>
        dsimp only
        cases tdiv 1 m.coeff with
        | error e => rfl
        | ok u =>
          dsimp only
          cases m.aqkiaq with
          | error e => rfl
          | ok Q =>
            dsimp only
            cases linSolve Q (fun i => ∑ q, m.aqCol i q * (tl q / m.coeff)) with
            | error e => rfl
            | ok x =>
              dsimp only
              rw [Implicit1.fill_cot]
              cases m.fill x with
              | error e => rfl
              | ok m' =>
                simp only [Except.map]
                cases m.r
                · exact Implicit1.computeMoments_cot m' c C
                · rfl

theorem DivFree.computeMoments_cot {N P : Nat} (m : DivFree d N P) (c : Fin (N + P) → Vec d) :
    ({ m with cot := c } : DivFree d N P).computeMoments = m.computeMoments.map fun m' => { m' with cot := c } := by
  unfold DivFree.computeMoments
  have h1 : ({ m with cot := c } : DivFree d N P).SKS = m.SKS := rfl
  rw [h1]
  dsimp only
  cases linSolve m.SKS _ <;> rfl

theorem DivFree.fill_cot {N P : Nat} (m : DivFree d N P) (c : Fin (N + P) → Vec d) (h : Fin P → Vec d) :
    ({ m with cot := c } : DivFree d N P).fill h = (m.fill h).map fun m' => { m' with cot := c } :=
  DivFree.computeMoments_cot { m with ctrl := h } c

theorem DivFree.geodesic_cot {N P : Nat} (m : DivFree d N P) (c : Fin (N + P) → Vec d) (man : Mfd d) :
    ({ m with cot := c } : DivFree d N P).geodesic man = (m.geodesic man).map fun m' => { m' with cot := c } := by
  unfold DivFree.geodesic
  have h1 : ({ m with cot := c } : DivFree d N P).SKS = m.SKS := rfl
  have h2 : ({ m with cot := c } : DivFree d N P).X = m.X := rfl
  have h3 : ({ m with cot := c } : DivFree d N P).Y = m.Y := rfl
  rw [h1, h2, h3]
  dsimp only
  cases man.cotToVs m.σ .torch with
  | error e => rfl
  | ok vs =>
    dsimp only
    cases vs.jacobians m.X with
    | error e => rfl
    | ok J =>
      dsimp only
      cases vs.values m.Y with
      | error e => rfl
      | ok V =>
        dsimp only
        cases linSolve m.SKS.toBlocks₁₁ (fun i => m.coeffDiv * ∑ k, J i k k) with
        | error e => rfl
        | ok x =>
          dsimp only
          by_cases hc : m.coeff = 0
          · rw [if_pos hc, if_pos hc]; rfl
          · rw [if_neg hc, if_neg hc, DivFree.fill_cot]
            cases m.fill (fun j c => (1 / m.coeff) * (-(m.SKS.toBlocks₂₁.mulVec x) (j, c) + V j c)) with
            | error e => rfl
            | ok m' => exact DivFree.computeMoments_cot m' c

theorem Arap.computeMoments_cot {N P : Nat} (m : Arap d N P) (c : Fin (N + P) → Vec d) :
    ({ m with cot := c } : Arap d N P).computeMoments = m.computeMoments.map fun m' => { m' with cot := c } := by
  unfold Arap.computeMoments
  have h1 : ({ m with cot := c } : Arap d N P).SKS = m.SKS := rfl
  rw [h1]
  dsimp only
  cases linSolve m.SKS _ <;> rfl

theorem Arap.fill_cot {N P : Nat} (m : Arap d N P) (c : Fin (N + P) → Vec d) (h : Fin P → Vec d) :
    ({ m with cot := c } : Arap d N P).fill h = (m.fill h).map fun m' => { m' with cot := c } :=
  Arap.computeMoments_cot { m with ctrl := h } c

theorem Arap.geodesic_cot {N P : Nat} (m : Arap d N P) (c : Fin (N + P) → Vec d) (man : Mfd d) :
    ({ m with cot := c } : Arap d N P).geodesic man = (m.geodesic man).map fun m' => { m' with cot := c } := by
  unfold Arap.geodesic
  have h1 : ({ m with cot := c } : Arap d N P).SKS = m.SKS := rfl
  have h2 : ({ m with cot := c } : Arap d N P).X = m.X := rfl
  have h3 : ({ m with cot := c } : Arap d N P).Y = m.Y := rfl
  rw [h1, h2, h3]
  dsimp only
  cases man.cotToVs m.σ .torch with
  | error e => rfl
  | ok vs =>
    dsimp only
    cases vs.jacobians m.X with
    | error e => rfl
    | ok J =>
      dsimp only
      cases vs.values m.Y with
      | error e => rfl
      | ok V =>
        dsimp only
        cases linSolve m.SKS.toBlocks₁₁ (strains fun i => m.coeffArap • J i) with
        | error e => rfl
        | ok x =>
          dsimp only
          by_cases hc : m.coeff = 0
          · rw [if_pos hc, if_pos hc]; rfl
          · rw [if_neg hc, if_neg hc, Arap.fill_cot]
            cases m.fill (fun j c => (1 / m.coeff) * (-(m.SKS.toBlocks₂₁.mulVec x) (j, c) + V j c)) with
            | error e => rfl
            | ok m' => exact Arap.computeMoments_cot m' c

theorem wrap_map {α : Type} {f : α → DefModule d} {g : α → α} {G : DefModule d → DefModule d} (h : ∀ a, f (g a) = G (f a))
    (x : Py α) : wrap f (x.map g) = (wrap f x).map G := by
  cases x with
  | error e => rfl
  | ok a => exact congrArg Except.ok (h a)

mutual
theorem geodesic_withCot (y : Row) (man : Mfd d) : (m : DefModule d) → (off : Nat) →
    (m.withCot y off).geodesic man = (m.geodesic man).map (·.withCot y off)
  | .translations m, off => by
    rw [DefModule.withCot, DefModule.geodesic, DefModule.geodesic, Translations.geodesic_cot]
    exact wrap_map (fun a => by rw [DefModule.withCot]) _
  | .implicit0 m, off => by
    rw [DefModule.withCot, DefModule.geodesic, DefModule.geodesic, Implicit0.geodesic_cot]
    exact wrap_map (fun a => by rw [DefModule.withCot]) _
  | .oriented m, off => by
    rw [DefModule.withCot, DefModule.geodesic, DefModule.geodesic, Oriented.geodesic_cot]
    exact wrap_map (fun a => by rw [DefModule.withCot]) _
  | .constrained m, off => by
    rw [DefModule.withCot, DefModule.geodesic, DefModule.geodesic, Constrained.geodesic_cot]
    exact wrap_map (fun a => by rw [DefModule.withCot]) _
  | .globalTranslation m, off => by
    rw [DefModule.withCot]
    cases h : (DefModule.globalTranslation m).geodesic man with
    | error e => rfl
    | ok m' =>
      rw [DefModule.geodesic] at h
      obtain ⟨a, -, rfl⟩ := wrap_ok h
      simp [Except.map, DefModule.withCot]
  | .linear m, off => by
    rw [DefModule.withCot, DefModule.geodesic, DefModule.geodesic, Linear.geodesic_cot]
    exact wrap_map (fun a => by rw [DefModule.withCot]) _
  | .implicit1 m, off => by
    rw [DefModule.withCot, DefModule.geodesic, DefModule.geodesic, Implicit1.geodesic_cot]
    exact wrap_map (fun a => by rw [DefModule.withCot]) _
  | .divFree m, off => by
    rw [DefModule.withCot, DefModule.geodesic, DefModule.geodesic, DivFree.geodesic_cot]
    exact wrap_map (fun a => by rw [DefModule.withCot]) _
  | .arap m, off => by
    rw [DefModule.withCot, DefModule.geodesic, DefModule.geodesic, Arap.geodesic_cot]
    exact wrap_map (fun a => by rw [DefModule.withCot]) _
  | .silent s, off => by rw [DefModule.withCot, DefModule.geodesic, DefModule.geodesic]; simp [Except.map, DefModule.withCot]
  | .compound ms, off => by
    rw [DefModule.withCot, DefModule.geodesic, DefModule.geodesic, geodesics_withCot y man ms off]
    cases DefModule.geodesics man ms with
    | error e => rfl
    | ok ms' => simp [Except.map, DefModule.withCot]
theorem geodesics_withCot (y : Row) (man : Mfd d) : (ms : List (DefModule d)) → (off : Nat) →
    DefModule.geodesics man (DefModule.withCotAll y off ms) = (DefModule.geodesics man ms).map (DefModule.withCotAll y off)
  | [], off => by rw [DefModule.withCotAll, DefModule.geodesics]; simp [Except.map, DefModule.withCotAll]
  | m :: ms, off => by
    rw [DefModule.withCotAll, DefModule.geodesics, DefModule.geodesics, geodesic_withCot y man m off,
      geodesics_withCot y man ms]
    cases h1 : DefModule.geodesic man m with
    | error e => rfl
    | ok m' =>
      cases DefModule.geodesics man ms with
      | error e => rfl
      | ok ms' =>
        simp [Except.map, DefModule.withCotAll, geodesic_manifold h1]
end

mutual
theorem field_withCot (y : Row) : (m : DefModule d) → (off : Nat) → (m.withCot y off).field = m.field
  | .translations m, off => by rw [DefModule.withCot, DefModule.field, DefModule.field]; rfl
  | .implicit0 m, off => by rw [DefModule.withCot, DefModule.field, DefModule.field]; rfl
  | .oriented m, off => by rw [DefModule.withCot, DefModule.field, DefModule.field]; rfl
  | .constrained m, off => by rw [DefModule.withCot, DefModule.field, DefModule.field]; rfl
  | .globalTranslation m, off => by rw [DefModule.withCot]
  | .linear m, off => by rw [DefModule.withCot, DefModule.field, DefModule.field]; rfl
  | .implicit1 m, off => by rw [DefModule.withCot, DefModule.field, DefModule.field]; rfl
  | .divFree m, off => by rw [DefModule.withCot, DefModule.field, DefModule.field]; rfl
  | .arap m, off => by rw [DefModule.withCot, DefModule.field, DefModule.field]; rfl
  | .silent s, off => by rw [DefModule.withCot, DefModule.field, DefModule.field]
  | .compound ms, off => by rw [DefModule.withCot, DefModule.field, DefModule.field, fields_withCot y ms]
theorem fields_withCot (y : Row) : (ms : List (DefModule d)) → (off : Nat) →
    DefModule.fields (DefModule.withCotAll y off ms) = DefModule.fields ms
  | [], off => by rw [DefModule.withCotAll]
  | m :: ms, off => by
    rw [DefModule.withCotAll, DefModule.fields, DefModule.fields, field_withCot y m, fields_withCot y ms]
end

mutual
theorem cost_withCot (y : Row) : (m : DefModule d) → (off : Nat) → (m.withCot y off).cost = m.cost
  | .translations m, off => by rw [DefModule.withCot, DefModule.cost, DefModule.cost]; rfl
  | .implicit0 m, off => by rw [DefModule.withCot, DefModule.cost, DefModule.cost]; rfl
  | .oriented m, off => by rw [DefModule.withCot, DefModule.cost, DefModule.cost]; rfl
  | .constrained m, off => by rw [DefModule.withCot, DefModule.cost, DefModule.cost]; rfl
  | .globalTranslation m, off => by rw [DefModule.withCot]
  | .linear m, off => by rw [DefModule.withCot, DefModule.cost, DefModule.cost]; rfl
  | .implicit1 m, off => by rw [DefModule.withCot, DefModule.cost, DefModule.cost]; rfl
  | .divFree m, off => by rw [DefModule.withCot, DefModule.cost, DefModule.cost]; rfl
  | .arap m, off => by rw [DefModule.withCot, DefModule.cost, DefModule.cost]; rfl
  | .silent s, off => by rw [DefModule.withCot, DefModule.cost, DefModule.cost]
  | .compound ms, off => by rw [DefModule.withCot, DefModule.cost, DefModule.cost, costs_withCot y ms]
theorem costs_withCot (y : Row) : (ms : List (DefModule d)) → (off : Nat) →
    DefModule.costs (DefModule.withCotAll y off ms) = DefModule.costs ms
  | [], off => by rw [DefModule.withCotAll]
  | m :: ms, off => by
    rw [DefModule.withCotAll, DefModule.costs, DefModule.costs, cost_withCot y m, costs_withCot y ms]
end

theorem hamiltonianOn_withCot (y : Row) (man : Mfd d) (m : DefModule d) (off : Nat) :
    hamiltonianOn man (m.withCot y off) = hamiltonianOn man m := by
  unfold hamiltonianOn
  rw [field_withCot, cost_withCot]

mutual
theorem inhabited_of_field : (m : DefModule d) → {f : FieldExpr d} → m.field = .ok f → m.Inhabited
  | .translations _, _, _ => by rw [DefModule.Inhabited]; trivial; all_goals simp
  | .implicit0 _, _, _ => by rw [DefModule.Inhabited]; trivial; all_goals simp
  | .oriented _, _, _ => by rw [DefModule.Inhabited]; trivial; all_goals simp
  | .constrained _, _, _ => by rw [DefModule.Inhabited]; trivial; all_goals simp
  | .globalTranslation _, _, _ => by rw [DefModule.Inhabited]; trivial; all_goals simp
  | .linear _, _, _ => by rw [DefModule.Inhabited]; trivial; all_goals simp
  | .implicit1 _, _, _ => by rw [DefModule.Inhabited]; trivial; all_goals simp
  | .divFree _, _, _ => by rw [DefModule.Inhabited]; trivial; all_goals simp
  | .arap _, _, _ => by rw [DefModule.Inhabited]; trivial; all_goals simp
  | .silent _, _, _ => by rw [DefModule.Inhabited]; trivial; all_goals simp
  | .compound ms, f, h => by
    rw [DefModule.field] at h
    rw [DefModule.Inhabited]
    cases h1 : DefModule.fields ms with
    | error e => rw [h1] at h; cases h
    | ok fs =>
      rw [h1] at h
      dsimp only at h
      refine ⟨?_, inhabited_of_fields ms h1⟩
      rintro rfl
      rw [DefModule.fields] at h1
      rw [← Except.ok.inj h1] at h
      cases h
theorem inhabited_of_fields : (ms : List (DefModule d)) → {fs : List (FieldExpr d)} → DefModule.fields ms = .ok fs → DefModule.AllInhabited ms
  | [], _, _ => by rw [DefModule.AllInhabited]; trivial
  | m :: ms, fs, h => by
    rw [DefModule.fields] at h
    rw [DefModule.AllInhabited]
    cases h1 : m.field with
    | error e => rw [h1] at h; cases h
    | ok f =>
      rw [h1] at h; dsimp only at h
      cases h2 : DefModule.fields ms with
      | error e => rw [h2] at h; cases h
      | ok fs' => exact ⟨inhabited_of_field m h1, inhabited_of_fields ms h2⟩
end

end
end Imodal
