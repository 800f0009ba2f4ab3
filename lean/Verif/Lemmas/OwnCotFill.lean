import Verif.Lemmas.Envelope
import Verif.Lemmas.Shoot
/-! Filling controls commutes with replacing the momentum. -/
set_option autoImplicit false
namespace Imodal
noncomputable section
open Matrix
variable {d : Nat}

theorem length_withCotAll (y : Row) : (ms : List (DefModule d)) → (off : Nat) → (DefModule.withCotAll y off ms).length = ms.length
  | [], _ => by rw [DefModule.withCotAll]
  | m :: ms, off => by rw [DefModule.withCotAll, List.length_cons, List.length_cons, length_withCotAll y ms]

mutual
theorem fill_withCot (y : Row) : (m : DefModule d) → (off : Nat) → (c : Ctrl d) →
    (m.withCot y off).fillControls c = (m.fillControls c).map (·.withCot y off)
  | .translations m, off, c => by
    cases c <;> simp only [DefModule.withCot, DefModule.fillControls, Except.map]
    split <;> simp [DefModule.withCot]
  | .implicit0 m, off, c => by
    cases c <;> simp only [DefModule.withCot, DefModule.fillControls, Except.map]
    split <;> simp [DefModule.withCot]
  | .oriented m, off, c => by
    cases c <;> simp only [DefModule.withCot, DefModule.fillControls, Except.map]
    split <;> simp [DefModule.withCot]
  | .constrained m, off, c => by
    cases c <;> simp only [DefModule.withCot, DefModule.fillControls, Except.map]
  | .globalTranslation m, off, c => by
    cases c <;> simp only [DefModule.withCot, DefModule.fillControls, Except.map]
  | .linear m, off, c => by
    cases c <;> simp only [DefModule.withCot, DefModule.fillControls, Except.map]
  | .implicit1 m, off, c => by
    cases c <;> simp only [DefModule.withCot, DefModule.fillControls, Except.map]
    split
    · rw [Implicit1.fill_cot]
      exact wrap_map (fun a => by rw [DefModule.withCot]) _
    · rfl
  | .divFree m, off, c => by
    cases c <;> simp only [DefModule.withCot, DefModule.fillControls, Except.map]
    split
    · rw [DivFree.fill_cot]
      exact wrap_map (fun a => by rw [DefModule.withCot]) _
    · rfl
  | .arap m, off, c => by
    cases c <;> simp only [DefModule.withCot, DefModule.fillControls, Except.map]
    split
    · rw [Arap.fill_cot]
      exact wrap_map (fun a => by rw [DefModule.withCot]) _
    · rfl
  | .silent s, off, c => by
    cases c <;> simp only [DefModule.withCot, DefModule.fillControls, Except.map]
  | .compound ms, off, c => by
    cases c <;> simp only [DefModule.withCot, DefModule.fillControls, Except.map]
    rw [length_withCotAll]
    split
    · rw [fillAll_withCot y ms off]
      cases DefModule.fillAll ms _ <;> simp [Except.map, DefModule.withCot]
    · rfl
theorem fillAll_withCot (y : Row) : (ms : List (DefModule d)) → (off : Nat) → (cs : List (Ctrl d)) →
    DefModule.fillAll (DefModule.withCotAll y off ms) cs = (DefModule.fillAll ms cs).map (DefModule.withCotAll y off)
  | [], off, cs => by rw [DefModule.withCotAll, fillAll_nil]; simp [Except.map, DefModule.withCotAll]
  | m :: ms, off, [] => by simp [DefModule.withCotAll, DefModule.fillAll, Except.map]
  | m :: ms, off, c :: cs => by
    rw [DefModule.withCotAll, DefModule.fillAll, DefModule.fillAll, fill_withCot y m off c, fillAll_withCot y ms]
    cases h1 : m.fillControls c with
    | error e => rfl
    | ok m' =>
      cases DefModule.fillAll ms cs with
      | error e => rfl
      | ok ms' => simp [Except.map, DefModule.withCotAll, fill_manifold m h1]
end

mutual
theorem action_withCot (y : Row) (f : FieldExpr d) : (M : Mfd d) → (off : Nat) → (M.withCot y off).action f = M.action f
  | .landmarks _ _, _ => by rw [Mfd.withCot, Mfd.action, Mfd.action]
  | .direction _ _ _ _ _, _ => by rw [Mfd.withCot, Mfd.action, Mfd.action]
  | .frame _ _ _ _, _ => by rw [Mfd.withCot, Mfd.action, Mfd.action]
  | .empty, _ => by rw [Mfd.withCot]
  | .compound ms, off => by rw [Mfd.withCot, Mfd.action, Mfd.action, actionAll_withCot y f ms]
theorem actionAll_withCot (y : Row) (f : FieldExpr d) : (ms : List (Mfd d)) → (off : Nat) →
    Mfd.actionAll f (Mfd.withCotAll y off ms) = Mfd.actionAll f ms
  | [], _ => by rw [Mfd.withCotAll]
  | m :: ms, off => by
    rw [Mfd.withCotAll, Mfd.actionAll, Mfd.actionAll, action_withCot y f m, actionAll_withCot y f ms]
end

mutual
/-- Where the inner product with a field exists, so does the action, whatever the momentum. -/
theorem action_of_innerProd {f : FieldExpr d} : (M : Mfd d) → {a : ℝ} → M.innerProd f = .ok a → ∃ w, M.action f = .ok w
  | .landmarks gd _, a, h => by
    rw [Mfd.innerProd] at h; rw [Mfd.action]
    cases h1 : actLandmarks gd f with
    | error e => rw [h1] at h; cases h
    | ok v => exact ⟨_, rfl⟩
  | .direction t gd dir _ _, a, h => by
    rw [Mfd.innerProd] at h; rw [Mfd.action]
    cases h1 : actDirection t gd dir f with
    | error e => rw [h1] at h; cases h
    | ok v => exact ⟨_, rfl⟩
  | .frame gd R _ _, a, h => by
    rw [Mfd.innerProd] at h; rw [Mfd.action]
    cases h1 : actFrame gd R f with
    | error e => rw [h1] at h; cases h
    | ok v => exact ⟨_, rfl⟩
  | .empty, a, h => by rw [Mfd.action]; exact ⟨_, rfl⟩
  | .compound ms, a, h => by
    rw [Mfd.innerProd] at h
    obtain ⟨ws, hw⟩ := actionAll_of_innerProd ms h
    rw [Mfd.action, hw]; exact ⟨_, rfl⟩
theorem actionAll_of_innerProd {f : FieldExpr d} : (ms : List (Mfd d)) → {a : ℝ} → Mfd.innerProdAll f ms = .ok a →
    ∃ ws, Mfd.actionAll f ms = .ok ws
  | [], a, h => by rw [Mfd.actionAll]; exact ⟨_, rfl⟩
  | m :: ms, a, h => by
    rw [Mfd.innerProdAll] at h
    cases h1 : m.innerProd f with
    | error e => rw [h1] at h; cases h
    | ok b =>
      rw [h1] at h; dsimp only at h
      cases h2 : Mfd.innerProdAll f ms with
      | error e => rw [h2] at h; cases h
      | ok c =>
        obtain ⟨w, hw⟩ := action_of_innerProd m h1
        obtain ⟨ws, hws⟩ := actionAll_of_innerProd ms h2
        rw [Mfd.actionAll, hw]; dsimp only; rw [hws]; exact ⟨_, rfl⟩
end

mutual
/-- The inner product for a momentum read from a row is the row times the velocities. -/
theorem innerProd_of_action {f : FieldExpr d} (p : Row) : (M : Mfd d) → (off : Nat) → {w : Tan d} → M.action f = .ok w →
    ∃ a, (M.withCot p off).innerProd f = .ok a
  | .landmarks gd _, off, w, h => by
    rw [Mfd.action] at h; rw [Mfd.withCot, Mfd.innerProd]
    cases h1 : actLandmarks gd f with
    | error e => rw [h1] at h; cases h
    | ok v => exact ⟨_, rfl⟩
  | .direction t gd dir _ _, off, w, h => by
    rw [Mfd.action] at h; rw [Mfd.withCot, Mfd.innerProd]
    cases h1 : actDirection t gd dir f with
    | error e => rw [h1] at h; cases h
    | ok v => exact ⟨_, rfl⟩
  | .frame gd R _ _, off, w, h => by
    rw [Mfd.action] at h; rw [Mfd.withCot, Mfd.innerProd]
    cases h1 : actFrame gd R f with
    | error e => rw [h1] at h; cases h
    | ok v => exact ⟨_, rfl⟩
  | .empty, off, w, h => by rw [Mfd.withCot, Mfd.innerProd]; exact ⟨_, rfl⟩
  | .compound ms, off, w, h => by
    rw [Mfd.action] at h
    cases h1 : Mfd.actionAll f ms with
    | error e => rw [h1] at h; cases h
    | ok ws =>
      rw [Mfd.withCot, Mfd.innerProd]; exact innerProdAll_of_action p ms off h1
theorem innerProdAll_of_action {f : FieldExpr d} (p : Row) : (ms : List (Mfd d)) → (off : Nat) → {ws : List (Tan d)} →
    Mfd.actionAll f ms = .ok ws → ∃ a, Mfd.innerProdAll f (Mfd.withCotAll p off ms) = .ok a
  | [], off, ws, h => by rw [Mfd.withCotAll, Mfd.innerProdAll]; exact ⟨_, rfl⟩
  | m :: ms, off, ws, h => by
    rw [Mfd.actionAll] at h
    cases h1 : m.action f with
    | error e => rw [h1] at h; cases h
    | ok b =>
      rw [h1] at h; dsimp only at h
      cases h2 : Mfd.actionAll f ms with
      | error e => rw [h2] at h; cases h
      | ok c =>
        obtain ⟨a, ha⟩ := innerProd_of_action p m off h1
        obtain ⟨b, hb⟩ := innerProdAll_of_action p ms (off + m.size) h2
        rw [Mfd.withCotAll, Mfd.innerProdAll, ha]; dsimp only; rw [hb]; exact ⟨_, rfl⟩
end

theorem innerProd_row {f : FieldExpr d} (p : Row) (M : Mfd d) (off : Nat) {w : Tan d} (h : M.action f = .ok w) :
    (M.withCot p off).innerProd f = .ok (dotRow p off w.unroll.flatten) := by
  obtain ⟨a, ha⟩ := innerProd_of_action p M off h
  rw [ha, innerProd_ok _ ha, pair_withCot, action_moves M h]

end
end Imodal
