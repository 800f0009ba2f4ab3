import Verif.Lemmas.Resume
import Verif.Spec.Resume
/-!
# Interrupting and resuming a shooting
-/
set_option autoImplicit false
namespace Imodal
noncomputable section
variable {d : Nat}

theorem odeint_ne_nil {σ V : Type} [AddCommGroup V] [Module ℝ V] {s : Solver} {f : ℝ → V → Prog σ V} {t1 : ℝ} {it : Nat} {y : V} {w w' : σ} {l : List V}
    (h : odeint s f t1 it y w = (.ok l, w')) : l ≠ [] := by
  unfold odeint at h
  split at h
  · cases h
  · rintro rfl
    cases it with
    | zero => rw [odeLoop] at h; exact absurd (pure_ok h).1 (List.cons_ne_nil _ _)
    | succ n =>
      rw [odeLoop] at h
      obtain ⟨_, _, _, h⟩ := bind_ok h
      obtain ⟨_, _, _, h⟩ := bind_ok h
      exact absurd (pure_ok h).1 (List.cons_ne_nil _ _)

theorem odeint_head {σ V : Type} [AddCommGroup V] [Module ℝ V] {s : Solver} {f : ℝ → V → Prog σ V} {t1 : ℝ} {it : Nat} {y : V} {w w' : σ} {l : List V}
    (h : odeint s f t1 it y w = (.ok l, w')) : l.head? = some y := by
  unfold odeint at h
  split at h
  · cases h
  · cases it with
    | zero => rw [odeLoop] at h; rw [← (pure_ok h).1]; rfl
    | succ n =>
      rw [odeLoop] at h
      obtain ⟨_, _, _, h⟩ := bind_ok h
      obtain ⟨_, _, _, h⟩ := bind_ok h
      rw [← (pure_ok h).1]; rfl

theorem getLastD_of_ne {α : Type} {l : List α} (h : l ≠ []) (a b : α) : l.getLastD a = l.getLastD b := by
  rw [List.getLastD_eq_getLast?, List.getLastD_eq_getLast?, List.getLast?_eq_some_getLast h]; rfl

theorem getLastD_append_ne {α : Type} {l l' : List α} (h : l' ≠ []) (a : α) : (l ++ l').getLastD a = l'.getLastD a := by
  rw [List.getLastD_eq_getLast?, List.getLastD_eq_getLast?, List.getLast?_append, List.getLast?_eq_some_getLast h]; rfl

theorem getLastD_mem_of_ne {α : Type} {l : List α} (h : l ≠ []) (a : α) : l.getLastD a ∈ l := by
  rw [List.getLastD_eq_getLast?, List.getLast?_eq_some_getLast h]; exact List.getLast_mem h

/-! ## From momenta -/

def momentsEval (m : DefModule d) (_ : ℝ) (_ : Nat) (x : Row × Row) : Py (DefModule d × (Row × Row)) := (evalAt m x).map fun m' => (m', hamVec m x)

theorem booked_moments (ms : List (DefModule d)) (t1 : ℝ) (it : Nat) : Booked (Inv ms) t1 it (forwardMoments t1 it) (momentsEval (.compound ms)) where
  run t x g hI := by
    rw [forward_run hI]
    unfold momentsEval
    cases evalAt (.compound ms) x <;> rfl
  keep t x g r hI h := by
    unfold momentsEval at h
    cases h1 : evalAt (.compound ms) x with
    | error e => rw [h1] at h; cases h
    | ok m' => rw [h1] at h; cases h; exact inv_after hI h1 ..

/-- Rows that end with the coordinates. -/
def cutRow (N : Nat) : Submodule ℝ Row where
  carrier := {x | ∀ j, N ≤ j → x j = 0}
  zero_mem' := fun _ _ => rfl
  add_mem' := fun {x y} hx hy j hj => by rw [Pi.add_apply, hx j hj, hy j hj, add_zero]
  smul_mem' := fun c x hx j hj => by rw [Pi.smul_apply, hx j hj, smul_zero]

theorem mem_cutRow {N : Nat} {x : Row} : x ∈ cutRow N ↔ cut N x = x :=
  ⟨fun h => cut_eq_self h, fun h j hj => by rw [← h]; exact cut_of_le hj⟩

def cutSub (N : Nat) : Submodule ℝ (Row × Row) := (cutRow N).prod (cutRow N)

theorem mem_cutSub {N : Nat} {x : Row × Row} : x ∈ cutSub N ↔ cut N x.1 = x.1 ∧ cut N x.2 = x.2 := by
  rw [← mem_cutRow, ← mem_cutRow]; exact Submodule.mem_prod

theorem hamVec_cut (m : DefModule d) (x : Row × Row) : hamVec m x ∈ cutSub (numCoords m) := by
  have h := cut_gradH Hamiltonian.geodesicControls (rowsMod m x)
  rw [numCoords_rowsMod, ← mem_cutRow, ← mem_cutRow] at h
  exact ⟨h.2, (cutRow _).neg_mem h.1⟩

theorem moments_mem {ms : List (DefModule d)} {t1 : ℝ} {it : Nat} {s : Solver} {y : Row × Row} {g g' : GradObj d} {l : List (Row × Row)} (hI : Inv ms g)
    (hy : y ∈ cutSub (numCoords (.compound ms))) (h : odeint s (forwardMoments t1 it) t1 it y g = (.ok l, g')) :
    ∀ x ∈ l, x ∈ cutSub (numCoords (.compound ms)) := by
  unfold odeint at h
  split at h
  · cases h
  · refine odeLoop_mem (I := Inv ms) (fun t x w k w' hw hk => ?_) s t1 it it 0 y g g' l hI hy h
    rw [(booked_moments ms t1 it).run _ _ _ hw] at hk
    have hkeep := (booked_moments ms t1 it).keep t x w
    unfold momentsEval at hk hkeep
    cases h1 : evalAt (.compound ms) x with
    | error e => rw [h1] at hk; cases hk
    | ok m' =>
      rw [h1] at hk hkeep
      cases hk
      exact ⟨hamVec_cut _ _, hkeep _ hw rfl⟩

theorem resume_times {T : ℝ} {n m : Nat} (hn : 0 < n) (hm : 0 < m) :
    T / ((n + m : Nat) : ℝ) = (T * n / (n + m)) / n ∧ T / ((n + m : Nat) : ℝ) = (T * m / (n + m)) / m := by
  have h1 : (n : ℝ) ≠ 0 := Nat.cast_ne_zero.2 (by omega)
  have h2 : (m : ℝ) ≠ 0 := Nat.cast_ne_zero.2 (by omega)
  have h3 : (n : ℝ) + m ≠ 0 := by have : ((n + m : Nat) : ℝ) ≠ 0 := Nat.cast_ne_zero.2 (by omega); exact_mod_cast this
  push_cast
  constructor <;> field_simp

theorem shootMoments_resume (s : Solver) {n m : Nat} (hn : 0 < n) (hm : 0 < m) (T : ℝ) (ms : List (DefModule d)) :
    (∃ e, shootMoments s (n + m) T (.compound ms) = .error e ∧ shootMoments s n (T * n / (n + m)) (.compound ms) = .error e)
    ∨ ∃ r₁, shootMoments s n (T * n / (n + m)) (.compound ms) = .ok r₁ ∧
      ((∃ e, shootMoments s (n + m) T (.compound ms) = .error e ∧ shootMoments s m (T * m / (n + m)) r₁.module = .error e)
      ∨ ∃ r r₂, shootMoments s (n + m) T (.compound ms) = .ok r ∧ shootMoments s m (T * m / (n + m)) r₁.module = .ok r₂
        ∧ r.trajectory = (r₁.join r₂).trajectory ∧ (s ≠ .rk4 → r = r₁.join r₂) ∧ r₁.states.getLast? = r₂.states.head?) := by
  have hnm : (n : ℝ) + m ≠ 0 := by have : ((n + m : Nat) : ℝ) ≠ 0 := Nat.cast_ne_zero.2 (by omega); exact_mod_cast this
  have h0 : T = 0 ↔ T * n / (n + m) = 0 := by
    rw [div_eq_zero_iff, mul_eq_zero]
    have : (n : ℝ) ≠ 0 := Nat.cast_ne_zero.2 (by omega)
    tauto
  by_cases hc : 0 < numCoords (.compound ms)
  swap
  · rw [shootMoments, shootMoments, C07_no_coordinates (DefModule.compound ms) (by omega)]
    exact .inl ⟨_, rfl, rfl⟩
  by_cases hp : PlainMembers ms
  swap
  · rw [shoot_not_plain hp hc, shoot_not_plain hp hc]
    refine .inl ⟨_, rfl, ?_⟩
    have e1 : (n ≠ 0 ∧ T * n / (n + m) = 0) ↔ (n + m ≠ 0 ∧ T = 0) := by
      rw [← h0]; constructor <;> rintro ⟨_, h⟩ <;> exact ⟨by omega, h⟩
    simp only [e1]
  by_cases hT : T = 0
  · have e1 : odeint s (forwardMoments T (n + m)) T (n + m) (gdRow (.compound ms), cotRow (.compound ms)) (GradObj.init (.compound ms))
        = (.error .assertion, GradObj.init (.compound ms)) := by unfold odeint; rw [if_pos ⟨by omega, hT⟩]
    have e2 : odeint s (forwardMoments (T * n / (n + m)) n) (T * n / (n + m)) n (gdRow (.compound ms), cotRow (.compound ms)) (GradObj.init (.compound ms))
        = (.error .assertion, GradObj.init (.compound ms)) := by unfold odeint; rw [if_pos ⟨by omega, h0.1 hT⟩]
    rw [shoot_of_run hp hc s _ _ e1, shoot_of_run hp hc s _ _ e2]
    exact .inl ⟨_, rfl, rfl⟩
  obtain ⟨t1, t2⟩ := resume_times (T := T) hn hm
  set y := (gdRow (.compound ms), cotRow (.compound ms)) with hy
  have hyW : y ∈ cutSub (numCoords (.compound ms)) := mem_cutSub.2 ⟨cut_gdRow _, cut_cotRow _⟩
  obtain ⟨e, v, v', h1, h2⟩ | ⟨l, g₁, h1, hI1, hrest⟩ := resume_run (booked_moments ms T (n + m)) (booked_moments ms (T * n / (n + m)) n)
    (booked_moments ms (T * m / (n + m)) m) hT hn hm t1 t2 s (fun _ _ _ _ _ => rfl) (fun _ _ _ _ _ => rfl) (inv_init hp) y
  · rw [shoot_of_run hp hc s _ _ h1, shoot_of_run hp hc s _ _ h2]
    exact .inl ⟨e, rfl, rfl⟩
  have hl := odeint_ne_nil h1
  rw [shoot_of_run hp hc s _ _ h1]
  refine .inr ⟨_, rfl, ?_⟩
  dsimp only
  set x := l.getLastD y with hx
  have hxW : x ∈ cutSub (numCoords (.compound ms)) := moments_mem (inv_init hp) hyW h1 x (getLastD_mem_of_ne hl y)
  obtain ⟨ms₁, e1, hp1, hs1⟩ := hI1
  set ms₂ := DefModule.withCotAll x.2 0 (DefModule.withGdAll x.1 0 ms₁) with hms₂
  have e2 : rowsMod g₁.module x = .compound ms₂ := by rw [e1, rowsMod_compound]
  have hp2 : PlainMembers ms₂ := plainMembers_withCot _ _ (plainMembers_withGd _ _ hp1)
  have hs2 : Same (.compound ms₂) (.compound ms) := by
    rw [← e2, e1]; exact (same_rowsMod _ x).trans hs1
  have hN : numCoords (.compound ms₂) = numCoords (.compound ms) := numCoords_same hs2
  have hc2 : 0 < numCoords (.compound ms₂) := by rw [hN]; exact hc
  have hrow : (gdRow (.compound ms₂), cotRow (.compound ms₂)) = x := by
    rw [← e2, gdRow_rowsMod, cotRow_rowsMod, e1, numCoords_same hs1]
    exact Prod.ext (mem_cutSub.1 hxW).1 (mem_cutSub.1 hxW).2
  rw [e2]
  obtain ⟨e, v, v', h2, h3⟩ | ⟨l', g, g₂, h2, h3, c1, c2, c3⟩ := hrest (.compound ms₂) ⟨ms₂, rfl, hp2, hs2⟩
  · rw [← hrow] at h3
    rw [shoot_of_run hp hc s _ _ h2, shoot_of_run hp2 hc2 s _ _ h3]
    exact .inl ⟨e, rfl, rfl⟩
  · have hl' := odeint_ne_nil h3
    rw [← hrow] at h3
    rw [shoot_of_run hp hc s _ _ h2, shoot_of_run hp2 hc2 s _ _ h3]
    have est : (l.dropLast ++ l').map (fun x => (rowsMod (.compound ms) x).manifold)
        = (l.map fun x => (rowsMod (.compound ms) x).manifold).dropLast ++ l'.map (fun x => (rowsMod (.compound ms₂) x).manifold) := by
      rw [List.map_append, List.map_dropLast]
      refine congrArg _ (List.map_congr_left fun x _ => ?_)
      exact (manifold_of_reset (hs2 x)).symm
    have emod : rowsMod g.module ((l.dropLast ++ l').getLastD y) = rowsMod g₂.module (l'.getLastD (gdRow (.compound ms₂), cotRow (.compound ms₂))) := by
      rw [getLastD_append_ne hl', getLastD_of_ne hl' y (gdRow (.compound ms₂), cotRow (.compound ms₂)), c1]
    have hhead := odeint_head h3
    refine .inr ⟨_, _, rfl, rfl, ?_, fun hs => ?_, ?_⟩
    · unfold Shot.trajectory Shot.join
      dsimp only
      rw [emod, est, c2]
    · unfold Shot.join
      dsimp only
      rw [emod, est, c2, c3 hs]
    · dsimp only
      rw [List.getLast?_map, List.head?_map, hhead, hrow, List.getLast?_eq_some_getLast hl]
      refine congrArg some ?_
      have : l.getLast hl = x := by rw [hx, List.getLastD_eq_getLast?, List.getLast?_eq_some_getLast hl]; rfl
      rw [this]
      exact (manifold_of_reset (hs2 x)).symm

/-! ## With given controls -/

def controlEval (m : DefModule d) (controls : List (Ctrl d)) (t1 : ℝ) (it : Nat) (t : ℝ) (k : Nat) (x : Row) : Py (DefModule d × Row) :=
  (pickControls controls it (tToIt t1 it t) k).bind fun c => ctrlEval m c x

theorem booked_control (ms : List (DefModule d)) (controls : List (Ctrl d)) (t1 : ℝ) (it : Nat) :
    Booked (InvC ms) t1 it (forwardControl controls t1 it) (controlEval (.compound ms) controls t1 it) where
  run t x g hI := by
    rw [forwardC_run hI]
    unfold controlEval
    cases pickControls controls it (tToIt t1 it t) g.it with
    | error e => rfl
    | ok c => dsimp only [Except.bind]; cases ctrlEval (.compound ms) c x <;> rfl
  keep t x g r hI h := by
    unfold controlEval at h
    cases h1 : pickControls controls it (tToIt t1 it t) g.it with
    | error e => rw [h1] at h; cases h
    | ok c => rw [h1] at h; exact invC_after hI h ..

theorem ctrlEval_cut {m : DefModule d} {c : Ctrl d} {x : Row} {r : DefModule d × Row} (h : ctrlEval m c x = .ok r) : r.2 ∈ cutRow (numCoords m) := by
  have h0 := (ctrlEval_ok h).1
  unfold ctrlEval at h
  rw [h0] at h
  dsimp only at h
  cases h2 : r.1.cost with
  | error e => rw [h2] at h; cases h
  | ok a =>
    rw [h2] at h
    dsimp only at h
    cases h3 : r.1.field with
    | error e => rw [h3] at h; cases h
    | ok f =>
      rw [h3] at h
      dsimp only at h
      cases h4 : r.1.manifold.action f with
      | error e => rw [h4] at h; cases h
      | ok v =>
        rw [h4] at h
        have e : r.2 = rowOf v.unroll.flatten := by rw [← Except.ok.inj h]
        have hl := length_fits v (fits_action f _ h4)
        rw [manifold_of_reset (reset_fill _ h0), DefModule.manifold_withGd, Mfd.size_withGd] at hl
        intro j hj
        rw [numCoords_eq, ← hl] at hj
        rw [e]
        unfold rowOf
        rw [List.getD_eq_getElem?_getD, List.getElem?_eq_none hj]; rfl

theorem control_mem {ms : List (DefModule d)} {controls : List (Ctrl d)} {t1 : ℝ} {it : Nat} {s : Solver} {y : Row} {g g' : GradObj d} {l : List Row}
    (hI : InvC ms g) (hy : y ∈ cutRow (numCoords (.compound ms))) (h : odeint s (forwardControl controls t1 it) t1 it y g = (.ok l, g')) :
    ∀ x ∈ l, x ∈ cutRow (numCoords (.compound ms)) := by
  unfold odeint at h
  split at h
  · cases h
  · refine odeLoop_mem (I := InvC ms) (fun t x w k w' hw hk => ?_) s t1 it it 0 y g g' l hI hy h
    rw [(booked_control ms controls t1 it).run _ _ _ hw] at hk
    have hkeep := (booked_control ms controls t1 it).keep t x w
    unfold controlEval at hk hkeep
    cases h1 : pickControls controls it (tToIt t1 it t) w.it with
    | error e => rw [h1] at hk; cases hk
    | ok c =>
      rw [h1] at hk hkeep
      dsimp only [Except.bind] at hk hkeep
      cases h2 : ctrlEval (.compound ms) c x with
      | error e => rw [h2] at hk; cases hk
      | ok r =>
        rw [h2] at hk hkeep
        cases hk
        exact ⟨ctrlEval_cut h2, hkeep _ hw rfl⟩

theorem pick_first {s : Solver} {n m : Nat} (hm : 0 < m) {c c₁ c₂ : List (Ctrl d)} (hc : SplitControls s n m c c₁ c₂) {i j : Nat} (hi : i < n)
    (hj : j < s.stages) :
    pickControls c (n + m) (s.stageIt (n + m) i j : Nat) (s.stages * i + j) = pickControls c₁ n (s.stageIt n i j : Nat) (s.stages * i + j) := by
  unfold pickControls
  dsimp only
  rw [Int.toNat_natCast, Int.toNat_natCast]
  obtain ⟨a, rfl, rfl, rfl⟩ | ⟨rfl, ⟨hs, h1, h2⟩ | ⟨rfl, h1, h2⟩ | ⟨rfl, h1, h2⟩⟩ := hc
  · rw [List.length_singleton, if_neg (by omega), if_neg (by omega)]
    by_cases h : 1 = n
    · rw [if_pos h]
      have : s.stageIt n i j = 0 := by
        have hi0 : i = 0 := by omega
        subst hi0
        unfold Solver.stageIt
        split
        · omega
        · rfl
      rw [this]
    · rw [if_neg h, if_neg (by omega)]
  · have hst : ∀ n i, s.stageIt n i j = i := fun n i => by cases s <;> first | rfl | exact absurd rfl hs
    rw [List.length_append, h1, h2, if_pos rfl, if_pos rfl, hst, hst, List.getElem?_append_left (by omega)]
  · have hj' : j < 2 := hj
    rw [List.length_append, h1, h2, if_neg (by omega), if_pos (by omega), if_neg (by omega), if_pos (by omega), List.getElem?_append_left]
    show 2 * i + j < _
    omega
  · have hj' : j < 4 := hj
    rw [List.length_append, h1, h2, if_neg (by omega), if_pos (by omega), if_neg (by omega), if_pos (by omega), List.getElem?_append_left]
    show 4 * i + j < _
    omega

theorem pick_second {s : Solver} {n m : Nat} (hn : 0 < n) {c c₁ c₂ : List (Ctrl d)} (hc : SplitControls s n m c c₁ c₂) {i j : Nat} (hi : i < m)
    (_hj : j < s.stages) :
    pickControls c (n + m) (s.stageIt (n + m) (n + i) j : Nat) (s.stages * n + (s.stages * i + j)) = pickControls c₂ m (s.stageIt m i j : Nat) (s.stages * i + j) := by
  unfold pickControls
  dsimp only
  rw [Int.toNat_natCast, Int.toNat_natCast]
  obtain ⟨a, rfl, rfl, rfl⟩ | ⟨rfl, ⟨hs, h1, h2⟩ | ⟨rfl, h1, h2⟩ | ⟨rfl, h1, h2⟩⟩ := hc
  · rw [List.length_singleton, if_neg (by omega), if_neg (by omega)]
    by_cases h : 1 = m
    · rw [if_pos h]
      have : s.stageIt m i j = 0 := by
        have hi0 : i = 0 := by omega
        subst hi0
        unfold Solver.stageIt
        split
        · omega
        · rfl
      rw [this]
    · rw [if_neg h, if_neg (by omega)]
  · have hst : ∀ n i, s.stageIt n i j = i := fun n i => by cases s <;> first | rfl | exact absurd rfl hs
    rw [List.length_append, h1, h2, if_pos rfl, if_pos rfl, hst, hst, List.getElem?_append_right (by omega), h1, Nat.add_sub_cancel_left]
  · rw [List.length_append, h1, h2, if_neg (by omega), if_pos (by omega), if_neg (by omega), if_pos (by omega), List.getElem?_append_right (by rw [h1]; exact Nat.le_add_right _ _), h1,
      show Solver.midpoint.stages = 2 from rfl, Nat.add_sub_cancel_left]
  · rw [List.length_append, h1, h2, if_neg (by omega), if_pos (by omega), if_neg (by omega), if_pos (by omega), List.getElem?_append_right (by rw [h1]; exact Nat.le_add_right _ _), h1,
      show Solver.rk4.stages = 4 from rfl, Nat.add_sub_cancel_left]

theorem shootControls_resume (s : Solver) {n m : Nat} (hn : 0 < n) (hm : 0 < m) (T : ℝ) {c c₁ c₂ : List (Ctrl d)} (hsplit : SplitControls s n m c c₁ c₂)
    (ms : List (DefModule d)) :
    (∃ e, shootControls s (n + m) T c (.compound ms) = .error e ∧ shootControls s n (T * n / (n + m)) c₁ (.compound ms) = .error e)
    ∨ ∃ r₁, shootControls s n (T * n / (n + m)) c₁ (.compound ms) = .ok r₁ ∧
      ((∃ e, shootControls s (n + m) T c (.compound ms) = .error e ∧ shootControls s m (T * m / (n + m)) c₂ r₁.module = .error e)
      ∨ ∃ r r₂, shootControls s (n + m) T c (.compound ms) = .ok r ∧ shootControls s m (T * m / (n + m)) c₂ r₁.module = .ok r₂
        ∧ r.trajectory = (r₁.join r₂).trajectory ∧ (s ≠ .rk4 → r = r₁.join r₂) ∧ r₁.states.getLast? = r₂.states.head?) := by
  have hnm : (n : ℝ) + m ≠ 0 := by have : ((n + m : Nat) : ℝ) ≠ 0 := Nat.cast_ne_zero.2 (by omega); exact_mod_cast this
  have hnR : (n : ℝ) ≠ 0 := Nat.cast_ne_zero.2 (by omega)
  have hmR : (m : ℝ) ≠ 0 := Nat.cast_ne_zero.2 (by omega)
  have h0 : T = 0 ↔ T * n / (n + m) = 0 := by
    rw [div_eq_zero_iff, mul_eq_zero]
    tauto
  by_cases hc : 0 < numCoords (.compound ms)
  swap
  · rw [shootControls, shootControls, C07_no_coordinates (DefModule.compound ms) (by omega)]
    exact .inl ⟨_, rfl, rfl⟩
  by_cases hp : PlainMembers ms
  swap
  · rw [shootC_not_plain hp hc, shootC_not_plain hp hc]
    refine .inl ⟨_, rfl, ?_⟩
    have e1 : (n ≠ 0 ∧ T * n / (n + m) = 0) ↔ (n + m ≠ 0 ∧ T = 0) := by
      rw [← h0]; constructor <;> rintro ⟨_, h⟩ <;> exact ⟨by omega, h⟩
    simp only [e1]
  by_cases hT : T = 0
  · have e1 : odeint s (forwardControl c T (n + m)) T (n + m) (gdRow (.compound ms)) (GradObj.init (.compound ms))
        = (.error .assertion, GradObj.init (.compound ms)) := by unfold odeint; rw [if_pos ⟨by omega, hT⟩]
    have e2 : odeint s (forwardControl c₁ (T * n / (n + m)) n) (T * n / (n + m)) n (gdRow (.compound ms)) (GradObj.init (.compound ms))
        = (.error .assertion, GradObj.init (.compound ms)) := by unfold odeint; rw [if_pos ⟨by omega, h0.1 hT⟩]
    rw [shootC_of_run hp hc s _ _ _ e1, shootC_of_run hp hc s _ _ _ e2]
    exact .inl ⟨_, rfl, rfl⟩
  have hT1 : T * n / (n + m) ≠ 0 := fun h => hT (h0.2 h)
  have hT2 : T * m / (n + m) ≠ 0 := div_ne_zero (mul_ne_zero hT hmR) hnm
  obtain ⟨t1, t2⟩ := resume_times (T := T) hn hm
  set y := gdRow (.compound ms) with hy
  have hyW : y ∈ cutRow (numCoords (.compound ms)) := mem_cutRow.2 (cut_gdRow _)
  obtain ⟨e, v, v', h1, h2⟩ | ⟨l, g₁, h1, hI1, hrest⟩ := resume_run (booked_control ms c T (n + m)) (booked_control ms c₁ (T * n / (n + m)) n)
    (booked_control ms c₂ (T * m / (n + m)) m) hT hn hm t1 t2 s
    (fun i hi j hj x => by
      unfold controlEval
      rw [tToIt_stage hT (by omega) s hj, tToIt_stage hT1 hi s hj, pick_first hm hsplit hi hj])
    (fun i hi j hj x => by
      unfold controlEval
      rw [tToIt_stage hT (by omega) s hj, tToIt_stage hT2 hi s hj, pick_second hn hsplit hi hj]) (invC_init hp) y
  · rw [shootC_of_run hp hc s _ _ _ h1, shootC_of_run hp hc s _ _ _ h2]
    exact .inl ⟨e, rfl, rfl⟩
  have hl := odeint_ne_nil h1
  rw [shootC_of_run hp hc s _ _ _ h1]
  refine .inr ⟨_, rfl, ?_⟩
  dsimp only
  set x := l.getLastD y with hx
  have hxW : x ∈ cutRow (numCoords (.compound ms)) := control_mem (invC_init hp) hyW h1 x (getLastD_mem_of_ne hl y)
  obtain ⟨ms₁, e1, hp1, hs1⟩ := hI1
  set ms₂ := DefModule.withGdAll x 0 ms₁ with hms₂
  have e2 : g₁.module.withGd x 0 = .compound ms₂ := by rw [e1, DefModule.withGd]
  have hp2 : PlainMembers ms₂ := plainMembers_withGd _ _ hp1
  have hs2 : SameGd (.compound ms₂) (.compound ms) := by
    rw [← e2, e1]; exact (sameGd_withGd _ x).trans hs1
  have hN : numCoords (.compound ms₂) = numCoords (.compound ms) := numCoords_same hs2.same
  have hc2 : 0 < numCoords (.compound ms₂) := by rw [hN]; exact hc
  have hrow : gdRow (.compound ms₂) = x := by
    rw [← e2, gdRow_withGd, e1, numCoords_same hs1.same]
    exact mem_cutRow.1 hxW
  rw [e2]
  obtain ⟨e, v, v', h2, h3⟩ | ⟨l', g, g₂, h2, h3, c1, c2, c3⟩ := hrest (.compound ms₂) ⟨ms₂, rfl, hp2, hs2⟩
  · rw [← hrow] at h3
    rw [shootC_of_run hp hc s _ _ _ h2, shootC_of_run hp2 hc2 s _ _ _ h3]
    exact .inl ⟨e, rfl, rfl⟩
  · have hl' := odeint_ne_nil h3
    rw [← hrow] at h3
    rw [shootC_of_run hp hc s _ _ _ h2, shootC_of_run hp2 hc2 s _ _ _ h3]
    have est : (l.dropLast ++ l').map (fun x => ((DefModule.compound ms).withGd x 0).manifold)
        = (l.map fun x => ((DefModule.compound ms).withGd x 0).manifold).dropLast ++ l'.map (fun x => ((DefModule.compound ms₂).withGd x 0).manifold) := by
      rw [List.map_append, List.map_dropLast]
      refine congrArg _ (List.map_congr_left fun x _ => ?_)
      exact (manifold_of_reset (hs2 x)).symm
    have emod : g.module.withGd ((l.dropLast ++ l').getLastD y) 0 = g₂.module.withGd (l'.getLastD (gdRow (.compound ms₂))) 0 := by
      rw [getLastD_append_ne hl', getLastD_of_ne hl' y (gdRow (.compound ms₂)), c1]
    have hhead := odeint_head h3
    refine .inr ⟨_, _, rfl, rfl, ?_, fun hs => ?_, ?_⟩
    · unfold Shot.trajectory Shot.join
      dsimp only
      rw [emod, est, c2]
    · unfold Shot.join
      dsimp only
      rw [emod, est, c2, c3 hs]
    · dsimp only
      rw [List.getLast?_map, List.head?_map, hhead, hrow, List.getLast?_eq_some_getLast hl]
      refine congrArg some ?_
      have : l.getLast hl = x := by rw [hx, List.getLastD_eq_getLast?, List.getLast?_eq_some_getLast hl]; rfl
      rw [this]
      exact (manifold_of_reset (hs2 x)).symm

end
end Imodal
