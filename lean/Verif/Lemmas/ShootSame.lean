import Verif.Model.Registration
import Verif.Lemmas.ShootCtrl
import Verif.Lemmas.Flow
import Verif.Props.C26
/-!
# Shooting does not depend on the controls a module held before

Two modules with the same descriptors and momenta are shot in the same way, whatever controls and
cached results they hold.
-/
set_option autoImplicit false
namespace Imodal
noncomputable section
variable {d : Nat}

/-- From the second state the program returns what it returns from the first one. -/
def Merges {σ β : Type} (w w' : σ) (p : Prog σ β) : Prop := ∀ b v, p w = (.ok b, v) → p w' = (.ok b, v)

theorem Merges.bind {σ β γ : Type} {w w' : σ} {p : Prog σ β} (h : Merges w w' p) (k : β → Prog σ γ) : Merges w w' (p >>= k) := by
  intro c v hc
  rw [Prog.bind_run] at hc ⊢
  cases hp : p w with
  | mk r s =>
    rw [hp] at hc
    cases r with
    | error e => cases hc
    | ok b => rw [h b s hp]; exact hc

theorem merges_step {σ V : Type} [AddCommGroup V] [Module ℝ V] {w w' : σ} {f : ℝ → V → Prog σ V}
    (h : ∀ t x, Merges w w' (f t x)) (t t' : ℝ) (y : V) (s : Solver) : Merges w w' (Solver.step f t t' y s) := by
  cases s <;> exact (h _ _).bind _

theorem merges_odeint {σ V : Type} [AddCommGroup V] [Module ℝ V] {w w' : σ} {f : ℝ → V → Prog σ V}
    (h : ∀ t x, Merges w w' (f t x)) (s : Solver) (t1 : ℝ) {it : Nat} (hit : it ≠ 0) (y : V) : Merges w w' (odeint s f t1 it y) := by
  intro b v hb
  unfold odeint at hb ⊢
  split
  · rename_i hc; rw [if_pos hc] at hb; cases hb
  · rename_i hc
    rw [if_neg hc] at hb
    obtain ⟨k, rfl⟩ := Nat.exists_eq_succ_of_ne_zero hit
    rw [odeLoop] at hb ⊢
    exact (merges_step h _ _ y s).bind _ b v hb

theorem plain_of_reset {ms ms' : List (DefModule d)} (h : (DefModule.compound ms).reset = (DefModule.compound ms').reset)
    (hp : PlainMembers ms) : PlainMembers ms' := by
  obtain ⟨l, e, hl⟩ := compound_of_reset h.symm hp
  rw [DefModule.compound.inj e]
  exact hl

theorem merges_moments {ms ms' : List (DefModule d)} (h : (DefModule.compound ms).reset = (DefModule.compound ms').reset)
    (hp : PlainMembers ms) (t1 : ℝ) (it : Nat) (t : ℝ) (x : Row × Row) :
    Merges (GradObj.init (.compound ms)) (GradObj.init (.compound ms')) (forwardMoments t1 it t x) := by
  intro b v hb
  have hI : Inv ms (GradObj.init (.compound ms')) := ⟨ms', rfl, plain_of_reset h hp, (same_of_reset h).symm⟩
  rw [forward_run (inv_init hp)] at hb
  rw [forward_run hI]
  cases he : evalAt (.compound ms) x with
  | error e => rw [he] at hb; cases hb
  | ok m' => rw [he] at hb; exact hb

theorem merges_control {ms ms' : List (DefModule d)} (h : (DefModule.compound ms).reset = (DefModule.compound ms').reset)
    (hp : PlainMembers ms) (controls : List (Ctrl d)) (t1 : ℝ) (it : Nat) (t : ℝ) (x : Row) :
    Merges (GradObj.init (.compound ms)) (GradObj.init (.compound ms')) (forwardControl controls t1 it t x) := by
  intro b v hb
  have hI : InvC ms (GradObj.init (.compound ms')) := ⟨ms', rfl, plain_of_reset h hp, (sameGd_of_reset h).symm⟩
  rw [forwardC_run (invC_init hp)] at hb
  rw [forwardC_run hI]
  dsimp only [GradObj.init] at hb ⊢
  cases hk : pickControls controls it (tToIt t1 it t) 0 with
  | error e => rw [hk] at hb; cases hb
  | ok c =>
    rw [hk] at hb
    dsimp only at hb ⊢
    cases he : ctrlEval (.compound ms) c x with
    | error e => rw [he] at hb; cases hb
    | ok m' => rw [he] at hb; exact hb

theorem initRows_of_reset {m m' : DefModule d} (h : m.reset = m'.reset) : initRows m = initRows m' := by
  unfold initRows stateEntries
  rw [manifold_of_reset h]

theorem shootMoments_of_reset {ms ms' : List (DefModule d)} (h : (DefModule.compound ms).reset = (DefModule.compound ms').reset)
    (s : Solver) {it : Nat} (hit : it ≠ 0) (t1 : ℝ) {r : Shot d} (hr : shootMoments s it t1 (.compound ms) = .ok r) :
    shootMoments s it t1 (.compound ms') = .ok r := by
  obtain ⟨hp, -⟩ := shoot_plain hr
  rw [shootMoments] at hr ⊢
  rw [← initRows_of_reset h, ← manifold_of_reset h]
  cases hi : initRows (.compound ms) with
  | error e => rw [hi] at hr; cases hr
  | ok x =>
    rw [hi] at hr
    dsimp only at hr ⊢
    cases ho : odeint s (forwardMoments t1 it) t1 it x (GradObj.init (.compound ms)) with
    | mk o g =>
      rw [ho] at hr
      cases o with
      | error e => cases hr
      | ok xs => rw [merges_odeint (merges_moments h hp t1 it) s t1 hit x xs g ho]; exact hr

theorem shootControls_of_reset {ms ms' : List (DefModule d)} (h : (DefModule.compound ms).reset = (DefModule.compound ms').reset)
    (s : Solver) {it : Nat} (hit : it ≠ 0) (t1 : ℝ) (controls : List (Ctrl d)) {r : Shot d}
    (hr : shootControls s it t1 controls (.compound ms) = .ok r) : shootControls s it t1 controls (.compound ms') = .ok r := by
  obtain ⟨hp, -⟩ := shootC_plain hr
  rw [shootControls] at hr ⊢
  rw [← initRows_of_reset h, ← manifold_of_reset h]
  cases hi : initRows (.compound ms) with
  | error e => rw [hi] at hr; cases hr
  | ok x =>
    rw [hi] at hr
    dsimp only at hr ⊢
    cases ho : odeint s (forwardControl controls t1 it) t1 it x.1 (GradObj.init (.compound ms)) with
    | mk o g =>
      rw [ho] at hr
      cases o with
      | error e => cases hr
      | ok xs => rw [merges_odeint (merges_control h hp controls t1 it) s t1 hit x.1 xs g ho]; exact hr

theorem shootEuler_of_reset {m m' : DefModule d} (h : m.reset = m'.reset) (it : Nat) (controls : Option (List (Ctrl d))) :
    shootEuler it controls m = shootEuler it controls m' := by
  unfold shootEuler
  cases it with
  | zero => rfl
  | succ k =>
    rw [if_neg (Nat.succ_ne_zero k), if_neg (Nat.succ_ne_zero k), eulerLoop, eulerLoop]
    unfold eulerStep
    rw [setControls_of_reset controls 0 h, gradH_of_reset (setControls_resetFree controls 0) h, gdRow, gdRow, cotRow, cotRow,
      manifold_of_reset h]

/-- What `shoot` returns does not depend on the controls and cached results the modules hold. -/
theorem shoot_of_reset {ms ms' : List (DefModule d)} (h : (DefModule.compound ms).reset = (DefModule.compound ms').reset)
    (s : SolverName) {it : Nat} (hit : it ≠ 0) (t1 : ℝ) (controls : Option (List (Ctrl d))) {r : Shot d × Option (List ℝ)}
    (hr : shoot s it t1 controls (.compound ms) = .ok r) : shoot s it t1 controls (.compound ms') = .ok r := by
  unfold shoot at hr ⊢
  cases s with
  | torchEuler => dsimp only at hr ⊢; rw [← shootEuler_of_reset h]; exact hr
  | adaptive => cases hr
  | unknown => cases hr
  | fixed s =>
    dsimp only at hr ⊢
    cases ho : shootOde s it t1 controls (.compound ms) with
    | error e => rw [ho] at hr; cases hr
    | ok q =>
      rw [ho] at hr
      have : shootOde s it t1 controls (.compound ms') = .ok q := by
        unfold shootOde at ho ⊢
        cases controls with
        | none => exact shootMoments_of_reset h s hit t1 ho
        | some cs => exact shootControls_of_reset h s hit t1 cs ho
      rw [this]
      exact hr

/-! ## The modules are the same afterwards, up to descriptors, momenta, controls and caches -/

theorem eulerLoop_same {step : ℝ} {controls : Option (List (Ctrl d))} (k : Nat) : ∀ {i : Nat} {m : DefModule d} {r : Shot d},
    eulerLoop step controls i k m = .ok r → Same r.module m := by
  induction k with
  | zero => intro i m r h; rw [eulerLoop] at h; cases h; exact Same.refl _
  | succ k ih =>
    intro i m r h
    rw [eulerLoop] at h
    cases h1 : eulerStep step controls i m with
    | error e => rw [h1] at h; cases h
    | ok m' =>
      rw [h1] at h
      dsimp only at h
      cases h2 : eulerLoop step controls (i + 1) k m' with
      | error e => rw [h2] at h; cases h
      | ok r' =>
        rw [h2] at h
        cases h
        obtain ⟨m1, v, e1, -, e3⟩ := eulerStep_ok h1
        refine (ih h2).trans ?_
        rw [e3]
        exact (same_rowsMod _ _).trans (same_of_reset (setControls_reset e1))

theorem shoot_same {s : SolverName} {it : Nat} {t1 : ℝ} {controls : Option (List (Ctrl d))} {ms : List (DefModule d)}
    {r : Shot d × Option (List ℝ)} (h : shoot s it t1 controls (.compound ms) = .ok r) : Same r.1.module (.compound ms) := by
  unfold shoot at h
  cases s with
  | adaptive => cases h
  | unknown => cases h
  | torchEuler =>
    dsimp only at h
    cases ho : shootEuler it controls (.compound ms) with
    | error e => rw [ho] at h; cases h
    | ok q =>
      rw [ho] at h
      cases h
      unfold shootEuler at ho
      split at ho
      · cases ho
      · exact eulerLoop_same _ ho
  | fixed s =>
    dsimp only at h
    cases ho : shootOde s it t1 controls (.compound ms) with
    | error e => rw [ho] at h; cases h
    | ok q =>
      rw [ho] at h
      cases h
      unfold shootOde at ho
      cases controls with
      | none =>
        obtain ⟨hp, hn⟩ := shoot_plain ho
        obtain ⟨xs, -, -, hr, -⟩ := shoot_ok hp hn ho
        exact (same_of_reset hr).trans (same_rowsMod _ _)
      | some cs =>
        obtain ⟨-, xs, -, -, hr, -⟩ := shootC_ok ho
        exact ((sameGd_of_reset hr).trans (sameGd_withGd _ _)).same

end
end Imodal
