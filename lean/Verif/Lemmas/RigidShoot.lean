import Verif.Lemmas.RigidRows
import Verif.Lemmas.ShootCtrl
import Verif.Lemmas.Flow
import Verif.Props.C77
/-!
# Shooting and rigid motions
-/
set_option autoImplicit false
namespace Imodal
noncomputable section
open Matrix

/-! ## Solver runs related by an affine map of their states -/

/-- The second program is the image of the first. -/
def ProgMap {σ β γ : Type} (I : σ → Prop) (S : σ → σ) (φ : β → γ) (p : Prog σ β) (p' : Prog σ γ) : Prop :=
  ∀ w, I w → I (p w).2 ∧ p' (S w) = ((p w).1.map φ, S (p w).2)

theorem ProgMap.bind {σ β γ β' γ' : Type} {I : σ → Prop} {S : σ → σ} {φ : β → γ} {ψ : β' → γ'} {p : Prog σ β} {p' : Prog σ γ}
    {k : β → Prog σ β'} {k' : γ → Prog σ γ'} (h : ProgMap I S φ p p') (hk : ∀ b, ProgMap I S ψ (k b) (k' (φ b))) :
    ProgMap I S ψ (p >>= k) (p' >>= k') := by
  intro w hw
  obtain ⟨h1, h2⟩ := h w hw
  rw [Prog.bind_run, Prog.bind_run, h2]
  cases hp : p w with
  | mk r s =>
    rw [hp] at h1
    cases r with
    | error e => exact ⟨h1, rfl⟩
    | ok b => exact hk b s h1

theorem ProgMap.pure {σ β γ : Type} {I : σ → Prop} {S : σ → σ} {φ : β → γ} {b : β} {c : γ} (h : c = φ b) :
    ProgMap I S φ (Pure.pure b) (Pure.pure c) := fun w hw => ⟨hw, by rw [h]; rfl⟩

section
variable {σ V : Type} [AddCommGroup V] [Module ℝ V] {I : σ → Prop} {S : σ → σ} {T : V → V} {L : V →ₗ[ℝ] V} {f f' : ℝ → V → Prog σ V}

theorem progMap_step (hT : ∀ y k, T (y + k) = T y + L k) (h : ∀ t y, ProgMap I S L (f t y) (f' t (T y))) (t t' : ℝ) (y : V) (s : Solver) :
    ProgMap I S T (Solver.step f t t' y s) (Solver.step f' t t' (T y) s) := by
  have h' : ∀ t y z, z = T y → ProgMap I S L (f t y) (f' t z) := fun t y z e => by rw [e]; exact h t y
  cases s with
  | euler => exact (h _ _).bind fun k => ProgMap.pure (by rw [hT, map_smul])
  | midpoint =>
    exact (h _ _).bind fun k => (h' _ (y + (0.5 * (t' - t)) • k) _ (by rw [hT, map_smul])).bind fun l => ProgMap.pure (by rw [hT, map_smul])
  | rk4 =>
    refine (h _ _).bind fun k₁ => ?_
    refine (h' _ (y + ((t' - t) * (1 / 3)) • k₁) _ (by rw [hT, map_smul])).bind fun k₂ => ?_
    refine (h' _ (y + (t' - t) • (k₂ - (1 / 3 : ℝ) • k₁)) _ (by rw [hT, map_smul, map_sub, map_smul])).bind fun k₃ => ?_
    refine (h' _ (y + (t' - t) • (k₁ - k₂ + k₃)) _ (by rw [hT, map_smul, map_add, map_sub])).bind fun k₄ => ?_
    exact ProgMap.pure (by rw [hT, map_smul, map_add, map_add, map_smul, map_add])

theorem progMap_loop (hT : ∀ y k, T (y + k) = T y + L k) (h : ∀ t y, ProgMap I S L (f t y) (f' t (T y))) (s : Solver) (t1 : ℝ) (it k : Nat) :
    ∀ (i : Nat) (y : V), ProgMap I S (List.map T) (odeLoop s f t1 it i k y) (odeLoop s f' t1 it i k (T y)) := by
  induction k with
  | zero => intro i y; exact ProgMap.pure rfl
  | succ k ih =>
    intro i y
    rw [odeLoop, odeLoop]
    exact (progMap_step hT h _ _ y s).bind fun y' => (ih (i + 1) y').bind fun l => ProgMap.pure rfl

theorem progMap_odeint (hT : ∀ y k, T (y + k) = T y + L k) (h : ∀ t y, ProgMap I S L (f t y) (f' t (T y))) (s : Solver) (t1 : ℝ) (it : Nat)
    (y : V) : ProgMap I S (List.map T) (odeint s f t1 it y) (odeint s f' t1 it (T y)) := by
  intro w hw
  unfold odeint
  split
  · exact ⟨hw, rfl⟩
  · exact progMap_loop hT h s t1 it it 0 y w hw
end

variable {d : Nat}

/-! ## Structure -/

mutual
theorem reset_move (g : Rigid d) : (m : DefModule d) → (m.reset.move g).reset = (m.move g).reset
  | .translations _ => by simp [DefModule.reset, DefModule.move]
  | .implicit0 _ => by simp [DefModule.reset, DefModule.move]
  | .oriented _ => by simp [DefModule.reset, DefModule.move]
  | .constrained _ => by simp [DefModule.reset, DefModule.move]
  | .globalTranslation _ => by simp [DefModule.reset, DefModule.move]
  | .linear _ => by simp [DefModule.reset, DefModule.move]
  | .implicit1 _ => by simp [DefModule.reset, DefModule.move]
  | .divFree _ => by simp [DefModule.reset, DefModule.move]
  | .arap _ => by simp [DefModule.reset, DefModule.move]
  | .silent man => by simp [DefModule.reset, DefModule.move]
  | .compound ms => by rw [DefModule.reset, DefModule.move, DefModule.reset, DefModule.move, DefModule.reset, resetAll_move g ms]
theorem resetAll_move (g : Rigid d) : (ms : List (DefModule d)) →
    DefModule.resetAll (DefModule.moveAll g (DefModule.resetAll ms)) = DefModule.resetAll (DefModule.moveAll g ms)
  | [] => by simp [DefModule.resetAll, DefModule.moveAll]
  | m :: ms => by
    rw [DefModule.resetAll, DefModule.moveAll, DefModule.resetAll, DefModule.moveAll, DefModule.resetAll, reset_move g m, resetAll_move g ms]
end

theorem move_rowsMod (g : Rigid d) (m : DefModule d) (x y : Row × Row) : rowsMod ((rowsMod m x).move g) y = rowsMod (m.move g) y := by
  unfold rowsMod
  rw [← DefModule.withGd_withCot, move_withCot, DefModule.withGd_withCot, move_withGd]

theorem Same.move (g : Rigid d) {m m' : DefModule d} (h : Same m m') : Same (m.move g) (m'.move g) := fun y => by
  rw [← move_rowsMod g m 0 y, ← move_rowsMod g m' 0 y, reset_rowsMod, reset_rowsMod, ← reset_move, h 0, reset_move]

theorem SameGd.move (g : Rigid d) {m m' : DefModule d} (h : SameGd m m') : SameGd (m.move g) (m'.move g) := fun y => by
  rw [← move_withGd g 0 y m 0 0, ← move_withGd g 0 y m' 0 0, reset_withGd, reset_withGd, ← reset_move, h 0, reset_move]

mutual
theorem lenGd_move (g : Rigid d) : (m : Mfd d) → (m.move g).lenGd = m.lenGd
  | .landmarks _ _ => by rw [Mfd.move, Mfd.lenGd, Mfd.lenGd]
  | .direction _ _ _ _ _ => by rw [Mfd.move, Mfd.lenGd, Mfd.lenGd]
  | .frame _ _ _ _ => by rw [Mfd.move, Mfd.lenGd, Mfd.lenGd]
  | .empty => by rw [Mfd.move]
  | .compound ms => by rw [Mfd.move, Mfd.lenGd, Mfd.lenGd, lenGdAll_move g ms]
theorem lenGdAll_move (g : Rigid d) : (ms : List (Mfd d)) → Mfd.lenGdAll (Mfd.moveAll g ms) = Mfd.lenGdAll ms
  | [] => by rw [Mfd.moveAll]
  | m :: ms => by rw [Mfd.moveAll, Mfd.lenGdAll, Mfd.lenGdAll, lenGd_move g m, lenGdAll_move g ms]
end

theorem plain_move (g : Rigid d) (m : Mfd d) : (m.move g).Plain ↔ m.Plain := by
  unfold Mfd.Plain
  rw [lenGd_move]
  cases m <;> simp [Mfd.move, Mfd.hasShapeGd]

theorem moveAll_eq (g : Rigid d) (ms : List (Mfd d)) : Mfd.moveAll g ms = ms.map (Mfd.move g) := by
  induction ms with
  | nil => rw [Mfd.moveAll]; rfl
  | cons m ms ih => rw [Mfd.moveAll, ih]; rfl

theorem plainMembers_move (g : Rigid d) (ms : List (DefModule d)) : PlainMembers (DefModule.moveAll g ms) ↔ PlainMembers ms := by
  unfold PlainMembers
  rw [manifolds_move, moveAll_eq]
  simp only [List.mem_map, forall_exists_index, and_imp, forall_apply_eq_imp_iff₂, plain_move]

/-! ## Derivatives -/

/-- Ways to set the controls that move along. -/
structure PrepMoves (g : Rigid d) (P P' : DefModule d → Py (DefModule d)) : Prop where
  map : ∀ m : DefModule d, m.Movable g → P' (m.move g) = (P m).map (DefModule.move g)
  keep : ∀ m m' : DefModule d, P m = .ok m' → m.Movable g → m'.Movable g

theorem prep_geodesic (g : Rigid d) : PrepMoves g Hamiltonian.geodesicControls Hamiltonian.geodesicControls where
  map m h := (C77_geodesic g h).1
  keep m m' h hm := (movable_of_reset g (reset_geodesic h)).2 hm

theorem prep_setControls (g : Rigid d) (controls : Option (List (Ctrl d))) (i : Nat) :
    PrepMoves g (setControls controls i) (setControls (controls.map (List.map (Ctrl.move g))) i) where
  map m h := by
    unfold setControls
    cases controls with
    | none => exact (C77_geodesic g h).1
    | some cs =>
      dsimp only [Option.map]
      rw [List.getElem?_map]
      cases cs[i]? with
      | none => rfl
      | some c => exact fillControls_move g m c h
  keep m m' h hm := (movable_of_reset g (setControls_reset h)).2 hm

theorem hamFn_move {g : Rigid d} {P P' : DefModule d → Py (DefModule d)} (hP : PrepMoves g P P') {m : DefModule d} (h : m.Movable g) (q p : Row) :
    hamFn P' (m.move g) (gdMotion g m.manifold q) (cotMotion g m.manifold p) = hamFn P m q p := by
  unfold hamFn
  rw [withRows_eq, withRows_eq]
  dsimp only
  have := rowsMod_move g m (q, p)
  unfold rowsMod rowsMove at this
  dsimp only at this
  have hm : ((m.withGd q 0).withCot p 0).Movable g := (movable_rowsMod g (q, p) m).2 h
  rw [this, hP.map _ hm]
  cases h2 : P ((m.withGd q 0).withCot p 0) with
  | error e => rfl
  | ok m2 => exact C77_hamiltonian g (hP.keep _ _ h2 hm)

/-- The derivatives turn along, wherever the controls exist. -/
def GradMoves (g : Rigid d) (P P' : DefModule d → Py (DefModule d)) (m : DefModule d) : Prop :=
  ∀ x m', P (rowsMod m x) = .ok m' → gradH P' ((rowsMod m x).move g) = (cotTurn g m.manifold (gradH P (rowsMod m x)).1, gdTurn g m.manifold (gradH P (rowsMod m x)).2)

mutual
theorem mfd_move_one : (m : Mfd d) → m.move (Rigid.translation 0) = m
  | .landmarks _ _ => by simp [Mfd.move, Rigid.point, Rigid.vec, Rigid.translation]
  | .direction _ _ _ _ _ => by simp [Mfd.move, Rigid.point, Rigid.vec, Rigid.translation]
  | .frame _ _ _ _ => by simp [Mfd.move, Rigid.point, Rigid.vec, Rigid.translation]
  | .empty => by rw [Mfd.move]
  | .compound ms => by rw [Mfd.move, mfds_move_one ms]
theorem mfds_move_one : (ms : List (Mfd d)) → Mfd.moveAll (Rigid.translation 0) ms = ms
  | [] => by rw [Mfd.moveAll]
  | m :: ms => by rw [Mfd.moveAll, mfd_move_one m, mfds_move_one ms]
end

mutual
theorem unrollCot_translate (τ : Vec d) : (m : Mfd d) → (m.move (Rigid.translation τ)).unrollCot = m.unrollCot
  | .landmarks _ _ => by simp [Mfd.move, Rigid.vec, Rigid.translation, Mfd.unrollCot]
  | .direction _ _ _ _ _ => by simp [Mfd.move, Rigid.vec, Rigid.translation, Mfd.unrollCot]
  | .frame _ _ _ _ => by simp [Mfd.move, Rigid.vec, Rigid.translation, Mfd.unrollCot]
  | .empty => by rw [Mfd.move]
  | .compound ms => by rw [Mfd.move, Mfd.unrollCot, Mfd.unrollCot, unrollCotAll_translate τ ms]
theorem unrollCotAll_translate (τ : Vec d) : (ms : List (Mfd d)) → Mfd.unrollCotAll (Mfd.moveAll (Rigid.translation τ) ms) = Mfd.unrollCotAll ms
  | [] => by rw [Mfd.moveAll]
  | m :: ms => by rw [Mfd.moveAll, Mfd.unrollCotAll, Mfd.unrollCotAll, unrollCot_translate τ m, unrollCotAll_translate τ ms]
end

theorem gdTurn_translation (τ : Vec d) (M : Mfd d) (x : Row) : gdTurn (Rigid.translation τ) M x = cut M.size x := by
  show rowOf ((M.withGd x 0).move (Rigid.translation 0)).unrollGd.flatten = _
  rw [mfd_move_one, rowOf_of_starts (Mfd.starts_withGd x M 0), Mfd.length_unrollGd, Mfd.size_withGd]
theorem cotTurn_translation (τ : Vec d) (M : Mfd d) (x : Row) : cotTurn (Rigid.translation τ) M x = cut M.size x := by
  show rowOf ((M.withCot x 0).move (Rigid.translation τ)).unrollCot.flatten = _
  rw [unrollCot_translate, rowOf_of_starts (Mfd.starts_withCot x M 0), Mfd.length_unrollCot, Mfd.size_withCot]

theorem cut_cut (n : Nat) (x : Row) : cut n (cut n x) = cut n x := by
  funext j; unfold cut; split <;> rfl

theorem cut_update {n j : Nat} (hj : j < n) (x : Row) (hx : cut n x = x) (s : ℝ) : cut n (Function.update x j s) = Function.update x j s := by
  funext k
  by_cases hk : k = j
  · subst hk; simp [cut, hj]
  · have := congrFun hx k
    unfold cut at this ⊢
    rw [Function.update_of_ne hk]
    exact this

theorem cut_gdRow (m : DefModule d) : cut (numCoords m) (gdRow m) = gdRow m := by
  have := gdRow_withGd m (gdRow m)
  rw [DefModule.withGd_gdRow] at this
  exact this.symm
theorem cut_cotRow (m : DefModule d) : cut (numCoords m) (cotRow m) = cotRow m := by
  have := cotRow_withCot m (cotRow m)
  rw [DefModule.withCot_cotRow] at this
  exact this.symm

theorem update_add_row (q δ : Row) (j : Nat) (s : ℝ) : Function.update (q + δ) j s = Function.update q j (s - δ j) + δ := by
  funext k
  by_cases hk : k = j
  · subst hk; simp
  · simp [hk]

/-- For translations no smoothness is needed. -/
theorem gradH_translate {τ : Vec d} {P P' : DefModule d → Py (DefModule d)} (hP : PrepMoves (Rigid.translation τ) P P') {m : DefModule d}
    (h : m.Movable (Rigid.translation τ)) : gradH P' (m.move (Rigid.translation τ)) = gradH P m := by
  set g := Rigid.translation τ with hg
  set δ := gdMotion g m.manifold 0 with hδ
  have hgd : ∀ x, gdMotion g m.manifold x = cut (numCoords m) x + δ := fun x => by
    have := gdMotion_add g m.manifold 0 x
    rw [zero_add, gdTurn_translation, ← numCoords_eq] at this
    rw [this, add_comm]
  have hcot : ∀ x, cotMotion g m.manifold x = cut (numCoords m) x := fun x => by
    rw [numCoords_eq]; exact cotTurn_translation τ _ x
  have hF : ∀ q p, cut (numCoords m) q = q → cut (numCoords m) p = p → hamFn P' (m.move g) (q + δ) p = hamFn P m q p := fun q p hq hp => by
    have := hamFn_move hP h q p
    rwa [hgd, hcot, hq, hp] at this
  have hq : gdRow (m.move g) = gdRow m + δ := by rw [gdRow_move, hgd, cut_gdRow]
  have hp : cotRow (m.move g) = cotRow m := by rw [cotRow_move, hcot, cut_cotRow]
  unfold gradH
  dsimp only
  rw [numCoords_move, hq, hp]
  refine Prod.ext ?_ ?_
  · funext j
    dsimp only
    unfold cut
    by_cases hj : j < numCoords m
    · rw [if_pos hj, if_pos hj]
      unfold partialQ
      have e : (fun s => valD (hamFn P' (m.move g) (Function.update (gdRow m + δ) j s) (cotRow m)))
          = fun s => (fun s => valD (hamFn P m (Function.update (gdRow m) j s) (cotRow m))) (s - δ j) := by
        funext s
        rw [update_add_row, hF _ _ (cut_update hj _ (cut_gdRow m) _) (cut_cotRow m)]
      rw [e]
      refine (deriv_comp_sub_const (fun s => valD (hamFn P m (Function.update (gdRow m) j s) (cotRow m))) (δ j) _).trans ?_
      rw [Pi.add_apply, add_sub_cancel_right]
    · rw [if_neg hj, if_neg hj]
  · funext j
    dsimp only
    unfold cut
    by_cases hj : j < numCoords m
    · rw [if_pos hj, if_pos hj]
      unfold partialP
      have e : (fun s => valD (hamFn P' (m.move g) (gdRow m + δ) (Function.update (cotRow m) j s)))
          = fun s => valD (hamFn P m (gdRow m) (Function.update (cotRow m) j s)) := by
        funext s
        rw [hF _ _ (cut_gdRow m) (cut_update hj _ (cut_cotRow m) _)]
      rw [e]
    · rw [if_neg hj, if_neg hj]

theorem cut_gradH (P : DefModule d → Py (DefModule d)) (m : DefModule d) :
    cut (numCoords m) (gradH P m).1 = (gradH P m).1 ∧ cut (numCoords m) (gradH P m).2 = (gradH P m).2 := by
  unfold gradH
  exact ⟨cut_cut _ _, cut_cut _ _⟩

theorem gradMoves_translation {τ : Vec d} {P P' : DefModule d → Py (DefModule d)} (hP : PrepMoves (Rigid.translation τ) P P') {m : DefModule d}
    (h : m.Movable (Rigid.translation τ)) : GradMoves (Rigid.translation τ) P P' m := fun x _ _ => by
  rw [gradH_translate hP ((movable_rowsMod _ x m).2 h), cotTurn_translation, gdTurn_translation, ← numCoords_eq, ← numCoords_rowsMod m x,
    (cut_gradH P _).1, (cut_gradH P _).2]

/-! ## Shooting from momenta -/

/-- The callback with everything it holds moved. -/
def GradObj.move (g : Rigid d) (w : GradObj d) : GradObj d := ⟨w.module.move g, w.it, w.trueIt, w.costs, w.ctrls.map (Ctrl.move g)⟩

/-- The linear part of the motion of the state vector. -/
def rowsTurn (g : Rigid d) (M : Mfd d) : Row × Row →ₗ[ℝ] Row × Row := (gdTurn g M).prodMap (cotTurn g M)

theorem rowsMove_add (g : Rigid d) (M : Mfd d) (x k : Row × Row) : rowsMove g M (x + k) = rowsMove g M x + rowsTurn g M k :=
  Prod.ext (gdMotion_add g M x.1 k.1) (cotMotion_add g M x.2 k.2)

theorem evalAt_move (g : Rigid d) {m : DefModule d} (h : m.Movable g) (x : Row × Row) :
    evalAt (m.move g) (rowsMove g m.manifold x) = (evalAt m x).map (DefModule.move g) := by
  unfold evalAt
  have hm := (movable_rowsMod g x m).2 h
  rw [rowsMod_move, (C77_geodesic g hm).1]
  cases h1 : Hamiltonian.geodesicControls (rowsMod m x) with
  | error e => rfl
  | ok m' =>
    dsimp only [Except.map]
    rw [C77_hamiltonian g ((prep_geodesic g).keep _ _ h1 hm)]
    cases Hamiltonian.value m' <;> rfl

theorem evalAt_geodesic {m m' : DefModule d} {x : Row × Row} (h : evalAt m x = .ok m') : ∃ m', Hamiltonian.geodesicControls (rowsMod m x) = .ok m' := by
  unfold evalAt at h
  cases h1 : Hamiltonian.geodesicControls (rowsMod m x) with
  | error e => rw [h1] at h; cases h
  | ok m1 => exact ⟨m1, rfl⟩

theorem hamVec_move {g : Rigid d} {m : DefModule d} (hg : GradMoves g Hamiltonian.geodesicControls Hamiltonian.geodesicControls m) (x : Row × Row)
    {m' : DefModule d} (hx : evalAt m x = .ok m') : hamVec (m.move g) (rowsMove g m.manifold x) = rowsTurn g m.manifold (hamVec m x) := by
  unfold hamVec
  rw [rowsMod_move, hg x _ (evalAt_geodesic hx).choose_spec]
  dsimp only
  rw [← map_neg]
  rfl

theorem after_move (g : Rigid d) (w : GradObj d) {m' : DefModule d} (h : m'.Movable g) (t1 : ℝ) (it : Nat) (t : ℝ) :
    (w.move g).after t1 it t (m'.move g) = (w.after t1 it t m').move g := by
  unfold GradObj.after GradObj.move
  dsimp only
  rw [cost_move g m' h, controls_move, List.map_append]
  rfl

theorem forward_move {g : Rigid d} {ms : List (DefModule d)} (h : (DefModule.compound ms).Movable g)
    (hg : GradMoves g Hamiltonian.geodesicControls Hamiltonian.geodesicControls (.compound ms)) (t1 : ℝ) (it : Nat) (t : ℝ) (x : Row × Row) :
    ProgMap (Inv ms) (GradObj.move g) (rowsTurn g (DefModule.compound ms).manifold) (forwardMoments t1 it t x)
      (forwardMoments t1 it t (rowsMove g (DefModule.compound ms).manifold x)) := by
  intro w hI
  have hI' : Inv (DefModule.moveAll g ms) (w.move g) := by
    obtain ⟨ms', e, hp, hs⟩ := hI
    refine ⟨DefModule.moveAll g ms', ?_, (plainMembers_move g ms').2 hp, ?_⟩
    · show w.module.move g = _
      rw [e, DefModule.move]
    · rw [← DefModule.move, ← DefModule.move]; exact hs.move g
  rw [forward_run hI, forward_run hI', ← DefModule.move, evalAt_move g h]
  cases h1 : evalAt (.compound ms) x with
  | error e => exact ⟨hI, rfl⟩
  | ok m' =>
    refine ⟨inv_after hI h1 .., ?_⟩
    dsimp only [Except.map]
    have hm' : m'.Movable g := (movable_of_reset g (evalAt_reset h1)).2 ((movable_rowsMod g x _).2 h)
    rw [hamVec_move hg x h1, after_move g w hm']

theorem shoot_of_run {ms : List (DefModule d)} (hp : PlainMembers ms) (hn : 0 < numCoords (.compound ms)) (s : Solver) (it : Nat) (t1 : ℝ)
    {r : Py (List (Row × Row))} {w : GradObj d}
    (h : odeint s (forwardMoments t1 it) t1 it (gdRow (.compound ms), cotRow (.compound ms)) (GradObj.init (.compound ms)) = (r, w)) :
    shootMoments s it t1 (.compound ms) = r.map fun xs => ⟨rowsMod w.module (xs.getLastD (gdRow (.compound ms), cotRow (.compound ms))), w.costs,
      xs.map (fun x => (rowsMod (.compound ms) x).manifold), w.ctrls⟩ := by
  have hc := shoot_cases hp hn s it t1
  have ho : orbit s (rhs (.compound ms)) t1 it (gdRow (.compound ms), cotRow (.compound ms)) = r := by
    unfold orbit
    rw [← (sim_odeint (sim_forward ms t1 it) t1 it s (gdRow (.compound ms), cotRow (.compound ms)) _ () (inv_init hp)).1, h]
  rw [ho] at hc
  cases r with
  | error e => exact hc
  | ok xs =>
    obtain ⟨w', h1, -, h2⟩ := hc
    rw [h] at h1
    cases h1
    exact h2

open Classical in
theorem shoot_not_plain {ms : List (DefModule d)} (hp : ¬PlainMembers ms) (hn : 0 < numCoords (.compound ms)) (s : Solver) (it : Nat) (t1 : ℝ) :
    shootMoments s it t1 (.compound ms) = .error (if it ≠ 0 ∧ t1 = 0 then .assertion else .attribute) := by
  have hr : ∀ x, readGd (.compound ms) x = .error .attribute := fun x => by
    rw [readGd, DefModule.members, sliceAll_not_plain x _ 0 (by simpa [PlainMembers] using hp)]
  have hf : ∀ t x, forwardMoments t1 it t x (GradObj.init (.compound ms)) = (.error .attribute, GradObj.init (.compound ms)) := fun t x => by
    unfold forwardMoments
    simp only [Prog.bind_run, Prog.get_run, Prog.lift_run, GradObj.init, hr]
  rw [shootMoments, initRows_ok hn]
  dsimp only
  unfold odeint
  by_cases hc : it ≠ 0 ∧ t1 = 0
  · rw [if_pos hc, if_pos hc]
  · rw [if_neg hc, if_neg hc]
    cases it with
    | zero =>
      rw [odeLoop]
      show (match readGd (.compound ms) _ with | .error e => _ | .ok m1 => _) = _
      rw [hr]
    | succ k =>
      rw [odeLoop, Prog.bind_run]
      cases s <;> · rw [Solver.step, Prog.bind_run, hf]

open Classical in
theorem shootC_not_plain {ms : List (DefModule d)} (hp : ¬PlainMembers ms) (hn : 0 < numCoords (.compound ms)) (s : Solver) (it : Nat) (t1 : ℝ)
    (controls : List (Ctrl d)) :
    shootControls s it t1 controls (.compound ms) = .error (if it ≠ 0 ∧ t1 = 0 then .assertion else .attribute) := by
  have hr : ∀ x, readGd (.compound ms) x = .error .attribute := fun x => by
    rw [readGd, DefModule.members, sliceAll_not_plain x _ 0 (by simpa [PlainMembers] using hp)]
  have hf : ∀ t x, forwardControl controls t1 it t x (GradObj.init (.compound ms)) = (.error .attribute, GradObj.init (.compound ms)) := fun t x => by
    unfold forwardControl
    simp only [Prog.bind_run, Prog.get_run, Prog.lift_run, GradObj.init, hr]
  rw [shootControls, initRows_ok hn]
  dsimp only
  unfold odeint
  by_cases hc : it ≠ 0 ∧ t1 = 0
  · rw [if_pos hc, if_pos hc]
  · rw [if_neg hc, if_neg hc]
    cases it with
    | zero =>
      rw [odeLoop]
      show (match readGd (.compound ms) _ with | .error e => _ | .ok m1 => _) = _
      rw [hr]
    | succ k =>
      rw [odeLoop, Prog.bind_run]
      cases s <;> · rw [Solver.step, Prog.bind_run, hf]

theorem getLastD_map {α β : Type} (f : α → β) (l : List α) (a : α) : (l.map f).getLastD (f a) = f (l.getLastD a) := by
  simp [List.getLastD_eq_getLast?, List.getLast?_map]

theorem manifold_compound_move (g : Rigid d) (ms : List (DefModule d)) (x : Row × Row) :
    (rowsMod ((DefModule.compound ms).move g) (rowsMove g (DefModule.compound ms).manifold x)).manifold
      = (rowsMod (.compound ms) x).manifold.move g := by
  rw [rowsMod_move, manifold_move]

theorem reads_manifold {ms ms' : List (DefModule d)} (h : Same (.compound ms') (.compound ms)) (x : Row × Row) :
    (rowsMod (.compound ms') x).manifold = (rowsMod (.compound ms) x).manifold := manifold_of_reset (h x)

/-- The motion of a row only depends on the shape of the manifold. -/
theorem rowsMove_same (g : Rigid d) {m m' : DefModule d} (h : Same m m') (x : Row × Row) : rowsMove g m.manifold x = rowsMove g m'.manifold x := by
  have h1 : ∀ m : DefModule d, rowsMove g m.manifold x = (gdRow ((rowsMod m x).move g), cotRow ((rowsMod m x).move g)) := fun m => by
    rw [← rowsMod_move, gdRow_rowsMod, cotRow_rowsMod]
    have h2 := gdRow_move g (m.withGd x.1 0)
    have h3 := cotRow_move g (m.withCot x.2 0)
    unfold rowsMove
    dsimp only
    have c1 : cut (numCoords (m.move g)) (gdMotion g m.manifold x.1) = gdMotion g m.manifold x.1 := by
      rw [← withGd_gdMotion] at h2
      have := gdRow_withGd (m.move g) (gdMotion g m.manifold x.1)
      rw [withGd_gdMotion] at this
      rw [← this, gdRow, manifold_move, DefModule.manifold_withGd]; rfl
    have c2 : cut (numCoords (m.move g)) (cotMotion g m.manifold x.2) = cotMotion g m.manifold x.2 := by
      have := cotRow_withCot (m.move g) (cotMotion g m.manifold x.2)
      rw [withCot_cotMotion] at this
      rw [← this, cotRow, manifold_move, DefModule.manifold_withCot]; rfl
    rw [c1, c2]
  rw [h1, h1]
  have := manifold_of_reset (h x)
  rw [gdRow, gdRow, cotRow, cotRow, manifold_move, manifold_move, this]

/-- Shooting from moved descriptors and momenta gives the moved trajectory. -/
theorem shootMoments_move {g : Rigid d} {ms : List (DefModule d)} (h : (DefModule.compound ms).Movable g)
    (hg : GradMoves g Hamiltonian.geodesicControls Hamiltonian.geodesicControls (.compound ms)) (s : Solver) (it : Nat) (t1 : ℝ) :
    shootMoments s it t1 ((DefModule.compound ms).move g) = (shootMoments s it t1 (.compound ms)).map (Shot.move g) := by
  have hnc : numCoords (DefModule.compound (DefModule.moveAll g ms)) = numCoords (.compound ms) := by
    rw [← DefModule.move]; exact numCoords_move g _
  by_cases hn : 0 < numCoords (.compound ms)
  swap
  · rw [DefModule.move, shootMoments, shootMoments, C07_no_coordinates (DefModule.compound ms) (by omega), C07_no_coordinates (.compound (DefModule.moveAll g ms)) (by rw [hnc]; omega)]; rfl
  by_cases hp : PlainMembers ms
  swap
  · rw [DefModule.move, shoot_not_plain hp hn, shoot_not_plain (fun h' => hp ((plainMembers_move g ms).1 h')) (hnc ▸ hn)]; rfl
  have hrun := progMap_odeint (rowsMove_add g (DefModule.compound ms).manifold) (forward_move h hg t1 it) s t1 it
    (gdRow (.compound ms), cotRow (.compound ms)) (GradObj.init (.compound ms)) (inv_init hp)
  cases hr : odeint s (forwardMoments t1 it) t1 it (gdRow (.compound ms), cotRow (.compound ms)) (GradObj.init (.compound ms)) with
  | mk r w =>
    rw [hr] at hrun
    obtain ⟨hI, hrun⟩ := hrun
    have e0 : rowsMove g (DefModule.compound ms).manifold (gdRow (.compound ms), cotRow (.compound ms))
        = (gdRow (.compound (DefModule.moveAll g ms)), cotRow (.compound (DefModule.moveAll g ms))) := by
      rw [← DefModule.move, gdRow_move, cotRow_move]; rfl
    have e1 : (GradObj.init (.compound ms)).move g = GradObj.init (.compound (DefModule.moveAll g ms)) := by
      rw [← DefModule.move]; rfl
    rw [e0, e1] at hrun
    rw [DefModule.move, shoot_of_run ((plainMembers_move g ms).2 hp) (hnc ▸ hn) s it t1 hrun, shoot_of_run hp hn s it t1 hr]
    cases r with
    | error e => rfl
    | ok xs =>
      dsimp only [Except.map]
      refine congrArg Except.ok ?_
      unfold Shot.move
      dsimp only
      rw [← e0, getLastD_map, List.map_map, List.map_map]
      obtain ⟨ms', e, -, hs⟩ := hI
      dsimp only at e
      congr 1
      · show rowsMod (w.module.move g) _ = _
        rw [e, rowsMove_same g hs.symm, rowsMod_move]
      · refine List.map_congr_left fun x _ => ?_
        show (rowsMod (.compound (DefModule.moveAll g ms)) _).manifold = _
        rw [← DefModule.move]
        exact manifold_compound_move g ms x

/-! ## Shooting with controls -/

theorem ctrlEval_move (g : Rigid d) {m : DefModule d} (h : m.Movable g) (c : Ctrl d) (x : Row) :
    ctrlEval (m.move g) (c.move g) (gdMotion g m.manifold x) = (ctrlEval m c x).map fun r => (r.1.move g, gdTurn g m.manifold r.2) := by
  unfold ctrlEval
  have hm := (movable_withGd g x m 0).2 h
  rw [withGd_gdMotion, fillControls_move g _ c hm]
  cases h1 : (m.withGd x 0).fillControls c with
  | error e => rfl
  | ok m' =>
    dsimp only [Except.map]
    have hm' : m'.Movable g := (movable_of_reset g (reset_fill _ h1)).2 hm
    rw [cost_move g m' hm']
    cases h2 : m'.cost with
    | error e => rfl
    | ok a =>
      dsimp only
      rw [field_move g m' hm']
      cases h3 : m'.field with
      | error e => rfl
      | ok f =>
        dsimp only [Except.map]
        rw [manifold_move, action_move]
        cases h4 : m'.manifold.action f with
        | error e => rfl
        | ok v =>
          dsimp only [Except.map]
          refine congrArg Except.ok (Prod.ext rfl ?_)
          dsimp only
          have hman : m'.manifold = m.manifold.withGd x 0 := by
            rw [manifold_of_reset (reset_fill _ h1), DefModule.manifold_withGd]
          have e : gdTurn g m.manifold (rowOf v.unroll.flatten) = gdTurn g m'.manifold (rowOf v.unroll.flatten) := by
            show rowOf _ = rowOf _
            rw [hman, Mfd.withGd_withGd]
          rw [e, gdTurn_tan g (fits_action f _ h4)]

theorem forwardC_move {g : Rigid d} {ms : List (DefModule d)} (h : (DefModule.compound ms).Movable g) (controls : List (Ctrl d)) (t1 : ℝ) (it : Nat)
    (t : ℝ) (x : Row) :
    ProgMap (InvC ms) (GradObj.move g) (gdTurn g (DefModule.compound ms).manifold) (forwardControl controls t1 it t x)
      (forwardControl (controls.map (Ctrl.move g)) t1 it t (gdMotion g (DefModule.compound ms).manifold x)) := by
  intro w hI
  have hI' : InvC (DefModule.moveAll g ms) (w.move g) := by
    obtain ⟨ms', e, hp, hs⟩ := hI
    refine ⟨DefModule.moveAll g ms', ?_, (plainMembers_move g ms').2 hp, ?_⟩
    · show w.module.move g = _
      rw [e, DefModule.move]
    · rw [← DefModule.move, ← DefModule.move]; exact hs.move g
  rw [forwardC_run hI, forwardC_run hI', ← DefModule.move]
  have hpick : pickControls (controls.map (Ctrl.move g)) it (tToIt t1 it t) (w.move g).it
      = (pickControls controls it (tToIt t1 it t) w.it).map (Ctrl.move g) := by
    show pickControls _ it _ w.it = _
    unfold pickControls
    rw [List.length_map]
    dsimp only
    rw [List.getElem?_map]
    cases controls[if controls.length = it then (tToIt t1 it t).toNat else if it < controls.length then w.it else 0]? <;> rfl
  rw [hpick]
  cases h0 : pickControls controls it (tToIt t1 it t) w.it with
  | error e => exact ⟨hI, rfl⟩
  | ok c =>
    dsimp only [Except.map]
    rw [ctrlEval_move g h]
    cases h1 : ctrlEval (.compound ms) c x with
    | error e => exact ⟨hI, rfl⟩
    | ok r =>
      refine ⟨invC_after hI h1 .., ?_⟩
      dsimp only [Except.map]
      have hm' : r.1.Movable g := (movable_of_reset g (reset_fill _ (ctrlEval_ok h1).1)).2 ((movable_withGd g x _ 0).2 h)
      rw [after_move g w hm']

theorem shootC_of_run {ms : List (DefModule d)} (hp : PlainMembers ms) (hn : 0 < numCoords (.compound ms)) (s : Solver) (it : Nat) (t1 : ℝ)
    (controls : List (Ctrl d)) {r : Py (List Row)} {w : GradObj d}
    (h : odeint s (forwardControl controls t1 it) t1 it (gdRow (.compound ms)) (GradObj.init (.compound ms)) = (r, w)) :
    shootControls s it t1 controls (.compound ms) = r.map fun xs => ⟨w.module.withGd (xs.getLastD (gdRow (.compound ms))) 0, w.costs,
      xs.map (fun x => ((DefModule.compound ms).withGd x 0).manifold), w.ctrls⟩ := by
  cases r with
  | error e => rw [shootControls, initRows_ok hn]; dsimp only; rw [h]; rfl
  | ok xs =>
    have h2 := (sim_odeint (sim_control ms controls t1 it) t1 it s (gdRow (.compound ms)) _ 0 ⟨invC_init hp, rfl⟩).2
    rw [h] at h2
    obtain ⟨⟨ms', e2, hp', hs'⟩, -⟩ := h2
    dsimp only at e2
    rw [shootControls, initRows_ok hn]
    dsimp only
    rw [h]
    dsimp only [Except.map]
    generalize hy : xs.getLastD (gdRow (.compound ms)) = yl
    rw [e2, readGd_eq hp']
    dsimp only
    have hmem : ((DefModule.compound ms').withGd yl 0).members = DefModule.withGdAll yl 0 ms' := by
      rw [DefModule.withGd, DefModule.members]
    have hpl : PlainMembers ((DefModule.compound ms').withGd yl 0).members := by
      rw [hmem]; exact plainMembers_withGd _ _ hp'
    have hsame : Same (.compound ((DefModule.compound ms').withGd yl 0).members) (.compound ms) := by
      rw [hmem, ← DefModule.withGd]; exact ((sameGd_withGd _ _).trans hs').same
    rw [collectList_ok (fun y => readStateC_eq hpl hsame y)]

/-- Shooting with moved controls from moved descriptors gives the moved trajectory. -/
theorem shootControls_move {g : Rigid d} {ms : List (DefModule d)} (h : (DefModule.compound ms).Movable g) (s : Solver) (it : Nat) (t1 : ℝ)
    (controls : List (Ctrl d)) :
    shootControls s it t1 (controls.map (Ctrl.move g)) ((DefModule.compound ms).move g)
      = (shootControls s it t1 controls (.compound ms)).map (Shot.move g) := by
  have hnc : numCoords (DefModule.compound (DefModule.moveAll g ms)) = numCoords (.compound ms) := by
    rw [← DefModule.move]; exact numCoords_move g _
  by_cases hn : 0 < numCoords (.compound ms)
  swap
  · rw [DefModule.move, shootControls, shootControls, C07_no_coordinates (DefModule.compound ms) (by omega), C07_no_coordinates (.compound (DefModule.moveAll g ms)) (by rw [hnc]; omega)]; rfl
  by_cases hp : PlainMembers ms
  swap
  · rw [DefModule.move, shootC_not_plain hp hn, shootC_not_plain (fun h' => hp ((plainMembers_move g ms).1 h')) (hnc ▸ hn)]; rfl
  have hrun := progMap_odeint (gdMotion_add g (DefModule.compound ms).manifold) (forwardC_move h controls t1 it) s t1 it
    (gdRow (.compound ms)) (GradObj.init (.compound ms)) (invC_init hp)
  cases hr : odeint s (forwardControl controls t1 it) t1 it (gdRow (.compound ms)) (GradObj.init (.compound ms)) with
  | mk r w =>
    rw [hr] at hrun
    obtain ⟨hI, hrun⟩ := hrun
    have e0 : gdMotion g (DefModule.compound ms).manifold (gdRow (.compound ms)) = gdRow (.compound (DefModule.moveAll g ms)) := by
      rw [← DefModule.move, gdRow_move]
    have e1 : (GradObj.init (.compound ms)).move g = GradObj.init (.compound (DefModule.moveAll g ms)) := by
      rw [← DefModule.move]; rfl
    rw [e0, e1] at hrun
    rw [DefModule.move, shootC_of_run ((plainMembers_move g ms).2 hp) (hnc ▸ hn) s it t1 _ hrun, shootC_of_run hp hn s it t1 _ hr]
    cases r with
    | error e => rfl
    | ok xs =>
      dsimp only [Except.map]
      refine congrArg Except.ok ?_
      unfold Shot.move
      dsimp only
      rw [← e0, getLastD_map, List.map_map, List.map_map]
      obtain ⟨ms', e, -, hs⟩ := hI
      dsimp only at e
      congr 1
      · show (w.module.move g).withGd _ 0 = _
        generalize xs.getLastD (gdRow (.compound ms)) = y
        rw [e, ← withGd_gdMotion]
        congr 1
        have := manifold_of_reset (hs y)
        rw [DefModule.manifold_withGd, DefModule.manifold_withGd] at this
        unfold gdMotion
        rw [this]
      · refine List.map_congr_left fun x _ => ?_
        show ((DefModule.compound (DefModule.moveAll g ms)).withGd _ 0).manifold = _
        rw [← DefModule.move, withGd_gdMotion, manifold_move]
        rfl

/-! ## Euler's method of the library itself -/

theorem eulerStep_move {g : Rigid d} (controls : Option (List (Ctrl d))) (i : Nat) {m : DefModule d} (h : m.Movable g)
    (hg : GradMoves g (setControls controls i) (setControls (controls.map (List.map (Ctrl.move g))) i) m) (step : ℝ) :
    eulerStep step (controls.map (List.map (Ctrl.move g))) i (m.move g) = (eulerStep step controls i m).map (DefModule.move g) := by
  unfold eulerStep
  rw [(prep_setControls g controls i).map m h]
  cases h1 : setControls controls i m with
  | error e => rfl
  | ok m1 =>
    have hm1 := (prep_setControls g controls i).keep m m1 h1 h
    dsimp only [Except.map]
    rw [C77_hamiltonian g hm1]
    cases Hamiltonian.value m1 with
    | error e => rfl
    | ok v =>
      dsimp only
      have hG := hg (gdRow m, cotRow m) m1 (by rw [rowsMod_self]; exact h1)
      rw [rowsMod_self] at hG
      have hman : m1.manifold = m.manifold := manifold_of_reset (setControls_reset h1)
      rw [withRows_eq, withRows_eq, hG, gdRow_move, cotRow_move]
      dsimp only
      rw [← map_smul, ← map_smul, ← gdMotion_add, ← cotMotion_add]
      refine congrArg Except.ok ?_
      have := rowsMod_move g m1 (gdRow m + step • (gradH (setControls controls i) m).2, cotRow m + -step • (gradH (setControls controls i) m).1)
      unfold rowsMod rowsMove at this
      dsimp only at this
      rw [hman] at this
      exact this

theorem GradMoves.same {g : Rigid d} {P P' : DefModule d → Py (DefModule d)} (hP : ResetFree P) (hP' : ResetFree P') {m m' : DefModule d} (h : Same m m')
    (hg : GradMoves g P P' m) : GradMoves g P P' m' := fun x m1 h1 => by
  have h2 := hg x m1 (by rw [hP _ _ (h x)]; exact h1)
  have e1 : ((rowsMod m x).move g).reset = ((rowsMod m' x).move g).reset := by
    rw [← reset_move g, h x, reset_move]
  have e2 : ∀ y : Row, cotTurn g m'.manifold y = cotTurn g m.manifold y := fun y => (congrArg Prod.snd (rowsMove_same g h (0, y))).symm
  have e3 : ∀ y : Row, gdTurn g m'.manifold y = gdTurn g m.manifold y := fun y => by
    have a := congrArg Prod.fst (rowsMove_same g h (0, 0))
    have b := congrArg Prod.fst (rowsMove_same g h (0 + y, 0))
    have c := gdMotion_add g m.manifold 0 y
    have c' := gdMotion_add g m'.manifold 0 y
    have d1 : gdMotion g m.manifold 0 = gdMotion g m'.manifold 0 := a
    have d2 : gdMotion g m.manifold (0 + y) = gdMotion g m'.manifold (0 + y) := b
    rw [d2, c', d1] at c
    exact add_left_cancel c
  rw [← gradH_of_reset hP' e1, ← gradH_of_reset hP (h x), h2, e2, e3]

theorem eulerLoop_move {g : Rigid d} (controls : Option (List (Ctrl d))) {m0 : DefModule d}
    (hg : ∀ i : Nat, GradMoves g (setControls controls i) (setControls (controls.map (List.map (Ctrl.move g))) i) m0)
    (step : ℝ) (k : Nat) : ∀ (i : Nat) {m : DefModule d}, m.Movable g → Same m0 m →
    eulerLoop step (controls.map (List.map (Ctrl.move g))) i k (m.move g) = (eulerLoop step controls i k m).map (Shot.move g) := by
  induction k with
  | zero =>
    intro i m h _
    rw [eulerLoop, eulerLoop, manifold_move]
    rfl
  | succ k ih =>
    intro i m h hs
    rw [eulerLoop, eulerLoop, eulerStep_move controls i h ((hg i).same (setControls_resetFree _ _) (setControls_resetFree _ _) hs)]
    cases h1 : eulerStep step controls i m with
    | error e => rfl
    | ok m' =>
      have hm' : m'.Movable g ∧ Same m0 m' := by
        unfold eulerStep at h1
        cases h2 : setControls controls i m with
        | error e => rw [h2] at h1; cases h1
        | ok m1 =>
          rw [h2] at h1
          dsimp only at h1
          cases h3 : Hamiltonian.value m1 with
          | error e => rw [h3] at h1; cases h1
          | ok v =>
            rw [h3] at h1
            dsimp only at h1
            rw [withRows_eq] at h1
            rw [← Except.ok.inj h1]
            refine ⟨(movable_withCot g _ _ 0).2 ((movable_withGd g _ _ 0).2 ((prep_setControls g controls i).keep m m1 h2 h)), ?_⟩
            exact (hs.trans (same_of_reset (setControls_reset h2)).symm).trans (same_rowsMod m1 (_, _)).symm
      dsimp only [Except.map]
      rw [ih (i + 1) hm'.1 hm'.2]
      cases eulerLoop step controls (i + 1) k m' with
      | error e => rfl
      | ok r =>
        dsimp only [Except.map]
        rw [manifold_move, controls_move]
        rfl

theorem shootEuler_move {g : Rigid d} (controls : Option (List (Ctrl d))) (it : Nat) {m : DefModule d} (h : m.Movable g)
    (hg : ∀ i : Nat, GradMoves g (setControls controls i) (setControls (controls.map (List.map (Ctrl.move g))) i) m) :
    shootEuler it (controls.map (List.map (Ctrl.move g))) (m.move g) = (shootEuler it controls m).map (Shot.move g) := by
  unfold shootEuler
  split
  · rfl
  · exact eulerLoop_move controls hg _ it 0 h (Same.refl m)

end
end Imodal
