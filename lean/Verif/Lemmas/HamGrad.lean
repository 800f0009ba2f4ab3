import Verif.Lemmas.HamSmooth
import Verif.Lemmas.RigidShoot
import Verif.Lemmas.Envelope
import Mathlib.Analysis.Calculus.Deriv.Pi
import Mathlib.Analysis.Calculus.Deriv.Prod
import Mathlib.Analysis.Calculus.FDeriv.Comp
/-!
# The gradient of the Hamiltonian
-/
set_option autoImplicit false
namespace Imodal
noncomputable section
open Matrix Filter Topology
variable {d : Nat} {n : WithTop ℕ∞}

/-- A row from finitely many entries. -/
def extRow {n : Nat} (v : Fin n → ℝ) : Row := fun j => if h : j < n then v ⟨j, h⟩ else 0

theorem extRow_lt {n j : Nat} (v : Fin n → ℝ) (h : j < n) : extRow v j = v ⟨j, h⟩ := by rw [extRow, dif_pos h]

theorem dotRow_sum (p : Row) : (l : List ℝ) → (off : Nat) → dotRow p off l = ∑ k : Fin l.length, p (off + k) * l[k]
  | l, off => by
    conv_lhs => rw [show l = List.ofFn (fun k : Fin l.length => l[k]) from (List.ofFn_getElem (xs := l)).symm]
    rw [dotRow_ofFn]

theorem ham_same {m m' : DefModule d} (h : Same m m') : ham m = ham m' := by
  funext q p
  unfold ham
  rw [hamFn_same geodesic_resetFree h]

mutual
/-- A motion changes nothing but descriptors, momenta, controls and cached results. -/
theorem reset_withs_move (g : Rigid d) (x y : Row) : (m : DefModule d) → (o : Nat) →
    (((m.move g).withGd x o).withCot y o).reset = ((m.withGd x o).withCot y o).reset
  | .translations _, _ => by simp [DefModule.move, DefModule.withGd, DefModule.withCot, DefModule.reset]
  | .implicit0 _, _ => by simp [DefModule.move, DefModule.withGd, DefModule.withCot, DefModule.reset]
  | .oriented _, _ => by simp [DefModule.move, DefModule.withGd, DefModule.withCot, DefModule.reset]
  | .constrained _, _ => by simp [DefModule.move, DefModule.withGd, DefModule.withCot, DefModule.reset]
  | .globalTranslation _, _ => by simp [DefModule.move, DefModule.withGd, DefModule.withCot, DefModule.reset]
  | .linear _, _ => by simp [DefModule.move, DefModule.withGd, DefModule.withCot, DefModule.reset]
  | .implicit1 _, _ => by simp [DefModule.move, DefModule.withGd, DefModule.withCot, DefModule.reset]
  | .divFree _, _ => by simp [DefModule.move, DefModule.withGd, DefModule.withCot, DefModule.reset]
  | .arap _, _ => by simp [DefModule.move, DefModule.withGd, DefModule.withCot, DefModule.reset]
  | .silent man, o => by
    rw [DefModule.move, DefModule.withGd, DefModule.withCot, DefModule.withGd, DefModule.withCot, mfd_withs_move g x y man]
  | .compound ms, o => by
    rw [DefModule.move, DefModule.withGd, DefModule.withCot, DefModule.withGd, DefModule.withCot, DefModule.reset, DefModule.reset,
      resetAll_withs_move g x y ms]
theorem resetAll_withs_move (g : Rigid d) (x y : Row) : (ms : List (DefModule d)) → (o : Nat) →
    DefModule.resetAll (DefModule.withCotAll y o (DefModule.withGdAll x o (DefModule.moveAll g ms)))
      = DefModule.resetAll (DefModule.withCotAll y o (DefModule.withGdAll x o ms))
  | [], _ => by rw [DefModule.moveAll]
  | m :: ms, o => by
    rw [DefModule.moveAll, DefModule.withGdAll, DefModule.withCotAll, DefModule.resetAll, DefModule.withGdAll, DefModule.withCotAll,
      DefModule.resetAll, reset_withs_move g x y m, DefModule.manifold_withGd, DefModule.manifold_withGd, Mfd.size_withGd, Mfd.size_withGd,
      manifold_move, size_move, resetAll_withs_move g x y ms]
theorem mfd_withs_move (g : Rigid d) (x y : Row) : (M : Mfd d) → (o : Nat) → (((M.move g).withGd x o).withCot y o) = (M.withGd x o).withCot y o
  | .landmarks _ _, _ => by simp [Mfd.move, Mfd.withGd, Mfd.withCot]
  | .direction _ _ _ _ _, _ => by simp [Mfd.move, Mfd.withGd, Mfd.withCot]
  | .frame _ _ _ _, _ => by simp [Mfd.move, Mfd.withGd, Mfd.withCot]
  | .empty, _ => by simp [Mfd.move, Mfd.withGd, Mfd.withCot]
  | .compound ms, o => by rw [Mfd.move, Mfd.withGd, Mfd.withCot, Mfd.withGd, Mfd.withCot, mfds_withs_move g x y ms]
theorem mfds_withs_move (g : Rigid d) (x y : Row) : (Ms : List (Mfd d)) → (o : Nat) →
    Mfd.withCotAll y o (Mfd.withGdAll x o (Mfd.moveAll g Ms)) = Mfd.withCotAll y o (Mfd.withGdAll x o Ms)
  | [], _ => by rw [Mfd.moveAll]
  | M :: Ms, o => by
    rw [Mfd.moveAll, Mfd.withGdAll, Mfd.withCotAll, Mfd.withGdAll, Mfd.withCotAll, mfd_withs_move g x y M, Mfd.size_withGd, Mfd.size_withGd,
      size_move, mfds_withs_move g x y Ms]
end

theorem same_move (g : Rigid d) (m : DefModule d) : Same (m.move g) m := fun x => reset_withs_move g x.1 x.2 m 0

theorem rowsMod_cut (m : DefModule d) (x : Row × Row) : rowsMod m (cut (numCoords m) x.1, cut (numCoords m) x.2) = rowsMod m x := by
  have := rowsMod_self (rowsMod m x)
  rwa [rowsMod_rowsMod, gdRow_rowsMod, cotRow_rowsMod] at this


theorem rowsMod_congr (m : DefModule d) {x y : Row × Row} (h1 : ∀ j < numCoords m, x.1 j = y.1 j) (h2 : ∀ j < numCoords m, x.2 j = y.2 j) :
    rowsMod m x = rowsMod m y := by
  rw [← rowsMod_cut m x, ← rowsMod_cut m y]
  have c1 : cut (numCoords m) x.1 = cut (numCoords m) y.1 := by
    funext j; unfold cut; split
    · exact h1 j (by assumption)
    · rfl
  have c2 : cut (numCoords m) x.2 = cut (numCoords m) y.2 := by
    funext j; unfold cut; split
    · exact h2 j (by assumption)
    · rfl
  rw [c1, c2]

theorem ham_congr (m : DefModule d) {q q' p p' : Row} (h : ∀ j < numCoords m, q j = q' j) (h' : ∀ j < numCoords m, p j = p' j) :
    ham m q p = ham m q' p' := by
  unfold ham
  rw [hamFn_eq, hamFn_eq, rowsMod_congr m (x := (q, p)) (y := (q', p')) h h']

/-- A rigid motion of descriptors and momenta leaves the Hamiltonian as it is. -/
theorem ham_move {g : Rigid d} {m : DefModule d} (h : m.Movable g) (q p : Row) :
    ham m (gdMotion g m.manifold q) (cotMotion g m.manifold p) = ham m q p := by
  have h1 := hamFn_move (prep_geodesic g) h q p
  rw [hamFn_same geodesic_resetFree (same_move g m)] at h1
  unfold ham
  rw [h1]

/-! ## Derivatives -/

/-- A function of two rows that reads the first `N` entries only. -/
def RowReads (N : Nat) (F : Row → Row → ℝ) : Prop :=
  ∀ ⦃q q' p p' : Row⦄, (∀ j < N, q j = q' j) → (∀ j < N, p j = p' j) → F q p = F q' p'

/-- The same as a function of finitely many numbers. -/
def rowFn (N : Nat) (F : Row → Row → ℝ) (v : (Fin N → ℝ) × (Fin N → ℝ)) : ℝ := F (extRow v.1) (extRow v.2)

/-- The Hamiltonian as a function of finitely many numbers. -/
def hamV (m : DefModule d) : (Fin (numCoords m) → ℝ) × (Fin (numCoords m) → ℝ) → ℝ := rowFn (numCoords m) (ham m)

/-- The entries of a state. -/
def entries (N : Nat) (x : Row × Row) : (Fin N → ℝ) × (Fin N → ℝ) := (fun j => x.1 j, fun j => x.2 j)

theorem ham_reads (m : DefModule d) : RowReads (numCoords m) (ham m) := fun _ _ _ _ h h' => ham_congr m h h'

theorem rowFn_entries {N : Nat} {F : Row → Row → ℝ} (hF : RowReads N F) (x : Row × Row) : rowFn N F (entries _ x) = F x.1 x.2 :=
  hF (fun j hj => by rw [extRow_lt _ hj]; rfl) (fun j hj => by rw [extRow_lt _ hj]; rfl)

theorem sm_extRow {N : Nat} {E : Type} [NormedAddCommGroup E] [NormedSpace ℝ E] {f : E → Fin N → ℝ} {e₀ : E} (hf : ContDiffAt ℝ n f e₀) (j : Nat) :
    ContDiffAt ℝ n (fun e => extRow (f e) j) e₀ := by
  unfold extRow
  by_cases h : j < N
  · simp only [dif_pos h]; exact contDiffAt_pi.1 hf ⟨j, h⟩
  · simp only [dif_neg h]; exact contDiffAt_const

/-- Where geodesic controls exist, they exist nearby, and the Hamiltonian is smooth. -/
theorem hamV_contDiffAt {m : DefModule d} (hm : m.Smooth n) {x : Row × Row} (hok : ∃ m', Hamiltonian.geodesicControls (rowsMod m x) = .ok m') :
    (∀ᶠ v in 𝓝 (entries (numCoords m) x), ∃ m', evalAt m (extRow v.1, extRow v.2) = .ok m') ∧
      ContDiffAt ℝ n (hamV m) (entries (numCoords m) x) := by
  refine ham_smooth (e₀ := entries (numCoords m) x) hm (fun j => sm_extRow contDiffAt_fst j) (fun j => sm_extRow contDiffAt_snd j) ?_
  rwa [rowsMod_congr m (x := (extRow (entries (numCoords m) x).1, extRow (entries (numCoords m) x).2)) (y := x)
    (fun j hj => extRow_lt _ hj) (fun j hj => extRow_lt _ hj)]

section
variable {N : Nat} {F : Row → Row → ℝ} {x : Row × Row}

theorem ham_curve_fderiv (hF : RowReads N F) (hd : DifferentiableAt ℝ (rowFn N F) (entries N x)) {γ δ : ℝ → Row} {t₀ : ℝ} {a b : Row}
    (hγ : ∀ j < N, γ t₀ j = x.1 j) (hδ : ∀ j < N, δ t₀ j = x.2 j)
    (ha : ∀ j < N, HasDerivAt (fun s => γ s j) (a j) t₀) (hb : ∀ j < N, HasDerivAt (fun s => δ s j) (b j) t₀) :
    HasDerivAt (fun s => F (γ s) (δ s)) (fderiv ℝ (rowFn N F) (entries N x) (entries N (a, b))) t₀ := by
  have hc : HasDerivAt (fun s => entries N (γ s, δ s)) (entries N (a, b)) t₀ := by
    have h1 : HasDerivAt (fun s => fun j : Fin N => γ s j) (fun j : Fin N => a j) t₀ := hasDerivAt_pi.2 fun j => ha j j.2
    have h2 : HasDerivAt (fun s => fun j : Fin N => δ s j) (fun j : Fin N => b j) t₀ := hasDerivAt_pi.2 fun j => hb j j.2
    exact h1.prodMk h2
  have h0 : entries N (γ t₀, δ t₀) = entries N x :=
    Prod.ext (funext fun j => hγ j j.2) (funext fun j => hδ j j.2)
  have hD : HasFDerivAt (rowFn N F) (fderiv ℝ (rowFn N F) (entries N x)) (entries N (γ t₀, δ t₀)) := by
    rw [h0]; exact hd.hasFDerivAt
  have := hD.comp_hasDerivAt t₀ hc
  have e : (rowFn N F ∘ fun s => entries N (γ s, δ s)) = fun s => F (γ s) (δ s) := by
    funext s; exact rowFn_entries hF (γ s, δ s)
  rwa [e] at this

theorem hasDerivAt_update_row (q : Row) (j k : Nat) : HasDerivAt (fun s => Function.update q j s k) (if k = j then 1 else 0) (q j) := by
  by_cases h : k = j
  · subst h
    simp only [Function.update_self, if_true]
    exact hasDerivAt_id _
  · simp only [Function.update_of_ne h, if_neg h]
    exact hasDerivAt_const _ _

theorem partialQ_fderiv (hF : RowReads N F) (hd : DifferentiableAt ℝ (rowFn N F) (entries N x)) (j : Nat) :
    partialQ (F) x.1 x.2 j = fderiv ℝ (rowFn N F) (entries N x) (entries N ((fun k => if k = j then 1 else 0), 0)) := by
  unfold partialQ
  exact (ham_curve_fderiv (γ := fun s => Function.update x.1 j s) (δ := fun _ => x.2) hF hd (fun k _ => by rw [Function.update_eq_self]) (fun k _ => rfl)
    (fun k _ => hasDerivAt_update_row x.1 j k) (fun k _ => hasDerivAt_const _ _)).deriv

theorem partialP_fderiv (hF : RowReads N F) (hd : DifferentiableAt ℝ (rowFn N F) (entries N x)) (j : Nat) :
    partialP (F) x.1 x.2 j = fderiv ℝ (rowFn N F) (entries N x) (entries N (0, (fun k => if k = j then 1 else 0))) := by
  unfold partialP
  exact (ham_curve_fderiv (γ := fun _ => x.1) (δ := fun s => Function.update x.2 j s) hF hd (fun k _ => rfl) (fun k _ => by rw [Function.update_eq_self])
    (fun k _ => hasDerivAt_const _ _) (fun k _ => hasDerivAt_update_row x.2 j k)).deriv

theorem entries_sum (N : Nat) (a b : Row) : entries N (a, b)
    = ∑ j : Fin N, (a j • entries N ((fun k => if k = j then 1 else 0), 0) + b j • entries N (0, fun k => if k = j then 1 else 0)) := by
  refine Prod.ext ?_ ?_
  · funext k
    rw [Prod.fst_sum, Finset.sum_apply]
    simp [entries, Fin.val_inj]
  · funext k
    rw [Prod.snd_sum, Finset.sum_apply]
    simp [entries, Fin.val_inj]

/-- The directional derivative in terms of the partial derivatives. -/
theorem fderiv_entries (hF : RowReads N F) (hd : DifferentiableAt ℝ (rowFn N F) (entries N x)) (a b : Row) :
    fderiv ℝ (rowFn N F) (entries N x) (entries N (a, b))
      = ∑ j : Fin N, (a j * partialQ (F) x.1 x.2 j + b j * partialP (F) x.1 x.2 j) := by
  rw [entries_sum _ a b, map_sum]
  refine Finset.sum_congr rfl fun j _ => ?_
  rw [map_add, map_smul, map_smul, ← partialQ_fderiv hF hd, ← partialP_fderiv hF hd]
  rfl

/-- The derivative along a curve of states. -/
theorem ham_curve (hF : RowReads N F) (hd : DifferentiableAt ℝ (rowFn N F) (entries N x)) {γ δ : ℝ → Row} {t₀ : ℝ} {a b : Row}
    (hγ : ∀ j < N, γ t₀ j = x.1 j) (hδ : ∀ j < N, δ t₀ j = x.2 j)
    (ha : ∀ j < N, HasDerivAt (fun s => γ s j) (a j) t₀) (hb : ∀ j < N, HasDerivAt (fun s => δ s j) (b j) t₀) :
    HasDerivAt (fun s => F (γ s) (δ s))
      (∑ j : Fin N, (a j * partialQ (F) x.1 x.2 j + b j * partialP (F) x.1 x.2 j)) t₀ := by
  rw [← fderiv_entries hF hd]
  exact ham_curve_fderiv hF hd hγ hδ ha hb

/-- Along a curve on which the function is constant the gradient vanishes. -/
theorem grad_const (hF : RowReads N F) (hd : DifferentiableAt ℝ (rowFn N F) (entries N x)) {γ δ : ℝ → Row} {t₀ c : ℝ} {a b : Row}
    (hγ : ∀ j < N, γ t₀ j = x.1 j) (hδ : ∀ j < N, δ t₀ j = x.2 j)
    (ha : ∀ j < N, HasDerivAt (fun s => γ s j) (a j) t₀) (hb : ∀ j < N, HasDerivAt (fun s => δ s j) (b j) t₀)
    (hc : ∀ s, F (γ s) (δ s) = c) :
    ∑ j : Fin N, (a j * partialQ (F) x.1 x.2 j + b j * partialP (F) x.1 x.2 j) = 0 := by
  have := ham_curve hF hd hγ hδ ha hb
  simp only [hc] at this
  exact this.unique (hasDerivAt_const _ _)

end

end
end Imodal
