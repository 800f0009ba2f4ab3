import Verif.Lemmas.TurnGrad
import Verif.Lemmas.Converge
import Verif.Spec.Hamilton
import Mathlib.Analysis.Calculus.ContDiff.Defs
/-!
# The flow of the Hamiltonian
-/
set_option autoImplicit false
namespace Imodal
noncomputable section
open Filter Topology Set
variable {d : Nat}

/-- States with finitely many entries. -/
abbrev Fins (N : Nat) : Type := (Fin N → ℝ) × (Fin N → ℝ)

/-- A state as rows. -/
def finRows {N : Nat} (v : Fins N) : Row × Row := (extRow v.1, extRow v.2)

theorem entries_finRows {N : Nat} (v : Fins N) : entries N (finRows v) = v :=
  Prod.ext (funext fun j => extRow_lt _ j.2) (funext fun j => extRow_lt _ j.2)

/-- The entries, as a linear map. -/
def entriesL (N : Nat) : Row × Row →ₗ[ℝ] Fins N where
  toFun := entries N
  map_add' _ _ := rfl
  map_smul' _ _ := rfl

/-- The right-hand side of the Hamiltonian system on finitely many entries. -/
def hamField (m : DefModule d) (v : Fins (numCoords m)) : Fins (numCoords m) := entries (numCoords m) (hamVec m (finRows v))

/-- The same with its exceptions. -/
def rhsV (m : DefModule d) (v : Fins (numCoords m)) : Py (Fins (numCoords m)) := (rhs m (finRows v)).map (entries (numCoords m))

theorem rhs_congr (m : DefModule d) {x y : Row × Row} (h : rowsMod m x = rowsMod m y) : rhs m x = rhs m y := by
  unfold rhs evalAt hamVec
  rw [h]

theorem rowsMod_entries (m : DefModule d) (x : Row × Row) : rowsMod m (finRows (entries (numCoords m) x)) = rowsMod m x :=
  rowsMod_congr m (fun _ hj => extRow_lt _ hj) fun _ hj => extRow_lt _ hj

theorem rhsV_entries (m : DefModule d) (x : Row × Row) : rhsV m (entries (numCoords m) x) = (rhs m x).map (entries (numCoords m)) := by
  unfold rhsV
  rw [rhs_congr m (rowsMod_entries m x)]

theorem rhsV_ok {m m' : DefModule d} {v : Fins (numCoords m)} (h : evalAt m (finRows v) = .ok m') : rhsV m v = .ok (hamField m v) := by
  unfold rhsV rhs hamField
  rw [h]
  rfl

/-- The values a solver visits, as finitely many entries. -/
theorem orbit_entries (m : DefModule d) (s : Solver) (t1 : ℝ) (it : Nat) (x : Row × Row) :
    (orbit s (rhs m) t1 it x).map (List.map (entries (numCoords m))) = orbit s (rhsV m) t1 it (entries (numCoords m) x) :=
  Tangent.orbit_map (A := univ) (W := ⊤) ⟨fun _ _ _ _ => trivial, fun _ _ _ _ => trivial⟩ (entriesL (numCoords m))
    (fun y _ => (rhsV_entries m y).symm) s t1 it trivial

theorem hamField_eq (m : DefModule d) (v : Fins (numCoords m)) : hamField m v
    = (fun j : Fin (numCoords m) => partialP (ham m) (finRows v).1 (finRows v).2 j,
      fun j : Fin (numCoords m) => -partialQ (ham m) (finRows v).1 (finRows v).2 j) := by
  unfold hamField hamVec entries
  rw [gradH_rows geodesic_resetFree]
  refine Prod.ext (funext fun j => ?_) (funext fun j => ?_)
  · exact cut_of_lt j.2
  · exact congrArg Neg.neg (cut_of_lt j.2)

/-- The right-hand side is continuously differentiable where geodesic controls exist. -/
theorem hamField_contDiffAt {m : DefModule d} {n : WithTop ℕ∞} {k : Nat} (hm : m.Smooth n) (hn : (k : WithTop ℕ∞) + 1 ≤ n) {v : Fins (numCoords m)}
    (hok : ∃ m', Hamiltonian.geodesicControls (rowsMod m (finRows v)) = .ok m') :
    ContDiffAt ℝ k (hamField m) v ∧ ∀ᶠ y in 𝓝 v, rhsV m y = .ok (hamField m y) := by
  obtain ⟨h1, h2⟩ := hamV_contDiffAt hm hok
  rw [entries_finRows] at h1 h2
  refine ⟨?_, h1.mono fun y ⟨m', hy⟩ => rhsV_ok hy⟩
  have hk : ContDiffAt ℝ ((k : WithTop ℕ∞) + 1) (hamV m) v := h2.of_le hn
  have hf : ContDiffAt ℝ k (fderiv ℝ (hamV m)) v := hk.fderiv_right le_rfl
  have hd : ∀ᶠ y in 𝓝 v, DifferentiableAt ℝ (hamV m) y := by
    have h3 : ContDiffAt ℝ 1 (hamV m) v := hk.of_le le_add_self
    exact (h3.eventually (by decide)).mono fun y hy => hy.differentiableAt one_ne_zero
  have he : hamField m =ᶠ[𝓝 v] fun y => ((fun j : Fin (numCoords m) => fderiv ℝ (hamV m) y (entries (numCoords m) (0, fun k => if k = (j : Nat) then 1 else 0)),
      fun j : Fin (numCoords m) => -fderiv ℝ (hamV m) y (entries (numCoords m) ((fun k => if k = (j : Nat) then 1 else 0), 0))) : Fins (numCoords m)) := by
    filter_upwards [hd] with y hy
    rw [hamField_eq]
    have hy' : DifferentiableAt ℝ (rowFn (numCoords m) (ham m)) (entries (numCoords m) (finRows y)) := by rw [entries_finRows]; exact hy
    refine Prod.ext (funext fun j => ?_) (funext fun j => ?_)
    · dsimp only
      rw [partialP_fderiv (ham_reads m) hy', entries_finRows]; rfl
    · dsimp only
      rw [partialQ_fderiv (ham_reads m) hy', entries_finRows]; rfl
  refine ContDiffAt.congr_of_eventuallyEq ?_ he
  refine ContDiffAt.prodMk (contDiffAt_pi.2 fun j => ?_) (contDiffAt_pi.2 fun j => ?_)
  · exact hf.clm_apply contDiffAt_const
  · exact (hf.clm_apply contDiffAt_const).neg

/-- Curves that follow Hamilton's equations are solutions. -/
theorem HamiltonCurve.solves {m : DefModule d} {T : ℝ} {q p : ℝ → Row} (h : HamiltonCurve (numCoords m) (ham m) T q p) :
    Solves (hamField m) (fun t => entries (numCoords m) (q t, p t)) T := fun t ht => by
  have e : hamField m (entries (numCoords m) (q t, p t))
      = (fun j : Fin (numCoords m) => partialP (ham m) (q t) (p t) j, fun j : Fin (numCoords m) => -partialQ (ham m) (q t) (p t) j) := by
    rw [hamField_eq]
    have := partials_congr (ham_reads m) (q := (finRows (entries (numCoords m) (q t, p t))).1) (q' := q t)
      (p := (finRows (entries (numCoords m) (q t, p t))).2) (p' := p t) (fun j hj => extRow_lt _ hj) fun j hj => extRow_lt _ hj
    refine Prod.ext (funext fun j => this.2 j j.2) (funext fun j => ?_)
    exact congrArg Neg.neg (this.1 j j.2)
  rw [e]
  have h1 : HasDerivWithinAt (fun u => fun j : Fin (numCoords m) => q u j) (fun j : Fin (numCoords m) => partialP (ham m) (q t) (p t) j) (Icc 0 T) t :=
    hasDerivWithinAt_pi.2 fun j => h.gd t ht j j.2
  have h2 : HasDerivWithinAt (fun u => fun j : Fin (numCoords m) => p u j) (fun j : Fin (numCoords m) => -partialQ (ham m) (q t) (p t) j) (Icc 0 T) t :=
    hasDerivWithinAt_pi.2 fun j => h.cot t ht j j.2
  exact h1.prodMk h2

end
end Imodal
