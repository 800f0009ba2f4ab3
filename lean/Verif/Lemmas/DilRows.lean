import Verif.Lemmas.DilAll
import Verif.Lemmas.ScaleShoot
import Mathlib.Data.List.GetD
/-!
# Shooting in another unit of length
-/
set_option autoImplicit false
namespace Imodal
noncomputable section
variable {d : Nat} {s : ℝ}

/-! ## Rows -/

mutual
/-- The unit of every entry of the descriptors. -/
def Mfd.units (s : ℝ) : Mfd d → List ℝ
  | @Mfd.landmarks _ n _ _ => List.replicate (n * d) s
  | @Mfd.direction _ _ n _ _ _ _ => List.replicate (n * d) s ++ List.replicate (n * d) 1
  | @Mfd.frame _ n _ _ _ _ => List.replicate (n * d) s ++ List.replicate (n * (d * d)) 1
  | .empty => []
  | .compound ms => Mfd.unitsAll s ms
def Mfd.unitsAll (s : ℝ) : List (Mfd d) → List ℝ
  | [] => []
  | m :: ms => m.units s ++ Mfd.unitsAll s ms
end

mutual
theorem units_length : (m : Mfd d) → (m.units s).length = m.size
  | .landmarks _ _ => by simp [Mfd.units, Mfd.size]
  | .direction _ _ _ _ _ => by simp [Mfd.units, Mfd.size]
  | .frame _ _ _ _ => by simp [Mfd.units, Mfd.size]
  | .empty => by simp [Mfd.units, Mfd.size]
  | .compound ms => by rw [Mfd.units, Mfd.size, unitsAll_length ms]
theorem unitsAll_length : (ms : List (Mfd d)) → (Mfd.unitsAll s ms).length = Mfd.sizeAll ms
  | [] => by simp [Mfd.unitsAll, Mfd.sizeAll]
  | m :: ms => by rw [Mfd.unitsAll, Mfd.sizeAll, List.length_append, units_length m, unitsAll_length ms]
end

mutual
theorem units_ne (hs : s ≠ 0) : (m : Mfd d) → ∀ u ∈ m.units s, u ≠ 0
  | .landmarks _ _ => by simp only [Mfd.units]; intro u hu; rw [List.eq_of_mem_replicate hu]; exact hs
  | .direction _ _ _ _ _ => by
    simp only [Mfd.units, List.mem_append]
    rintro u (hu | hu) <;> rw [List.eq_of_mem_replicate hu]
    exacts [hs, one_ne_zero]
  | .frame _ _ _ _ => by
    simp only [Mfd.units, List.mem_append]
    rintro u (hu | hu) <;> rw [List.eq_of_mem_replicate hu]
    exacts [hs, one_ne_zero]
  | .empty => by simp [Mfd.units]
  | .compound ms => by rw [Mfd.units]; exact unitsAll_ne hs ms
theorem unitsAll_ne (hs : s ≠ 0) : (ms : List (Mfd d)) → ∀ u ∈ Mfd.unitsAll s ms, u ≠ 0
  | [] => by simp [Mfd.unitsAll]
  | m :: ms => by
    rw [Mfd.unitsAll]
    intro u hu
    rcases List.mem_append.1 hu with h | h
    exacts [units_ne hs m u h, unitsAll_ne hs ms u h]
end

mutual
theorem units_withGd (x : Row) : (m : Mfd d) → (o : Nat) → (m.withGd x o).units s = m.units s
  | .landmarks _ _, _ => by simp only [Mfd.withGd, Mfd.units]
  | .direction _ _ _ _ _, _ => by simp only [Mfd.withGd, Mfd.units]
  | .frame _ _ _ _, _ => by simp only [Mfd.withGd, Mfd.units]
  | .empty, _ => by simp only [Mfd.withGd]
  | .compound ms, o => by rw [Mfd.withGd, Mfd.units, Mfd.units, unitsAll_withGd x ms]
theorem unitsAll_withGd (x : Row) : (ms : List (Mfd d)) → (o : Nat) → Mfd.unitsAll s (Mfd.withGdAll x o ms) = Mfd.unitsAll s ms
  | [], _ => by simp only [Mfd.withGdAll]
  | m :: ms, o => by rw [Mfd.withGdAll, Mfd.unitsAll, Mfd.unitsAll, units_withGd x m, unitsAll_withGd x ms]
end
mutual
theorem units_withCot (x : Row) : (m : Mfd d) → (o : Nat) → (m.withCot x o).units s = m.units s
  | .landmarks _ _, _ => by simp only [Mfd.withCot, Mfd.units]
  | .direction _ _ _ _ _, _ => by simp only [Mfd.withCot, Mfd.units]
  | .frame _ _ _ _, _ => by simp only [Mfd.withCot, Mfd.units]
  | .empty, _ => by simp only [Mfd.withCot]
  | .compound ms, o => by rw [Mfd.withCot, Mfd.units, Mfd.units, unitsAll_withCot x ms]
theorem unitsAll_withCot (x : Row) : (ms : List (Mfd d)) → (o : Nat) → Mfd.unitsAll s (Mfd.withCotAll x o ms) = Mfd.unitsAll s ms
  | [], _ => by simp only [Mfd.withCotAll]
  | m :: ms, o => by rw [Mfd.withCotAll, Mfd.unitsAll, Mfd.unitsAll, units_withCot x m, unitsAll_withCot x ms]
end

/-- The unit of every entry of the state vector of a module. -/
def DefModule.unitRow (s : ℝ) (m : DefModule d) : Row := fun j => (m.manifold.units s).getD j s
theorem unitRow_ne (hs : s ≠ 0) (m : DefModule d) (j : Nat) : m.unitRow s j ≠ 0 := by
  unfold DefModule.unitRow
  by_cases h : j < (m.manifold.units s).length
  · rw [List.getD_eq_getElem _ _ h]; exact units_ne hs _ _ (List.getElem_mem h)
  · rw [List.getD_eq_default _ _ (by omega)]; exact hs
theorem starts_unitRow (m : DefModule d) : Starts (m.unitRow s) 0 (m.manifold.units s) := fun j h => by
  unfold DefModule.unitRow
  rw [Nat.zero_add, List.getD_eq_getElem _ _ h]
theorem unitRow_rowsMod (m : DefModule d) (x : Row × Row) : (rowsMod m x).unitRow s = m.unitRow s := by
  unfold DefModule.unitRow
  rw [manifold_rowsMod, units_withCot, units_withGd]
theorem unitRow_of_reset {m m' : DefModule d} (h : m.reset = m'.reset) : m.unitRow s = m'.unitRow s := by
  unfold DefModule.unitRow
  rw [manifold_of_reset h]
theorem Same.unitRow {m m' : DefModule d} (h : Same m m') : m.unitRow s = m'.unitRow s := by
  rw [← unitRow_rowsMod m (0, 0), ← unitRow_rowsMod m' (0, 0), unitRow_of_reset (h (0, 0))]

theorem lt_mul_add {i c k m : Nat} (hi : i < k) (hc : c < m) : i * m + c < k * m := by
  calc i * m + c < i * m + m := by omega
    _ = (i + 1) * m := by ring
    _ ≤ k * m := Nat.mul_le_mul_right m hi
theorem starts_replicate {W : Row} {o k : Nat} {u : ℝ} (h : Starts W o (List.replicate k u)) (j : Nat) (hj : j < k) : W (o + j) = u := by
  rw [h j (by rwa [List.length_replicate]), List.getElem_replicate]
section
variable {W x : Row} {o n : Nat} {u : ℝ}
theorem view_units (h : Starts W o (List.replicate (n * d) u)) :
    (viewVecs (d := d) (n := n) fun j => W (o + j) * x (o + j)) = fun i c => u * viewVecs (d := d) (n := n) (fun j => x (o + j)) i c := by
  funext i c
  dsimp only [viewVecs]
  rw [starts_replicate h _ (lt_mul_add i.2 c.2)]
theorem viewMats_units (h : Starts W o (List.replicate (n * (d * d)) u)) :
    (viewMats (d := d) (n := n) fun j => W (o + j) * x (o + j)) = fun i b c => u * viewMats (d := d) (n := n) (fun j => x (o + j)) i b c := by
  funext i b c
  simp only [viewMats, Matrix.of_apply]
  rw [starts_replicate h _ (lt_mul_add i.2 (lt_mul_add b.2 c.2))]
end

/-- Multiplying the state vector by its units. -/
def rowsDil (s : ℝ) (W : Row) : Row × Row →ₗ[ℝ] Row × Row :=
  (LinearMap.mulLeft ℝ W).prodMap (LinearMap.mulLeft ℝ fun j => s ^ 2 / W j)

theorem rowsDil_apply (W : Row) (x : Row × Row) : rowsDil s W x = (fun j => W j * x.1 j, fun j => s ^ 2 / W j * x.2 j) := rfl
theorem starts_cot (hs : s ≠ 0) {W : Row} {o k : Nat} (h : Starts W o (List.replicate k s)) : Starts (fun j => s ^ 2 / W j) o (List.replicate k s) := fun j hj => by
  rw [List.length_replicate] at hj
  dsimp only
  rw [starts_replicate h j hj, List.getElem_replicate, pow_two, mul_div_cancel_right₀ _ hs]
theorem starts_cot1 {W : Row} {o k : Nat} (h : Starts W o (List.replicate k 1)) : Starts (fun j => s ^ 2 / W j) o (List.replicate k (s ^ 2)) := fun j hj => by
  rw [List.length_replicate] at hj
  dsimp only
  rw [starts_replicate h j hj, List.getElem_replicate, div_one]

mutual
theorem mfd_size_dil : (m : Mfd d) → (m.dilate s).size = m.size
  | .landmarks _ _ => by simp only [Mfd.dilate, Mfd.size]
  | .direction _ _ _ _ _ => by simp only [Mfd.dilate, Mfd.size]
  | .frame _ _ _ _ => by simp only [Mfd.dilate, Mfd.size]
  | .empty => by rw [Mfd.dilate]
  | .compound ms => by rw [Mfd.dilate, Mfd.size, Mfd.size, mfds_size_dil ms]
theorem mfds_size_dil : (ms : List (Mfd d)) → Mfd.sizeAll (Mfd.dilateAll s ms) = Mfd.sizeAll ms
  | [] => by rw [Mfd.dilateAll]
  | m :: ms => by rw [Mfd.dilateAll, Mfd.sizeAll, Mfd.sizeAll, mfd_size_dil m, mfds_size_dil ms]
end

mutual
theorem mfd_dil_withGd {W : Row} (x : Row) : (m : Mfd d) → {o : Nat} → Starts W o (m.units s) →
    (m.dilate s).withGd (fun j => W j * x j) o = (m.withGd x o).dilate s
  | .landmarks _ _, o, h => by
    rw [Mfd.units] at h
    simp only [Mfd.withGd, Mfd.dilate]; rw [view_units h]
  | .direction _ _ _ _ _, o, h => by
    rw [Mfd.units] at h
    obtain ⟨h1, h2⟩ := Starts.append.1 h
    rw [List.length_replicate] at h2
    simp only [Mfd.withGd, Mfd.dilate]; rw [view_units h1, view_units h2]; simp only [one_mul]
  | .frame _ _ _ _, o, h => by
    rw [Mfd.units] at h
    obtain ⟨h1, h2⟩ := Starts.append.1 h
    rw [List.length_replicate] at h2
    simp only [Mfd.withGd, Mfd.dilate]; rw [view_units h1, viewMats_units h2]; simp only [one_mul]
  | .empty, _, _ => by simp only [Mfd.withGd, Mfd.dilate]
  | .compound ms, o, h => by
    rw [Mfd.units] at h
    rw [Mfd.withGd, Mfd.dilate, Mfd.withGd, Mfd.dilate, mfds_dil_withGd x ms h]
theorem mfds_dil_withGd {W : Row} (x : Row) : (ms : List (Mfd d)) → {o : Nat} → Starts W o (Mfd.unitsAll s ms) →
    Mfd.withGdAll (fun j => W j * x j) o (Mfd.dilateAll s ms) = Mfd.dilateAll s (Mfd.withGdAll x o ms)
  | [], _, _ => by simp only [Mfd.withGdAll, Mfd.dilateAll]
  | m :: ms, o, h => by
    rw [Mfd.unitsAll] at h
    obtain ⟨h1, h2⟩ := Starts.append.1 h
    rw [units_length] at h2
    rw [Mfd.withGdAll, Mfd.dilateAll, Mfd.withGdAll, Mfd.dilateAll, mfd_dil_withGd x m h1, mfd_size_dil, mfds_dil_withGd x ms h2]
end

mutual
theorem mfd_dil_withCot (hs : s ≠ 0) {W : Row} (x : Row) : (m : Mfd d) → {o : Nat} → Starts W o (m.units s) →
    (m.dilate s).withCot (fun j => s ^ 2 / W j * x j) o = (m.withCot x o).dilate s
  | .landmarks _ _, o, h => by
    rw [Mfd.units] at h
    simp only [Mfd.withCot, Mfd.dilate]; rw [view_units (starts_cot hs h)]
  | .direction _ _ _ _ _, o, h => by
    rw [Mfd.units] at h
    obtain ⟨h1, h2⟩ := Starts.append.1 h
    rw [List.length_replicate] at h2
    simp only [Mfd.withCot, Mfd.dilate]; rw [view_units (starts_cot hs h1), view_units (starts_cot1 h2)]
  | .frame _ _ _ _, o, h => by
    rw [Mfd.units] at h
    obtain ⟨h1, h2⟩ := Starts.append.1 h
    rw [List.length_replicate] at h2
    simp only [Mfd.withCot, Mfd.dilate]; rw [view_units (starts_cot hs h1), viewMats_units (starts_cot1 h2)]
  | .empty, _, _ => by simp only [Mfd.withCot, Mfd.dilate]
  | .compound ms, o, h => by
    rw [Mfd.units] at h
    rw [Mfd.withCot, Mfd.dilate, Mfd.withCot, Mfd.dilate, mfds_dil_withCot hs x ms h]
theorem mfds_dil_withCot (hs : s ≠ 0) {W : Row} (x : Row) : (ms : List (Mfd d)) → {o : Nat} → Starts W o (Mfd.unitsAll s ms) →
    Mfd.withCotAll (fun j => s ^ 2 / W j * x j) o (Mfd.dilateAll s ms) = Mfd.dilateAll s (Mfd.withCotAll x o ms)
  | [], _, _ => by simp only [Mfd.withCotAll, Mfd.dilateAll]
  | m :: ms, o, h => by
    rw [Mfd.unitsAll] at h
    obtain ⟨h1, h2⟩ := Starts.append.1 h
    rw [units_length] at h2
    rw [Mfd.withCotAll, Mfd.dilateAll, Mfd.withCotAll, Mfd.dilateAll, mfd_dil_withCot hs x m h1, mfd_size_dil, mfds_dil_withCot hs x ms h2]
end

mutual
theorem dil_withGd {W : Row} (x : Row) : (m : DefModule d) → {o : Nat} → Starts W o (m.manifold.units s) →
    (m.dilate s).withGd (fun j => W j * x j) o = (m.withGd x o).dilate s
  | .translations m, o, h => by
    rw [DefModule.manifold, Translations.manifold, Mfd.units] at h
    simp only [DefModule.withGd, DefModule.dilate]; rw [view_units h]
  | .implicit0 m, o, h => by
    rw [DefModule.manifold, Implicit0.manifold, Mfd.units] at h
    simp only [DefModule.withGd, DefModule.dilate]; rw [view_units h]
  | .constrained m, o, h => by
    rw [DefModule.manifold, Constrained.manifold, Mfd.units] at h
    simp only [DefModule.withGd, DefModule.dilate]; rw [view_units h]
  | .linear m, o, h => by
    rw [DefModule.manifold, Linear.manifold, Mfd.units] at h
    simp only [DefModule.withGd, DefModule.dilate]; rw [view_units h]
  | .divFree m, o, h => by
    rw [DefModule.manifold, DivFree.manifold, Mfd.units] at h
    simp only [DefModule.withGd, DefModule.dilate]; rw [view_units h]
  | .arap m, o, h => by
    rw [DefModule.manifold, Arap.manifold, Mfd.units] at h
    simp only [DefModule.withGd, DefModule.dilate]; rw [view_units h]
  | .oriented m, o, h => by
    rw [DefModule.manifold, Oriented.manifold, Mfd.units] at h
    obtain ⟨h1, h2⟩ := Starts.append.1 h
    rw [List.length_replicate] at h2
    simp only [DefModule.withGd, DefModule.dilate]; rw [view_units h1, view_units h2]; simp only [one_mul]
  | .implicit1 m, o, h => by
    rw [DefModule.manifold, Implicit1.manifold, Mfd.units] at h
    obtain ⟨h1, h2⟩ := Starts.append.1 h
    rw [List.length_replicate] at h2
    simp only [DefModule.withGd, DefModule.dilate]; rw [view_units h1, viewMats_units h2]; simp only [one_mul]
  | .globalTranslation _, _, _ => by simp only [DefModule.withGd, DefModule.dilate]
  | .silent M, o, h => by
    rw [DefModule.manifold] at h
    rw [DefModule.withGd, DefModule.dilate, DefModule.withGd, DefModule.dilate, mfd_dil_withGd x M h]
  | .compound ms, o, h => by
    rw [DefModule.manifold, Mfd.units] at h
    rw [DefModule.withGd, DefModule.dilate, DefModule.withGd, DefModule.dilate, dilateAll_withGd x ms h]
theorem dilateAll_withGd {W : Row} (x : Row) : (ms : List (DefModule d)) → {o : Nat} → Starts W o (Mfd.unitsAll s (DefModule.manifolds ms)) →
    DefModule.withGdAll (fun j => W j * x j) o (DefModule.dilateAll s ms) = DefModule.dilateAll s (DefModule.withGdAll x o ms)
  | [], _, _ => by simp only [DefModule.withGdAll, DefModule.dilateAll]
  | m :: ms, o, h => by
    rw [DefModule.manifolds, Mfd.unitsAll] at h
    obtain ⟨h1, h2⟩ := Starts.append.1 h
    rw [units_length] at h2
    rw [DefModule.withGdAll, DefModule.dilateAll, DefModule.withGdAll, DefModule.dilateAll, dil_withGd x m h1, manifold_dil, mfd_size_dil,
      dilateAll_withGd x ms h2]
end

mutual
theorem dil_withCot (hs : s ≠ 0) {W : Row} (x : Row) : (m : DefModule d) → {o : Nat} → Starts W o (m.manifold.units s) →
    (m.dilate s).withCot (fun j => s ^ 2 / W j * x j) o = (m.withCot x o).dilate s
  | .translations m, o, h => by
    rw [DefModule.manifold, Translations.manifold, Mfd.units] at h
    simp only [DefModule.withCot, DefModule.dilate]; rw [view_units (starts_cot hs h)]
  | .implicit0 m, o, h => by
    rw [DefModule.manifold, Implicit0.manifold, Mfd.units] at h
    simp only [DefModule.withCot, DefModule.dilate]; rw [view_units (starts_cot hs h)]
  | .constrained m, o, h => by
    rw [DefModule.manifold, Constrained.manifold, Mfd.units] at h
    simp only [DefModule.withCot, DefModule.dilate]; rw [view_units (starts_cot hs h)]
  | .linear m, o, h => by
    rw [DefModule.manifold, Linear.manifold, Mfd.units] at h
    simp only [DefModule.withCot, DefModule.dilate]; rw [view_units (starts_cot hs h)]
  | .divFree m, o, h => by
    rw [DefModule.manifold, DivFree.manifold, Mfd.units] at h
    simp only [DefModule.withCot, DefModule.dilate]; rw [view_units (starts_cot hs h)]
  | .arap m, o, h => by
    rw [DefModule.manifold, Arap.manifold, Mfd.units] at h
    simp only [DefModule.withCot, DefModule.dilate]; rw [view_units (starts_cot hs h)]
  | .oriented m, o, h => by
    rw [DefModule.manifold, Oriented.manifold, Mfd.units] at h
    obtain ⟨h1, h2⟩ := Starts.append.1 h
    rw [List.length_replicate] at h2
    simp only [DefModule.withCot, DefModule.dilate]; rw [view_units (starts_cot hs h1), view_units (starts_cot1 h2)]
  | .implicit1 m, o, h => by
    rw [DefModule.manifold, Implicit1.manifold, Mfd.units] at h
    obtain ⟨h1, h2⟩ := Starts.append.1 h
    rw [List.length_replicate] at h2
    simp only [DefModule.withCot, DefModule.dilate]; rw [view_units (starts_cot hs h1), viewMats_units (starts_cot1 h2)]
  | .globalTranslation _, _, _ => by simp only [DefModule.withCot, DefModule.dilate]
  | .silent M, o, h => by
    rw [DefModule.manifold] at h
    rw [DefModule.withCot, DefModule.dilate, DefModule.withCot, DefModule.dilate, mfd_dil_withCot hs x M h]
  | .compound ms, o, h => by
    rw [DefModule.manifold, Mfd.units] at h
    rw [DefModule.withCot, DefModule.dilate, DefModule.withCot, DefModule.dilate, dilateAll_withCot hs x ms h]
theorem dilateAll_withCot (hs : s ≠ 0) {W : Row} (x : Row) : (ms : List (DefModule d)) → {o : Nat} → Starts W o (Mfd.unitsAll s (DefModule.manifolds ms)) →
    DefModule.withCotAll (fun j => s ^ 2 / W j * x j) o (DefModule.dilateAll s ms) = DefModule.dilateAll s (DefModule.withCotAll x o ms)
  | [], _, _ => by simp only [DefModule.withCotAll, DefModule.dilateAll]
  | m :: ms, o, h => by
    rw [DefModule.manifolds, Mfd.unitsAll] at h
    obtain ⟨h1, h2⟩ := Starts.append.1 h
    rw [units_length] at h2
    rw [DefModule.withCotAll, DefModule.dilateAll, DefModule.withCotAll, DefModule.dilateAll, dil_withCot hs x m h1, manifold_dil, mfd_size_dil,
      dilateAll_withCot hs x ms h2]
end

theorem rowsMod_dil (hs : s ≠ 0) (m : DefModule d) (x : Row × Row) :
    rowsMod (m.dilate s) (rowsDil s (m.unitRow s) x) = (rowsMod m x).dilate s := by
  unfold rowsMod
  rw [rowsDil_apply]
  dsimp only
  rw [dil_withGd x.1 m (starts_unitRow m), dil_withCot hs x.2 (m.withGd x.1 0)]
  rw [DefModule.manifold_withGd, units_withGd]; exact starts_unitRow m

theorem numCoords_dil (m : DefModule d) : numCoords (m.dilate s) = numCoords m := by
  rw [numCoords_eq, numCoords_eq, manifold_dil, mfd_size_dil]
theorem cut_mul (n : Nat) (W x : Row) : cut n (fun j => W j * x j) = fun j => W j * cut n x j := by
  funext j
  unfold cut
  split
  · rfl
  · exact (mul_zero _).symm
theorem gdRow_dil (hs : s ≠ 0) (m : DefModule d) : gdRow (m.dilate s) = fun j => m.unitRow s j * gdRow m j := by
  have h := rowsMod_dil hs m (gdRow m, cotRow m)
  rw [rowsMod_self] at h
  have h' := congrArg gdRow h
  rw [gdRow_rowsMod, rowsDil_apply, numCoords_dil, cut_mul, cut_gdRow] at h'
  exact h'.symm
theorem cotRow_dil (hs : s ≠ 0) (m : DefModule d) : cotRow (m.dilate s) = fun j => s ^ 2 / m.unitRow s j * cotRow m j := by
  have h := rowsMod_dil hs m (gdRow m, cotRow m)
  rw [rowsMod_self] at h
  have h' := congrArg cotRow h
  rw [cotRow_rowsMod, rowsDil_apply, numCoords_dil] at h'
  dsimp only at h'
  rw [cut_mul _ fun j => s ^ 2 / m.unitRow s j, cut_cotRow] at h'
  exact h'.symm

mutual
theorem tan_dil {x : Row} : (v : Tan d) → {M : Mfd d} → {o : Nat} → v.Fits M → Starts x o v.unroll.flatten →
    ((M.withGd x o).dilate s).unrollGd.flatten = (v.dilate s).unroll.flatten
  | @Tan.landmarks _ n v, M, o, h, hx => by
    cases M <;> rw [Tan.Fits] at h <;> first | exact h.elim | skip
    subst h
    simp only [Tan.unroll, List.flatten_cons, List.flatten_nil, List.append_nil] at hx
    simp only [Mfd.withGd, Mfd.dilate, Mfd.unrollGd, Tan.dilate, Tan.unroll, view_of_starts hx]; rfl
  | @Tan.direction _ n v w, M, o, h, hx => by
    cases M <;> rw [Tan.Fits] at h <;> first | exact h.elim | skip
    subst h
    simp only [Tan.unroll, List.flatten_cons, List.flatten_nil, List.append_nil] at hx
    obtain ⟨h1, h2⟩ := Starts.append.1 hx
    rw [length_flatVecs] at h2
    simp only [Mfd.withGd, Mfd.dilate, Mfd.unrollGd, Tan.dilate, Tan.unroll, view_of_starts h1, view_of_starts h2]
    rfl
  | @Tan.frame _ n v w, M, o, h, hx => by
    cases M <;> rw [Tan.Fits] at h <;> first | exact h.elim | skip
    subst h
    simp only [Tan.unroll, List.flatten_cons, List.flatten_nil, List.append_nil] at hx
    obtain ⟨h1, h2⟩ := Starts.append.1 hx
    rw [length_flatVecs] at h2
    simp only [Mfd.withGd, Mfd.dilate, Mfd.unrollGd, Tan.dilate, Tan.unroll, view_of_starts h1, viewMats_of_starts h2]
    rfl
  | .empty, M, o, h, hx => by
    cases M <;> rw [Tan.Fits] at h <;> first | exact h.elim | skip
    simp [Mfd.withGd, Mfd.dilate, Mfd.unrollGd, Tan.dilate, Tan.unroll]
  | .compound ts, M, o, h, hx => by
    cases M <;> rw [Tan.Fits] at h <;> first | exact h.elim | skip
    rw [Tan.unroll] at hx
    rw [Mfd.withGd, Mfd.dilate, Mfd.unrollGd, Tan.dilate, Tan.unroll]
    exact tans_dil ts h hx
theorem tans_dil {x : Row} : (ts : List (Tan d)) → {Ms : List (Mfd d)} → {o : Nat} → Tan.AllFit ts Ms →
    Starts x o (Tan.unrollAll ts).flatten →
    (Mfd.unrollGdAll (Mfd.dilateAll s (Mfd.withGdAll x o Ms))).flatten = (Tan.unrollAll (Tan.dilateAll s ts)).flatten
  | [], [], o, h, hx => by simp [Mfd.withGdAll, Mfd.dilateAll, Mfd.unrollGdAll, Tan.dilateAll, Tan.unrollAll]
  | [], _ :: _, o, h, hx => by rw [Tan.AllFit] at h <;> first | exact h.elim | simp
  | _ :: _, [], o, h, hx => by rw [Tan.AllFit] at h <;> first | exact h.elim | simp
  | t :: ts, M :: Ms, o, h, hx => by
    rw [Tan.AllFit] at h
    rw [Tan.unrollAll, List.flatten_append] at hx
    obtain ⟨h1, h2⟩ := Starts.append.1 hx
    rw [length_fits t h.1] at h2
    rw [Mfd.withGdAll, Mfd.dilateAll, Mfd.unrollGdAll, List.flatten_append, Tan.dilateAll, Tan.unrollAll, List.flatten_append,
      tan_dil t h.1 h1, tans_dil ts h.2 h2]
end

/-- The row of a velocity in the new unit. -/
theorem rowTan_dil (m : DefModule d) {v : Tan d} (h : v.Fits m.manifold) :
    rowOf (v.dilate s).unroll.flatten = fun j => m.unitRow s j * rowOf v.unroll.flatten j := by
  have e := mfd_dil_withGd (s := s) (rowOf v.unroll.flatten) m.manifold (starts_unitRow m)
  rw [← tan_dil (s := s) v h (starts_rowOf _), ← e]
  rw [rowOf_of_starts (Mfd.starts_withGd _ _ 0), Mfd.length_unrollGd, Mfd.size_withGd, mfd_size_dil, cut_mul]
  funext j
  rw [← length_fits v h, ← rowOf_of_starts (starts_rowOf _)]

end
end Imodal
