import Verif.Model.Shooting
import Verif.Lemmas.ModCompound
/-!
# Reading manifolds from rows

`withGd x off` reads the descriptors directly at their offsets; the loops over slices of the
code give the same result.
-/
set_option autoImplicit false
namespace Imodal
noncomputable section
variable {d : Nat}

theorem length_flatVecs {n : Nat} (g : Fin n → Vec d) : (flatVecs g).length = n * d := List.length_ofFn
theorem length_flatMats {n : Nat} (g : Fin n → Mat d) : (flatMats g).length = n * (d * d) := List.length_ofFn

theorem getElem_flatVecs {n : Nat} (g : Fin n → Vec d) (j : Nat) (h : j < (flatVecs g).length) (h' : j < n * d) :
    (flatVecs g)[j] = g (⟨j, h'⟩ : Fin (n * d)).divNat (⟨j, h'⟩ : Fin (n * d)).modNat := by
  simp only [flatVecs, List.getElem_ofFn]
theorem getElem_flatMats {n : Nat} (g : Fin n → Mat d) (j : Nat) (h : j < (flatMats g).length) (h' : j < n * (d * d)) :
    (flatMats g)[j] = g (⟨j, h'⟩ : Fin (n * (d * d))).divNat (⟨j, h'⟩ : Fin (n * (d * d))).modNat.divNat
      (⟨j, h'⟩ : Fin (n * (d * d))).modNat.modNat := by
  simp only [flatMats, List.getElem_ofFn]

/-- From `off` on the row `x` starts with the entries `l`. -/
def Starts (x : Row) (off : Nat) (l : List ℝ) : Prop := ∀ j (h : j < l.length), x (off + j) = l[j]

theorem Starts.append {x : Row} {off : Nat} {l l' : List ℝ} :
    Starts x off (l ++ l') ↔ Starts x off l ∧ Starts x (off + l.length) l' := by
  constructor
  · intro h
    refine ⟨fun j hj => ?_, fun j hj => ?_⟩
    · rw [h j (by rw [List.length_append]; omega), List.getElem_append_left hj]
    · have := h (l.length + j) (by rw [List.length_append]; omega)
      rw [List.getElem_append_right (by omega)] at this
      simpa [Nat.add_assoc] using this
  · rintro ⟨h1, h2⟩ j hj
    by_cases hl : j < l.length
    · rw [h1 j hl, List.getElem_append_left hl]
    · rw [List.getElem_append_right (by omega)]
      have := h2 (j - l.length) (by rw [List.length_append] at hj; omega)
      rw [← this]; congr 1; omega

theorem Starts.unique {x : Row} {off : Nat} {l l' : List ℝ} (h : Starts x off l) (h' : Starts x off l')
    (hl : l.length = l'.length) : l = l' :=
  List.ext_getElem hl fun j h1 h2 => by rw [← h j h1, ← h' j h2]

theorem Starts.congr {x y : Row} {off : Nat} {l : List ℝ} (h : Starts x off l)
    (hxy : ∀ j, off ≤ j → j < off + l.length → y j = x j) : Starts y off l :=
  fun j hj => by rw [hxy (off + j) (by omega) (by omega), h j hj]

theorem starts_rowOf (l : List ℝ) : Starts (rowOf l) 0 l := fun j hj => by
  simp [rowOf, List.getD, hj]

theorem view_of_starts {n : Nat} {g : Fin n → Vec d} {x : Row} {off : Nat} (h : Starts x off (flatVecs g)) :
    viewVecs (fun j => x (off + j)) = g := by
  funext i c
  have hk : (i : Nat) * d + c < n * d := by
    calc (i : Nat) * d + c < i * d + d := by omega
      _ = (i + 1) * d := by ring
      _ ≤ n * d := Nat.mul_le_mul_right d i.isLt
  have := h (i * d + c) (by rw [length_flatVecs]; exact hk)
  rw [viewVecs, this, getElem_flatVecs _ _ _ hk]
  have h1 : (⟨(i : Nat) * d + c, hk⟩ : Fin (n * d)).divNat = i := by
    ext; simp only [Fin.coe_divNat]
    rw [Nat.mul_comm, Nat.mul_add_div (by omega), Nat.div_eq_of_lt c.isLt, Nat.add_zero]
  have h2 : (⟨(i : Nat) * d + c, hk⟩ : Fin (n * d)).modNat = c := by
    ext; simp only [Fin.coe_modNat]
    rw [Nat.mul_comm, Nat.mul_add_mod, Nat.mod_eq_of_lt c.isLt]
  rw [h1, h2]

theorem starts_view {n : Nat} (x : Row) (off : Nat) :
    Starts x off (flatVecs (viewVecs (d := d) (n := n) fun j => x (off + j))) := by
  intro j hj
  rw [getElem_flatVecs _ _ _ (by rwa [length_flatVecs] at hj)]
  simp only [viewVecs, Fin.coe_divNat, Fin.coe_modNat]
  rw [Nat.mul_comm, Nat.div_add_mod]

theorem viewMats_of_starts {n : Nat} {g : Fin n → Mat d} {x : Row} {off : Nat} (h : Starts x off (flatMats g)) :
    viewMats (fun j => x (off + j)) = g := by
  funext i b c
  have hbc : (b : Nat) * d + c < d * d := by
    calc (b : Nat) * d + c < b * d + d := by omega
      _ = (b + 1) * d := by ring
      _ ≤ d * d := Nat.mul_le_mul_right d b.isLt
  have hk : (i : Nat) * (d * d) + (b * d + c) < n * (d * d) := by
    calc (i : Nat) * (d * d) + (b * d + c) < i * (d * d) + d * d := by omega
      _ = (i + 1) * (d * d) := by ring
      _ ≤ n * (d * d) := Nat.mul_le_mul_right _ i.isLt
  have := h (i * (d * d) + (b * d + c)) (by rw [length_flatMats]; exact hk)
  rw [viewMats, Matrix.of_apply, this, getElem_flatMats _ _ _ hk]
  have h1 : (⟨(i : Nat) * (d * d) + (b * d + c), hk⟩ : Fin (n * (d * d))).divNat = i := by
    ext; simp only [Fin.coe_divNat]
    rw [Nat.mul_comm, Nat.mul_add_div (by omega), Nat.div_eq_of_lt hbc, Nat.add_zero]
  have h2 : (⟨(i : Nat) * (d * d) + (b * d + c), hk⟩ : Fin (n * (d * d))).modNat = ⟨b * d + c, hbc⟩ := by
    ext; simp only [Fin.coe_modNat]
    rw [Nat.mul_comm, Nat.mul_add_mod, Nat.mod_eq_of_lt hbc]
  have h3 : (⟨(b : Nat) * d + c, hbc⟩ : Fin (d * d)).divNat = b := by
    ext; simp only [Fin.coe_divNat]
    rw [Nat.mul_comm, Nat.mul_add_div (by omega), Nat.div_eq_of_lt c.isLt, Nat.add_zero]
  have h4 : (⟨(b : Nat) * d + c, hbc⟩ : Fin (d * d)).modNat = c := by
    ext; simp only [Fin.coe_modNat]
    rw [Nat.mul_comm, Nat.mul_add_mod, Nat.mod_eq_of_lt c.isLt]
  rw [h1, h2, h3, h4]

theorem starts_viewMats {n : Nat} (x : Row) (off : Nat) :
    Starts x off (flatMats (viewMats (d := d) (n := n) fun j => x (off + j))) := by
  intro j hj
  rw [getElem_flatMats _ _ _ (by rwa [length_flatMats] at hj)]
  simp only [viewMats, Matrix.of_apply, Fin.coe_divNat, Fin.coe_modNat]
  congr 1
  congr 1
  conv_lhs => rw [← Nat.div_add_mod j (d * d)]
  rw [Nat.mul_comm (d * d)]
  congr 1
  rw [Nat.mul_comm (j % (d * d) / d), Nat.div_add_mod]

/-! ## Direct reading -/

mutual
/-- The number of entries of the descriptors. -/
def Mfd.size : Mfd d → Nat
  | @Mfd.landmarks _ n _ _ => n * d
  | @Mfd.direction _ _ n _ _ _ _ => n * d + n * d
  | @Mfd.frame _ n _ _ _ _ => n * d + n * (d * d)
  | .empty => 0
  | .compound ms => Mfd.sizeAll ms
def Mfd.sizeAll : List (Mfd d) → Nat
  | [] => 0
  | m :: ms => m.size + Mfd.sizeAll ms
end

mutual
/-- The manifold with descriptors read from the row at `off`. -/
def Mfd.withGd (x : Row) : Nat → Mfd d → Mfd d
  | off, .landmarks _ cot => .landmarks (viewVecs fun j => x (off + j)) cot
  | off, @Mfd.direction _ t n _ _ cot cdir =>
    .direction t (viewVecs fun j => x (off + j)) (viewVecs fun j => x (off + n * d + j)) cot cdir
  | off, @Mfd.frame _ n _ _ cot cR =>
    .frame (viewVecs fun j => x (off + j)) (viewMats fun j => x (off + n * d + j)) cot cR
  | _, .empty => .empty
  | off, .compound ms => .compound (Mfd.withGdAll x off ms)
def Mfd.withGdAll (x : Row) : Nat → List (Mfd d) → List (Mfd d)
  | _, [] => []
  | off, m :: ms => m.withGd x off :: Mfd.withGdAll x (off + m.size) ms
end

mutual
/-- The manifold with momenta read from the row at `off`. -/
def Mfd.withCot (x : Row) : Nat → Mfd d → Mfd d
  | off, .landmarks gd _ => .landmarks gd (viewVecs fun j => x (off + j))
  | off, @Mfd.direction _ t n gd dir _ _ =>
    .direction t gd dir (viewVecs fun j => x (off + j)) (viewVecs fun j => x (off + n * d + j))
  | off, @Mfd.frame _ n gd R _ _ =>
    .frame gd R (viewVecs fun j => x (off + j)) (viewMats fun j => x (off + n * d + j))
  | _, .empty => .empty
  | off, .compound ms => .compound (Mfd.withCotAll x off ms)
def Mfd.withCotAll (x : Row) : Nat → List (Mfd d) → List (Mfd d)
  | _, [] => []
  | off, m :: ms => m.withCot x off :: Mfd.withCotAll x (off + m.size) ms
end

mutual
/-- The module with descriptors read from the row at `off`. -/
def DefModule.withGd (x : Row) : Nat → DefModule d → DefModule d
  | off, .translations m => .translations { m with gd := viewVecs fun j => x (off + j) }
  | off, .implicit0 m => .implicit0 { m with gd := viewVecs fun j => x (off + j) }
  | off, @DefModule.oriented _ n m => .oriented { m with
      gd := viewVecs fun j => x (off + j), dir := viewVecs fun j => x (off + n * d + j) }
  | off, .constrained m => .constrained { m with gd := viewVecs fun j => x (off + j) }
  | _, .globalTranslation m => .globalTranslation m
  | off, .linear m => .linear { m with gd := viewVecs (n := 1) (fun j => x (off + j)) 0 }
  | off, @DefModule.implicit1 _ n _ m => .implicit1 { m with
      gd := viewVecs fun j => x (off + j), R := viewMats fun j => x (off + n * d + j) }
  | off, .divFree m => .divFree { m with gd := viewVecs fun j => x (off + j) }
  | off, .arap m => .arap { m with gd := viewVecs fun j => x (off + j) }
  | off, .silent man => .silent (man.withGd x off)
  | off, .compound ms => .compound (DefModule.withGdAll x off ms)
def DefModule.withGdAll (x : Row) : Nat → List (DefModule d) → List (DefModule d)
  | _, [] => []
  | off, m :: ms => m.withGd x off :: DefModule.withGdAll x (off + m.manifold.size) ms
end

mutual
/-- The module with momenta read from the row at `off`. -/
def DefModule.withCot (x : Row) : Nat → DefModule d → DefModule d
  | off, .translations m => .translations { m with cot := viewVecs fun j => x (off + j) }
  | off, .implicit0 m => .implicit0 { m with cot := viewVecs fun j => x (off + j) }
  | off, @DefModule.oriented _ n m => .oriented { m with
      cot := viewVecs fun j => x (off + j), cdir := viewVecs fun j => x (off + n * d + j) }
  | off, .constrained m => .constrained { m with cot := viewVecs fun j => x (off + j) }
  | _, .globalTranslation m => .globalTranslation m
  | off, .linear m => .linear { m with cot := viewVecs (n := 1) (fun j => x (off + j)) 0 }
  | off, @DefModule.implicit1 _ n _ m => .implicit1 { m with
      cot := viewVecs fun j => x (off + j), cR := viewMats fun j => x (off + n * d + j) }
  | off, .divFree m => .divFree { m with cot := viewVecs fun j => x (off + j) }
  | off, .arap m => .arap { m with cot := viewVecs fun j => x (off + j) }
  | off, .silent man => .silent (man.withCot x off)
  | off, .compound ms => .compound (DefModule.withCotAll x off ms)
def DefModule.withCotAll (x : Row) : Nat → List (DefModule d) → List (DefModule d)
  | _, [] => []
  | off, m :: ms => m.withCot x off :: DefModule.withCotAll x (off + m.manifold.size) ms
end

mutual
theorem Mfd.length_unrollGd : (m : Mfd d) → m.unrollGd.flatten.length = m.size
  | .landmarks gd cot => by simp [Mfd.unrollGd, Mfd.size, length_flatVecs]
  | .direction t gd dir cot cdir => by simp [Mfd.unrollGd, Mfd.size, length_flatVecs]
  | .frame gd R cot cR => by simp [Mfd.unrollGd, Mfd.size, length_flatVecs, length_flatMats]
  | .empty => by simp [Mfd.unrollGd, Mfd.size]
  | .compound ms => by rw [Mfd.unrollGd, Mfd.size]; exact Mfd.length_unrollGdAll ms
theorem Mfd.length_unrollGdAll : (ms : List (Mfd d)) → (Mfd.unrollGdAll ms).flatten.length = Mfd.sizeAll ms
  | [] => by simp [Mfd.unrollGdAll, Mfd.sizeAll]
  | m :: ms => by
    rw [Mfd.unrollGdAll, Mfd.sizeAll, List.flatten_append, List.length_append, Mfd.length_unrollGd m,
      Mfd.length_unrollGdAll ms]
end

mutual
theorem Mfd.lengths_unrollCot : (m : Mfd d) → m.unrollCot.map List.length = m.unrollGd.map List.length
  | .landmarks gd cot => by simp [Mfd.unrollGd, Mfd.unrollCot, length_flatVecs]
  | .direction t gd dir cot cdir => by simp [Mfd.unrollGd, Mfd.unrollCot, length_flatVecs]
  | .frame gd R cot cR => by simp [Mfd.unrollGd, Mfd.unrollCot, length_flatVecs, length_flatMats]
  | .empty => by simp [Mfd.unrollGd, Mfd.unrollCot]
  | .compound ms => by rw [Mfd.unrollGd, Mfd.unrollCot]; exact Mfd.lengths_unrollCotAll ms
theorem Mfd.lengths_unrollCotAll : (ms : List (Mfd d)) →
    (Mfd.unrollCotAll ms).map List.length = (Mfd.unrollGdAll ms).map List.length
  | [] => by simp [Mfd.unrollGdAll, Mfd.unrollCotAll]
  | m :: ms => by
    rw [Mfd.unrollGdAll, Mfd.unrollCotAll, List.map_append, List.map_append, Mfd.lengths_unrollCot m,
      Mfd.lengths_unrollCotAll ms]
end

theorem Mfd.length_unrollCot (m : Mfd d) : m.unrollCot.flatten.length = m.size := by
  rw [← Mfd.length_unrollGd, List.length_flatten, List.length_flatten, Mfd.lengths_unrollCot]

mutual
theorem Mfd.withGd_of_starts {x : Row} : (m : Mfd d) → {off : Nat} → Starts x off m.unrollGd.flatten → m.withGd x off = m
  | .landmarks gd cot, off, h => by
    simp only [Mfd.unrollGd, List.flatten_cons, List.flatten_nil, List.append_nil] at h
    rw [Mfd.withGd, view_of_starts h]
  | .direction t gd dir cot cdir, off, h => by
    simp only [Mfd.unrollGd, List.flatten_cons, List.flatten_nil, List.append_nil, Starts.append, length_flatVecs] at h
    rw [Mfd.withGd, view_of_starts h.1, view_of_starts h.2]
  | .frame gd R cot cR, off, h => by
    simp only [Mfd.unrollGd, List.flatten_cons, List.flatten_nil, List.append_nil, Starts.append, length_flatVecs] at h
    rw [Mfd.withGd, view_of_starts h.1, viewMats_of_starts h.2]
  | .empty, off, h => by rw [Mfd.withGd]
  | .compound ms, off, h => by
    rw [Mfd.unrollGd] at h
    rw [Mfd.withGd, Mfd.withGdAll_of_starts ms h]
theorem Mfd.withGdAll_of_starts {x : Row} : (ms : List (Mfd d)) → {off : Nat} →
    Starts x off (Mfd.unrollGdAll ms).flatten → Mfd.withGdAll x off ms = ms
  | [], off, h => by rw [Mfd.withGdAll]
  | m :: ms, off, h => by
    rw [Mfd.unrollGdAll, List.flatten_append, Starts.append, Mfd.length_unrollGd] at h
    rw [Mfd.withGdAll, Mfd.withGd_of_starts m h.1, Mfd.withGdAll_of_starts ms h.2]
end

mutual
theorem Mfd.withCot_of_starts {x : Row} : (m : Mfd d) → {off : Nat} → Starts x off m.unrollCot.flatten → m.withCot x off = m
  | .landmarks gd cot, off, h => by
    simp only [Mfd.unrollCot, List.flatten_cons, List.flatten_nil, List.append_nil] at h
    rw [Mfd.withCot, view_of_starts h]
  | .direction t gd dir cot cdir, off, h => by
    simp only [Mfd.unrollCot, List.flatten_cons, List.flatten_nil, List.append_nil, Starts.append, length_flatVecs] at h
    rw [Mfd.withCot, view_of_starts h.1, view_of_starts h.2]
  | .frame gd R cot cR, off, h => by
    simp only [Mfd.unrollCot, List.flatten_cons, List.flatten_nil, List.append_nil, Starts.append, length_flatVecs] at h
    rw [Mfd.withCot, view_of_starts h.1, viewMats_of_starts h.2]
  | .empty, off, h => by rw [Mfd.withCot]
  | .compound ms, off, h => by
    rw [Mfd.unrollCot] at h
    rw [Mfd.withCot, Mfd.withCotAll_of_starts ms h]
theorem Mfd.withCotAll_of_starts {x : Row} : (ms : List (Mfd d)) → {off : Nat} →
    Starts x off (Mfd.unrollCotAll ms).flatten → Mfd.withCotAll x off ms = ms
  | [], off, h => by rw [Mfd.withCotAll]
  | m :: ms, off, h => by
    rw [Mfd.unrollCotAll, List.flatten_append, Starts.append, Mfd.length_unrollCot] at h
    rw [Mfd.withCotAll, Mfd.withCot_of_starts m h.1, Mfd.withCotAll_of_starts ms h.2]
end

mutual
theorem Mfd.starts_withGd (x : Row) : (m : Mfd d) → (off : Nat) → Starts x off (m.withGd x off).unrollGd.flatten
  | .landmarks gd cot, off => by
    simp only [Mfd.withGd, Mfd.unrollGd, List.flatten_cons, List.flatten_nil, List.append_nil]
    exact starts_view x off
  | .direction t gd dir cot cdir, off => by
    simp only [Mfd.withGd, Mfd.unrollGd, List.flatten_cons, List.flatten_nil, List.append_nil, Starts.append, length_flatVecs]
    exact ⟨starts_view x off, starts_view x _⟩
  | .frame gd R cot cR, off => by
    simp only [Mfd.withGd, Mfd.unrollGd, List.flatten_cons, List.flatten_nil, List.append_nil, Starts.append, length_flatVecs]
    exact ⟨starts_view x off, starts_viewMats x _⟩
  | .empty, off => by rw [Mfd.withGd, Mfd.unrollGd]; intro j hj; simp at hj
  | .compound ms, off => by rw [Mfd.withGd, Mfd.unrollGd]; exact Mfd.starts_withGdAll x ms off
theorem Mfd.starts_withGdAll (x : Row) : (ms : List (Mfd d)) → (off : Nat) →
    Starts x off (Mfd.unrollGdAll (Mfd.withGdAll x off ms)).flatten
  | [], off => by rw [Mfd.withGdAll, Mfd.unrollGdAll]; intro j hj; simp at hj
  | m :: ms, off => by
    rw [Mfd.withGdAll, Mfd.unrollGdAll, List.flatten_append, Starts.append, Mfd.length_unrollGd, Mfd.size_withGd]
    exact ⟨Mfd.starts_withGd x m off, Mfd.starts_withGdAll x ms _⟩
theorem Mfd.size_withGd (x : Row) : (m : Mfd d) → (off : Nat) → (m.withGd x off).size = m.size
  | .landmarks gd cot, off => by rw [Mfd.withGd, Mfd.size, Mfd.size]
  | .direction t gd dir cot cdir, off => by rw [Mfd.withGd, Mfd.size, Mfd.size]
  | .frame gd R cot cR, off => by rw [Mfd.withGd, Mfd.size, Mfd.size]
  | .empty, off => by rw [Mfd.withGd]
  | .compound ms, off => by rw [Mfd.withGd, Mfd.size, Mfd.size, Mfd.size_withGdAll x ms]
theorem Mfd.size_withGdAll (x : Row) : (ms : List (Mfd d)) → (off : Nat) → Mfd.sizeAll (Mfd.withGdAll x off ms) = Mfd.sizeAll ms
  | [], off => by rw [Mfd.withGdAll]
  | m :: ms, off => by rw [Mfd.withGdAll, Mfd.sizeAll, Mfd.sizeAll, Mfd.size_withGd x m, Mfd.size_withGdAll x ms]
end

mutual
theorem Mfd.size_withCot (x : Row) : (m : Mfd d) → (off : Nat) → (m.withCot x off).size = m.size
  | .landmarks gd cot, off => by rw [Mfd.withCot, Mfd.size, Mfd.size]
  | .direction t gd dir cot cdir, off => by rw [Mfd.withCot, Mfd.size, Mfd.size]
  | .frame gd R cot cR, off => by rw [Mfd.withCot, Mfd.size, Mfd.size]
  | .empty, off => by rw [Mfd.withCot]
  | .compound ms, off => by rw [Mfd.withCot, Mfd.size, Mfd.size, Mfd.size_withCotAll x ms]
theorem Mfd.size_withCotAll (x : Row) : (ms : List (Mfd d)) → (off : Nat) → Mfd.sizeAll (Mfd.withCotAll x off ms) = Mfd.sizeAll ms
  | [], off => by rw [Mfd.withCotAll]
  | m :: ms, off => by rw [Mfd.withCotAll, Mfd.sizeAll, Mfd.sizeAll, Mfd.size_withCot x m, Mfd.size_withCotAll x ms]
end

mutual
theorem Mfd.starts_withCot (x : Row) : (m : Mfd d) → (off : Nat) → Starts x off (m.withCot x off).unrollCot.flatten
  | .landmarks gd cot, off => by
    simp only [Mfd.withCot, Mfd.unrollCot, List.flatten_cons, List.flatten_nil, List.append_nil]
    exact starts_view x off
  | .direction t gd dir cot cdir, off => by
    simp only [Mfd.withCot, Mfd.unrollCot, List.flatten_cons, List.flatten_nil, List.append_nil, Starts.append, length_flatVecs]
    exact ⟨starts_view x off, starts_view x _⟩
  | .frame gd R cot cR, off => by
    simp only [Mfd.withCot, Mfd.unrollCot, List.flatten_cons, List.flatten_nil, List.append_nil, Starts.append, length_flatVecs]
    exact ⟨starts_view x off, starts_viewMats x _⟩
  | .empty, off => by rw [Mfd.withCot, Mfd.unrollCot]; intro j hj; simp at hj
  | .compound ms, off => by rw [Mfd.withCot, Mfd.unrollCot]; exact Mfd.starts_withCotAll x ms off
theorem Mfd.starts_withCotAll (x : Row) : (ms : List (Mfd d)) → (off : Nat) →
    Starts x off (Mfd.unrollCotAll (Mfd.withCotAll x off ms)).flatten
  | [], off => by rw [Mfd.withCotAll, Mfd.unrollCotAll]; intro j hj; simp at hj
  | m :: ms, off => by
    rw [Mfd.withCotAll, Mfd.unrollCotAll, List.flatten_append, Starts.append, Mfd.length_unrollCot, Mfd.size_withCot]
    exact ⟨Mfd.starts_withCot x m off, Mfd.starts_withCotAll x ms _⟩
end

mutual
theorem Mfd.unrollCot_withGd (x : Row) : (m : Mfd d) → (off : Nat) → (m.withGd x off).unrollCot = m.unrollCot
  | .landmarks gd cot, off => by rw [Mfd.withGd, Mfd.unrollCot, Mfd.unrollCot]
  | .direction t gd dir cot cdir, off => by rw [Mfd.withGd, Mfd.unrollCot, Mfd.unrollCot]
  | .frame gd R cot cR, off => by rw [Mfd.withGd, Mfd.unrollCot, Mfd.unrollCot]
  | .empty, off => by rw [Mfd.withGd]
  | .compound ms, off => by rw [Mfd.withGd, Mfd.unrollCot, Mfd.unrollCot, Mfd.unrollCotAll_withGd x ms]
theorem Mfd.unrollCotAll_withGd (x : Row) : (ms : List (Mfd d)) → (off : Nat) →
    Mfd.unrollCotAll (Mfd.withGdAll x off ms) = Mfd.unrollCotAll ms
  | [], off => by rw [Mfd.withGdAll]
  | m :: ms, off => by
    rw [Mfd.withGdAll, Mfd.unrollCotAll, Mfd.unrollCotAll, Mfd.unrollCot_withGd x m, Mfd.unrollCotAll_withGd x ms]
end

mutual
theorem Mfd.unrollGd_withCot (x : Row) : (m : Mfd d) → (off : Nat) → (m.withCot x off).unrollGd = m.unrollGd
  | .landmarks gd cot, off => by rw [Mfd.withCot, Mfd.unrollGd, Mfd.unrollGd]
  | .direction t gd dir cot cdir, off => by rw [Mfd.withCot, Mfd.unrollGd, Mfd.unrollGd]
  | .frame gd R cot cR, off => by rw [Mfd.withCot, Mfd.unrollGd, Mfd.unrollGd]
  | .empty, off => by rw [Mfd.withCot]
  | .compound ms, off => by rw [Mfd.withCot, Mfd.unrollGd, Mfd.unrollGd, Mfd.unrollGdAll_withCot x ms]
theorem Mfd.unrollGdAll_withCot (x : Row) : (ms : List (Mfd d)) → (off : Nat) →
    Mfd.unrollGdAll (Mfd.withCotAll x off ms) = Mfd.unrollGdAll ms
  | [], off => by rw [Mfd.withCotAll]
  | m :: ms, off => by
    rw [Mfd.withCotAll, Mfd.unrollGdAll, Mfd.unrollGdAll, Mfd.unrollGd_withCot x m, Mfd.unrollGdAll_withCot x ms]
end

/-! ## The same for modules -/

mutual
theorem DefModule.manifold_withGd (x : Row) : (m : DefModule d) → (off : Nat) → (m.withGd x off).manifold = m.manifold.withGd x off
  | .translations m, off => by simp [DefModule.withGd, DefModule.manifold, Translations.manifold, Mfd.withGd]
  | .implicit0 m, off => by simp [DefModule.withGd, DefModule.manifold, Implicit0.manifold, Mfd.withGd]
  | .oriented m, off => by simp [DefModule.withGd, DefModule.manifold, Oriented.manifold, Mfd.withGd]
  | .constrained m, off => by simp [DefModule.withGd, DefModule.manifold, Constrained.manifold, Mfd.withGd]
  | .globalTranslation m, off => by simp [DefModule.withGd, DefModule.manifold, GlobalTranslation.manifold, Mfd.withGd]
  | .linear m, off => by
    simp only [DefModule.withGd, DefModule.manifold, Linear.manifold, Mfd.withGd]
    congr 1
    funext i
    rw [Subsingleton.elim i 0]
  | .implicit1 m, off => by simp [DefModule.withGd, DefModule.manifold, Implicit1.manifold, Mfd.withGd]
  | .divFree m, off => by simp [DefModule.withGd, DefModule.manifold, DivFree.manifold, Mfd.withGd]
  | .arap m, off => by simp [DefModule.withGd, DefModule.manifold, Arap.manifold, Mfd.withGd]
  | .silent man, off => by simp [DefModule.withGd, DefModule.manifold]
  | .compound ms, off => by
    rw [DefModule.withGd, DefModule.manifold, DefModule.manifold, Mfd.withGd, DefModule.manifolds_withGd x ms]
theorem DefModule.manifolds_withGd (x : Row) : (ms : List (DefModule d)) → (off : Nat) →
    DefModule.manifolds (DefModule.withGdAll x off ms) = Mfd.withGdAll x off (DefModule.manifolds ms)
  | [], off => by rw [DefModule.withGdAll, DefModule.manifolds, Mfd.withGdAll]
  | m :: ms, off => by
    rw [DefModule.withGdAll, DefModule.manifolds, DefModule.manifolds, Mfd.withGdAll, DefModule.manifold_withGd x m,
      DefModule.manifolds_withGd x ms]
end

mutual
theorem DefModule.manifold_withCot (x : Row) : (m : DefModule d) → (off : Nat) → (m.withCot x off).manifold = m.manifold.withCot x off
  | .translations m, off => by simp [DefModule.withCot, DefModule.manifold, Translations.manifold, Mfd.withCot]
  | .implicit0 m, off => by simp [DefModule.withCot, DefModule.manifold, Implicit0.manifold, Mfd.withCot]
  | .oriented m, off => by simp [DefModule.withCot, DefModule.manifold, Oriented.manifold, Mfd.withCot]
  | .constrained m, off => by simp [DefModule.withCot, DefModule.manifold, Constrained.manifold, Mfd.withCot]
  | .globalTranslation m, off => by simp [DefModule.withCot, DefModule.manifold, GlobalTranslation.manifold, Mfd.withCot]
  | .linear m, off => by
    simp only [DefModule.withCot, DefModule.manifold, Linear.manifold, Mfd.withCot]
    congr 1
    funext i
    rw [Subsingleton.elim i 0]
  | .implicit1 m, off => by simp [DefModule.withCot, DefModule.manifold, Implicit1.manifold, Mfd.withCot]
  | .divFree m, off => by simp [DefModule.withCot, DefModule.manifold, DivFree.manifold, Mfd.withCot]
  | .arap m, off => by simp [DefModule.withCot, DefModule.manifold, Arap.manifold, Mfd.withCot]
  | .silent man, off => by simp [DefModule.withCot, DefModule.manifold]
  | .compound ms, off => by
    rw [DefModule.withCot, DefModule.manifold, DefModule.manifold, Mfd.withCot, DefModule.manifolds_withCot x ms]
theorem DefModule.manifolds_withCot (x : Row) : (ms : List (DefModule d)) → (off : Nat) →
    DefModule.manifolds (DefModule.withCotAll x off ms) = Mfd.withCotAll x off (DefModule.manifolds ms)
  | [], off => by rw [DefModule.withCotAll, DefModule.manifolds, Mfd.withCotAll]
  | m :: ms, off => by
    rw [DefModule.withCotAll, DefModule.manifolds, DefModule.manifolds, Mfd.withCotAll, DefModule.manifold_withCot x m,
      DefModule.manifolds_withCot x ms]
end

mutual
theorem DefModule.withGd_of_starts {x : Row} : (m : DefModule d) → {off : Nat} → Starts x off m.manifold.unrollGd.flatten →
    m.withGd x off = m
  | .translations m, off, h => by
    simp only [DefModule.manifold, Translations.manifold, Mfd.unrollGd, List.flatten_cons, List.flatten_nil, List.append_nil] at h
    rw [DefModule.withGd, view_of_starts h]
  | .implicit0 m, off, h => by
    simp only [DefModule.manifold, Implicit0.manifold, Mfd.unrollGd, List.flatten_cons, List.flatten_nil, List.append_nil] at h
    rw [DefModule.withGd, view_of_starts h]
  | .constrained m, off, h => by
    simp only [DefModule.manifold, Constrained.manifold, Mfd.unrollGd, List.flatten_cons, List.flatten_nil, List.append_nil] at h
    rw [DefModule.withGd, view_of_starts h]
  | .divFree m, off, h => by
    simp only [DefModule.manifold, DivFree.manifold, Mfd.unrollGd, List.flatten_cons, List.flatten_nil, List.append_nil] at h
    rw [DefModule.withGd, view_of_starts h]
  | .arap m, off, h => by
    simp only [DefModule.manifold, Arap.manifold, Mfd.unrollGd, List.flatten_cons, List.flatten_nil, List.append_nil] at h
    rw [DefModule.withGd, view_of_starts h]
  | .oriented m, off, h => by
    simp only [DefModule.manifold, Oriented.manifold, Mfd.unrollGd, List.flatten_cons, List.flatten_nil, List.append_nil, Starts.append, length_flatVecs] at h
    rw [DefModule.withGd, view_of_starts h.1, view_of_starts h.2]
  | .implicit1 m, off, h => by
    simp only [DefModule.manifold, Implicit1.manifold, Mfd.unrollGd, List.flatten_cons, List.flatten_nil, List.append_nil, Starts.append, length_flatVecs] at h
    rw [DefModule.withGd, view_of_starts h.1, viewMats_of_starts h.2]
  | .globalTranslation m, off, h => by rw [DefModule.withGd]
  | .linear m, off, h => by
    simp only [DefModule.manifold, Linear.manifold, Mfd.unrollGd, List.flatten_cons, List.flatten_nil, List.append_nil] at h
    rw [DefModule.withGd, view_of_starts h]
  | .silent man, off, h => by rw [DefModule.withGd, Mfd.withGd_of_starts man (by rwa [DefModule.manifold] at h)]
  | .compound ms, off, h => by
    rw [DefModule.manifold, Mfd.unrollGd] at h
    rw [DefModule.withGd, DefModule.withGdAll_of_starts ms h]
theorem DefModule.withGdAll_of_starts {x : Row} : (ms : List (DefModule d)) → {off : Nat} →
    Starts x off (Mfd.unrollGdAll (DefModule.manifolds ms)).flatten → DefModule.withGdAll x off ms = ms
  | [], off, h => by rw [DefModule.withGdAll]
  | m :: ms, off, h => by
    rw [DefModule.manifolds, Mfd.unrollGdAll, List.flatten_append, Starts.append, Mfd.length_unrollGd] at h
    rw [DefModule.withGdAll, DefModule.withGd_of_starts m h.1, DefModule.withGdAll_of_starts ms h.2]
end

mutual
theorem Mfd.withGd_withGd (x y : Row) : (m : Mfd d) → (off off' : Nat) → (m.withGd x off').withGd y off = m.withGd y off
  | .landmarks _ _, _, _ => by simp [Mfd.withGd]
  | .direction _ _ _ _ _, _, _ => by simp [Mfd.withGd]
  | .frame _ _ _ _, _, _ => by simp [Mfd.withGd]
  | .empty, _, _ => by simp [Mfd.withGd]
  | .compound ms, off, off' => by rw [Mfd.withGd, Mfd.withGd, Mfd.withGd, Mfd.withGdAll_withGdAll x y ms]
theorem Mfd.withGdAll_withGdAll (x y : Row) : (ms : List (Mfd d)) → (off off' : Nat) →
    Mfd.withGdAll y off (Mfd.withGdAll x off' ms) = Mfd.withGdAll y off ms
  | [], _, _ => by simp [Mfd.withGdAll]
  | m :: ms, off, off' => by
    rw [Mfd.withGdAll, Mfd.withGdAll, Mfd.withGdAll, Mfd.withGd_withGd x y m, Mfd.size_withGd,
      Mfd.withGdAll_withGdAll x y ms]
end

mutual
theorem DefModule.withGd_withGd (x y : Row) : (m : DefModule d) → (off off' : Nat) →
    (m.withGd x off').withGd y off = m.withGd y off
  | .translations _, _, _ => by simp [DefModule.withGd]
  | .implicit0 _, _, _ => by simp [DefModule.withGd]
  | .oriented _, _, _ => by simp [DefModule.withGd]
  | .constrained _, _, _ => by simp [DefModule.withGd]
  | .globalTranslation _, _, _ => by simp [DefModule.withGd]
  | .linear _, _, _ => by simp [DefModule.withGd]
  | .implicit1 _, _, _ => by simp [DefModule.withGd]
  | .divFree _, _, _ => by simp [DefModule.withGd]
  | .arap _, _, _ => by simp [DefModule.withGd]
  | .silent man, off, off' => by rw [DefModule.withGd, DefModule.withGd, DefModule.withGd, Mfd.withGd_withGd x y man]
  | .compound ms, off, off' => by rw [DefModule.withGd, DefModule.withGd, DefModule.withGd, DefModule.withGdAll_withGdAll x y ms]
theorem DefModule.withGdAll_withGdAll (x y : Row) : (ms : List (DefModule d)) → (off off' : Nat) →
    DefModule.withGdAll y off (DefModule.withGdAll x off' ms) = DefModule.withGdAll y off ms
  | [], _, _ => by simp [DefModule.withGdAll]
  | m :: ms, off, off' => by
    rw [DefModule.withGdAll, DefModule.withGdAll, DefModule.withGdAll, DefModule.withGd_withGd x y m, DefModule.manifold_withGd,
      Mfd.size_withGd, DefModule.withGdAll_withGdAll x y ms]
end

mutual
theorem DefModule.withCot_of_starts {x : Row} : (m : DefModule d) → {off : Nat} → Starts x off m.manifold.unrollCot.flatten →
    m.withCot x off = m
  | .translations m, off, h => by
    simp only [DefModule.manifold, Translations.manifold, Mfd.unrollCot, List.flatten_cons, List.flatten_nil, List.append_nil] at h
    rw [DefModule.withCot, view_of_starts h]
  | .implicit0 m, off, h => by
    simp only [DefModule.manifold, Implicit0.manifold, Mfd.unrollCot, List.flatten_cons, List.flatten_nil, List.append_nil] at h
    rw [DefModule.withCot, view_of_starts h]
  | .constrained m, off, h => by
    simp only [DefModule.manifold, Constrained.manifold, Mfd.unrollCot, List.flatten_cons, List.flatten_nil, List.append_nil] at h
    rw [DefModule.withCot, view_of_starts h]
  | .divFree m, off, h => by
    simp only [DefModule.manifold, DivFree.manifold, Mfd.unrollCot, List.flatten_cons, List.flatten_nil, List.append_nil] at h
    rw [DefModule.withCot, view_of_starts h]
  | .arap m, off, h => by
    simp only [DefModule.manifold, Arap.manifold, Mfd.unrollCot, List.flatten_cons, List.flatten_nil, List.append_nil] at h
    rw [DefModule.withCot, view_of_starts h]
  | .oriented m, off, h => by
    simp only [DefModule.manifold, Oriented.manifold, Mfd.unrollCot, List.flatten_cons, List.flatten_nil, List.append_nil, Starts.append, length_flatVecs] at h
    rw [DefModule.withCot, view_of_starts h.1, view_of_starts h.2]
  | .implicit1 m, off, h => by
    simp only [DefModule.manifold, Implicit1.manifold, Mfd.unrollCot, List.flatten_cons, List.flatten_nil, List.append_nil, Starts.append, length_flatVecs] at h
    rw [DefModule.withCot, view_of_starts h.1, viewMats_of_starts h.2]
  | .globalTranslation m, off, h => by rw [DefModule.withCot]
  | .linear m, off, h => by
    simp only [DefModule.manifold, Linear.manifold, Mfd.unrollCot, List.flatten_cons, List.flatten_nil, List.append_nil] at h
    rw [DefModule.withCot, view_of_starts h]
  | .silent man, off, h => by rw [DefModule.withCot, Mfd.withCot_of_starts man (by rwa [DefModule.manifold] at h)]
  | .compound ms, off, h => by
    rw [DefModule.manifold, Mfd.unrollCot] at h
    rw [DefModule.withCot, DefModule.withCotAll_of_starts ms h]
theorem DefModule.withCotAll_of_starts {x : Row} : (ms : List (DefModule d)) → {off : Nat} →
    Starts x off (Mfd.unrollCotAll (DefModule.manifolds ms)).flatten → DefModule.withCotAll x off ms = ms
  | [], off, h => by rw [DefModule.withCotAll]
  | m :: ms, off, h => by
    rw [DefModule.manifolds, Mfd.unrollCotAll, List.flatten_append, Starts.append, Mfd.length_unrollCot] at h
    rw [DefModule.withCotAll, DefModule.withCot_of_starts m h.1, DefModule.withCotAll_of_starts ms h.2]
end

mutual
theorem Mfd.withCot_withCot (x y : Row) : (m : Mfd d) → (off off' : Nat) → (m.withCot x off').withCot y off = m.withCot y off
  | .landmarks _ _, _, _ => by simp [Mfd.withCot]
  | .direction _ _ _ _ _, _, _ => by simp [Mfd.withCot]
  | .frame _ _ _ _, _, _ => by simp [Mfd.withCot]
  | .empty, _, _ => by simp [Mfd.withCot]
  | .compound ms, off, off' => by rw [Mfd.withCot, Mfd.withCot, Mfd.withCot, Mfd.withCotAll_withCotAll x y ms]
theorem Mfd.withCotAll_withCotAll (x y : Row) : (ms : List (Mfd d)) → (off off' : Nat) →
    Mfd.withCotAll y off (Mfd.withCotAll x off' ms) = Mfd.withCotAll y off ms
  | [], _, _ => by simp [Mfd.withCotAll]
  | m :: ms, off, off' => by
    rw [Mfd.withCotAll, Mfd.withCotAll, Mfd.withCotAll, Mfd.withCot_withCot x y m, Mfd.size_withCot,
      Mfd.withCotAll_withCotAll x y ms]
end

mutual
theorem DefModule.withCot_withCot (x y : Row) : (m : DefModule d) → (off off' : Nat) →
    (m.withCot x off').withCot y off = m.withCot y off
  | .translations _, _, _ => by simp [DefModule.withCot]
  | .implicit0 _, _, _ => by simp [DefModule.withCot]
  | .oriented _, _, _ => by simp [DefModule.withCot]
  | .constrained _, _, _ => by simp [DefModule.withCot]
  | .globalTranslation _, _, _ => by simp [DefModule.withCot]
  | .linear _, _, _ => by simp [DefModule.withCot]
  | .implicit1 _, _, _ => by simp [DefModule.withCot]
  | .divFree _, _, _ => by simp [DefModule.withCot]
  | .arap _, _, _ => by simp [DefModule.withCot]
  | .silent man, off, off' => by rw [DefModule.withCot, DefModule.withCot, DefModule.withCot, Mfd.withCot_withCot x y man]
  | .compound ms, off, off' => by rw [DefModule.withCot, DefModule.withCot, DefModule.withCot, DefModule.withCotAll_withCotAll x y ms]
theorem DefModule.withCotAll_withCotAll (x y : Row) : (ms : List (DefModule d)) → (off off' : Nat) →
    DefModule.withCotAll y off (DefModule.withCotAll x off' ms) = DefModule.withCotAll y off ms
  | [], _, _ => by simp [DefModule.withCotAll]
  | m :: ms, off, off' => by
    rw [DefModule.withCotAll, DefModule.withCotAll, DefModule.withCotAll, DefModule.withCot_withCot x y m, DefModule.manifold_withCot,
      Mfd.size_withCot, DefModule.withCotAll_withCotAll x y ms]
end

mutual
theorem Mfd.withGd_withCot (x y : Row) : (m : Mfd d) → (off off' : Nat) →
    (m.withCot y off').withGd x off = (m.withGd x off).withCot y off'
  | .landmarks _ _, _, _ => by simp [Mfd.withGd, Mfd.withCot]
  | .direction _ _ _ _ _, _, _ => by simp [Mfd.withGd, Mfd.withCot]
  | .frame _ _ _ _, _, _ => by simp [Mfd.withGd, Mfd.withCot]
  | .empty, _, _ => by simp [Mfd.withGd, Mfd.withCot]
  | .compound ms, off, off' => by
    rw [Mfd.withGd, Mfd.withCot, Mfd.withCot, Mfd.withGd, Mfd.withGdAll_withCotAll x y ms]
theorem Mfd.withGdAll_withCotAll (x y : Row) : (ms : List (Mfd d)) → (off off' : Nat) →
    Mfd.withGdAll x off (Mfd.withCotAll y off' ms) = Mfd.withCotAll y off' (Mfd.withGdAll x off ms)
  | [], _, _ => by simp [Mfd.withGdAll, Mfd.withCotAll]
  | m :: ms, off, off' => by
    rw [Mfd.withCotAll, Mfd.withGdAll, Mfd.withGdAll, Mfd.withCotAll, Mfd.withGd_withCot x y m, Mfd.size_withCot,
      Mfd.size_withGd, Mfd.withGdAll_withCotAll x y ms]
end

mutual
theorem DefModule.withGd_withCot (x y : Row) : (m : DefModule d) → (off off' : Nat) →
    (m.withCot y off').withGd x off = (m.withGd x off).withCot y off'
  | .translations _, _, _ => by simp [DefModule.withGd, DefModule.withCot]
  | .implicit0 _, _, _ => by simp [DefModule.withGd, DefModule.withCot]
  | .oriented _, _, _ => by simp [DefModule.withGd, DefModule.withCot]
  | .constrained _, _, _ => by simp [DefModule.withGd, DefModule.withCot]
  | .globalTranslation _, _, _ => by simp [DefModule.withGd, DefModule.withCot]
  | .linear _, _, _ => by simp [DefModule.withGd, DefModule.withCot]
  | .implicit1 _, _, _ => by simp [DefModule.withGd, DefModule.withCot]
  | .divFree _, _, _ => by simp [DefModule.withGd, DefModule.withCot]
  | .arap _, _, _ => by simp [DefModule.withGd, DefModule.withCot]
  | .silent man, off, off' => by
    rw [DefModule.withCot, DefModule.withGd, DefModule.withGd, DefModule.withCot, Mfd.withGd_withCot x y man]
  | .compound ms, off, off' => by
    rw [DefModule.withCot, DefModule.withGd, DefModule.withGd, DefModule.withCot, DefModule.withGdAll_withCotAll x y ms]
theorem DefModule.withGdAll_withCotAll (x y : Row) : (ms : List (DefModule d)) → (off off' : Nat) →
    DefModule.withGdAll x off (DefModule.withCotAll y off' ms) = DefModule.withCotAll y off' (DefModule.withGdAll x off ms)
  | [], _, _ => by simp [DefModule.withGdAll, DefModule.withCotAll]
  | m :: ms, off, off' => by
    rw [DefModule.withCotAll, DefModule.withGdAll, DefModule.withGdAll, DefModule.withCotAll, DefModule.withGd_withCot x y m,
      DefModule.manifold_withCot, DefModule.manifold_withGd, Mfd.size_withCot, Mfd.size_withGd,
      DefModule.withGdAll_withCotAll x y ms]
end

/-! ## Slices -/

theorem sliceLoop_append (x : Row) (ks ks' : List Nat) (off : Nat) :
    sliceLoop x (ks ++ ks') off =
      ((sliceLoop x ks off).1 ++ (sliceLoop x ks' (sliceLoop x ks off).2).1, (sliceLoop x ks' (sliceLoop x ks off).2).2) := by
  induction ks generalizing off with
  | nil => rfl
  | cons k ks ih => rw [List.cons_append, sliceLoop, sliceLoop, ih]; rfl

theorem sliceLoop_end (x : Row) (ks : List Nat) (off : Nat) : (sliceLoop x ks off).2 = off + ks.sum := by
  induction ks generalizing off with
  | nil => rfl
  | cons k ks ih => rw [sliceLoop]; dsimp only; rw [ih, List.sum_cons]; omega

/-- The slices of the tensors `l`, starting at `off`. -/
abbrev slicesAt (x : Row) (l : List (List ℝ)) (off : Nat) : List Row := (sliceLoop x (l.map List.length) off).1

theorem slicesAt_append (x : Row) (l l' : List (List ℝ)) (off : Nat) :
    slicesAt x (l ++ l') off = slicesAt x l off ++ slicesAt x l' (off + l.flatten.length) := by
  rw [slicesAt, List.map_append, sliceLoop_append, sliceLoop_end, List.length_flatten]

mutual
theorem Mfd.rollFillGd_slices (x : Row) : (m : Mfd d) → (off : Nat) → (rest : List Row) →
    m.rollFillGd (slicesAt x m.unrollGd off ++ rest) = .ok (m.withGd x off, rest)
  | .landmarks _ _, off, rest => by
    simp [Mfd.unrollGd, Mfd.rollFillGd, Mfd.withGd, slicesAt, sliceLoop]
  | .direction _ _ _ _ _, off, rest => by
    simp [Mfd.unrollGd, Mfd.rollFillGd, Mfd.withGd, slicesAt, sliceLoop, length_flatVecs]
  | .frame _ _ _ _, off, rest => by
    simp [Mfd.unrollGd, Mfd.rollFillGd, Mfd.withGd, slicesAt, sliceLoop, length_flatVecs]
  | .empty, off, rest => by simp [Mfd.unrollGd, Mfd.rollFillGd, Mfd.withGd, slicesAt, sliceLoop]
  | .compound ms, off, rest => by
    rw [Mfd.unrollGd, Mfd.rollFillGd, Mfd.rollFillGdAll_slices x ms, Mfd.withGd]
theorem Mfd.rollFillGdAll_slices (x : Row) : (ms : List (Mfd d)) → (off : Nat) → (rest : List Row) →
    Mfd.rollFillGdAll ms (slicesAt x (Mfd.unrollGdAll ms) off ++ rest) = .ok (Mfd.withGdAll x off ms, rest)
  | [], off, rest => by simp [Mfd.unrollGdAll, Mfd.rollFillGdAll, Mfd.withGdAll, slicesAt, sliceLoop]
  | m :: ms, off, rest => by
    rw [Mfd.unrollGdAll, slicesAt_append, List.append_assoc, Mfd.rollFillGdAll, Mfd.rollFillGd_slices x m]
    dsimp only
    rw [Mfd.length_unrollGd, Mfd.rollFillGdAll_slices x ms, Mfd.withGdAll]
end

mutual
theorem DefModule.rollFillGd_slices (x : Row) : (m : DefModule d) → (off : Nat) → (rest : List Row) →
    m.rollFillGd (slicesAt x m.manifold.unrollGd off ++ rest) = .ok (m.withGd x off, rest)
  | .translations m, off, rest => by
    simp [DefModule.manifold, Translations.manifold, Mfd.unrollGd, DefModule.rollFillGd, DefModule.withGd, slicesAt, sliceLoop, length_flatVecs]
  | .implicit0 m, off, rest => by
    simp [DefModule.manifold, Implicit0.manifold, Mfd.unrollGd, DefModule.rollFillGd, DefModule.withGd, slicesAt, sliceLoop, length_flatVecs]
  | .oriented m, off, rest => by
    simp [DefModule.manifold, Oriented.manifold, Mfd.unrollGd, DefModule.rollFillGd, DefModule.withGd, slicesAt, sliceLoop, length_flatVecs]
  | .constrained m, off, rest => by
    simp [DefModule.manifold, Constrained.manifold, Mfd.unrollGd, DefModule.rollFillGd, DefModule.withGd, slicesAt, sliceLoop, length_flatVecs]
  | .globalTranslation m, off, rest => by
    simp [DefModule.manifold, GlobalTranslation.manifold, Mfd.unrollGd, DefModule.rollFillGd, DefModule.withGd, slicesAt, sliceLoop, length_flatVecs]
  | .linear m, off, rest => by
    simp [DefModule.manifold, Linear.manifold, Mfd.unrollGd, DefModule.rollFillGd, DefModule.withGd, slicesAt, sliceLoop, length_flatVecs]
  | .implicit1 m, off, rest => by
    simp [DefModule.manifold, Implicit1.manifold, Mfd.unrollGd, DefModule.rollFillGd, DefModule.withGd, slicesAt, sliceLoop, length_flatVecs]
  | .divFree m, off, rest => by
    simp [DefModule.manifold, DivFree.manifold, Mfd.unrollGd, DefModule.rollFillGd, DefModule.withGd, slicesAt, sliceLoop, length_flatVecs]
  | .arap m, off, rest => by
    simp [DefModule.manifold, Arap.manifold, Mfd.unrollGd, DefModule.rollFillGd, DefModule.withGd, slicesAt, sliceLoop, length_flatVecs]
  | .silent man, off, rest => by
    rw [DefModule.manifold, DefModule.rollFillGd, Mfd.rollFillGd_slices x man, DefModule.withGd]
  | .compound ms, off, rest => by
    rw [DefModule.manifold, Mfd.unrollGd, DefModule.rollFillGd, DefModule.rollFillGdAll_slices x ms, DefModule.withGd]
theorem DefModule.rollFillGdAll_slices (x : Row) : (ms : List (DefModule d)) → (off : Nat) → (rest : List Row) →
    DefModule.rollFillGdAll ms (slicesAt x (Mfd.unrollGdAll (DefModule.manifolds ms)) off ++ rest) =
      .ok (DefModule.withGdAll x off ms, rest)
  | [], off, rest => by
    simp [DefModule.manifolds, Mfd.unrollGdAll, DefModule.rollFillGdAll, DefModule.withGdAll, slicesAt, sliceLoop]
  | m :: ms, off, rest => by
    rw [DefModule.manifolds, Mfd.unrollGdAll, slicesAt_append, List.append_assoc, DefModule.rollFillGdAll,
      DefModule.rollFillGd_slices x m]
    dsimp only
    rw [Mfd.length_unrollGd, DefModule.rollFillGdAll_slices x ms, DefModule.withGdAll]
end

mutual
theorem Mfd.rollFillCot_slices (x : Row) : (m : Mfd d) → (off : Nat) → (rest : List Row) →
    m.rollFillCot (slicesAt x m.unrollGd off ++ rest) = .ok (m.withCot x off, rest)
  | .landmarks _ _, off, rest => by
    simp [Mfd.unrollGd, Mfd.rollFillCot, Mfd.withCot, slicesAt, sliceLoop]
  | .direction _ _ _ _ _, off, rest => by
    simp [Mfd.unrollGd, Mfd.rollFillCot, Mfd.withCot, slicesAt, sliceLoop, length_flatVecs]
  | .frame _ _ _ _, off, rest => by
    simp [Mfd.unrollGd, Mfd.rollFillCot, Mfd.withCot, slicesAt, sliceLoop, length_flatVecs]
  | .empty, off, rest => by simp [Mfd.unrollGd, Mfd.rollFillCot, Mfd.withCot, slicesAt, sliceLoop]
  | .compound ms, off, rest => by
    rw [Mfd.unrollGd, Mfd.rollFillCot, Mfd.rollFillCotAll_slices x ms, Mfd.withCot]
theorem Mfd.rollFillCotAll_slices (x : Row) : (ms : List (Mfd d)) → (off : Nat) → (rest : List Row) →
    Mfd.rollFillCotAll ms (slicesAt x (Mfd.unrollGdAll ms) off ++ rest) = .ok (Mfd.withCotAll x off ms, rest)
  | [], off, rest => by simp [Mfd.unrollGdAll, Mfd.rollFillCotAll, Mfd.withCotAll, slicesAt, sliceLoop]
  | m :: ms, off, rest => by
    rw [Mfd.unrollGdAll, slicesAt_append, List.append_assoc, Mfd.rollFillCotAll, Mfd.rollFillCot_slices x m]
    dsimp only
    rw [Mfd.length_unrollGd, Mfd.rollFillCotAll_slices x ms, Mfd.withCotAll]
end

mutual
theorem DefModule.rollFillCot_slices (x : Row) : (m : DefModule d) → (off : Nat) → (rest : List Row) →
    m.rollFillCot (slicesAt x m.manifold.unrollGd off ++ rest) = .ok (m.withCot x off, rest)
  | .translations m, off, rest => by
    simp [DefModule.manifold, Translations.manifold, Mfd.unrollGd, DefModule.rollFillCot, DefModule.withCot, slicesAt, sliceLoop, length_flatVecs]
  | .implicit0 m, off, rest => by
    simp [DefModule.manifold, Implicit0.manifold, Mfd.unrollGd, DefModule.rollFillCot, DefModule.withCot, slicesAt, sliceLoop, length_flatVecs]
  | .oriented m, off, rest => by
    simp [DefModule.manifold, Oriented.manifold, Mfd.unrollGd, DefModule.rollFillCot, DefModule.withCot, slicesAt, sliceLoop, length_flatVecs]
  | .constrained m, off, rest => by
    simp [DefModule.manifold, Constrained.manifold, Mfd.unrollGd, DefModule.rollFillCot, DefModule.withCot, slicesAt, sliceLoop, length_flatVecs]
  | .globalTranslation m, off, rest => by
    simp [DefModule.manifold, GlobalTranslation.manifold, Mfd.unrollGd, DefModule.rollFillCot, DefModule.withCot, slicesAt, sliceLoop, length_flatVecs]
  | .linear m, off, rest => by
    simp [DefModule.manifold, Linear.manifold, Mfd.unrollGd, DefModule.rollFillCot, DefModule.withCot, slicesAt, sliceLoop, length_flatVecs]
  | .implicit1 m, off, rest => by
    simp [DefModule.manifold, Implicit1.manifold, Mfd.unrollGd, DefModule.rollFillCot, DefModule.withCot, slicesAt, sliceLoop, length_flatVecs]
  | .divFree m, off, rest => by
    simp [DefModule.manifold, DivFree.manifold, Mfd.unrollGd, DefModule.rollFillCot, DefModule.withCot, slicesAt, sliceLoop, length_flatVecs]
  | .arap m, off, rest => by
    simp [DefModule.manifold, Arap.manifold, Mfd.unrollGd, DefModule.rollFillCot, DefModule.withCot, slicesAt, sliceLoop, length_flatVecs]
  | .silent man, off, rest => by
    rw [DefModule.manifold, DefModule.rollFillCot, Mfd.rollFillCot_slices x man, DefModule.withCot]
  | .compound ms, off, rest => by
    rw [DefModule.manifold, Mfd.unrollGd, DefModule.rollFillCot, DefModule.rollFillCotAll_slices x ms, DefModule.withCot]
theorem DefModule.rollFillCotAll_slices (x : Row) : (ms : List (DefModule d)) → (off : Nat) → (rest : List Row) →
    DefModule.rollFillCotAll ms (slicesAt x (Mfd.unrollGdAll (DefModule.manifolds ms)) off ++ rest) =
      .ok (DefModule.withCotAll x off ms, rest)
  | [], off, rest => by
    simp [DefModule.manifolds, Mfd.unrollGdAll, DefModule.rollFillCotAll, DefModule.withCotAll, slicesAt, sliceLoop]
  | m :: ms, off, rest => by
    rw [DefModule.manifolds, Mfd.unrollGdAll, slicesAt_append, List.append_assoc, DefModule.rollFillCotAll,
      DefModule.rollFillCot_slices x m]
    dsimp only
    rw [Mfd.length_unrollGd, DefModule.rollFillCotAll_slices x ms, DefModule.withCotAll]
end

theorem withRows_eq (m : DefModule d) (q p : Row) : withRows m q p = .ok ((m.withGd q 0).withCot p 0) := by
  have h1 := DefModule.rollFillGd_slices q m 0 []
  rw [List.append_nil] at h1
  have hu : m.manifold.unrollGd.map List.length = (m.withGd q 0).manifold.unrollGd.map List.length := by
    have : (m.withGd q 0).manifold.unrollGd.map List.length = (m.withGd q 0).manifold.unrollCot.map List.length :=
      (Mfd.lengths_unrollCot _).symm
    rw [this, DefModule.manifold_withGd, Mfd.unrollCot_withGd, Mfd.lengths_unrollCot]
  have h2 := DefModule.rollFillCot_slices p (m.withGd q 0) 0 []
  rw [List.append_nil] at h2
  rw [withRows, slicesOf, h1]
  dsimp only
  rw [slicesOf, hu, h2]

/-- No member is a compound with tensors, as the solver needs. -/
def Mfd.Plain (m : Mfd d) : Prop := m.lenGd = 0 ∨ m.hasShapeGd = true

mutual
theorem Mfd.lenGd_eq : (m : Mfd d) → m.lenGd = m.unrollGd.length
  | .landmarks _ _ => by simp [Mfd.lenGd, Mfd.unrollGd]
  | .direction _ _ _ _ _ => by simp [Mfd.lenGd, Mfd.unrollGd]
  | .frame _ _ _ _ => by simp [Mfd.lenGd, Mfd.unrollGd]
  | .empty => by simp [Mfd.lenGd, Mfd.unrollGd]
  | .compound ms => by rw [Mfd.lenGd, Mfd.unrollGd, Mfd.lenGdAll_eq ms]
theorem Mfd.lenGdAll_eq : (ms : List (Mfd d)) → Mfd.lenGdAll ms = (Mfd.unrollGdAll ms).length
  | [] => by simp [Mfd.lenGdAll, Mfd.unrollGdAll]
  | m :: ms => by rw [Mfd.lenGdAll, Mfd.unrollGdAll, List.length_append, Mfd.lenGd_eq m, Mfd.lenGdAll_eq ms]
end

theorem Mfd.Plain.numel {m : Mfd d} (h : m.Plain) : m.numelGd.take m.lenGd = m.unrollGd.map List.length := by
  rcases h with h | h
  · have : m.unrollGd = [] := List.eq_nil_of_length_eq_zero (by rw [← Mfd.lenGd_eq, h])
    rw [h, this]; rfl
  · cases m with
    | compound ms => cases h
    | _ => simp [Mfd.numelGd, Mfd.lenGd, Mfd.unrollGd, length_flatVecs, length_flatMats]

theorem sliceAll_plain (x : Row) : (ms : List (Mfd d)) → (off : Nat) → (∀ m ∈ ms, m.Plain) →
    sliceAll x ms off = .ok (slicesAt x (Mfd.unrollGdAll ms) off)
  | [], off, _ => by simp [sliceAll, Mfd.unrollGdAll, slicesAt, sliceLoop]
  | m :: ms, off, h => by
    have hm := h m (List.mem_cons_self ..)
    have hn : ¬(m.lenGd ≠ 0 ∧ m.hasShapeGd = false) := by
      rcases hm with h | h
      · exact fun h' => h'.1 h
      · rw [h]; exact fun h' => absurd h'.2 (by simp)
    rw [sliceAll, if_neg hn]
    dsimp only
    rw [sliceLoop_end, hm.numel, sliceAll_plain x ms _ fun m' h' => h m' (List.mem_cons_of_mem _ h'),
      Mfd.unrollGdAll, slicesAt_append, List.length_flatten]

theorem sliceAll_not_plain (x : Row) : (ms : List (Mfd d)) → (off : Nat) → (∃ m ∈ ms, ¬m.Plain) →
    sliceAll x ms off = .error .attribute
  | [], off, h => by simp at h
  | m :: ms, off, h => by
    rw [sliceAll]
    by_cases hm : m.Plain
    · have hn : ¬(m.lenGd ≠ 0 ∧ m.hasShapeGd = false) := by
        rcases hm with h | h
        · exact fun h' => h'.1 h
        · rw [h]; exact fun h' => absurd h'.2 (by simp)
      rw [if_neg hn]
      dsimp only
      rw [sliceAll_not_plain x ms]
      obtain ⟨m', h1, h2⟩ := h
      rcases List.mem_cons.mp h1 with rfl | h1
      · exact absurd hm h2
      · exact ⟨m', h1, h2⟩
    · rw [if_pos]
      rw [Mfd.Plain, not_or] at hm
      exact ⟨hm.1, by simpa using hm.2⟩

/-- Every member of the Hamiltonian's module is fit for the solver. -/
def PlainMembers (ms : List (DefModule d)) : Prop := ∀ m ∈ DefModule.manifolds ms, m.Plain

theorem readGd_eq {ms : List (DefModule d)} (h : PlainMembers ms) (x : Row) :
    readGd (.compound ms) x = .ok ((DefModule.compound ms).withGd x 0) := by
  rw [readGd, DefModule.members, sliceAll_plain x _ 0 h]
  dsimp only
  have h1 := DefModule.rollFillGdAll_slices x ms 0 []
  rw [List.append_nil] at h1
  rw [DefModule.rollFillGd, h1, DefModule.withGd]

theorem readCot_eq {ms : List (DefModule d)} (h : PlainMembers ms) (x : Row) :
    readCot (.compound ms) x = .ok ((DefModule.compound ms).withCot x 0) := by
  rw [readCot, DefModule.members, sliceAll_plain x _ 0 h]
  dsimp only
  have h1 := DefModule.rollFillCotAll_slices x ms 0 []
  rw [List.append_nil] at h1
  rw [DefModule.rollFillCot, h1, DefModule.withCot]

end
end Imodal
