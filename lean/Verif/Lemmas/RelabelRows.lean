import Verif.Lemmas.RelabelAll
import Verif.Lemmas.TwinReg
import Verif.Lemmas.RigidRows
/-!
# Rows of coordinates with the points listed in another order
-/
set_option autoImplicit false
namespace Imodal
noncomputable section
variable {d : Nat}

/-- Where the coordinate `j` of a tensor of `n` blocks of `k` entries was before. -/
def blockCoord (k : Nat) {n : Nat} (π : Equiv.Perm (Fin n)) (j : Nat) : Nat :=
  if h : j / k < n then (π ⟨j / k, h⟩).val * k + j % k else j
/-- The same for a tensor followed by others. -/
def catCoord (N : Nat) (e e' : Nat → Nat) (j : Nat) : Nat := if j < N then e j else N + e' (j - N)

mutual
/-- Where the coordinates of the manifold with its points listed in another order were before. -/
def Mfd.coords (σ : Labels) : Mfd d → Nat → Nat
  | @Mfd.landmarks _ n _ _ => blockCoord d (σ [] n)
  | @Mfd.direction _ _ n _ _ _ _ => catCoord (n * d) (blockCoord d (σ [] n)) (blockCoord d (σ [] n))
  | @Mfd.frame _ n _ _ _ _ => catCoord (n * d) (blockCoord d (σ [] n)) (blockCoord (d * d) (σ [] n))
  | .empty => id
  | .compound ms => Mfd.coordsAll σ 0 ms
def Mfd.coordsAll (σ : Labels) : Nat → List (Mfd d) → Nat → Nat
  | _, [] => id
  | k, m :: ms => catCoord m.size (m.coords (σ.at k)) (Mfd.coordsAll σ (k + 1) ms)
end

/-- A rearrangement of the first `N` numbers. -/
def Mixes (N : Nat) (e : Nat → Nat) : Prop := (∀ j < N, e j < N) ∧ ∀ i < N, ∀ j < N, e i = e j → i = j

theorem div_lt_of_lt {n k j : Nat} (h : j < n * k) : j / k < n := Nat.div_lt_of_lt_mul (by rwa [Nat.mul_comm])
theorem pos_of_lt {n k j : Nat} (h : j < n * k) : 0 < k := Nat.pos_of_ne_zero (by rintro rfl; simp at h)

theorem blockCoord_block (k : Nat) {n : Nat} (π : Equiv.Perm (Fin n)) (i : Fin n) {c : Nat} (hc : c < k) : blockCoord k π (i.val * k + c) = (π i).val * k + c := by
  have h1 : (i.val * k + c) / k = i.val := by rw [Nat.mul_comm, Nat.mul_add_div (by omega), Nat.div_eq_of_lt hc, Nat.add_zero]
  have h2 : (i.val * k + c) % k = c := by rw [Nat.mul_comm, Nat.mul_add_mod, Nat.mod_eq_of_lt hc]
  unfold blockCoord
  rw [dif_pos (by rw [h1]; exact i.isLt), h2]
  exact congrArg (fun i => (π i).val * k + c) (Fin.ext h1)

theorem mixes_block (k : Nat) {n : Nat} (π : Equiv.Perm (Fin n)) : Mixes (n * k) (blockCoord k π) := by
  have key : ∀ j (hj : j < n * k), blockCoord k π j = (π ⟨j / k, div_lt_of_lt hj⟩).val * k + j % k := fun j hj => by
    unfold blockCoord; rw [dif_pos (div_lt_of_lt hj)]
  refine ⟨fun j hj => ?_, fun i hi j hj h => ?_⟩
  · rw [key j hj]
    have := Nat.mod_lt j (pos_of_lt hj)
    calc (π ⟨j / k, div_lt_of_lt hj⟩).val * k + j % k < (π ⟨j / k, div_lt_of_lt hj⟩).val * k + k := by omega
      _ = ((π ⟨j / k, div_lt_of_lt hj⟩).val + 1) * k := by ring
      _ ≤ n * k := Nat.mul_le_mul_right k (π ⟨j / k, div_lt_of_lt hj⟩).isLt
  · rw [key i hi, key j hj] at h
    have hk := pos_of_lt hi
    have h1 := congrArg (· / k) h
    have h2 := congrArg (· % k) h
    simp only [Nat.mul_comm _ k, Nat.mul_add_div hk, Nat.mul_add_mod, Nat.mod_mod, Nat.div_eq_of_lt (Nat.mod_lt _ hk), Nat.add_zero] at h1 h2
    have h3 := π.injective (Fin.ext h1)
    rw [← Nat.div_add_mod i k, ← Nat.div_add_mod j k, h2, Fin.mk.inj h3]

theorem mixes_cat {N M : Nat} {e e' : Nat → Nat} (h : Mixes N e) (h' : Mixes M e') : Mixes (N + M) (catCoord N e e') := by
  refine ⟨fun j hj => ?_, fun i hi j hj hij => ?_⟩
  · unfold catCoord
    split
    · have := h.1 j ‹_›; omega
    · have := h'.1 (j - N) (by omega); omega
  · unfold catCoord at hij
    by_cases h1 : i < N <;> by_cases h2 : j < N
    · rw [if_pos h1, if_pos h2] at hij; exact h.2 i h1 j h2 hij
    · rw [if_pos h1, if_neg h2] at hij; have := h.1 i h1; omega
    · rw [if_neg h1, if_pos h2] at hij; have := h.1 j h2; omega
    · rw [if_neg h1, if_neg h2] at hij
      have := h'.2 (i - N) (by omega) (j - N) (by omega) (by omega)
      omega

mutual
theorem mixes_coords (σ : Labels) : (M : Mfd d) → Mixes M.size (M.coords σ)
  | .landmarks _ _ => by rw [Mfd.size, Mfd.coords]; exact mixes_block _ _
  | .direction .. => by rw [Mfd.size, Mfd.coords]; exact mixes_cat (mixes_block _ _) (mixes_block _ _)
  | .frame .. => by rw [Mfd.size, Mfd.coords]; exact mixes_cat (mixes_block _ _) (mixes_block _ _)
  | .empty => ⟨fun j hj => by rw [Mfd.size] at hj; omega, fun j hj => by rw [Mfd.size] at hj; omega⟩
  | .compound ms => by rw [Mfd.size, Mfd.coords]; exact mixes_coordsAll σ 0 ms
theorem mixes_coordsAll (σ : Labels) : (k : Nat) → (ms : List (Mfd d)) → Mixes (Mfd.sizeAll ms) (Mfd.coordsAll σ k ms)
  | _, [] => ⟨fun j hj => by rw [Mfd.sizeAll] at hj; omega, fun j hj => by rw [Mfd.sizeAll] at hj; omega⟩
  | k, m :: ms => by rw [Mfd.sizeAll, Mfd.coordsAll]; exact mixes_cat (mixes_coords (σ.at k) m) (mixes_coordsAll σ (k + 1) ms)
end

/-- From `o` on the entries of the second row are those of the first in another order. -/
def AlongAt (N : Nat) (e : Nat → Nat) (x x' : Row) (o : Nat) : Prop := ∀ j < N, x' (o + j) = x (o + e j)

theorem along_at {N : Nat} {e : Nat → Nat} {x x' : Row} : AlongAt N e x x' 0 ↔ Along N e x x' := by
  unfold AlongAt Along
  simp only [Nat.zero_add]

theorem along_cat {N M : Nat} {e e' : Nat → Nat} {x x' : Row} {o : Nat} :
    AlongAt (N + M) (catCoord N e e') x x' o ↔ AlongAt N e x x' o ∧ AlongAt M e' x x' (o + N) := by
  constructor
  · intro h
    refine ⟨fun j hj => ?_, fun j hj => ?_⟩
    · have := h j (by omega)
      rwa [catCoord, if_pos hj] at this
    · have := h (N + j) (by omega)
      rw [catCoord, if_neg (by omega), Nat.add_sub_cancel_left] at this
      rw [Nat.add_assoc, Nat.add_assoc, this]
  · rintro ⟨h1, h2⟩ j hj
    unfold catCoord
    split
    · exact h1 j ‹_›
    · have := h2 (j - N) (by omega)
      rw [show o + j = o + N + (j - N) by omega, this, Nat.add_assoc]

theorem along_block {k n : Nat} (π : Equiv.Perm (Fin n)) {x x' : Row} {o : Nat} :
    AlongAt (n * k) (blockCoord k π) x x' o ↔ ∀ (i : Fin n) (c : Nat), c < k → x' (o + (i.val * k + c)) = x (o + ((π i).val * k + c)) := by
  constructor
  · intro h i c hc
    rw [h (i.val * k + c) (by
      calc i.val * k + c < i.val * k + k := by omega
        _ = (i.val + 1) * k := by ring
        _ ≤ n * k := Nat.mul_le_mul_right k i.isLt), blockCoord_block k π i hc]
  · intro h j hj
    have := h ⟨j / k, div_lt_of_lt hj⟩ (j % k) (Nat.mod_lt _ (pos_of_lt hj))
    have hd : j / k * k + j % k = j := by rw [Nat.mul_comm]; exact Nat.div_add_mod j k
    dsimp only at this
    rw [hd] at this
    rw [this, ← blockCoord_block k π ⟨j / k, div_lt_of_lt hj⟩ (Nat.mod_lt _ (pos_of_lt hj))]
    dsimp only
    rw [hd]

theorem view_along {n : Nat} (π : Equiv.Perm (Fin n)) {x x' : Row} {o : Nat} :
    AlongAt (n * d) (blockCoord d π) x x' o ↔ (viewVecs (d := d) (n := n) fun j => x' (o + j)) = fun i => viewVecs (fun j => x (o + j)) (π i) := by
  rw [along_block]
  constructor
  · exact fun h => funext fun i => funext fun c => h i c c.isLt
  · exact fun h i c hc => congrFun (congrFun h i) ⟨c, hc⟩
theorem viewMats_along {n : Nat} (π : Equiv.Perm (Fin n)) {x x' : Row} {o : Nat} :
    AlongAt (n * (d * d)) (blockCoord (d * d) π) x x' o ↔ (viewMats (d := d) (n := n) fun j => x' (o + j)) = fun i => viewMats (fun j => x (o + j)) (π i) := by
  rw [along_block]
  constructor
  · refine fun h => funext fun i => funext fun b => funext fun c => h i (b * d + c) ?_
    calc b.val * d + c < b * d + d := by omega
      _ = (b + 1) * d := by ring
      _ ≤ d * d := Nat.mul_le_mul_right d b.isLt
  · intro h i c hc
    have := congrFun (congrFun (congrFun h i) ⟨c / d, div_lt_of_lt hc⟩) ⟨c % d, Nat.mod_lt _ (pos_of_lt hc)⟩
    have hd : c / d * d + c % d = c := by rw [Nat.mul_comm]; exact Nat.div_add_mod c d
    simp only [viewMats, Matrix.of_apply, hd] at this
    exact this

mutual
theorem size_relabel : (σ : Labels) → (M : Mfd d) → (M.relabel σ).size = M.size
  | _, .landmarks _ _ => by simp only [Mfd.relabel, Mfd.size]
  | _, .direction .. => by simp only [Mfd.relabel, Mfd.size]
  | _, .frame .. => by simp only [Mfd.relabel, Mfd.size]
  | _, .empty => by simp only [Mfd.relabel]
  | σ, .compound ms => by simp only [Mfd.relabel, Mfd.size]; exact sizeAll_relabel σ 0 ms
theorem sizeAll_relabel : (σ : Labels) → (k : Nat) → (ms : List (Mfd d)) → Mfd.sizeAll (Mfd.relabelAll σ k ms) = Mfd.sizeAll ms
  | _, _, [] => by simp only [Mfd.relabelAll]
  | σ, k, m :: ms => by simp only [Mfd.relabelAll, Mfd.sizeAll]; rw [size_relabel (σ.at k) m, sizeAll_relabel σ (k + 1) ms]
end

mutual
theorem withGd_relabel {x x' : Row} : (σ : Labels) → (M : Mfd d) → (o : Nat) → AlongAt M.size (M.coords σ) x x' o →
    (M.relabel σ).withGd x' o = (M.withGd x o).relabel σ
  | _, .landmarks _ _, _, h => by
    rw [Mfd.size, Mfd.coords, view_along] at h
    simp only [Mfd.relabel, Mfd.withGd]; rw [h]
  | _, .direction .., _, h => by
    rw [Mfd.size, Mfd.coords, along_cat, view_along, view_along] at h
    simp only [Mfd.relabel, Mfd.withGd]; rw [h.1, h.2]
  | _, .frame .., _, h => by
    rw [Mfd.size, Mfd.coords, along_cat, view_along, viewMats_along] at h
    simp only [Mfd.relabel, Mfd.withGd]; rw [h.1, h.2]
  | _, .empty, _, _ => by simp only [Mfd.relabel, Mfd.withGd]
  | σ, .compound ms, o, h => by
    rw [Mfd.size, Mfd.coords] at h
    simp only [Mfd.relabel, Mfd.withGd]
    rw [withGdAll_relabel σ 0 ms o h]
theorem withGdAll_relabel {x x' : Row} : (σ : Labels) → (k : Nat) → (ms : List (Mfd d)) → (o : Nat) → AlongAt (Mfd.sizeAll ms) (Mfd.coordsAll σ k ms) x x' o →
    Mfd.withGdAll x' o (Mfd.relabelAll σ k ms) = Mfd.relabelAll σ k (Mfd.withGdAll x o ms)
  | _, _, [], _, _ => by simp only [Mfd.relabelAll, Mfd.withGdAll]
  | σ, k, m :: ms, o, h => by
    rw [Mfd.sizeAll, Mfd.coordsAll, along_cat] at h
    simp only [Mfd.relabelAll, Mfd.withGdAll]
    rw [withGd_relabel (σ.at k) m o h.1, size_relabel, withGdAll_relabel σ (k + 1) ms _ h.2]
end
mutual
theorem withCot_relabel {x x' : Row} : (σ : Labels) → (M : Mfd d) → (o : Nat) → AlongAt M.size (M.coords σ) x x' o →
    (M.relabel σ).withCot x' o = (M.withCot x o).relabel σ
  | _, .landmarks _ _, _, h => by
    rw [Mfd.size, Mfd.coords, view_along] at h
    simp only [Mfd.relabel, Mfd.withCot]; rw [h]
  | _, .direction .., _, h => by
    rw [Mfd.size, Mfd.coords, along_cat, view_along, view_along] at h
    simp only [Mfd.relabel, Mfd.withCot]; rw [h.1, h.2]
  | _, .frame .., _, h => by
    rw [Mfd.size, Mfd.coords, along_cat, view_along, viewMats_along] at h
    simp only [Mfd.relabel, Mfd.withCot]; rw [h.1, h.2]
  | _, .empty, _, _ => by simp only [Mfd.relabel, Mfd.withCot]
  | σ, .compound ms, o, h => by
    rw [Mfd.size, Mfd.coords] at h
    simp only [Mfd.relabel, Mfd.withCot]
    rw [withCotAll_relabel σ 0 ms o h]
theorem withCotAll_relabel {x x' : Row} : (σ : Labels) → (k : Nat) → (ms : List (Mfd d)) → (o : Nat) → AlongAt (Mfd.sizeAll ms) (Mfd.coordsAll σ k ms) x x' o →
    Mfd.withCotAll x' o (Mfd.relabelAll σ k ms) = Mfd.relabelAll σ k (Mfd.withCotAll x o ms)
  | _, _, [], _, _ => by simp only [Mfd.relabelAll, Mfd.withCotAll]
  | σ, k, m :: ms, o, h => by
    rw [Mfd.sizeAll, Mfd.coordsAll, along_cat] at h
    simp only [Mfd.relabelAll, Mfd.withCotAll]
    rw [withCot_relabel (σ.at k) m o h.1, size_relabel, withCotAll_relabel σ (k + 1) ms _ h.2]
end

/-! ## The rows of a relabelled manifold -/

theorem along_of_vecs {n : Nat} {g : Fin n → Vec d} (π : Equiv.Perm (Fin n)) {x x' : Row} {o : Nat} (h : Starts x o (flatVecs g)) (h' : Starts x' o (flatVecs fun i => g (π i))) :
    AlongAt (n * d) (blockCoord d π) x x' o := by
  rw [view_along, view_of_starts h, view_of_starts h']
theorem along_of_mats {n : Nat} {g : Fin n → Mat d} (π : Equiv.Perm (Fin n)) {x x' : Row} {o : Nat} (h : Starts x o (flatMats g)) (h' : Starts x' o (flatMats fun i => g (π i))) :
    AlongAt (n * (d * d)) (blockCoord (d * d) π) x x' o := by
  rw [viewMats_along, viewMats_of_starts h, viewMats_of_starts h']

mutual
theorem length_relabel : (σ : Labels) → (v : Tan d) → (v.relabel σ).unroll.flatten.length = v.unroll.flatten.length
  | _, .landmarks _ => by simp [Tan.relabel, Tan.unroll, length_flatVecs]
  | _, .direction .. => by simp [Tan.relabel, Tan.unroll, length_flatVecs]
  | _, .frame .. => by simp [Tan.relabel, Tan.unroll, length_flatVecs, length_flatMats]
  | _, .empty => by simp [Tan.relabel]
  | σ, .compound ts => by rw [Tan.relabel, Tan.unroll, Tan.unroll]; exact lengths_relabel σ 0 ts
theorem lengths_relabel : (σ : Labels) → (k : Nat) → (ts : List (Tan d)) → (Tan.unrollAll (Tan.relabelAll σ k ts)).flatten.length = (Tan.unrollAll ts).flatten.length
  | _, _, [] => by simp [Tan.relabelAll]
  | σ, k, t :: ts => by
    rw [Tan.relabelAll, Tan.unrollAll, Tan.unrollAll, List.flatten_append, List.flatten_append, List.length_append, List.length_append,
      length_relabel (σ.at k) t, lengths_relabel σ (k + 1) ts]
end

mutual
theorem along_fits {x x' : Row} : (σ : Labels) → (v : Tan d) → {M : Mfd d} → {o : Nat} → v.Fits M → Starts x o v.unroll.flatten → Starts x' o (v.relabel σ).unroll.flatten →
    AlongAt M.size (M.coords σ) x x' o
  | _, .landmarks v, M, o, h, h1, h2 => by
    cases M <;> rw [Tan.Fits] at h <;> first | exact h.elim | skip
    subst h
    simp only [Tan.relabel, Tan.unroll, List.flatten_cons, List.flatten_nil, List.append_nil] at h1 h2
    rw [Mfd.size, Mfd.coords]
    exact along_of_vecs _ h1 h2
  | _, .direction v w, M, o, h, h1, h2 => by
    cases M <;> rw [Tan.Fits] at h <;> first | exact h.elim | skip
    subst h
    simp only [Tan.relabel, Tan.unroll, List.flatten_cons, List.flatten_nil, List.append_nil, Starts.append, length_flatVecs] at h1 h2
    rw [Mfd.size, Mfd.coords, along_cat]
    exact ⟨along_of_vecs _ h1.1 h2.1, along_of_vecs _ h1.2 h2.2⟩
  | _, .frame v w, M, o, h, h1, h2 => by
    cases M <;> rw [Tan.Fits] at h <;> first | exact h.elim | skip
    subst h
    simp only [Tan.relabel, Tan.unroll, List.flatten_cons, List.flatten_nil, List.append_nil, Starts.append, length_flatVecs] at h1 h2
    rw [Mfd.size, Mfd.coords, along_cat]
    exact ⟨along_of_vecs _ h1.1 h2.1, along_of_mats _ h1.2 h2.2⟩
  | _, .empty, M, o, h, _, _ => by
    cases M <;> rw [Tan.Fits] at h <;> first | exact h.elim | skip
    rw [Mfd.size]
    exact fun j hj => by omega
  | σ, .compound ts, M, o, h, h1, h2 => by
    cases M <;> rw [Tan.Fits] at h <;> first | exact h.elim | skip
    rw [Tan.unroll] at h1
    rw [Tan.relabel, Tan.unroll] at h2
    rw [Mfd.size, Mfd.coords]
    exact along_fitAll σ 0 ts h h1 h2
theorem along_fitAll {x x' : Row} : (σ : Labels) → (k : Nat) → (ts : List (Tan d)) → {ms : List (Mfd d)} → {o : Nat} → Tan.AllFit ts ms → Starts x o (Tan.unrollAll ts).flatten →
    Starts x' o (Tan.unrollAll (Tan.relabelAll σ k ts)).flatten → AlongAt (Mfd.sizeAll ms) (Mfd.coordsAll σ k ms) x x' o
  | _, _, [], ms, o, h, _, _ => by
    cases ms <;> rw [Tan.AllFit] at h
    · rw [Mfd.sizeAll]; exact fun j hj => by omega
    · exact h.elim
    all_goals simp
  | σ, k, t :: ts, ms, o, h, h1, h2 => by
    cases ms with
    | nil => rw [Tan.AllFit] at h; exact h.elim; all_goals simp
    | cons m ms =>
      rw [Tan.AllFit] at h
      rw [Tan.unrollAll, List.flatten_append, Starts.append, length_fits t h.1] at h1
      rw [Tan.relabelAll, Tan.unrollAll, List.flatten_append, Starts.append, length_relabel (σ.at k) t, length_fits t h.1] at h2
      rw [Mfd.sizeAll, Mfd.coordsAll, along_cat]
      exact ⟨along_fits (σ.at k) t h.1 h1.1 h2.1, along_fitAll σ (k + 1) ts h.2 h1.2 h2.2⟩
end


theorem row_eq_of_starts {x : Row} {l : List ℝ} (h : Starts x 0 l) {j : Nat} (hj : j < l.length) : rowOf l j = x j := by
  have h1 := h j hj
  have h2 := starts_rowOf l j hj
  rw [Nat.zero_add] at h1 h2
  rw [h1, h2]

theorem along_gd (σ : Labels) (M : Mfd d) : Along M.size (M.coords σ) (rowOf M.unrollGd.flatten) (rowOf (M.relabel σ).unrollGd.flatten) := fun j hj => by
  have h := withGd_relabel (x := rowOf M.unrollGd.flatten) (x' := fun j => rowOf M.unrollGd.flatten (M.coords σ j)) σ M 0 (fun j _ => by simp only [Nat.zero_add])
  rw [Mfd.withGd_of_starts M (starts_rowOf _)] at h
  have h2 := Mfd.starts_withGd (fun j => rowOf M.unrollGd.flatten (M.coords σ j)) (M.relabel σ) 0
  rw [h] at h2
  exact row_eq_of_starts h2 (by rw [Mfd.length_unrollGd, size_relabel]; exact hj)
theorem along_cot (σ : Labels) (M : Mfd d) : Along M.size (M.coords σ) (rowOf M.unrollCot.flatten) (rowOf (M.relabel σ).unrollCot.flatten) := fun j hj => by
  have h := withCot_relabel (x := rowOf M.unrollCot.flatten) (x' := fun j => rowOf M.unrollCot.flatten (M.coords σ j)) σ M 0 (fun j _ => by simp only [Nat.zero_add])
  rw [Mfd.withCot_of_starts M (starts_rowOf _)] at h
  have h2 := Mfd.starts_withCot (fun j => rowOf M.unrollCot.flatten (M.coords σ j)) (M.relabel σ) 0
  rw [h] at h2
  exact row_eq_of_starts h2 (by rw [Mfd.length_unrollCot, size_relabel]; exact hj)
theorem along_tan (σ : Labels) {M : Mfd d} {v : Tan d} (h : v.Fits M) : Along M.size (M.coords σ) (rowOf v.unroll.flatten) (rowOf (v.relabel σ).unroll.flatten) :=
  along_at.1 (along_fits σ v h (starts_rowOf _) (starts_rowOf _))

/-! ## Coordinates of modules -/

mutual
theorem coords_withGd (x : Row) : (σ : Labels) → (M : Mfd d) → (o : Nat) → (M.withGd x o).coords σ = M.coords σ
  | _, .landmarks _ _, _ => by simp only [Mfd.withGd, Mfd.coords]
  | _, .direction .., _ => by simp only [Mfd.withGd, Mfd.coords]
  | _, .frame .., _ => by simp only [Mfd.withGd, Mfd.coords]
  | _, .empty, _ => by simp only [Mfd.withGd]
  | σ, .compound ms, o => by simp only [Mfd.withGd, Mfd.coords]; exact coordsAll_withGd x σ 0 ms o
theorem coordsAll_withGd (x : Row) : (σ : Labels) → (k : Nat) → (ms : List (Mfd d)) → (o : Nat) → Mfd.coordsAll σ k (Mfd.withGdAll x o ms) = Mfd.coordsAll σ k ms
  | _, _, [], _ => by simp only [Mfd.withGdAll]
  | σ, k, m :: ms, o => by
    simp only [Mfd.withGdAll, Mfd.coordsAll]
    rw [Mfd.size_withGd, coords_withGd x (σ.at k) m o, coordsAll_withGd x σ (k + 1) ms]
end
mutual
theorem coords_withCot (x : Row) : (σ : Labels) → (M : Mfd d) → (o : Nat) → (M.withCot x o).coords σ = M.coords σ
  | _, .landmarks _ _, _ => by simp only [Mfd.withCot, Mfd.coords]
  | _, .direction .., _ => by simp only [Mfd.withCot, Mfd.coords]
  | _, .frame .., _ => by simp only [Mfd.withCot, Mfd.coords]
  | _, .empty, _ => by simp only [Mfd.withCot]
  | σ, .compound ms, o => by simp only [Mfd.withCot, Mfd.coords]; exact coordsAll_withCot x σ 0 ms o
theorem coordsAll_withCot (x : Row) : (σ : Labels) → (k : Nat) → (ms : List (Mfd d)) → (o : Nat) → Mfd.coordsAll σ k (Mfd.withCotAll x o ms) = Mfd.coordsAll σ k ms
  | _, _, [], _ => by simp only [Mfd.withCotAll]
  | σ, k, m :: ms, o => by
    simp only [Mfd.withCotAll, Mfd.coordsAll]
    rw [Mfd.size_withCot, coords_withCot x (σ.at k) m o, coordsAll_withCot x σ (k + 1) ms]
end

theorem view_one {x x' : Row} {o : Nat} (π : Equiv.Perm (Fin 1)) (h : AlongAt (1 * d) (blockCoord d π) x x' o) :
    viewVecs (d := d) (n := 1) (fun j => x' (o + j)) 0 = viewVecs (n := 1) (fun j => x (o + j)) 0 := by
  rw [view_along] at h
  rw [h]
  exact congrArg _ (Subsingleton.elim _ _)

mutual
theorem mod_withGd_relabel {x x' : Row} : (σ : Labels) → (m : DefModule d) → (o : Nat) → AlongAt m.manifold.size (m.manifold.coords σ) x x' o →
    (m.relabel σ).withGd x' o = (m.withGd x o).relabel σ
  | _, .translations _, _, h => by
    rw [DefModule.manifold, Translations.manifold, Mfd.size, Mfd.coords, view_along] at h
    simp only [DefModule.relabel, DefModule.withGd]; rw [h]
  | _, .implicit0 _, _, h => by
    rw [DefModule.manifold, Implicit0.manifold, Mfd.size, Mfd.coords, view_along] at h
    simp only [DefModule.relabel, DefModule.withGd]; rw [h]
  | _, .oriented _, _, h => by
    rw [DefModule.manifold, Oriented.manifold, Mfd.size, Mfd.coords, along_cat, view_along, view_along] at h
    simp only [DefModule.relabel, DefModule.withGd]; rw [h.1, h.2]
  | _, .constrained _, _, h => by
    rw [DefModule.manifold, Constrained.manifold, Mfd.size, Mfd.coords, view_along] at h
    simp only [DefModule.relabel, DefModule.withGd]; rw [h]
  | _, .globalTranslation _, _, _ => by simp only [DefModule.relabel, DefModule.withGd]
  | _, .linear _, _, h => by
    rw [DefModule.manifold, Linear.manifold, Mfd.size, Mfd.coords] at h
    simp only [DefModule.relabel, DefModule.withGd]; rw [view_one _ h]
  | _, .implicit1 _, _, h => by
    rw [DefModule.manifold, Implicit1.manifold, Mfd.size, Mfd.coords, along_cat, view_along, viewMats_along] at h
    simp only [DefModule.relabel, DefModule.withGd]; rw [h.1, h.2]
  | _, .divFree _, _, h => by
    rw [DefModule.manifold, DivFree.manifold, Mfd.size, Mfd.coords, view_along] at h
    simp only [DefModule.relabel, DefModule.withGd]; rw [h]
  | _, .arap _, _, h => by
    rw [DefModule.manifold, Arap.manifold, Mfd.size, Mfd.coords, view_along] at h
    simp only [DefModule.relabel, DefModule.withGd]; rw [h]
  | σ, .silent M, o, h => by
    rw [DefModule.manifold] at h
    simp only [DefModule.relabel, DefModule.withGd]
    rw [withGd_relabel σ M o h]
  | σ, .compound ms, o, h => by
    rw [DefModule.manifold, Mfd.size, Mfd.coords] at h
    simp only [DefModule.relabel, DefModule.withGd]
    rw [mods_withGd_relabel σ 0 ms o h]
theorem mods_withGd_relabel {x x' : Row} : (σ : Labels) → (k : Nat) → (ms : List (DefModule d)) → (o : Nat) →
    AlongAt (Mfd.sizeAll (DefModule.manifolds ms)) (Mfd.coordsAll σ k (DefModule.manifolds ms)) x x' o →
    DefModule.withGdAll x' o (DefModule.relabelAll σ k ms) = DefModule.relabelAll σ k (DefModule.withGdAll x o ms)
  | _, _, [], _, _ => by simp only [DefModule.relabelAll, DefModule.withGdAll]
  | σ, k, m :: ms, o, h => by
    rw [DefModule.manifolds, Mfd.sizeAll, Mfd.coordsAll, along_cat] at h
    simp only [DefModule.relabelAll, DefModule.withGdAll]
    rw [mod_withGd_relabel (σ.at k) m o h.1, manifold_relabel, size_relabel, mods_withGd_relabel σ (k + 1) ms _ h.2]
end
mutual
theorem mod_withCot_relabel {x x' : Row} : (σ : Labels) → (m : DefModule d) → (o : Nat) → AlongAt m.manifold.size (m.manifold.coords σ) x x' o →
    (m.relabel σ).withCot x' o = (m.withCot x o).relabel σ
  | _, .translations _, _, h => by
    rw [DefModule.manifold, Translations.manifold, Mfd.size, Mfd.coords, view_along] at h
    simp only [DefModule.relabel, DefModule.withCot]; rw [h]
  | _, .implicit0 _, _, h => by
    rw [DefModule.manifold, Implicit0.manifold, Mfd.size, Mfd.coords, view_along] at h
    simp only [DefModule.relabel, DefModule.withCot]; rw [h]
  | _, .oriented _, _, h => by
    rw [DefModule.manifold, Oriented.manifold, Mfd.size, Mfd.coords, along_cat, view_along, view_along] at h
    simp only [DefModule.relabel, DefModule.withCot]; rw [h.1, h.2]
  | _, .constrained _, _, h => by
    rw [DefModule.manifold, Constrained.manifold, Mfd.size, Mfd.coords, view_along] at h
    simp only [DefModule.relabel, DefModule.withCot]; rw [h]
  | _, .globalTranslation _, _, _ => by simp only [DefModule.relabel, DefModule.withCot]
  | _, .linear _, _, h => by
    rw [DefModule.manifold, Linear.manifold, Mfd.size, Mfd.coords] at h
    simp only [DefModule.relabel, DefModule.withCot]; rw [view_one _ h]
  | _, .implicit1 _, _, h => by
    rw [DefModule.manifold, Implicit1.manifold, Mfd.size, Mfd.coords, along_cat, view_along, viewMats_along] at h
    simp only [DefModule.relabel, DefModule.withCot]; rw [h.1, h.2]
  | _, .divFree _, _, h => by
    rw [DefModule.manifold, DivFree.manifold, Mfd.size, Mfd.coords, view_along] at h
    simp only [DefModule.relabel, DefModule.withCot]; rw [h]
  | _, .arap _, _, h => by
    rw [DefModule.manifold, Arap.manifold, Mfd.size, Mfd.coords, view_along] at h
    simp only [DefModule.relabel, DefModule.withCot]; rw [h]
  | σ, .silent M, o, h => by
    rw [DefModule.manifold] at h
    simp only [DefModule.relabel, DefModule.withCot]
    rw [withCot_relabel σ M o h]
  | σ, .compound ms, o, h => by
    rw [DefModule.manifold, Mfd.size, Mfd.coords] at h
    simp only [DefModule.relabel, DefModule.withCot]
    rw [mods_withCot_relabel σ 0 ms o h]
theorem mods_withCot_relabel {x x' : Row} : (σ : Labels) → (k : Nat) → (ms : List (DefModule d)) → (o : Nat) →
    AlongAt (Mfd.sizeAll (DefModule.manifolds ms)) (Mfd.coordsAll σ k (DefModule.manifolds ms)) x x' o →
    DefModule.withCotAll x' o (DefModule.relabelAll σ k ms) = DefModule.relabelAll σ k (DefModule.withCotAll x o ms)
  | _, _, [], _, _ => by simp only [DefModule.relabelAll, DefModule.withCotAll]
  | σ, k, m :: ms, o, h => by
    rw [DefModule.manifolds, Mfd.sizeAll, Mfd.coordsAll, along_cat] at h
    simp only [DefModule.relabelAll, DefModule.withCotAll]
    rw [mod_withCot_relabel (σ.at k) m o h.1, manifold_relabel, size_relabel, mods_withCot_relabel σ (k + 1) ms _ h.2]
end

/-! ## What depends only on the kinds of the modules -/

/-- What relabelling needs to know of a module besides its descriptors. -/
def relabelFacts (σ : Labels) (m : DefModule d) : Prop × (Ctrl d → Ctrl d) := (m.Keeps σ, m.relabelCtrl σ)
def relabelFactsAll (σ : Labels) (k : Nat) (ms : List (DefModule d)) : Prop × (List (Ctrl d) → List (Ctrl d)) :=
  (DefModule.KeepsAll σ k ms, DefModule.relabelCtrls σ k ms)

theorem facts_compound {σ : Labels} {ms ms' : List (DefModule d)} (h : relabelFactsAll σ 0 ms' = relabelFactsAll σ 0 ms) :
    relabelFacts σ (.compound ms') = relabelFacts σ (.compound ms) := by
  unfold relabelFacts
  refine Prod.ext ?_ (funext fun c => ?_)
  · simp only [DefModule.Keeps]; exact congrArg Prod.fst h
  · cases c with
    | list hs => simp only [DefModule.relabelCtrl]; exact congrArg Ctrl.list (congrFun (congrArg Prod.snd h) hs)
    | _ => simp only [DefModule.relabelCtrl]
theorem facts_cons {σ : Labels} {k : Nat} {m m' : DefModule d} {ms ms' : List (DefModule d)} (h : relabelFacts (σ.at k) m' = relabelFacts (σ.at k) m)
    (h' : relabelFactsAll σ (k + 1) ms' = relabelFactsAll σ (k + 1) ms) : relabelFactsAll σ k (m' :: ms') = relabelFactsAll σ k (m :: ms) := by
  unfold relabelFactsAll
  refine Prod.ext ?_ (funext fun c => ?_)
  · simp only [DefModule.KeepsAll]
    rw [show m'.Keeps (σ.at k) = m.Keeps (σ.at k) from congrArg Prod.fst h, show DefModule.KeepsAll σ (k + 1) ms' = DefModule.KeepsAll σ (k + 1) ms from congrArg Prod.fst h']
  · cases c with
    | nil => simp only [DefModule.relabelCtrls]
    | cons c cs =>
      simp only [DefModule.relabelCtrls]
      rw [show m'.relabelCtrl (σ.at k) = m.relabelCtrl (σ.at k) from congrArg Prod.snd h, show DefModule.relabelCtrls σ (k + 1) ms' = DefModule.relabelCtrls σ (k + 1) ms from congrArg Prod.snd h']

macro "facts_leaf" t:term : tactic => `(tactic| (
  unfold relabelFacts
  refine Prod.ext ?_ (funext fun c => ?_)
  · simp only [$t:term, DefModule.Keeps]
  · cases c <;> simp only [$t:term, DefModule.relabelCtrl]))

mutual
theorem facts_withGd (x : Row) : (σ : Labels) → (m : DefModule d) → (o : Nat) → relabelFacts σ (m.withGd x o) = relabelFacts σ m
  | _, .translations _, _ => by facts_leaf DefModule.withGd
  | _, .implicit0 _, _ => by facts_leaf DefModule.withGd
  | _, .oriented _, _ => by facts_leaf DefModule.withGd
  | _, .constrained _, _ => by facts_leaf DefModule.withGd
  | _, .globalTranslation _, _ => by facts_leaf DefModule.withGd
  | _, .linear _, _ => by facts_leaf DefModule.withGd
  | _, .implicit1 _, _ => by facts_leaf DefModule.withGd
  | _, .divFree _, _ => by facts_leaf DefModule.withGd
  | _, .arap _, _ => by facts_leaf DefModule.withGd
  | _, .silent _, _ => by facts_leaf DefModule.withGd
  | σ, .compound ms, o => by rw [DefModule.withGd]; exact facts_compound (factsAll_withGd x σ 0 ms o)
theorem factsAll_withGd (x : Row) : (σ : Labels) → (k : Nat) → (ms : List (DefModule d)) → (o : Nat) → relabelFactsAll σ k (DefModule.withGdAll x o ms) = relabelFactsAll σ k ms
  | _, _, [], _ => by rw [DefModule.withGdAll]
  | σ, k, m :: ms, o => by rw [DefModule.withGdAll]; exact facts_cons (facts_withGd x (σ.at k) m o) (factsAll_withGd x σ (k + 1) ms _)
end
mutual
theorem facts_withCot (x : Row) : (σ : Labels) → (m : DefModule d) → (o : Nat) → relabelFacts σ (m.withCot x o) = relabelFacts σ m
  | _, .translations _, _ => by facts_leaf DefModule.withCot
  | _, .implicit0 _, _ => by facts_leaf DefModule.withCot
  | _, .oriented _, _ => by facts_leaf DefModule.withCot
  | _, .constrained _, _ => by facts_leaf DefModule.withCot
  | _, .globalTranslation _, _ => by facts_leaf DefModule.withCot
  | _, .linear _, _ => by facts_leaf DefModule.withCot
  | _, .implicit1 _, _ => by facts_leaf DefModule.withCot
  | _, .divFree _, _ => by facts_leaf DefModule.withCot
  | _, .arap _, _ => by facts_leaf DefModule.withCot
  | _, .silent _, _ => by facts_leaf DefModule.withCot
  | σ, .compound ms, o => by rw [DefModule.withCot]; exact facts_compound (factsAll_withCot x σ 0 ms o)
theorem factsAll_withCot (x : Row) : (σ : Labels) → (k : Nat) → (ms : List (DefModule d)) → (o : Nat) → relabelFactsAll σ k (DefModule.withCotAll x o ms) = relabelFactsAll σ k ms
  | _, _, [], _ => by rw [DefModule.withCotAll]
  | σ, k, m :: ms, o => by rw [DefModule.withCotAll]; exact facts_cons (facts_withCot x (σ.at k) m o) (factsAll_withCot x σ (k + 1) ms _)
end
mutual
theorem facts_reset : (σ : Labels) → (m : DefModule d) → relabelFacts σ m.reset = relabelFacts σ m
  | _, .translations _ => by facts_leaf DefModule.reset
  | _, .implicit0 _ => by facts_leaf DefModule.reset
  | _, .oriented _ => by facts_leaf DefModule.reset
  | _, .constrained _ => by facts_leaf DefModule.reset
  | _, .globalTranslation _ => by facts_leaf DefModule.reset
  | _, .linear _ => by facts_leaf DefModule.reset
  | _, .implicit1 _ => by facts_leaf DefModule.reset
  | _, .divFree _ => by facts_leaf DefModule.reset
  | _, .arap _ => by facts_leaf DefModule.reset
  | _, .silent _ => by facts_leaf DefModule.reset
  | σ, .compound ms => by rw [DefModule.reset]; exact facts_compound (factsAll_reset σ 0 ms)
theorem factsAll_reset : (σ : Labels) → (k : Nat) → (ms : List (DefModule d)) → relabelFactsAll σ k (DefModule.resetAll ms) = relabelFactsAll σ k ms
  | _, _, [] => by rw [DefModule.resetAll]
  | σ, k, m :: ms => by rw [DefModule.resetAll]; exact facts_cons (facts_reset (σ.at k) m) (factsAll_reset σ (k + 1) ms)
end
theorem facts_of_reset (σ : Labels) {m m' : DefModule d} (h : m'.reset = m.reset) : relabelFacts σ m' = relabelFacts σ m := by
  rw [← facts_reset, h, facts_reset]

/-! ## The twin -/

/-- `b` is `a` with its points listed in another order, and `a` is of the kind of `m`. -/
def Relabelled (σ : Labels) (m a b : DefModule d) : Prop :=
  b = a.relabel σ ∧ a.manifold.coords σ = m.manifold.coords σ ∧ m.manifold.Fits a ∧ relabelFacts σ a = relabelFacts σ m

theorem size_of_fits {M : Mfd d} {a : DefModule d} (h : M.Fits a) : a.manifold.size = M.size := by
  rw [← Mfd.length_unrollGd, ← Mfd.length_unrollGd, List.length_flatten, List.length_flatten, h]

theorem relabelled_of_reset {σ : Labels} {m a a' b : DefModule d} (h : Relabelled σ m a b) (hr : a'.reset = a.reset) : Relabelled σ m a' (a'.relabel σ) := by
  refine ⟨rfl, ?_, ?_, (facts_of_reset σ hr).trans h.2.2.2⟩
  · rw [manifold_of_reset hr]; exact h.2.1
  · exact fits_of_sameGd (same_of_reset hr.symm) h.2.2.1

theorem velocity_relabel (σ : Labels) (m : DefModule d) (hk : m.Keeps σ) :
    PyRel (fun v v' => v' = v.relabel σ ∧ v.Fits m.manifold) m.velocity (m.relabel σ).velocity := by
  unfold DefModule.velocity
  rcases (field_relabel σ m hk).both with ⟨f, g, e, e', h⟩ | ⟨_, _, e, e'⟩
  · rw [e, e', manifold_relabel]
    dsimp only
    rw [action_relabel, action_alike h]
    cases hv : m.manifold.action g with
    | error _ => trivial
    | ok v => exact ⟨rfl, fits_action g m.manifold hv⟩
  · rw [e, e']; trivial

theorem value_relabel (σ : Labels) (m : DefModule d) (hk : m.Keeps σ) : PyRel Eq (Hamiltonian.value m) (Hamiltonian.value (m.relabel σ)) := by
  unfold Hamiltonian.value hamiltonianOn
  rw [cost_relabel σ m hk, manifold_relabel]
  rcases (field_relabel σ m hk).both with ⟨f, g, e, e', h⟩ | ⟨_, _, e, e'⟩
  · rw [e, e']
    dsimp only
    rw [innerProd_relabel, innerProd_alike h]
    exact PyRel.refl (fun _ => rfl) _
  · rw [e, e']; trivial

mutual
theorem lenGd_relabel : (σ : Labels) → (M : Mfd d) → (M.relabel σ).lenGd = M.lenGd
  | _, .landmarks _ _ => by simp only [Mfd.relabel, Mfd.lenGd]
  | _, .direction .. => by simp only [Mfd.relabel, Mfd.lenGd]
  | _, .frame .. => by simp only [Mfd.relabel, Mfd.lenGd]
  | _, .empty => by simp only [Mfd.relabel]
  | σ, .compound ms => by simp only [Mfd.relabel, Mfd.lenGd]; exact lenGdAll_relabel σ 0 ms
theorem lenGdAll_relabel : (σ : Labels) → (k : Nat) → (ms : List (Mfd d)) → Mfd.lenGdAll (Mfd.relabelAll σ k ms) = Mfd.lenGdAll ms
  | _, _, [] => by simp only [Mfd.relabelAll]
  | σ, k, m :: ms => by simp only [Mfd.relabelAll, Mfd.lenGdAll]; rw [lenGd_relabel (σ.at k) m, lenGdAll_relabel σ (k + 1) ms]
end
theorem plain_relabel (σ : Labels) (M : Mfd d) : (M.relabel σ).Plain ↔ M.Plain := by
  unfold Mfd.Plain
  rw [lenGd_relabel]
  cases M <;> simp only [Mfd.relabel, Mfd.hasShapeGd]
theorem plainMembers_relabel (σ : Labels) : (k : Nat) → (ms : List (DefModule d)) → (PlainMembers (DefModule.relabelAll σ k ms) ↔ PlainMembers ms)
  | _, [] => by rw [DefModule.relabelAll]
  | k, m :: ms => by
    have := plainMembers_relabel σ (k + 1) ms
    unfold PlainMembers at this ⊢
    rw [DefModule.relabelAll, DefModule.manifolds, DefModule.manifolds, List.forall_mem_cons, List.forall_mem_cons, this, manifold_relabel, plain_relabel]

theorem relabel_twin (σ : Labels) (m : DefModule d) (hk : m.Keeps σ) :
    Twin m.manifold.size (m.manifold.coords σ) (Relabelled σ m) (fun c c' => c' = m.relabelCtrl σ c) where
  lt := (mixes_coords σ _).1
  inj := (mixes_coords σ _).2
  size := by
    rintro a b ⟨rfl, -, h, -⟩
    rw [numCoords_eq, numCoords_eq, manifold_relabel, size_relabel]
    exact ⟨size_of_fits h, size_of_fits h⟩
  gd := by
    rintro a b ⟨rfl, h, h', -⟩
    rw [gdRow, gdRow, manifold_relabel, ← h, ← size_of_fits h']
    exact along_gd σ _
  cot := by
    rintro a b ⟨rfl, h, h', -⟩
    rw [cotRow, cotRow, manifold_relabel, ← h, ← size_of_fits h']
    exact along_cot σ _
  setGd := by
    rintro a b x x' ⟨rfl, h1, h2, h3⟩ hx
    refine ⟨mod_withGd_relabel σ a 0 ?_, ?_, ?_, (facts_withGd x σ a 0).trans h3⟩
    · rw [along_at, h1, size_of_fits h2]; exact hx
    · rw [DefModule.manifold_withGd, coords_withGd, h1]
    · unfold Mfd.Fits at h2 ⊢; rw [DefModule.manifold_withGd, Mfd.lengths_withGd, h2]
  setCot := by
    rintro a b x x' ⟨rfl, h1, h2, h3⟩ hx
    refine ⟨mod_withCot_relabel σ a 0 ?_, ?_, ?_, (facts_withCot x σ a 0).trans h3⟩
    · rw [along_at, h1, size_of_fits h2]; exact hx
    · rw [DefModule.manifold_withCot, coords_withCot, h1]
    · unfold Mfd.Fits at h2 ⊢; rw [DefModule.manifold_withCot, Mfd.unrollGd_withCot, h2]
  geo := by
    rintro a b h
    have hk' : a.Keeps σ := by rw [show a.Keeps σ = m.Keeps σ from congrArg Prod.fst h.2.2.2]; exact hk
    rw [h.1]
    unfold Hamiltonian.geodesicControls
    rw [manifold_relabel]
    rcases (geodesic_relabel σ (mirror_relabel σ a.manifold) a hk').both with ⟨a', b', e, e', h'⟩ | ⟨_, _, e, e'⟩
    · rw [e, e', h']; exact relabelled_of_reset h (reset_geodesic e)
    · rw [e, e']; trivial
  fill := by
    rintro a b c c' h rfl
    have hk' : a.Keeps σ := by rw [show a.Keeps σ = m.Keeps σ from congrArg Prod.fst h.2.2.2]; exact hk
    rw [h.1, ← show a.relabelCtrl σ = m.relabelCtrl σ from congrArg Prod.snd h.2.2.2]
    rcases (fillControls_relabel σ a hk' c).both with ⟨a', b', e, e', h'⟩ | ⟨_, _, e, e'⟩
    · rw [e, e', h']; exact relabelled_of_reset h (reset_fill a e)
    · rw [e, e']; trivial
  value := by
    rintro a b ⟨rfl, -, -, h⟩
    exact value_relabel σ a (by rw [show a.Keeps σ = m.Keeps σ from congrArg Prod.fst h]; exact hk)
  cost := by
    rintro a b ⟨rfl, -, -, h⟩
    rw [cost_relabel σ a (by rw [show a.Keeps σ = m.Keeps σ from congrArg Prod.fst h]; exact hk)]
    exact PyRel.refl (fun _ => rfl) _
  ctrl := by
    rintro a b ⟨rfl, -, -, h⟩
    rw [controls_relabel, show a.relabelCtrl σ = m.relabelCtrl σ from congrArg Prod.snd h]
  vel := by
    rintro a b ⟨rfl, h1, h2, h⟩
    rcases (velocity_relabel σ a (by rw [show a.Keeps σ = m.Keeps σ from congrArg Prod.fst h]; exact hk)).both with ⟨v, v', e, e', rfl, hf⟩ | ⟨_, _, e, e'⟩
    · rw [e, e', ← h1, ← size_of_fits h2]; exact along_tan σ hf
    · rw [e, e']; trivial
  plain := by
    rintro ms ms' ⟨h, -, -, -⟩
    rw [DefModule.relabel] at h
    rw [DefModule.compound.inj h]
    exact plainMembers_relabel σ 0 ms

end
end Imodal
