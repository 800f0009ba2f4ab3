import Verif.Lemmas.SilentInsert
import Verif.Lemmas.SimMap
import Verif.Props.C29
/-! State vectors and the Hamiltonian system with one more silent module. -/
set_option autoImplicit false
namespace Imodal
noncomputable section
variable {d : Nat}

/-! ## Reading from rows that agree -/

theorem DefModule.withGd_congr {x y : Row} (m : DefModule d) {off off' : Nat} (h : ∀ j < m.manifold.size, x (off + j) = y (off' + j)) :
    m.withGd x off = m.withGd y off' := by
  have h1 : Starts y off' (m.withGd y off').manifold.unrollGd.flatten := by
    rw [DefModule.manifold_withGd]; exact Mfd.starts_withGd y _ _
  have h2 : Starts x off (m.withGd y off').manifold.unrollGd.flatten := fun j hj => by
    rw [← h1 j hj]; refine h j ?_
    rwa [Mfd.length_unrollGd, DefModule.manifold_withGd, Mfd.size_withGd] at hj
  rw [← DefModule.withGd_of_starts _ h2, DefModule.withGd_withGd]

theorem DefModule.withCot_congr {x y : Row} (m : DefModule d) {off off' : Nat} (h : ∀ j < m.manifold.size, x (off + j) = y (off' + j)) :
    m.withCot x off = m.withCot y off' := by
  have h1 : Starts y off' (m.withCot y off').manifold.unrollCot.flatten := by
    rw [DefModule.manifold_withCot]; exact Mfd.starts_withCot y _ _
  have h2 : Starts x off (m.withCot y off').manifold.unrollCot.flatten := fun j hj => by
    rw [← h1 j hj]; refine h j ?_
    rwa [Mfd.length_unrollCot, DefModule.manifold_withCot, Mfd.size_withCot] at hj
  rw [← DefModule.withCot_of_starts _ h2, DefModule.withCot_withCot]

theorem DefModule.withGdAll_congr {x y : Row} : (ms : List (DefModule d)) → {off off' : Nat} →
    (∀ j < Mfd.sizeAll (DefModule.manifolds ms), x (off + j) = y (off' + j)) → DefModule.withGdAll x off ms = DefModule.withGdAll y off' ms
  | [], _, _, _ => by rw [DefModule.withGdAll, DefModule.withGdAll]
  | m :: ms, off, off', h => by
    rw [DefModule.manifolds, Mfd.sizeAll] at h
    rw [DefModule.withGdAll, DefModule.withGdAll, m.withGd_congr fun j hj => h j (by omega),
      DefModule.withGdAll_congr ms (off' := off' + m.manifold.size) (y := y)
        fun j hj => by rw [Nat.add_assoc, Nat.add_assoc]; exact h _ (by omega)]

theorem DefModule.withCotAll_congr {x y : Row} : (ms : List (DefModule d)) → {off off' : Nat} →
    (∀ j < Mfd.sizeAll (DefModule.manifolds ms), x (off + j) = y (off' + j)) → DefModule.withCotAll x off ms = DefModule.withCotAll y off' ms
  | [], _, _, _ => by rw [DefModule.withCotAll, DefModule.withCotAll]
  | m :: ms, off, off', h => by
    rw [DefModule.manifolds, Mfd.sizeAll] at h
    rw [DefModule.withCotAll, DefModule.withCotAll, m.withCot_congr fun j hj => h j (by omega),
      DefModule.withCotAll_congr ms (off' := off' + m.manifold.size) (y := y)
        fun j hj => by rw [Nat.add_assoc, Nat.add_assoc]; exact h _ (by omega)]

theorem DefModule.withGdAll_append (x : Row) : (A B : List (DefModule d)) → (off : Nat) →
    DefModule.withGdAll x off (A ++ B) = DefModule.withGdAll x off A ++ DefModule.withGdAll x (off + Mfd.sizeAll (DefModule.manifolds A)) B
  | [], B, off => by simp [DefModule.withGdAll, DefModule.manifolds, Mfd.sizeAll]
  | m :: A, B, off => by
    rw [List.cons_append, DefModule.withGdAll, DefModule.withGdAll, DefModule.withGdAll_append x A B, DefModule.manifolds, Mfd.sizeAll,
      Nat.add_assoc]; rfl

theorem DefModule.withCotAll_append (x : Row) : (A B : List (DefModule d)) → (off : Nat) →
    DefModule.withCotAll x off (A ++ B) = DefModule.withCotAll x off A ++ DefModule.withCotAll x (off + Mfd.sizeAll (DefModule.manifolds A)) B
  | [], B, off => by simp [DefModule.withCotAll, DefModule.manifolds, Mfd.sizeAll]
  | m :: A, B, off => by
    rw [List.cons_append, DefModule.withCotAll, DefModule.withCotAll, DefModule.withCotAll_append x A B, DefModule.manifolds, Mfd.sizeAll,
      Nat.add_assoc]; rfl

theorem length_withGds (x : Row) : (ms : List (DefModule d)) → (off : Nat) → (DefModule.withGdAll x off ms).length = ms.length
  | [], _ => by rw [DefModule.withGdAll]
  | m :: ms, off => by rw [DefModule.withGdAll, List.length_cons, length_withGds x ms, List.length_cons]
theorem length_withCots (x : Row) : (ms : List (DefModule d)) → (off : Nat) → (DefModule.withCotAll x off ms).length = ms.length
  | [], _ => by rw [DefModule.withCotAll]
  | m :: ms, off => by rw [DefModule.withCotAll, List.length_cons, length_withCots x ms, List.length_cons]

theorem Mfd.sizeAll_append (l₁ l₂ : List (Mfd d)) : Mfd.sizeAll (l₁ ++ l₂) = Mfd.sizeAll l₁ + Mfd.sizeAll l₂ := by
  induction l₁ with
  | nil => simp [Mfd.sizeAll]
  | cons m l ih => rw [List.cons_append, Mfd.sizeAll, Mfd.sizeAll, ih, Nat.add_assoc]
theorem unrollGdAll_append (l₁ l₂ : List (Mfd d)) : Mfd.unrollGdAll (l₁ ++ l₂) = Mfd.unrollGdAll l₁ ++ Mfd.unrollGdAll l₂ := by
  induction l₁ with
  | nil => simp [Mfd.unrollGdAll]
  | cons m l ih => rw [List.cons_append, Mfd.unrollGdAll, Mfd.unrollGdAll, ih, List.append_assoc]
theorem unrollCotAll_append (l₁ l₂ : List (Mfd d)) : Mfd.unrollCotAll (l₁ ++ l₂) = Mfd.unrollCotAll l₁ ++ Mfd.unrollCotAll l₂ := by
  induction l₁ with
  | nil => simp [Mfd.unrollCotAll]
  | cons m l ih => rw [List.cons_append, Mfd.unrollCotAll, Mfd.unrollCotAll, ih, List.append_assoc]

mutual
theorem Mfd.noEmptyCompound_withGd (y : Row) : (M : Mfd d) → (off : Nat) → ((M.withGd y off).NoEmptyCompound ↔ M.NoEmptyCompound)
  | .landmarks _ _, _ => by rw [Mfd.withGd, Mfd.NoEmptyCompound, Mfd.NoEmptyCompound]
  | .direction _ _ _ _ _, _ => by rw [Mfd.withGd, Mfd.NoEmptyCompound, Mfd.NoEmptyCompound]
  | .frame _ _ _ _, _ => by rw [Mfd.withGd, Mfd.NoEmptyCompound, Mfd.NoEmptyCompound]
  | .empty, _ => by rw [Mfd.withGd]
  | .compound ms, off => by
    rw [Mfd.withGd, Mfd.NoEmptyCompound, Mfd.NoEmptyCompound, Mfd.allNoEmptyCompound_withGd y ms off]
    cases ms <;> simp [Mfd.withGdAll]
theorem Mfd.allNoEmptyCompound_withGd (y : Row) : (ms : List (Mfd d)) → (off : Nat) →
    (Mfd.AllNoEmptyCompound (Mfd.withGdAll y off ms) ↔ Mfd.AllNoEmptyCompound ms)
  | [], _ => by rw [Mfd.withGdAll]
  | m :: ms, off => by
    rw [Mfd.withGdAll, Mfd.AllNoEmptyCompound, Mfd.AllNoEmptyCompound, Mfd.noEmptyCompound_withGd y m, Mfd.allNoEmptyCompound_withGd y ms]
end

mutual
theorem Mfd.noDirections_withGd (y : Row) : (M : Mfd d) → (off : Nat) → ((M.withGd y off).NoDirections ↔ M.NoDirections)
  | .landmarks _ _, _ => by rw [Mfd.withGd, Mfd.NoDirections, Mfd.NoDirections]
  | .direction _ _ _ _ _, _ => by rw [Mfd.withGd, Mfd.NoDirections, Mfd.NoDirections]
  | .frame _ _ _ _, _ => by rw [Mfd.withGd, Mfd.NoDirections, Mfd.NoDirections]
  | .empty, _ => by rw [Mfd.withGd]
  | .compound ms, off => by
    rw [Mfd.withGd, Mfd.NoDirections, Mfd.NoDirections, Mfd.allNoDirections_withGd y ms off]
theorem Mfd.allNoDirections_withGd (y : Row) : (ms : List (Mfd d)) → (off : Nat) →
    (Mfd.AllNoDirections (Mfd.withGdAll y off ms) ↔ Mfd.AllNoDirections ms)
  | [], _ => by rw [Mfd.withGdAll]
  | m :: ms, off => by
    rw [Mfd.withGdAll, Mfd.AllNoDirections, Mfd.AllNoDirections, Mfd.noDirections_withGd y m, Mfd.allNoDirections_withGd y ms]
end

/-! ## Leaving out a block of a row -/

/-- Where the entries behind the block come from. -/
def skip (n₁ n j : Nat) : Nat := if j < n₁ then j else j + n

/-- The row without the entries `n₁, …, n₁ + n - 1`. -/
def dropBlock (n₁ n : Nat) : Row →ₗ[ℝ] Row where
  toFun x j := x (skip n₁ n j)
  map_add' _ _ := rfl
  map_smul' _ _ := rfl

theorem dropBlock_apply (n₁ n : Nat) (x : Row) (j : Nat) : dropBlock n₁ n x j = x (skip n₁ n j) := rfl

theorem skip_inj {n₁ n j k : Nat} (h : skip n₁ n j = skip n₁ n k) : j = k := by
  unfold skip at h
  split at h <;> split at h <;> omega

theorem skip_not_mem (n₁ n j : Nat) : ¬(n₁ ≤ skip n₁ n j ∧ skip n₁ n j < n₁ + n) := by
  unfold skip
  split <;> omega

theorem dropBlock_update (n₁ n : Nat) (x : Row) (j : Nat) (s : ℝ) :
    dropBlock n₁ n (Function.update x (skip n₁ n j) s) = Function.update (dropBlock n₁ n x) j s := by
  funext k
  rw [dropBlock_apply]
  by_cases h : k = j
  · rw [h, Function.update_self, Function.update_self]
  · rw [Function.update_of_ne (fun e => h (skip_inj e)), Function.update_of_ne h, dropBlock_apply]

theorem dropBlock_update_mem {n₁ n : Nat} (x : Row) {j : Nat} (hj : n₁ ≤ j ∧ j < n₁ + n) (s : ℝ) :
    dropBlock n₁ n (Function.update x j s) = dropBlock n₁ n x := by
  funext k
  rw [dropBlock_apply, dropBlock_apply, Function.update_of_ne]
  intro e
  exact skip_not_mem n₁ n k (e ▸ hj)

/-- The block is zero. -/
def BlockZero (n₁ n : Nat) (x : Row) : Prop := ∀ j, n₁ ≤ j → j < n₁ + n → x j = 0

theorem dropBlock_rowOf (a g b : List ℝ) : dropBlock a.length g.length (rowOf (a ++ (g ++ b))) = rowOf (a ++ b) := by
  funext j
  rw [dropBlock_apply, rowOf, rowOf, skip]
  simp only [List.getD_eq_getElem?_getD]
  split
  · next h => rw [List.getElem?_append_left h, List.getElem?_append_left h]
  · next h =>
    rw [List.getElem?_append_right (show a.length ≤ j + g.length by omega), List.getElem?_append_right (by omega),
      List.getElem?_append_right (show a.length ≤ j by omega)]
    congr 2; omega

/-! ## Which modules read Jacobians -/

mutual
theorem readsJac_withGd (y : Row) : (m : DefModule d) → (off : Nat) → ((m.withGd y off).ReadsJac ↔ m.ReadsJac)
  | .translations m, _ => by rw [DefModule.withGd, DefModule.ReadsJac, DefModule.ReadsJac]
  | .implicit0 m, _ => by rw [DefModule.withGd, DefModule.ReadsJac, DefModule.ReadsJac]
  | .oriented m, _ => by rw [DefModule.withGd, DefModule.ReadsJac, DefModule.ReadsJac]
  | .constrained m, _ => by rw [DefModule.withGd, DefModule.ReadsJac, DefModule.ReadsJac]
  | .globalTranslation m, _ => by rw [DefModule.withGd]
  | .linear m, _ => by rw [DefModule.withGd, DefModule.ReadsJac, DefModule.ReadsJac]
  | .implicit1 m, _ => by rw [DefModule.withGd, DefModule.ReadsJac, DefModule.ReadsJac]
  | .divFree m, _ => by rw [DefModule.withGd, DefModule.ReadsJac, DefModule.ReadsJac]
  | .arap m, _ => by rw [DefModule.withGd, DefModule.ReadsJac, DefModule.ReadsJac]
  | .silent m, _ => by rw [DefModule.withGd, DefModule.ReadsJac, DefModule.ReadsJac]
  | .compound ms, off => by rw [DefModule.withGd, DefModule.ReadsJac, DefModule.ReadsJac, someReadsJac_withGd y ms off]
theorem someReadsJac_withGd (y : Row) : (ms : List (DefModule d)) → (off : Nat) →
    (DefModule.SomeReadsJac (DefModule.withGdAll y off ms) ↔ DefModule.SomeReadsJac ms)
  | [], _ => by rw [DefModule.withGdAll]
  | m :: ms, off => by
    rw [DefModule.withGdAll, DefModule.SomeReadsJac, DefModule.SomeReadsJac, readsJac_withGd y m, someReadsJac_withGd y ms]
end

mutual
theorem readsJac_withCot (y : Row) : (m : DefModule d) → (off : Nat) → ((m.withCot y off).ReadsJac ↔ m.ReadsJac)
  | .translations m, _ => by rw [DefModule.withCot, DefModule.ReadsJac, DefModule.ReadsJac]
  | .implicit0 m, _ => by rw [DefModule.withCot, DefModule.ReadsJac, DefModule.ReadsJac]
  | .oriented m, _ => by rw [DefModule.withCot, DefModule.ReadsJac, DefModule.ReadsJac]
  | .constrained m, _ => by rw [DefModule.withCot, DefModule.ReadsJac, DefModule.ReadsJac]
  | .globalTranslation m, _ => by rw [DefModule.withCot]
  | .linear m, _ => by rw [DefModule.withCot, DefModule.ReadsJac, DefModule.ReadsJac]
  | .implicit1 m, _ => by rw [DefModule.withCot, DefModule.ReadsJac, DefModule.ReadsJac]
  | .divFree m, _ => by rw [DefModule.withCot, DefModule.ReadsJac, DefModule.ReadsJac]
  | .arap m, _ => by rw [DefModule.withCot, DefModule.ReadsJac, DefModule.ReadsJac]
  | .silent m, _ => by rw [DefModule.withCot, DefModule.ReadsJac, DefModule.ReadsJac]
  | .compound ms, off => by rw [DefModule.withCot, DefModule.ReadsJac, DefModule.ReadsJac, someReadsJac_withCot y ms off]
theorem someReadsJac_withCot (y : Row) : (ms : List (DefModule d)) → (off : Nat) →
    (DefModule.SomeReadsJac (DefModule.withCotAll y off ms) ↔ DefModule.SomeReadsJac ms)
  | [], _ => by rw [DefModule.withCotAll]
  | m :: ms, off => by
    rw [DefModule.withCotAll, DefModule.SomeReadsJac, DefModule.SomeReadsJac, readsJac_withCot y m, someReadsJac_withCot y ms]
end

mutual
theorem readsJac_geodesic {man : Mfd d} : (m : DefModule d) → {m' : DefModule d} → m.geodesic man = .ok m' → (m'.ReadsJac ↔ m.ReadsJac)
  | .translations m, m', h => by
    rw [DefModule.geodesic] at h; obtain ⟨a, -, rfl⟩ := wrap_ok h; rw [DefModule.ReadsJac, DefModule.ReadsJac]
  | .implicit0 m, m', h => by
    rw [DefModule.geodesic] at h; obtain ⟨a, -, rfl⟩ := wrap_ok h; rw [DefModule.ReadsJac, DefModule.ReadsJac]
  | .oriented m, m', h => by
    rw [DefModule.geodesic] at h; obtain ⟨a, -, rfl⟩ := wrap_ok h; rw [DefModule.ReadsJac, DefModule.ReadsJac]
  | .constrained m, m', h => by
    rw [DefModule.geodesic] at h; obtain ⟨a, -, rfl⟩ := wrap_ok h; rw [DefModule.ReadsJac, DefModule.ReadsJac]
  | .globalTranslation m, m', h => by
    rw [DefModule.geodesic] at h; obtain ⟨a, -, rfl⟩ := wrap_ok h; rw [DefModule.ReadsJac, DefModule.ReadsJac]
  | .linear m, m', h => by
    rw [DefModule.geodesic] at h; obtain ⟨a, -, rfl⟩ := wrap_ok h; rw [DefModule.ReadsJac, DefModule.ReadsJac]
  | .implicit1 m, m', h => by
    rw [DefModule.geodesic] at h; obtain ⟨a, -, rfl⟩ := wrap_ok h; rw [DefModule.ReadsJac, DefModule.ReadsJac]
  | .divFree m, m', h => by
    rw [DefModule.geodesic] at h; obtain ⟨a, -, rfl⟩ := wrap_ok h; rw [DefModule.ReadsJac, DefModule.ReadsJac]
  | .arap m, m', h => by
    rw [DefModule.geodesic] at h; obtain ⟨a, -, rfl⟩ := wrap_ok h; rw [DefModule.ReadsJac, DefModule.ReadsJac]
  | .silent s, m', h => by rw [DefModule.geodesic] at h; rw [← Except.ok.inj h]
  | .compound ms, m', h => by
    obtain ⟨ms', h1, rfl⟩ := geodesic_compound h
    rw [DefModule.ReadsJac, DefModule.ReadsJac, someReadsJac_geodesics h1]
theorem someReadsJac_geodesics {man : Mfd d} : {ms ms' : List (DefModule d)} → DefModule.geodesics man ms = .ok ms' →
    (DefModule.SomeReadsJac ms' ↔ DefModule.SomeReadsJac ms)
  | [], ms', h => by rw [DefModule.geodesics] at h; rw [← Except.ok.inj h]
  | m :: ms, ms', h => by
    rw [DefModule.geodesics] at h
    cases h1 : m.geodesic man with
    | error e => rw [h1] at h; cases h
    | ok a =>
      rw [h1] at h; dsimp only at h
      cases h2 : DefModule.geodesics man ms with
      | error e => rw [h2] at h; cases h
      | ok b =>
        rw [h2] at h
        rw [← Except.ok.inj h, DefModule.SomeReadsJac, DefModule.SomeReadsJac, readsJac_geodesic m h1, someReadsJac_geodesics h2]
end

/-! ## Two compounds that differ by one silent module without momentum -/

/-- `big` is `small` with a silent module without momentum at index `i`; its `n` coordinates start at
`n₁`. -/
def Ins (i n₁ n : Nat) (big small : DefModule d) : Prop :=
  ∃ A M B, A.length = i ∧ Mfd.sizeAll (DefModule.manifolds A) = n₁ ∧ M.size = n ∧ M.Passive (.compound (A ++ B)) ∧ A ++ B ≠ [] ∧
    big = .compound (A ++ .silent M :: B) ∧ small = .compound (A ++ B)

variable {i n₁ n : Nat} {big small : DefModule d}

theorem Ins.gdRow (h : Ins i n₁ n big small) : gdRow small = dropBlock n₁ n (gdRow big) := by
  obtain ⟨A, M, B, -, rfl, rfl, -, -, rfl, rfl⟩ := h
  unfold Imodal.gdRow
  rw [DefModule.manifold, DefModule.manifold, manifolds_append, manifolds_append, DefModule.manifolds, DefModule.manifold, Mfd.unrollGd,
    Mfd.unrollGd, unrollGdAll_append, unrollGdAll_append, Mfd.unrollGdAll, List.flatten_append, List.flatten_append, List.flatten_append,
    ← Mfd.length_unrollGdAll, ← Mfd.length_unrollGd, dropBlock_rowOf]

theorem Ins.cotRow (h : Ins i n₁ n big small) : cotRow small = dropBlock n₁ n (cotRow big) := by
  obtain ⟨A, M, B, -, rfl, rfl, -, -, rfl, rfl⟩ := h
  unfold Imodal.cotRow
  rw [DefModule.manifold, DefModule.manifold, manifolds_append, manifolds_append, DefModule.manifolds, DefModule.manifold, Mfd.unrollCot,
    Mfd.unrollCot, unrollCotAll_append, unrollCotAll_append, Mfd.unrollCotAll, List.flatten_append, List.flatten_append, List.flatten_append,
    ← Mfd.length_unrollCot]
  have : Mfd.sizeAll (DefModule.manifolds A) = (Mfd.unrollCotAll (DefModule.manifolds A)).flatten.length := by
    have := Mfd.length_unrollCot (.compound (DefModule.manifolds A))
    rw [Mfd.unrollCot, Mfd.size] at this
    exact this.symm
  rw [this, dropBlock_rowOf]

theorem Ins.cot_zero (h : Ins i n₁ n big small) : BlockZero n₁ n (Imodal.cotRow big) := by
  obtain ⟨A, M, B, -, rfl, rfl, hM, -, rfl, rfl⟩ := h
  intro j h1 h2
  have e : Mfd.sizeAll (DefModule.manifolds A) = (Mfd.unrollCotAll (DefModule.manifolds A)).flatten.length := by
    have := Mfd.length_unrollCot (.compound (DefModule.manifolds A))
    rw [Mfd.unrollCot, Mfd.size] at this
    exact this.symm
  have e' := Mfd.length_unrollCot M
  unfold Imodal.cotRow
  rw [DefModule.manifold, manifolds_append, DefModule.manifolds, DefModule.manifold, Mfd.unrollCot,
    unrollCotAll_append, Mfd.unrollCotAll, List.flatten_append, List.flatten_append, rowOf, List.getD_eq_getElem?_getD,
    List.getElem?_append_right (by omega), List.getElem?_append_left (by omega), List.getElem?_eq_getElem (by omega)]
  exact hM.zero _ (List.getElem_mem _)

theorem numCoords_size (m : DefModule d) : numCoords m = m.manifold.size := by
  unfold numCoords; rw [Mfd.length_unrollGd]

theorem Ins.numCoords (h : Ins i n₁ n big small) : n₁ ≤ numCoords small ∧ numCoords big = numCoords small + n := by
  obtain ⟨A, M, B, -, rfl, rfl, -, -, rfl, rfl⟩ := h
  rw [numCoords_size, numCoords_size, DefModule.manifold, DefModule.manifold, Mfd.size, Mfd.size, manifolds_append, manifolds_append,
    Mfd.sizeAll_append, Mfd.sizeAll_append, DefModule.manifolds, DefModule.manifold, Mfd.sizeAll]
  omega

theorem Ins.rows (h : Ins i n₁ n big small) {x : Row × Row} (hx : BlockZero n₁ n x.2) :
    Ins i n₁ n (rowsMod big x) (rowsMod small (dropBlock n₁ n x.1, dropBlock n₁ n x.2)) := by
  obtain ⟨A, M, B, hA, h1, h2, hM, hne, rfl, rfl⟩ := h
  refine ⟨DefModule.withCotAll x.2 0 (DefModule.withGdAll x.1 0 A), (M.withGd x.1 n₁).withCot x.2 n₁,
    DefModule.withCotAll x.2 (n₁ + n) (DefModule.withGdAll x.1 (n₁ + n) B), ?_, ?_, ?_, ⟨?_, ?_, ?_⟩, ?_, ?_, ?_⟩
  · rw [length_withCots, length_withGds, hA]
  · rw [DefModule.manifolds_withCot, DefModule.manifolds_withGd, Mfd.size_withCotAll, Mfd.size_withGdAll, h1]
  · rw [Mfd.size_withCot, Mfd.size_withGd, h2]
  · intro a ha
    obtain ⟨j, hj, rfl⟩ := List.getElem_of_mem ha
    rw [← Mfd.starts_withCot x.2 (M.withGd x.1 n₁) n₁ j hj]
    rw [Mfd.length_unrollCot, Mfd.size_withCot, Mfd.size_withGd, h2] at hj
    exact hx _ (by omega) (by omega)
  · rw [Mfd.noEmptyCompound_withCot, Mfd.noEmptyCompound_withGd]; exact hM.noEmpty
  · rw [Mfd.noDirections_withCot, Mfd.noDirections_withGd]
    have hd := hM.dir
    rw [DefModule.ReadsJac, DefModule.manifold, Mfd.NoDirections, someReadsJac_append, manifolds_append, allNoDir_append] at hd ⊢
    rw [someReadsJac_withCot, someReadsJac_withGd, someReadsJac_withCot, someReadsJac_withGd, DefModule.manifolds_withCot,
      DefModule.manifolds_withGd, DefModule.manifolds_withCot, DefModule.manifolds_withGd, Mfd.allNoDirections_withCot,
      Mfd.allNoDirections_withGd, Mfd.allNoDirections_withCot, Mfd.allNoDirections_withGd]
    exact hd
  · intro h0
    apply hne
    have := congrArg List.length h0
    rw [List.length_append, length_withCots, length_withGds, length_withCots, length_withGds, ← List.length_append] at this
    exact List.eq_nil_of_length_eq_zero this
  · rw [rowsMod_compound, DefModule.withGdAll_append, DefModule.withCotAll_append, DefModule.manifolds_withGd, Mfd.size_withGdAll, h1,
      DefModule.withGdAll, DefModule.withCotAll, DefModule.manifold, DefModule.manifold_withGd, DefModule.manifold, Mfd.size_withGd, h2,
      DefModule.withGd, DefModule.withCot]
    simp only [Nat.zero_add]
  · rw [rowsMod_compound, DefModule.withGdAll_append, DefModule.withCotAll_append, DefModule.manifolds_withGd, Mfd.size_withGdAll, h1]
    dsimp only
    have e1 : ∀ (y : Row), ∀ j < n₁, dropBlock n₁ n y (0 + j) = y (0 + j) := fun y j hj => by
      rw [dropBlock_apply, skip, if_pos (by omega)]
    have e2 : ∀ (y : Row) (j : Nat), dropBlock n₁ n y (0 + n₁ + j) = y (n₁ + n + j) := fun y j => by
      rw [dropBlock_apply, skip, if_neg (by omega)]; congr 1; omega
    rw [DefModule.withGdAll_congr A (fun j hj => e1 x.1 j (h1 ▸ hj)), DefModule.withGdAll_congr B (fun j _ => e2 x.1 j),
      DefModule.withCotAll_congr _ (fun j hj => e1 x.2 j (by rwa [DefModule.manifolds_withGd, Mfd.size_withGdAll, h1] at hj)),
      DefModule.withCotAll_congr _ (fun j _ => e2 x.2 j)]

theorem Ins.ham (h : Ins i n₁ n big small) {q p : Row} (hp : BlockZero n₁ n p) :
    valD (hamFn Hamiltonian.geodesicControls big q p) =
      valD (hamFn Hamiltonian.geodesicControls small (dropBlock n₁ n q) (dropBlock n₁ n p)) := by
  rw [hamFn_eq, hamFn_eq]
  refine valD_congr fun H => ?_
  obtain ⟨A, M, B, -, -, -, hM, hne, e1, e2⟩ := h.rows (x := (q, p)) hp
  rw [e1]
  dsimp only at e2
  rw [e2]
  exact hamGeo_insert hM hne

/-- The Hamiltonian does not depend on the coordinates of the silent module, and depends on the
others as without it. -/
theorem Ins.grad (h : Ins i n₁ n big small) :
    dropBlock n₁ n (gradH Hamiltonian.geodesicControls big).1 = (gradH Hamiltonian.geodesicControls small).1 ∧
    dropBlock n₁ n (gradH Hamiltonian.geodesicControls big).2 = (gradH Hamiltonian.geodesicControls small).2 ∧
    BlockZero n₁ n (gradH Hamiltonian.geodesicControls big).1 := by
  obtain ⟨hn1, hn⟩ := h.numCoords
  have hlt : ∀ j, skip n₁ n j < Imodal.numCoords big ↔ j < Imodal.numCoords small := by
    intro j; unfold skip; split <;> omega
  unfold gradH
  dsimp only
  refine ⟨?_, ?_, ?_⟩
  · funext j
    rw [dropBlock_apply, cut, cut]
    simp only [hlt]
    refine if_congr Iff.rfl ?_ rfl
    unfold partialQ
    simp only [h.ham h.cot_zero, dropBlock_update, h.gdRow, h.cotRow]
    rfl
  · funext j
    rw [dropBlock_apply, cut, cut]
    simp only [hlt]
    refine if_congr Iff.rfl ?_ rfl
    unfold partialP
    have hz : ∀ s, BlockZero n₁ n (Function.update (Imodal.cotRow big) (skip n₁ n j) s) := by
      intro s k h1 h2
      rw [Function.update_of_ne (fun e : k = skip n₁ n j => skip_not_mem n₁ n j (e ▸ ⟨h1, h2⟩))]
      exact h.cot_zero k h1 h2
    simp only [h.ham (hz _), dropBlock_update, h.gdRow, h.cotRow]
    rfl
  · intro j h1 h2
    rw [cut]
    split
    · unfold partialQ
      simp only [h.ham h.cot_zero, dropBlock_update_mem _ ⟨h1, h2⟩]
      exact deriv_const _ _
    · rfl

theorem geodesics_size {man : Mfd d} : {A A' : List (DefModule d)} → DefModule.geodesics man A = .ok A' →
    DefModule.manifolds A' = DefModule.manifolds A
  | A, A', h => by
    have : (DefModule.compound A).geodesic man = .ok (.compound A') := by rw [DefModule.geodesic, h]
    have := geodesic_manifold this
    rw [DefModule.manifold, DefModule.manifold] at this
    exact Mfd.compound.inj this

/-! ## What is left after leaving out one member -/

theorem eraseIdx_insert {α : Type} (A : List α) (a : α) (B : List α) : (A ++ a :: B).eraseIdx A.length = A ++ B := by
  rw [List.eraseIdx_append_of_length_le le_rfl]; simp

theorem controlsAll_append (A B : List (DefModule d)) : DefModule.controlsAll (A ++ B) = DefModule.controlsAll A ++ DefModule.controlsAll B := by
  induction A with
  | nil => simp [DefModule.controlsAll]
  | cons m A ih => rw [List.cons_append, DefModule.controlsAll, DefModule.controlsAll, ih]; rfl
theorem length_controlsAll (A : List (DefModule d)) : (DefModule.controlsAll A).length = A.length := by
  induction A with
  | nil => simp [DefModule.controlsAll]
  | cons m A ih => rw [DefModule.controlsAll, List.length_cons, ih, List.length_cons]
theorem length_manifolds (A : List (DefModule d)) : (DefModule.manifolds A).length = A.length := by
  induction A with
  | nil => simp [DefModule.manifolds]
  | cons m A ih => rw [DefModule.manifolds, List.length_cons, ih, List.length_cons]

theorem Ins.without (h : Ins i n₁ n big small) : small = big.without i := by
  obtain ⟨A, M, B, rfl, -, -, -, -, rfl, rfl⟩ := h
  rw [DefModule.without, eraseIdx_insert]
theorem Ins.manifold (h : Ins i n₁ n big small) : small.manifold = big.manifold.without i := by
  obtain ⟨A, M, B, rfl, -, -, -, -, rfl, rfl⟩ := h
  rw [DefModule.manifold, DefModule.manifold, Mfd.without, manifolds_append, manifolds_append, DefModule.manifolds, ← length_manifolds A,
    eraseIdx_insert]
theorem Ins.controls (h : Ins i n₁ n big small) : small.controls = big.controls.without i := by
  obtain ⟨A, M, B, rfl, -, -, -, -, rfl, rfl⟩ := h
  rw [DefModule.controls, DefModule.controls, Ctrl.without, controlsAll_append, controlsAll_append, DefModule.controlsAll,
    ← length_controlsAll A, eraseIdx_insert]
theorem Ins.cost (h : Ins i n₁ n big small) : small.cost = big.cost := by
  obtain ⟨A, M, B, -, -, -, -, -, rfl, rfl⟩ := h
  rw [DefModule.cost, DefModule.cost, costs_insert]

theorem Ins.geo (h : Ins i n₁ n big small) :
    PyRel (fun m m' => Ins i n₁ n m m') (Hamiltonian.geodesicControls big) (Hamiltonian.geodesicControls small) := by
  obtain ⟨A, M, B, hA, h1, h2, hM, hne, rfl, rfl⟩ := h
  cases hb : Hamiltonian.geodesicControls (.compound (A ++ .silent M :: B)) with
  | error e =>
    cases hs : Hamiltonian.geodesicControls (.compound (A ++ B)) with
    | error e' => trivial
    | ok m' =>
      obtain ⟨C, h3, rfl⟩ := geodesic_compound hs
      obtain ⟨A', B', a, b, rfl⟩ := (geodesics_append _ _ _).mp h3
      rw [(geo_insert hM hne).mpr ⟨A', B', hs, geodesics_length a, rfl⟩] at hb
      cases hb
  | ok m =>
    obtain ⟨A', B', hs, hl, rfl⟩ := (geo_insert hM hne).mp hb
    rw [hs]
    obtain ⟨C, h3, h4⟩ := geodesic_compound hs
    obtain ⟨A'', B'', a, b, rfl⟩ := (geodesics_append _ _ _).mp h3
    obtain ⟨rfl, rfl⟩ := List.append_inj (DefModule.compound.inj h4) (by rw [hl, geodesics_length a])
    refine ⟨A', M, B', by rw [hl, hA], by rw [geodesics_size a, h1], h2, ⟨hM.zero, hM.noEmpty, ?_⟩, ?_, rfl, rfl⟩
    · have hd := hM.dir
      rw [DefModule.ReadsJac, DefModule.manifold, someReadsJac_append, manifolds_append] at hd ⊢
      rw [someReadsJac_geodesics a, someReadsJac_geodesics b, geodesics_size a, geodesics_size b]
      exact hd
    intro h0
    apply hne
    have := geodesics_length h3
    rw [h0] at this
    exact List.eq_nil_of_length_eq_zero this.symm

theorem Ins.value (h : Ins i n₁ n big small) (ha : ∀ g, small.field = .ok g → Avail 0 g ∧ Avail 1 g) :
    PyRel (fun a b => a = b) (Hamiltonian.value big) (Hamiltonian.value small) := by
  obtain ⟨A, M, B, hA, h1, h2, hM, hne, rfl, rfl⟩ := h
  cases hb : Hamiltonian.value (.compound (A ++ .silent M :: B)) with
  | error e =>
    cases hs : Hamiltonian.value (.compound (A ++ B)) with
    | error e' => trivial
    | ok a => rw [(value_insert hM.zero hne ha).mpr hs] at hb; cases hb
  | ok a => rw [(value_insert hM.zero hne ha).mp hb]; rfl

theorem Ins.eval (h : Ins i n₁ n big small) {x : Row × Row} (hx : BlockZero n₁ n x.2) :
    PyRel (fun m m' => Ins i n₁ n m m') (evalAt big x) (evalAt small (dropBlock n₁ n x.1, dropBlock n₁ n x.2)) := by
  have h1 := (h.rows hx).geo
  unfold evalAt
  cases hb : Hamiltonian.geodesicControls (rowsMod big x) with
  | error e =>
    rw [hb] at h1
    cases hs : Hamiltonian.geodesicControls (rowsMod small (dropBlock n₁ n x.1, dropBlock n₁ n x.2)) with
    | error e' => trivial
    | ok m => rw [hs] at h1; exact h1.elim
  | ok m =>
    rw [hb] at h1
    cases hs : Hamiltonian.geodesicControls (rowsMod small (dropBlock n₁ n x.1, dropBlock n₁ n x.2)) with
    | error e' => rw [hs] at h1; exact h1.elim
    | ok m' =>
      rw [hs] at h1
      dsimp only
      have h1' : Ins i n₁ n m m' := h1
      have h2 := h1'.value fun g => geo_avail hs
      cases hv : Hamiltonian.value m with
      | error e =>
        rw [hv] at h2
        cases hv' : Hamiltonian.value m' with
        | error e' => trivial
        | ok a => rw [hv'] at h2; exact h2.elim
      | ok a =>
        rw [hv] at h2
        cases hv' : Hamiltonian.value m' with
        | error e' => rw [hv'] at h2; exact h2.elim
        | ok b => exact h1'

end
end Imodal
