import Verif.Lemmas.Rows
/-!
# C07: the ODE state vector encodes the manifold without loss
-/
set_option autoImplicit false
namespace Imodal
noncomputable section
variable {d : Nat}

theorem stateEntries_split (m : DefModule d) :
    (stateEntries m).take ((stateEntries m).length / 2) = m.manifold.unrollGd.flatten ∧
      (stateEntries m).drop ((stateEntries m).length / 2) = m.manifold.unrollCot.flatten := by
  have h : (stateEntries m).length / 2 = m.manifold.unrollGd.flatten.length := by
    rw [stateEntries, List.flatten_append, List.length_append, Mfd.length_unrollCot, Mfd.length_unrollGd]
    omega
  rw [h, stateEntries, List.flatten_append]
  exact ⟨List.take_left, List.drop_left⟩

theorem initRows_eq {m : DefModule d} {x : Row × Row} (h : initRows m = .ok x) : x = (gdRow m, cotRow m) := by
  rw [initRows] at h
  split at h
  · cases h
  · rw [← Except.ok.inj h, (stateEntries_split m).1, (stateEntries_split m).2]; rfl

theorem DefModule.withGd_gdRow (m : DefModule d) : m.withGd (gdRow m) 0 = m :=
  DefModule.withGd_of_starts m (starts_rowOf _)
theorem DefModule.withCot_cotRow (m : DefModule d) : m.withCot (cotRow m) 0 = m :=
  DefModule.withCot_of_starts m (starts_rowOf _)

theorem plainMembers_withGd {ms : List (DefModule d)} (x : Row) (off : Nat) (h : PlainMembers ms) :
    PlainMembers (DefModule.withGdAll x off ms) := by
  have key : ∀ (l : List (Mfd d)) (off : Nat), (∀ m ∈ l, m.Plain) → ∀ m ∈ Mfd.withGdAll x off l, m.Plain := by
    intro l
    induction l with
    | nil => intro off _ m hm; rw [Mfd.withGdAll] at hm; simp at hm
    | cons a l ih =>
      intro off hl m hm
      rw [Mfd.withGdAll] at hm
      rcases List.mem_cons.mp hm with rfl | hm
      · rcases hl a (List.mem_cons_self ..) with h | h
        · left
          have hlen : (a.withGd x off).unrollGd.map List.length = a.unrollGd.map List.length := by
            rw [← Mfd.lengths_unrollCot, Mfd.unrollCot_withGd, Mfd.lengths_unrollCot]
          have := congrArg List.length hlen
          rw [List.length_map, List.length_map, ← Mfd.lenGd_eq, ← Mfd.lenGd_eq] at this
          rw [this, h]
        · right
          cases a <;> simp_all [Mfd.withGd, Mfd.hasShapeGd]
      · exact ih _ (fun m' h' => hl m' (List.mem_cons_of_mem _ h')) m hm
  intro m hm
  rw [DefModule.manifolds_withGd] at hm
  exact key _ off h m hm

theorem plainMembers_withCot {ms : List (DefModule d)} (x : Row) (off : Nat) (h : PlainMembers ms) :
    PlainMembers (DefModule.withCotAll x off ms) := by
  have key : ∀ (l : List (Mfd d)) (off : Nat), (∀ m ∈ l, m.Plain) → ∀ m ∈ Mfd.withCotAll x off l, m.Plain := by
    intro l
    induction l with
    | nil => intro off _ m hm; rw [Mfd.withCotAll] at hm; simp at hm
    | cons a l ih =>
      intro off hl m hm
      rw [Mfd.withCotAll] at hm
      rcases List.mem_cons.mp hm with rfl | hm
      · rcases hl a (List.mem_cons_self ..) with h | h
        · left
          rw [Mfd.lenGd_eq, Mfd.unrollGd_withCot, ← Mfd.lenGd_eq, h]
        · right
          cases a <;> simp_all [Mfd.withCot, Mfd.hasShapeGd]
      · exact ih _ (fun m' h' => hl m' (List.mem_cons_of_mem _ h')) m hm
  intro m hm
  rw [DefModule.manifolds_withCot] at hm
  exact key _ off h m hm

/-- Two rows read into a list of modules. -/
def readBoth (m : DefModule d) (x : Row × Row) : Py (DefModule d) :=
  match readGd m x.1 with
  | .error e => .error e
  | .ok m' => readCot m' x.2

theorem readBoth_eq {ms : List (DefModule d)} (h : PlainMembers ms) (x : Row × Row) :
    readBoth (.compound ms) x = .ok (((DefModule.compound ms).withGd x.1 0).withCot x.2 0) := by
  rw [readBoth, readGd_eq h]
  dsimp only
  rw [DefModule.withGd, readCot_eq (plainMembers_withGd x.1 0 h)]

/-- The state vector, read back, gives the modules they were before, whatever rows `y` have
been read into the modules meanwhile. -/
theorem C07_read_back_partial (ms : List (DefModule d)) (h : PlainMembers ms) (x y : Row × Row)
    (hx : initRows (.compound ms) = .ok x) :
    readBoth (.compound ms) x = .ok (.compound ms) ∧
      ∃ m', readBoth (.compound ms) y = .ok m' ∧ readBoth m' x = .ok (.compound ms) := by
  have hx' := initRows_eq hx
  subst hx'
  refine ⟨?_, _, readBoth_eq h y, ?_⟩
  · rw [readBoth_eq h, DefModule.withGd_gdRow, DefModule.withCot_cotRow]
  · rw [DefModule.withGd, DefModule.withCot, readBoth_eq (plainMembers_withCot _ _ (plainMembers_withGd _ _ h)),
      ← DefModule.withCot, ← DefModule.withGd]
    dsimp only
    rw [DefModule.withGd_withCot, DefModule.withGd_withGd, DefModule.withCot_withCot, DefModule.withGd_gdRow,
      DefModule.withCot_cotRow]

theorem rowOf_of_starts {x : Row} {l : List ℝ} (h : Starts x 0 l) : rowOf l = cut l.length x := by
  funext j
  rw [cut]
  by_cases hj : j < l.length
  · rw [if_pos hj, ← Nat.zero_add j, h j hj]; simp [rowOf, hj]
  · rw [if_neg hj]; simp [rowOf, List.getD, hj]

theorem numCoords_eq (m : DefModule d) : numCoords m = m.manifold.size := Mfd.length_unrollGd _

theorem gdRow_withGd (m : DefModule d) (x : Row) : gdRow (m.withGd x 0) = cut (numCoords m) x := by
  rw [gdRow, rowOf_of_starts (x := x) (by rw [DefModule.manifold_withGd]; exact Mfd.starts_withGd x _ 0), Mfd.length_unrollGd,
    DefModule.manifold_withGd, Mfd.size_withGd, numCoords_eq]
theorem cotRow_withCot (m : DefModule d) (x : Row) : cotRow (m.withCot x 0) = cut (numCoords m) x := by
  rw [cotRow, rowOf_of_starts (x := x) (by rw [DefModule.manifold_withCot]; exact Mfd.starts_withCot x _ 0), Mfd.length_unrollCot,
    DefModule.manifold_withCot, Mfd.size_withCot, numCoords_eq]
theorem gdRow_withCot (m : DefModule d) (x : Row) : gdRow (m.withCot x 0) = gdRow m := by
  rw [gdRow, DefModule.manifold_withCot, Mfd.unrollGd_withCot, gdRow]
theorem cotRow_withGd (m : DefModule d) (x : Row) : cotRow (m.withGd x 0) = cotRow m := by
  rw [cotRow, DefModule.manifold_withGd, Mfd.unrollCot_withGd, cotRow]
theorem numCoords_withGd (m : DefModule d) (x : Row) : numCoords (m.withGd x 0) = numCoords m := by
  rw [numCoords_eq, numCoords_eq, DefModule.manifold_withGd, Mfd.size_withGd]
theorem numCoords_withCot (m : DefModule d) (x : Row) : numCoords (m.withCot x 0) = numCoords m := by
  rw [numCoords_eq, numCoords_eq, DefModule.manifold_withCot, Mfd.size_withCot]

theorem initRows_ok {m : DefModule d} (h : 0 < numCoords m) : initRows m = .ok (gdRow m, cotRow m) := by
  have hne : stateEntries m ≠ [] := by
    intro h0
    have := congrArg List.length h0
    rw [stateEntries, List.flatten_append, List.length_append, Mfd.length_unrollGd, ← numCoords_eq] at this
    simp only [List.length_nil] at this
    omega
  rw [initRows]
  rw [if_neg hne, (stateEntries_split m).1, (stateEntries_split m).2]
  rfl

/-- Conversely the rows are determined by what was read from them: the state vector of the
modules after reading `x` has, entry by entry, the entries of `x`. -/
theorem C07_rows_back_partial (ms : List (DefModule d)) (h : PlainMembers ms) (hn : 0 < numCoords (.compound ms)) (x : Row × Row) :
    ∃ m' x', readBoth (.compound ms) x = .ok m' ∧ initRows m' = .ok x' ∧
      ∀ j, j < numCoords (.compound ms) → x'.1 j = x.1 j ∧ x'.2 j = x.2 j := by
  refine ⟨_, _, readBoth_eq h x, initRows_ok ?_, fun j hj => ?_⟩
  · rwa [numCoords_withCot, numCoords_withGd]
  · rw [gdRow_withCot, gdRow_withGd, cotRow_withCot, numCoords_withGd]
    simp [cut, hj]

/-- A member that is itself a compound with descriptors cannot be read back: the solver path
raises AttributeError for its missing `shape_gd`. -/
theorem C07_nested_disagreement (ms : List (DefModule d)) (x : Row) (inner : List (DefModule d))
    (hi : DefModule.compound inner ∈ ms) (hn : 0 < (DefModule.compound inner).manifold.lenGd) :
    readGd (.compound ms) x = .error .attribute := by
  have : ∃ m ∈ DefModule.manifolds ms, ¬m.Plain := by
    have hmem : ∀ l : List (DefModule d), DefModule.compound inner ∈ l → (DefModule.compound inner).manifold ∈ DefModule.manifolds l := by
      intro l
      induction l with
      | nil => intro h; simp at h
      | cons a l ih =>
        intro h
        rw [DefModule.manifolds]
        rcases List.mem_cons.mp h with rfl | h
        · exact List.mem_cons_self ..
        · exact List.mem_cons_of_mem _ (ih h)
    refine ⟨_, hmem ms hi, ?_⟩
    rintro (h | h)
    · omega
    · rw [DefModule.manifold] at h; cases h
  rw [readGd, DefModule.members, sliceAll_not_plain x _ 0 this]

/-- Without any coordinate, for instance with global translations only, there is no state
vector. -/
theorem C07_no_coordinates (m : DefModule d) (h : numCoords m = 0) : initRows m = .error .runtime := by
  have h1 : m.manifold.unrollGd.flatten = [] := List.eq_nil_of_length_eq_zero h
  have h2 : m.manifold.unrollCot.flatten = [] :=
    List.eq_nil_of_length_eq_zero (by rw [Mfd.length_unrollCot, ← numCoords_eq, h])
  rw [initRows]
  rw [if_pos]
  rw [stateEntries, List.flatten_append, h1, h2]; rfl

/-! Two modules, one of them with frames. -/
example (g g' c c' : Fin 2 → Vec 2) (R cR : Fin 1 → Mat 2) (a b : Fin 1 → Vec 2) : PlainMembers
    [.translations ⟨.torch, g, c, 1, c'⟩, .globalTranslation ⟨1, 0⟩, .silent (.frame a R b cR)] := by
  simp [PlainMembers, DefModule.manifolds, DefModule.manifold, Translations.manifold, GlobalTranslation.manifold, Mfd.Plain,
    Mfd.hasShapeGd]
example (g c c' : Fin 2 → Vec 2) (R cR : Fin 1 → Mat 2) (a b : Fin 1 → Vec 2) : numCoords (.compound
    [.translations ⟨.torch, g, c, 1, c'⟩, .globalTranslation ⟨1, 0⟩, .silent (.frame a R b cR)]) = 10 := by
  simp [numCoords_eq, DefModule.manifolds, DefModule.manifold, Translations.manifold, GlobalTranslation.manifold, Mfd.size,
    Mfd.sizeAll]
example (g c c' : Fin 2 → Vec 2) : 0 < (DefModule.compound [.translations ⟨.torch, g, c, 1, c'⟩]).manifold.lenGd := by
  simp [DefModule.manifold, DefModule.manifolds, Translations.manifold, Mfd.lenGd, Mfd.lenGdAll]

end
end Imodal
