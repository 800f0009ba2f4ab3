import Verif.Model.Files
import Mathlib.Data.List.Basic
/-!
# C65: choice of the file format
-/
set_option autoImplicit false
namespace Imodal
noncomputable section

/-- The last component of a path: a suffix without slash that is everything or follows a slash. -/
def Spec.IsBaseName (filename base : List Char) : Prop :=
  '/' ∉ base ∧ (filename = base ∨ ∃ dir, filename = dir ++ '/' :: base)

theorem takeWhile_append_stop {α : Type} (p : α → Bool) : ∀ (l : List α) (a : α) (m : List α), (∀ b ∈ l, p b = true) → p a = false →
    (l ++ a :: m).takeWhile p = l
  | [], a, m, _, h => by simp [h]
  | b :: l, a, m, hl, h => by
    rw [List.cons_append, List.takeWhile_cons_of_pos (hl b (by simp)), takeWhile_append_stop p l a m (fun c hc => hl c (by simp [hc])) h]

theorem takeWhile_all {α : Type} (p : α → Bool) : ∀ (l : List α), (∀ b ∈ l, p b = true) → l.takeWhile p = l
  | [], _ => rfl
  | b :: l, hl => by rw [List.takeWhile_cons_of_pos (hl b (by simp)), takeWhile_all p l fun c hc => hl c (by simp [hc])]

theorem pathTail_eq {filename base : List Char} (h : Spec.IsBaseName filename base) : pathTail filename = base := by
  obtain ⟨h0, h1⟩ := h
  have hp : ∀ b ∈ base.reverse, decide (b ≠ '/') = true := by
    intro b hb
    rw [List.mem_reverse] at hb
    simp only [ne_eq, decide_eq_true_eq]
    rintro rfl
    exact h0 hb
  unfold pathTail
  rcases h1 with rfl | ⟨dir, rfl⟩
  · rw [takeWhile_all _ _ hp, List.reverse_reverse]
  · rw [List.reverse_append, List.reverse_cons, List.append_assoc, List.singleton_append, takeWhile_append_stop _ _ _ _ hp (by simp), List.reverse_reverse]

/-- The extensions for which there is a reader. -/
def Spec.KnownExt (keys : List (List Char)) (ext : List Char) : Prop := ext = ".csv".toList ∨ ext = ".pickle".toList ∨ ext = ".pkl".toList ∨ ext ∈ keys

/-- What holds: a file whose name ends in no known extension is rejected, and a file whose whole
name is a known extension goes to the right reader. Missing: all other names. -/
theorem C65_partial (keys : List (List Char)) (filename base : List Char) (hb : Spec.IsBaseName filename base) :
    ((∀ stem ext, base = stem ++ ext → ¬ Spec.KnownExt keys ext) → fileDispatch keys filename = .error .runtime) ∧
    (base = ".csv".toList → fileDispatch keys filename = .ok .csv) ∧
    (base = ".pickle".toList ∨ base = ".pkl".toList → fileDispatch keys filename = .ok .pickle) ∧
    (base ∈ keys → base ≠ ".csv".toList → base ≠ ".pickle".toList → base ≠ ".pkl".toList → fileDispatch keys filename = .ok .mesh) := by
  unfold fileDispatch
  rw [pathTail_eq hb]
  refine ⟨fun h => ?_, fun h => ?_, fun h => ?_, fun h h1 h2 h3 => ?_⟩
  · have := h [] base rfl
    unfold Spec.KnownExt at this
    push Not at this
    rw [if_neg this.1, if_neg (by rintro (e | e); exacts [this.2.1 e, this.2.2.1 e]), if_neg this.2.2.2]
  · rw [if_pos h]
  · rw [if_neg, if_pos h]
    rcases h with rfl | rfl <;> decide
  · rw [if_neg h1, if_neg (by rintro (e | e); exacts [h2 e, h3 e]), if_pos h]

/-- Every file whose name has something before a known extension is rejected, whatever the
directory: the whole name is compared, not the extension. (Keys of `meshio` start with a dot.) -/
theorem C65_disagreement (keys : List (List Char)) (hkeys : ∀ k ∈ keys, k.head? = some '.') (filename : List Char) (c : Char) (hc : c ≠ '.')
    (stem ext : List Char) (hb : Spec.IsBaseName filename (c :: stem ++ ext)) : fileDispatch keys filename = .error .runtime := by
  unfold fileDispatch
  rw [pathTail_eq hb]
  have hn : ∀ k : List Char, k.head? = some '.' → c :: stem ++ ext ≠ k := by
    rintro k hk rfl
    simp at hk
    exact hc hk
  rw [if_neg (hn _ rfl), if_neg (by rintro (e | e); exacts [hn _ rfl e, hn _ rfl e]), if_neg fun h => hn _ (hkeys _ h) rfl]

/-- In particular `points.csv` in any directory is rejected. -/
theorem C65_points_csv_disagreement (keys : List (List Char)) (hkeys : ∀ k ∈ keys, k.head? = some '.') (dir : List Char) :
    fileDispatch keys (dir ++ '/' :: "points.csv".toList) = .error .runtime ∧ fileDispatch keys "points.csv".toList = .error .runtime :=
  ⟨C65_disagreement keys hkeys _ 'p' (by decide) "oints".toList ".csv".toList ⟨by decide, .inr ⟨dir, rfl⟩⟩,
   C65_disagreement keys hkeys _ 'p' (by decide) "oints".toList ".csv".toList ⟨by decide, .inl rfl⟩⟩

/-- When a mesh file is recognised, the result is not a deformable. -/
theorem C65_mesh_disagreement (keys : List (List Char)) (filename : List Char) (h : fileDispatch keys filename = .ok .mesh) :
    loadedKind keys filename = .ok .tensor := by
  unfold loadedKind; rw [h]

example : Spec.IsBaseName "a/b/c.vtk".toList "c.vtk".toList := ⟨by decide, .inr ⟨"a/b".toList, rfl⟩⟩

end
end Imodal
