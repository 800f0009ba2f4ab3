import Verif.Model.Files
/-!
# C72: saved points can be loaded again
-/
set_option autoImplicit false
namespace Imodal
noncomputable section

/-- A point set: rows of `d` numbers. -/
def Spec.IsPoints (d : Nat) (rows : List (List ℝ)) : Prop := ∀ r ∈ rows, r.length = d

theorem ofNested_points {d : Nat} {rows : List (List ℝ)} (h : Spec.IsPoints d rows) (hne : rows ≠ []) : ofNested rows = .ok (.mat d rows) := by
  match rows, hne with
  | r :: rs, _ =>
    have hr : r.length = d := h r (by simp)
    unfold ofNested
    dsimp only
    rw [if_pos, hr]
    rw [List.all_eq_true]
    intro s hs
    rw [beq_iff_eq, hr, h s (by simp [hs])]

/-- Points pickled in either container are read back unchanged, if there is at least one. -/
theorem C72_pickle (d : Nat) (rows : List (List ℝ)) (h : Spec.IsPoints d rows) (hne : rows ≠ []) (container : String) (hc : container = "array" ∨ container = "dict") :
    ∃ o, savePickle rows container = .ok o ∧ loadPickle o = .ok (d, rows) := by
  have hl : (do let a ← ofNested rows; arrayPoints a) = .ok (d, rows) := by rw [ofNested_points h hne]; rfl
  rcases hc with rfl | rfl
  · exact ⟨.rows rows, rfl, hl⟩
  · exact ⟨.dict (some rows), by simp [savePickle], hl⟩

/-- Other containers are rejected when saving; when loading, a dictionary without points raises `KeyError`
and an object that is neither a dictionary nor an array `RuntimeError`. -/
theorem C72_container (rows : List (List ℝ)) (container : String) (hc : container ≠ "array") (hc' : container ≠ "dict") :
    savePickle rows container = .error .runtime ∧ loadPickle .other = .error .runtime ∧ loadPickle (.dict none) = .error .key :=
  ⟨by unfold savePickle; rw [if_neg hc, if_neg hc'], rfl, rfl⟩

/-- An empty set of points can be saved but not loaded. -/
theorem C72_empty_disagreement (container : String) (hc : container = "array" ∨ container = "dict") :
    ∃ o, savePickle [] container = .ok o ∧ loadPickle o = .error .index := by
  rcases hc with rfl | rfl
  · exact ⟨.rows [], rfl, rfl⟩
  · exact ⟨.dict (some []), by simp [savePickle], rfl⟩

theorem filter_lines {d : Nat} (hd : 1 ≤ d) {rows : List (List ℝ)} (h : Spec.IsPoints d rows) : rows.filter (fun l => !l.isEmpty) = rows := by
  rw [List.filter_eq_self]
  intro r hr
  have := h r hr
  cases r with
  | nil => simp at this; omega
  | cons a r => rfl

/-- Text files: at least two points of dimension at least two are read back unchanged. -/
theorem C72_csv (d : Nat) (hd : 2 ≤ d) (rows : List (List ℝ)) (h : Spec.IsPoints d rows) (hn : 2 ≤ rows.length) : loadCsv (savetxt rows) = .ok (d, rows) := by
  match rows, hn with
  | r :: s :: rs, _ =>
    have hr : r.length = d := h r (by simp)
    have ha : (s :: rs).all (fun t => t.length == r.length) = true := by
      rw [List.all_eq_true]
      intro t ht
      rw [beq_iff_eq, hr, h t (by simp only [List.mem_cons] at ht ⊢; tauto)]
    unfold loadCsv savetxt loadtxt
    rw [filter_lines (by omega) h]
    have hr1 : r.length ≠ 1 := by omega
    simp only [ha, if_true, if_neg hr1]
    rw [hr]
    rfl

/-- A single point, or points on a line, can be saved as text but not loaded: the reader drops axes of
length one. -/
theorem C72_csv_disagreement (d : Nat) (hd : 1 ≤ d) (rows : List (List ℝ)) (h : Spec.IsPoints d rows) (h1 : d = 1 ∨ rows.length ≤ 1) :
    loadCsv (savetxt rows) = .error .index := by
  unfold loadCsv savetxt loadtxt
  rw [filter_lines hd h]
  match rows, h, h1 with
  | [], _, _ => rfl
  | [[]], h, _ =>
    have := h [] (by simp)
    simp at this
    omega
  | [[x]], _, _ => rfl
  | [x :: y :: r], _, _ => rfl
  | r :: s :: rs, h, h1 =>
    have hd1 : d = 1 := h1.resolve_right (by simp)
    subst hd1
    have hr : r.length = 1 := h r (by simp)
    have ha : (s :: rs).all (fun t => t.length == r.length) = true := by
      rw [List.all_eq_true]
      intro t ht
      rw [beq_iff_eq, hr, h t (by simp only [List.mem_cons] at ht ⊢; tauto)]
    simp only [ha, if_true, if_pos hr]
    rfl

/-- What holds of the claim that saved points can be loaded again. Missing: the cases of the two
disagreements. -/
theorem C72_partial (d : Nat) (hd : 2 ≤ d) (rows : List (List ℝ)) (h : Spec.IsPoints d rows) (hn : 2 ≤ rows.length) :
    loadCsv (savetxt rows) = .ok (d, rows) ∧
    ∀ container : String, container = "array" ∨ container = "dict" → ∃ o, savePickle rows container = .ok o ∧ loadPickle o = .ok (d, rows) :=
  ⟨C72_csv d hd rows h hn, fun c hc => C72_pickle d rows h (by rintro rfl; simp at hn) c hc⟩

example : Spec.IsPoints 2 [[0, 1], [2, 3], [4, 5]] := by simp [Spec.IsPoints]

end
end Imodal
