import Verif.Spec.Aabb
import Mathlib.Tactic.Common
/-!
# C50  Grids and point lists convert without loss
-/
set_option autoImplicit false
namespace Imodal
variable {α : Type}

theorem stackRows_length (n : Nat) : ∀ (gs : List (List α)), (∀ g ∈ gs, g.length = n) →
    (stackRows n gs).length = n
  | [], _ => by simp [stackRows]
  | g :: gs, h => by
    simp [stackRows, stackRows_length n gs (fun x hx => h x (by simp [hx])), h g (by simp)]

/-- Row `j` of the stacked grids lists the `j`-th element of each grid. -/
theorem stackRows_get (n : Nat) : ∀ (gs : List (List α)), (∀ g ∈ gs, g.length = n) →
    ∀ (j : Nat), j < n → ∃ row, (stackRows n gs)[j]? = some row ∧ row.length = gs.length ∧
      ∀ (i : Nat), row[i]? = (gs[i]?).bind (·[j]?)
  | [], _, j, hj => ⟨[], by simp [stackRows, hj], rfl, by simp⟩
  | g :: gs, h, j, hj => by
    obtain ⟨row, h1, h2, h3⟩ := stackRows_get n gs (fun x hx => h x (by simp [hx])) j hj
    have hg : g[j]? = some (g[j]'(by rw [h g (by simp)]; exact hj)) := by
      simp [h g (by simp), hj]
    refine ⟨g[j]'(by rw [h g (by simp)]; exact hj) :: row,
      by simp only [stackRows, List.getElem?_zipWith, hg, h1], by simp [h2], ?_⟩
    intro i
    cases i with
    | zero => simp [hg]
    | succ i => simpa using h3 i

theorem vecCol_stackRows (n : Nat) (gs : List (List α)) (h : ∀ g ∈ gs, g.length = n) (i : Nat)
    (g : List α) (hi : gs[i]? = some g) : vecCol (stackRows n gs) i = some g := by
  have hg : g.length = n := h g (List.mem_of_getElem? hi)
  have key : ∀ (rows : List (List α)) (g : List α), rows.length = g.length →
      (∀ (j : Nat) (row : List α), rows[j]? = some row → row[i]? = g[j]?) → vecCol rows i = some g := by
    intro rows
    induction rows with
    | nil => intro g hl _; cases g <;> simp_all [vecCol]
    | cons r rows ih =>
      intro g hl hr
      cases g with
      | nil => simp at hl
      | cons x g =>
        have h0 := hr 0 r rfl
        have := ih g (by simpa using hl) (fun j row hj => by simpa using hr (j + 1) row (by simpa using hj))
        unfold vecCol at this ⊢
        rw [List.mapM_cons, this]
        simp at h0
        simp [h0]
  apply key
  · rw [stackRows_length n gs h, hg]
  · intro j row hj
    have hjn : j < n := by
      have := (List.getElem?_eq_some_iff.1 hj).1
      rwa [stackRows_length n gs h] at this
    obtain ⟨row', h1, _, h3⟩ := stackRows_get n gs h j hjn
    rw [h1] at hj; cases hj
    rw [h3, hi]; rfl

/-- Stacking the grids of any shape, as many as the shape has dimensions, and splitting them
again with that shape returns the grids. -/
theorem C50_vec2grid_grid2vec (shape : List Nat) (gs : List (List α)) (hne : gs ≠ [])
    (hn : gs.length = shape.length) (hsz : ∀ g ∈ gs, g.length = shape.prod) :
    ∃ rows, grid2vec gs = .ok rows ∧ rows.length = shape.prod ∧
      vec2grid gs.length rows shape = .ok gs := by
  match gs, hne with
  | g :: rest, _ =>
    have hg := hsz g (by simp)
    have hall : (rest.all fun t => t.length == g.length) = true := by
      rw [List.all_eq_true]
      intro t ht
      simp [hsz t (by simp [ht]), hg]
    refine ⟨stackRows g.length (g :: rest), by simp only [grid2vec, hall, if_true], ?_, ?_⟩
    · rw [hg]; exact stackRows_length _ _ hsz
    · rw [hg]
      generalize hgs : g :: rest = gs at *
      unfold vec2grid
      rw [← hn]
      have key : ∀ (k : Nat) (l : List (List α)), (∀ (i : Nat) (t : List α), l[i]? = some t →
          gs[k + i]? = some t) → k + l.length = gs.length →
          ((List.range l.length).map (fun i => k + i)).mapM (viewCol gs.length (stackRows shape.prod gs) shape) = (.ok l : Py (List (List α))) := by
        intro k l
        induction l generalizing k with
        | nil => intro _ _; rfl
        | cons t l ih =>
          intro hl hk
          simp only [List.length_cons, List.range_succ_eq_map, List.map_cons, List.map_map,
            List.mapM_cons]
          have h0 := hl 0 t rfl
          have hlt : k + 0 < gs.length := by simp at hk; omega
          unfold viewCol at ih ⊢
          rw [if_pos hlt, vecCol_stackRows _ _ hsz (k + 0) t h0]
          have := ih (k + 1) (fun i t' hi => by
            have := hl (i + 1) t' (by simpa using hi)
            rwa [show k + (i + 1) = k + 1 + i by omega] at this) (by simp at hk; omega)
          have hfun : ((fun i => k + i) ∘ Nat.succ) = fun i => k + 1 + i := by
            funext i; simp; omega
          rw [hfun, this]
          simp [hsz t (List.mem_of_getElem? h0), bind, Except.bind, pure, Except.pure]
      have := key 0 gs (by simp) (by simp)
      simpa using this

/-- Row-major order: the row of the point list at the row-major position of a multi-index
lists the grids' values at that multi-index. -/
theorem C50_row_major (shape : List Nat) (gs : List (List α)) (hne : gs ≠ [])
    (hsz : ∀ g ∈ gs, g.length = shape.prod) (idx : List Nat) (hidx : InShape shape idx) :
    ∃ rows row, grid2vec gs = .ok rows ∧ rows[rowMajor shape idx]? = some row ∧
      row.length = gs.length ∧ ∀ (i : Nat), row[i]? = (gs[i]?).bind (·[rowMajor shape idx]?) := by
  have hlt : ∀ (shape idx : List Nat), InShape shape idx → rowMajor shape idx < shape.prod := by
    intro shape
    induction shape with
    | nil => intro idx h; cases idx <;> simp_all [InShape, rowMajor]
    | cons n ns ih =>
      intro idx h
      cases idx with
      | nil => simp [InShape] at h
      | cons i is =>
        simp only [InShape] at h
        simp only [rowMajor, List.prod_cons]
        have h2 := ih is h.2
        calc i * ns.prod + rowMajor ns is < i * ns.prod + ns.prod := by omega
          _ = (i + 1) * ns.prod := by rw [Nat.succ_mul]
          _ ≤ n * ns.prod := Nat.mul_le_mul_right _ h.1
  match gs, hne with
  | g :: rest, _ =>
    have hg := hsz g (by simp)
    have hall : (rest.all fun t => t.length == g.length) = true := by
      rw [List.all_eq_true]
      intro t ht
      simp [hsz t (by simp [ht]), hg]
    obtain ⟨row, h1, h2, h3⟩ := stackRows_get shape.prod (g :: rest) hsz _ (hlt shape idx hidx)
    exact ⟨stackRows shape.prod (g :: rest), row, by
      simp only [grid2vec, hall, if_true]; rw [hg], h1, h2, h3⟩

/-- Grids of different sizes are rejected. -/
theorem C50_sizes_rejected (g g' : List α) (gs : List (List α)) (h : g' ∈ gs)
    (hl : g'.length ≠ g.length) : grid2vec (g :: gs) = .error .runtime := by
  simp only [grid2vec]
  rw [if_neg]
  intro hall
  rw [List.all_eq_true] at hall
  exact hl (by simpa using hall g' h)

example : ∀ g ∈ [[1, 2, 3, 4, 5, 6], [6, 5, 4, 3, 2, 1]], g.length = [2, 3].prod := by decide
example : InShape [2, 3] [1, 2] := by simp [InShape]

end Imodal
