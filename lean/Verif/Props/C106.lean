import Verif.Model.MeshFiles
/-!
# C106: points, growth factors and frames in mesh files
-/
set_option autoImplicit false
namespace Imodal
noncomputable section

theorem Tensor.same {s t : Tensor} (h1 : s.shape = t.shape) (h2 : s.data = t.data) : s = t := by
  obtain ⟨a, b, _⟩ := s
  obtain ⟨a', b', _⟩ := t
  dsimp only at h1 h2
  subst h1 h2
  rfl

theorem reshapeOpen_ok {e : PyErr} {t : Tensor} {pre post : List Nat} {k : Nat} (hpos : pre.prod * post.prod ≠ 0) (hk : t.data.length = k * (pre.prod * post.prod)) :
    ∃ g, t.reshapeOpen e pre post = .ok g ∧ g.shape = pre ++ k :: post ∧ g.data = t.data := by
  have h0 : t.data.length % (pre.prod * post.prod) = 0 := by rw [hk]; exact Nat.mul_mod_left _ _
  have hd : t.data.length / (pre.prod * post.prod) = k := by rw [hk, Nat.mul_div_cancel _ (Nat.pos_of_ne_zero hpos)]
  rw [Tensor.reshapeOpen, if_neg hpos, dif_pos h0]
  exact ⟨_, rfl, congrArg (fun a => pre ++ a :: post) hd, rfl⟩

theorem reshapeOpen_inv {e : PyErr} {t g : Tensor} {pre post : List Nat} (h : t.reshapeOpen e pre post = .ok g) :
    pre.prod * post.prod ≠ 0 ∧ ∃ k, t.data.length = k * (pre.prod * post.prod) ∧ g.shape = pre ++ k :: post ∧ g.data = t.data := by
  rw [Tensor.reshapeOpen] at h
  by_cases h0 : pre.prod * post.prod = 0
  · rw [if_pos h0] at h; cases h
  · rw [if_neg h0] at h
    by_cases h1 : t.data.length % (pre.prod * post.prod) = 0
    · rw [dif_pos h1] at h
      cases h
      exact ⟨h0, _, (Nat.div_mul_cancel (Nat.dvd_of_mod_eq_zero h1)).symm, rfl, rfl⟩
    · rw [dif_neg h1] at h; cases h

/-- Growth factors go through a file: for `n` points and `n × d × 1` growth factors, reading gives what
was written. -/
theorem C106_partial {n d : Nat} (hn : 0 < n) (hd : 0 < d) (points growth : Tensor) (hp : points.shape = [n, d]) (hg : growth.shape = [n, d, 1]) :
    ∃ f, exportGrowth points growth = .ok f ∧ importGrowth f "growth" = .ok (points, growth) := by
  have hlen : growth.data.length = n * d := by rw [growth.size, hg]; simp
  obtain ⟨g, h1, h2, h3⟩ := reshapeOpen_ok (e := .value) (t := growth) (pre := []) (post := [d]) (k := n) (by simp; omega) (by simp [hlen])
  obtain ⟨g', h4, h5, h6⟩ := reshapeOpen_ok (e := .runtime) (t := g) (pre := [n]) (post := [1]) (k := d) (by simp; omega) (by simp [h3, hlen, Nat.mul_comm])
  refine ⟨⟨points, polygonCells n, [("growth", g)]⟩, ?_, ?_⟩
  · rw [exportGrowth, hg, hp]
    simp [h1, writeMesh, hp, h2]
  · have e : g' = growth := Tensor.same (by rw [h5, hg]; rfl) (by rw [h6, h3])
    rw [importGrowth, MeshFile.field]
    simp [hp, h4, e]

/-- Exactly which growth factors are written, and what is read back: one column of `n * d` numbers, in
whatever shape, which reading puts into the shape `n × d × 1`. -/
theorem C106_accepts {n d : Nat} (points growth : Tensor) (hp : points.shape = [n, d]) :
    (∃ f, exportGrowth points growth = .ok f) ↔ growth.shape[2]? = some 1 ∧ d ≠ 0 ∧ growth.data.length = n * d := by
  constructor
  · rintro ⟨f, h⟩
    rw [exportGrowth, hp] at h
    cases h2 : growth.shape[2]? with
    | none => rw [h2] at h; cases h
    | some k =>
      rw [h2] at h
      dsimp only at h
      by_cases hk : k ≠ 1
      · rw [if_pos hk] at h; cases h
      rw [if_neg hk] at h
      dsimp only [List.getElem?_cons_succ, List.getElem?_cons_zero] at h
      cases hr : growth.reshapeOpen .value [] [d] with
      | error _ => rw [hr] at h; cases h
      | ok g =>
        rw [hr] at h
        obtain ⟨h0, m, h3, h4, -⟩ := reshapeOpen_inv hr
        simp only [List.prod_nil, List.prod_singleton, Nat.one_mul] at h0 h3
        refine ⟨by rw [not_not.1 hk], h0, ?_⟩
        simp only [writeMesh, hp, h4, List.nil_append, List.all_cons, List.all_nil, Bool.and_true, List.head?_cons] at h
        by_cases hm : m = n
        · rw [h3, hm]
        · rw [if_neg (by simpa using hm)] at h; cases h
  · rintro ⟨h2, h0, h3⟩
    obtain ⟨g, h4, h5, -⟩ := reshapeOpen_ok (e := .value) (t := growth) (pre := []) (post := [d]) (k := n) (by simpa using h0) (by simpa using h3)
    refine ⟨⟨points, polygonCells n, [("growth", g)]⟩, ?_⟩
    rw [exportGrowth, hp, h2]
    simp [h4, writeMesh, hp, h5]

theorem C106_reads {n d : Nat} (points growth : Tensor) (hp : points.shape = [n, d]) {f : MeshFile} (h : exportGrowth points growth = .ok f) :
    (0 < n → ∃ g, importGrowth f "growth" = .ok (points, g) ∧ g.shape = [n, d, 1] ∧ g.data = growth.data) ∧
    ∀ name, name ≠ "growth" → importGrowth f name = .error .runtime := by
  obtain ⟨h2, h0, h3⟩ := (C106_accepts points growth hp).1 ⟨f, h⟩
  obtain ⟨g, h4, h5, h6⟩ := reshapeOpen_ok (e := .value) (t := growth) (pre := []) (post := [d]) (k := n) (by simpa using h0) (by simpa using h3)
  have hf : f = ⟨points, polygonCells n, [("growth", g)]⟩ := by
    rw [exportGrowth, hp, h2] at h
    simp [h4, writeMesh, hp, h5] at h
    exact h.symm
  subst hf
  refine ⟨fun hn => ?_, fun name hname => ?_⟩
  · obtain ⟨g', e1, e2, e3⟩ := reshapeOpen_ok (e := .runtime) (t := g) (pre := [n]) (post := [1]) (k := d) (by simp; omega) (by simp [h6, h3, Nat.mul_comm])
    refine ⟨g', ?_, e2, e3.trans h6⟩
    rw [importGrowth, MeshFile.field]
    simp [hp, e1]
  · have hb : (name == "growth") = false := by simpa using hname
    rw [importGrowth, MeshFile.field]
    simp [List.lookup, hb]

/-- Points go through a mesh file. -/
theorem C106_points {n d : Nat} (points : Tensor) (hp : points.shape = [n, d]) : (exportPoints points).bind loadMeshPoints = .ok points := by
  rw [exportPoints, writeMesh, hp]
  rfl

/-- No points: what was written cannot be read. -/
theorem C106_empty_disagreement {d : Nat} (hd : d ≠ 0) (points growth : Tensor) (hp : points.shape = [0, d]) (hg : growth.shape = [0, d, 1]) :
    ∃ f, exportGrowth points growth = .ok f ∧ importGrowth f "growth" = .error .runtime := by
  have hlen : growth.data.length = 0 * d := by rw [growth.size, hg]; simp
  obtain ⟨g, h4, h5, h6⟩ := reshapeOpen_ok (e := .value) (t := growth) (pre := []) (post := [d]) (k := 0) (by simpa using hd) (by simpa using hlen)
  refine ⟨⟨points, polygonCells 0, [("growth", g)]⟩, ?_, ?_⟩
  · rw [exportGrowth, hp, hg]
    simp [h4, writeMesh, hp, h5]
  · rw [importGrowth, MeshFile.field]
    simp [hp, Tensor.reshapeOpen]

/-- Frames are written, but no file with frames can be read. -/
theorem C106_basis_disagreement {n d : Nat} (points basis : Tensor) (hp : points.shape = [n, d]) (hb : basis.shape = [n, 3, 3]) :
    (∃ f, exportBasis points basis = .ok f ∧ importBasis f "basis" = .error .type) ∧ ∀ (f : MeshFile) (name : String) r, importBasis f name ≠ .ok r := by
  refine ⟨?_, fun f name r h => ?_⟩
  · simp only [exportBasis, Tensor.column, hb]
    simp [writeMesh, hp, importBasis, MeshFile.field, List.lookup]
  · rw [importBasis] at h
    split at h
    · cases h
    · split at h
      · cases h
      · split at h
        · cases h
        · split at h <;> cases h

/-- What is written for frames: the points, and under the three names the columns of each frame, that is
the entries with last index 0, 1 and 2. -/
theorem C106_basis_written {n d : Nat} (points basis : Tensor) (hp : points.shape = [n, d]) (hb : basis.shape = [n, 3, 3]) :
    ∃ f, exportBasis points basis = .ok f ∧ f.points = points ∧
      ∀ (k : Nat) (name : String), (k, name) ∈ [(0, "basis_x"), (1, "basis_y"), (2, "basis_z")] →
        ∃ t, f.field name = .ok t ∧ t.shape = [n, 3] ∧ ∀ i j : Nat, i < n → j < 3 → ∃ x, t.data[i * 3 + j]? = some x ∧ basis.data[(i * 3 + j) * 3 + k]? = some x := by
  have hcol : ∀ k, k < 3 → ∃ t, basis.column k = .ok t ∧ t.shape = [n, 3] ∧
      ∀ i j : Nat, i < n → j < 3 → ∃ x, t.data[i * 3 + j]? = some x ∧ basis.data[(i * 3 + j) * 3 + k]? = some x := by
    intro k hk
    simp only [Tensor.column, hb, hk, if_true]
    refine ⟨_, rfl, rfl, fun i j hi hj => ?_⟩
    have hlen : basis.data.length = n * (3 * (3 * 1)) := by rw [basis.size, hb]; rfl
    have h1 : i * 3 + j < n * 3 := by omega
    have h2 : (i * 3 + j) * 3 + k < basis.data.length := by omega
    refine ⟨basis.data[(i * 3 + j) * 3 + k], ?_, List.getElem?_eq_getElem h2⟩
    rw [List.getElem?_eq_getElem (by simpa using h1)]
    simp [List.getElem?_eq_getElem h2]
  obtain ⟨x, hx, x1, x2⟩ := hcol 0 (by norm_num)
  obtain ⟨y, hy, y1, y2⟩ := hcol 1 (by norm_num)
  obtain ⟨z, hz, z1, z2⟩ := hcol 2 (by norm_num)
  refine ⟨⟨points, polygonCells n, [("basis_x", x), ("basis_y", y), ("basis_z", z)]⟩, ?_, rfl, ?_⟩
  · simp [exportBasis, hx, hy, hz, writeMesh, hp, x1, y1, z1]
  · intro k name hk
    simp only [List.mem_cons, Prod.mk.injEq, List.not_mem_nil, or_false] at hk
    rcases hk with ⟨rfl, rfl⟩ | ⟨rfl, rfl⟩ | ⟨rfl, rfl⟩
    · exact ⟨x, rfl, x1, x2⟩
    · exact ⟨y, rfl, y1, y2⟩
    · exact ⟨z, rfl, z1, z2⟩

/-- The cells that are written: the triangles for a surface, and for points, growth factors and frames one
polygon that runs through all points in their order and is named after their number. -/
theorem C106_cells {n d : Nat} (points : Tensor) (triangles : List (List Nat)) (hp : points.shape = [n, d]) :
    (∃ f, exportMesh points triangles = .ok f ∧ f.points = points ∧ f.cells = [("triangle", triangles)]) ∧
    (∃ f, exportPoints points = .ok f ∧ f.cells = [("polygon" ++ toString n, [List.range n])]) ∧
    (∀ growth f, exportGrowth points growth = .ok f → f.points = points ∧ f.cells = [("polygon" ++ toString n, [List.range n])]) ∧
    ∀ basis f, exportBasis points basis = .ok f → f.points = points ∧ f.cells = [("polygon" ++ toString n, [List.range n])] := by
  have hw : ∀ data f, writeMesh points (polygonCells (points.shape.headD 0)) data = .ok f →
      f.points = points ∧ f.cells = [("polygon" ++ toString n, [List.range n])] := by
    intro data f h
    rw [writeMesh, hp] at h
    dsimp only at h
    split at h
    · cases h; exact ⟨rfl, rfl⟩
    · cases h
  refine ⟨⟨_, by rw [exportMesh, writeMesh, hp]; rfl, rfl, rfl⟩, ⟨_, by rw [exportPoints, writeMesh, hp]; rfl, rfl⟩, ?_, ?_⟩
  · intro growth f h
    rw [exportGrowth] at h
    split at h
    · cases h
    · split at h
      · cases h
      · split at h
        · cases h
        · split at h
          · cases h
          · exact hw _ f h
  · intro basis f h
    rw [exportBasis] at h
    split at h
    · cases h
    · split at h
      · cases h
      · split at h
        · cases h
        · exact hw _ f h

/-- A surface is written, but cannot be read back as a `DeformableMesh`. -/
theorem C106_mesh_disagreement {n d : Nat} (points : Tensor) (triangles : List (List Nat)) (hp : points.shape = [n, d]) :
    (∃ f, saveDeformableMesh points triangles = .ok f ∧ f.points = points ∧ f.cells = [("triangle", triangles)]) ∧ ∀ f, loadDeformableMesh f = .error .attribute := by
  refine ⟨⟨_, by rw [saveDeformableMesh, writeMesh, hp]; rfl, rfl, rfl⟩, fun _ => rfl⟩

/-- Two points of the plane with growth factors that all differ; and factors in another shape, which come
back in the right one. -/
example : ∃ (points growth growth' : Tensor), points.shape = [2, 2] ∧ growth.shape = [2, 2, 1] ∧ growth.data = [1, 2, 3, 4] ∧ growth'.shape = [1, 4, 1] ∧
    (∃ f, exportGrowth points growth = .ok f ∧ importGrowth f "growth" = .ok (points, growth)) ∧
    ∃ f, exportGrowth points growth' = .ok f ∧ importGrowth f "growth" = .ok (points, growth) := by
  refine ⟨⟨[2, 2], [0, 0, 1, 0], rfl⟩, ⟨[2, 2, 1], [1, 2, 3, 4], rfl⟩, ⟨[1, 4, 1], [1, 2, 3, 4], rfl⟩, rfl, rfl, rfl, rfl, ?_, ?_⟩
  · exact C106_partial (n := 2) (d := 2) (by norm_num) (by norm_num) _ _ rfl rfl
  · obtain ⟨f, hf⟩ := (C106_accepts (n := 2) (d := 2) ⟨[2, 2], [0, 0, 1, 0], rfl⟩ ⟨[1, 4, 1], [1, 2, 3, 4], rfl⟩ rfl).2 ⟨rfl, by norm_num, rfl⟩
    obtain ⟨g, h1, h2, h3⟩ := (C106_reads (n := 2) (d := 2) _ _ rfl hf).1 (by norm_num)
    exact ⟨f, hf, by rw [h1, Tensor.same (t := ⟨[2, 2, 1], [1, 2, 3, 4], rfl⟩) h2 h3]⟩

end
end Imodal
