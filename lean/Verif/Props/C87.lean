import Verif.Model.Grid
import Verif.Props.C33
import Verif.Props.C49
import Verif.Props.C50
import Verif.Props.C29
/-!
# C87: a deformation grid is a lattice that follows the deformation
-/
set_option autoImplicit false
namespace Imodal
noncomputable section
variable {d : Nat}

/-- Coordinate `i` of the lattice node with multi-index `idx`: the box is cut into equal parts. -/
def AABB.node (b : AABB ℝ) (res idx : List Nat) (i : Nat) : ℝ :=
  b.kmin.getD i 0 + (idx.getD i 0 : ℝ) * ((b.kmax.getD i 0 - b.kmin.getD i 0) / ((res.getD i 0 : ℝ) - 1))

theorem rowMajor_lt : ∀ (shape idx : List Nat), InShape shape idx → rowMajor shape idx < shape.prod
  | [], [], _ => by simp [rowMajor]
  | [], _ :: _, h => by simp [InShape] at h
  | _ :: _, [], h => by simp [InShape] at h
  | n :: ns, i :: is, h => by
    simp only [InShape] at h
    simp only [rowMajor, List.prod_cons]
    have h2 := rowMajor_lt ns is h.2
    calc i * ns.prod + rowMajor ns is < i * ns.prod + ns.prod := by omega
      _ = (i + 1) * ns.prod := by rw [Nat.succ_mul]
      _ ≤ n * ns.prod := Nat.mul_le_mul_right _ h.1

theorem flatMap_get {α β : Type} {f : α → List β} {n : Nat} (hf : ∀ x, (f x).length = n) {j : Nat} (hj : j < n) : ∀ (l : List α) (i : Nat),
    (l.flatMap f)[i * n + j]? = l[i]?.bind fun x => (f x)[j]?
  | [], i => by simp
  | x :: l, 0 => by
    rw [List.flatMap_cons, Nat.zero_mul, Nat.zero_add, List.getElem?_append_left (by rw [hf]; exact hj)]; rfl
  | x :: l, i + 1 => by
    rw [List.flatMap_cons, List.getElem?_append_right (by rw [hf, Nat.succ_mul]; omega), hf, List.getElem?_cons_succ,
      ← flatMap_get hf hj l i]
    congr 1
    rw [Nat.succ_mul]; omega

theorem linspace_get (a b : ℝ) {n i : Nat} (hi : i < n) : (linspace a b n)[i]? = some (a + (i : ℝ) * ((b - a) / ((n : ℝ) - 1))) := by
  match n with
  | 0 => omega
  | 1 =>
    obtain rfl : i = 0 := by omega
    simp [linspace]
  | n + 2 =>
    rw [linspace, List.getElem?_map, List.getElem?_range hi]
    simp only [Option.map_some, Option.some.injEq]
    push_cast
    congr 3
    ring

/-- The rows of the grid, found through multi-indices. -/
theorem cart_get : ∀ (as bs : List ℝ) (ns idx : List Nat), as.length = ns.length → bs.length = ns.length → InShape ns idx →
    ∃ row, (cart (linspaces as bs ns))[rowMajor ns idx]? = some row ∧ row.length = ns.length ∧
      ∀ i < ns.length, row.getD i 0 = as.getD i 0 + (idx.getD i 0 : ℝ) * ((bs.getD i 0 - as.getD i 0) / ((ns.getD i 0 : ℝ) - 1))
  | [], [], [], [], _, _, _ => ⟨[], by simp [linspaces, cart, rowMajor], rfl, by simp⟩
  | _, _, [], _ :: _, _, _, h => by simp [InShape] at h
  | _, _, _ :: _, [], _, _, h => by simp [InShape] at h
  | a :: as, _, [], [], h, _, _ => by simp at h
  | [], b :: bs, [], [], _, h, _ => by simp at h
  | [], _, _ :: _, _ :: _, h, _, _ => by simp at h
  | _ :: _, [], _ :: _, _ :: _, _, h, _ => by simp at h
  | a :: as, b :: bs, n :: ns, k :: ks, h1, h2, h => by
    simp only [InShape] at h
    obtain ⟨row, r1, r2, r3⟩ := cart_get as bs ns ks (by simpa using h1) (by simpa using h2) h.2
    have hl : (cart (linspaces as bs ns)).length = ns.prod := by
      rw [cart_length, linspaces_spec _ _ _ (by simpa using h1) (by simpa using h2)]
    refine ⟨(a + (k : ℝ) * ((b - a) / ((n : ℝ) - 1))) :: row, ?_, by simp [r2], ?_⟩
    · rw [linspaces, cart, rowMajor, flatMap_get (n := ns.prod) (fun x => by rw [List.length_map, hl]) (rowMajor_lt _ _ h.2), linspace_get _ _ h.1]
      simp [r1]
    · intro i hi
      match i with
      | 0 => simp
      | i + 1 => simpa using r3 i (by simpa using hi)

/-- Building a grid on a proper box: one point per multi-index, in row-major order, at the nodes of the lattice; no
momentum. -/
theorem C87_lattice {b : AABB ℝ} (hb : b.WF) (h0 : 0 < b.dim) {res : List Nat} (hr : res.length = b.dim) :
    ∃ G : DefGrid b.dim, DefGrid.new b res = .ok G ∧ G.box = b ∧ G.res = res ∧ G.n = res.prod ∧ G.cot = 0 ∧
      ∀ idx, InShape res idx → ∃ h : rowMajor res idx < G.n, ∀ c : Fin b.dim, G.gd ⟨rowMajor res idx, h⟩ c = b.node res idx c := by
  have hmin : b.kmin.length = res.length := by rw [hb.lmin, hr]
  have hmax : b.kmax.length = res.length := by rw [hb.lmax, hr]
  have hl := linspaces_spec _ _ _ hmin hmax
  have hne : linspaces b.kmin b.kmax res ≠ [] := by
    intro h; rw [h] at hl; simp at hl; subst hl; simp at hr; omega
  have hg : generateMeshGrid b res = .ok (meshgrid (linspaces b.kmin b.kmax res)) := by
    unfold generateMeshGrid
    cases e : linspaces b.kmin b.kmax res with
    | nil => exact absurd e hne
    | cons l ls => rfl
  have hlen : ∀ r ∈ cart (linspaces b.kmin b.kmax res), r.length = b.dim := fun r h => by
    have := ((mem_cart _ _).1 h).length_eq
    have e := congrArg List.length hl
    rw [List.length_map] at e
    omega
  have hn : (cart (linspaces b.kmin b.kmax res)).length = res.prod := by rw [cart_length, hl]
  have hall : ((cart (linspaces b.kmin b.kmax res)).all fun r => r.length == b.dim) = true := by
    rw [List.all_eq_true]; intro r h; rw [beq_iff_eq]; exact hlen r h
  refine ⟨⟨b, res, _, fun i => rowVec (cart (linspaces b.kmin b.kmax res))[i], 0⟩, ?_, rfl, rfl, hn, rfl, fun idx hi => ?_⟩
  · unfold DefGrid.new
    rw [hg]
    dsimp only
    rw [grid2vec_meshgrid _ hne]
    dsimp only
    rw [if_pos ⟨rfl, hall⟩]
  · have hlt := rowMajor_lt _ _ hi
    refine ⟨by dsimp only; rw [hn]; exact hlt, fun c => ?_⟩
    obtain ⟨row, r1, -, r3⟩ := cart_get b.kmin b.kmax res idx hmin hmax hi
    obtain ⟨_, r1⟩ := List.getElem?_eq_some_iff.1 r1
    dsimp only
    show rowVec (cart (linspaces b.kmin b.kmax res))[rowMajor res idx] c = _
    rw [r1]
    exact r3 c (by rw [hr]; exact c.2)

theorem vecCol_rows {n : Nat} (x : Fin n → Vec d) (c : Fin d) : vecCol (pointRows x) c = some (List.ofFn fun i => x i c) := by
  unfold vecCol pointRows
  have : ∀ l : List (Fin n), (l.map fun i => List.ofFn (x i)).mapM (·[(c : Nat)]?) = some (l.map fun i => x i c) := by
    intro l
    induction l with
    | nil => rfl
    | cons i l ih =>
      rw [List.map_cons, List.mapM_cons, ih, List.getElem?_ofFn]
      simp
  rw [List.ofFn_eq_map, this, List.ofFn_eq_map]

theorem mapM_grid_ok {α β : Type} {f : α → Py β} {g : α → β} : ∀ (l : List α), (∀ a ∈ l, f a = .ok (g a)) → l.mapM f = .ok (l.map g)
  | [], _ => rfl
  | a :: l, h => by
    rw [List.mapM_cons, h a (List.mem_cons_self ..), mapM_grid_ok l fun b hb => h b (List.mem_cons_of_mem _ hb)]; rfl

/-- Where the points are now, read as grids: coordinate grid `c` at a multi-index is coordinate `c` of the point in
that place. Also after the points have been moved. -/
theorem C87_togrid {n : Nat} (x : Fin n → Vec d) {res : List Nat} (hr : res.length = d) (hn : n = res.prod) :
    ∃ gs, vec2grid d (pointRows x) res = .ok gs ∧ gs.length = d ∧
      ∀ (c : Fin d) (idx : List Nat), InShape res idx → ∃ h : rowMajor res idx < n,
        (gs[(c : Nat)]?.bind fun g => g[rowMajor res idx]?) = some (x ⟨rowMajor res idx, h⟩ c) := by
  refine ⟨List.ofFn fun c : Fin d => List.ofFn fun i => x i c, ?_, List.length_ofFn .., fun c idx hi => ?_⟩
  · unfold vec2grid
    rw [hr, mapM_grid_ok (g := fun i => if h : i < d then List.ofFn fun k => x k ⟨i, h⟩ else []) _ fun i hi => ?_]
    · congr 1
      refine List.ext_getElem (by simp) fun i h1 h2 => ?_
      simp at h2
      simp [h2]
    · rw [List.mem_range] at hi
      unfold viewCol
      rw [if_pos hi, vecCol_rows x ⟨i, hi⟩, dif_pos hi]
      dsimp only
      rw [if_pos (by simp [hn])]
  · have hlt : rowMajor res idx < n := by rw [hn]; exact rowMajor_lt _ _ hi
    refine ⟨hlt, ?_⟩
    rw [List.getElem?_ofFn]
    simp [hlt]

/-- The geometry of a new grid is the lattice. -/
theorem C87_geometry {b : AABB ℝ} (hb : b.WF) (h0 : 0 < b.dim) {res : List Nat} (hr : res.length = b.dim) :
    ∃ (G : DefGrid b.dim) (gs : List (List ℝ)), DefGrid.new b res = .ok G ∧ G.togrid = .ok gs ∧ gs.length = b.dim ∧
      ∀ (c : Fin b.dim) (idx : List Nat), InShape res idx →
        (gs[(c : Nat)]?.bind fun g => g[rowMajor res idx]?) = some (b.node res idx c) := by
  obtain ⟨G, h1, -, h2, h3, -, h4⟩ := C87_lattice hb h0 hr
  obtain ⟨gs, g1, g2, g3⟩ := C87_togrid G.gd (res := res) hr h3
  refine ⟨G, gs, h1, by unfold DefGrid.togrid; rw [h2]; exact g1, g2, fun c idx hi => ?_⟩
  obtain ⟨h, e⟩ := g3 c idx hi
  obtain ⟨_, e'⟩ := h4 idx hi
  rw [e, e']

/-- A grid among the deformables is carried by the same fields as everything else: its nodes start on the lattice and
end where the flow takes them, and the deformed geometry lists them in row-major order. Missing: that it is returned as
coordinate grids, which is false (`C87_form_disagreement`). -/
theorem C87_deformed_partial {Ds : List (Deformable d (List (List ℝ)))} {ms : List (DefModule d)} {s : SolverName} {it : Nat} {wantCosts : Bool}
    {controls : Option (List (List (Ctrl d)))} {t1 : ℝ} {red : Reduce} {r : Deformed d (List (List ℝ))}
    (h : computeDeformed Ds ms s it wantCosts controls t1 red = .ok r) {i : Nat} {G : DefGrid d} (hG : Ds[i]? = some G.deformable)
    (hr : G.res.length = d) (hn : G.n = G.res.prod) :
    ∃ F : Nat → Nat → FieldExpr d, (∀ k < it, ∀ j, GeneratedBy (.compound (Ds.map Deformable.silent ++ ms)) (F k j)) ∧
      ∃ X : Nat → Fin G.n → Vec d, X 0 = G.gd ∧ (∀ k < it, Moves s.method (s.endTime t1 / it) (F k) (X k) (X (k + 1))) ∧
        ∃ g gs, r.geometries[i]? = some g ∧ vec2grid d g G.res = .ok gs ∧ ∀ (c : Fin d) (idx : List Nat), InShape G.res idx →
          ∃ h : rowMajor G.res idx < G.n, (gs[(c : Nat)]?.bind fun g => g[rowMajor G.res idx]?) = some (X it ⟨rowMajor G.res idx, h⟩ c) := by
  obtain ⟨-, F, hF, hX⟩ := C33_partial h
  obtain ⟨X, x0, x1, g, g1, g2⟩ := hX i _ hG
  obtain ⟨gs, k1, -, k2⟩ := C87_togrid (X it) hr hn
  refine ⟨F, hF, X, x0, x1, g, gs, g1, ?_, k2⟩
  cases g2
  exact k1

/-- Deforming with zero momenta gives geometries made from the points the deformables started with. -/
theorem deformed_rest {G : Type} {Ds : List (Deformable d G)} {ms : List (DefModule d)} {s : SolverName} {it : Nat} {wantCosts : Bool} {t1 : ℝ}
    {red : Reduce} {r : Deformed d G} (h : computeDeformed Ds ms s it wantCosts none t1 red = .ok r)
    (hw : (DefModule.compound (Ds.map Deformable.silent ++ ms)).NonnegWeights)
    (h0 : ZeroMomenta (.compound (Ds.map Deformable.silent ++ ms))) {i : Nat} {D : Deformable d G} (hD : Ds[i]? = some D) :
    ∃ g, r.geometries[i]? = some g ∧ D.toDeformed ⟨D.n, D.gd⟩ = .ok g := by
  obtain ⟨-, hg, costs, hs, -⟩ := computeDeformed_inv h
  have hman : r.shot.module.manifold = (DefModule.compound (Ds.map Deformable.silent ++ ms)).manifold := by
    unfold padControls shoot at hs
    cases s with
    | torchEuler =>
      dsimp only [Option.map] at hs
      cases e : shootEuler it none (.compound (Ds.map Deformable.silent ++ ms)) with
      | error _ => rw [e] at hs; cases hs
      | ok r' => rw [e] at hs; cases hs; exact (C29_euler _ hw h0 e).1
    | fixed s =>
      dsimp only [Option.map, shootOde] at hs
      cases e : shootMoments s it t1 (.compound (Ds.map Deformable.silent ++ ms)) with
      | error _ => rw [e] at hs; cases hs
      | ok r' => rw [e] at hs; cases hs; exact (C29_solver _ hw h0 e).1
    | adaptive => cases hs
    | unknown => cases hs
  obtain ⟨L, hL, hlen⟩ := same_compound (shoot_same hs)
  dsimp only at hL
  rw [hL, DefModule.members] at hg
  obtain ⟨hl, hget⟩ := toGeometries_ok hg
  have hi : i < Ds.length := (List.getElem?_eq_some_iff.1 hD).1
  have hlen' : L.length = Ds.length + ms.length := by rw [hlen]; simp
  obtain ⟨m, hm⟩ : ∃ m, L[i]? = some m := ⟨_, List.getElem?_eq_getElem (by omega)⟩
  obtain ⟨p, g, p1, p2, p3⟩ := hget i D m hD hm
  refine ⟨g, p3, ?_⟩
  rw [hL, DefModule.manifold, DefModule.manifold] at hman
  have hmi := congrArg (fun l : Mfd d => match l with | .compound l => l[i]? | _ => none) hman
  simp only [manifolds_getElem?, hm] at hmi
  rw [List.getElem?_append_left (by simpa using hi), List.getElem?_map, hD] at hmi
  simp only [Option.map_some, Option.some.injEq, Deformable.silent, DefModule.manifold] at hmi
  unfold pointsOf at p1
  split at p1
  · cases p1
    rw [DefModule.manifold] at hmi
    cases hmi
    exact p2
  · cases p1

/-- With zero momenta the deformed grid is the grid, up to its form. -/
theorem C87_rest_partial {Ds : List (Deformable d (List (List ℝ)))} {ms : List (DefModule d)} {s : SolverName} {it : Nat} {wantCosts : Bool} {t1 : ℝ}
    {red : Reduce} {r : Deformed d (List (List ℝ))} (h : computeDeformed Ds ms s it wantCosts none t1 red = .ok r)
    (hw : (DefModule.compound (Ds.map Deformable.silent ++ ms)).NonnegWeights)
    (h0 : ZeroMomenta (.compound (Ds.map Deformable.silent ++ ms))) {i : Nat} {G : DefGrid d} (hG : Ds[i]? = some G.deformable) :
    ∃ g, r.geometries[i]? = some g ∧ vec2grid d g G.res = G.togrid := by
  obtain ⟨g, g1, g2⟩ := deformed_rest h hw h0 hG
  refine ⟨g, g1, ?_⟩
  cases g2
  rfl

/-- But it is not returned in the same form: `geometry` is a tuple of coordinate grids, the deformed geometry one
tensor of points. Unless the grid has as many nodes as dimensions, the two do not even have the same length. -/
theorem C87_form_disagreement {G : DefGrid d} {gs : List (List ℝ)} (hr : G.res.length = d) (hg : G.togrid = .ok gs)
    (hne : G.n ≠ d) : G.deformable.toDeformed ⟨G.n, G.gd⟩ ≠ G.togrid := by
  intro e
  rw [hg] at e
  have e : pointRows G.gd = gs := Except.ok.inj e
  have h1 : gs.length = G.n := by rw [← e]; simp [pointRows]
  have h2 : ∀ {l : List Nat} {r : List (List ℝ)}, l.mapM (viewCol d (pointRows G.gd) G.res) = .ok r → r.length = l.length := by
    intro l
    induction l with
    | nil => intro r h; cases h; rfl
    | cons a l ih =>
      intro r h
      rw [List.mapM_cons] at h
      cases h3 : viewCol d (pointRows G.gd) G.res a with
      | error e => rw [h3] at h; cases h
      | ok v =>
        rw [h3] at h
        cases h4 : l.mapM (viewCol d (pointRows G.gd) G.res) with
        | error e => simp only [h4, bind, Except.bind] at h; cases h
        | ok vs =>
          simp only [h4, bind, Except.bind, pure, Except.pure, Except.ok.injEq] at h
          subst h
          simp [ih h4]
  have := h2 hg
  rw [List.length_range, hr] at this
  omega

/-- A resolution with more entries than there are dimensions is accepted when the grid is built (`zip` stops early), and
reading the geometry then raises. -/
theorem C87_long_disagreement {b : AABB ℝ} (hb : b.WF) (h0 : 0 < b.dim) {res more : List Nat} (hr : res.length = b.dim) (hm : more ≠ []) :
    ∃ (G : DefGrid b.dim) (e : PyErr), DefGrid.new b (res ++ more) = .ok G ∧ G.togrid = .error e := by
  obtain ⟨G, h1, h2, h3, h4, -, -⟩ := C87_lattice hb h0 hr
  have hz : ∀ (as bs : List ℝ) (ns ms : List Nat), as.length = ns.length → bs.length = ns.length → linspaces as bs (ns ++ ms) = linspaces as bs ns := by
    intro as
    induction as with
    | nil => intro bs ns ms _ _; simp [linspaces]
    | cons a as ih =>
      intro bs ns ms e1 e2
      cases ns with
      | nil => simp at e1
      | cons n ns =>
        cases bs with
        | nil => simp at e2
        | cons b bs => rw [List.cons_append, linspaces, linspaces, ih bs ns ms (by simpa using e1) (by simpa using e2)]
  have hg : generateMeshGrid b (res ++ more) = generateMeshGrid b res := by
    unfold generateMeshGrid
    rw [hz _ _ _ _ (by rw [hb.lmin, hr]) (by rw [hb.lmax, hr])]
  have hnew : (DefGrid.new b (res ++ more) : Py (DefGrid b.dim)) = .ok { G with res := res ++ more } := by
    unfold DefGrid.new at h1 ⊢
    rw [hg]
    cases e1 : generateMeshGrid b res with
    | error e => rw [e1] at h1; cases h1
    | ok grid =>
      rw [e1] at h1
      dsimp only at h1 ⊢
      cases e2 : grid2vec grid with
      | error e => rw [e2] at h1; cases h1
      | ok rows =>
        rw [e2] at h1
        dsimp only at h1 ⊢
        split at h1
        · rename_i hc
          rw [if_pos hc]
          cases h1
          rfl
        · cases h1
  cases e : ({ G with res := res ++ more } : DefGrid b.dim).togrid with
  | error err => exact ⟨_, err, hnew, e⟩
  | ok gs =>
    exfalso
    unfold DefGrid.togrid vec2grid at e
    dsimp only at e
    have key : ∀ {l : List Nat} {r : List (List ℝ)}, l.mapM (viewCol b.dim (pointRows G.gd) (res ++ more)) = .ok r → ∀ k ∈ l, k < b.dim := by
      intro l
      induction l with
      | nil => intro r _ k hk; cases hk
      | cons a l ih =>
        intro r h k hk
        rw [List.mapM_cons] at h
        cases h3 : viewCol b.dim (pointRows G.gd) (res ++ more) a with
        | error e => rw [h3] at h; cases h
        | ok v =>
          rw [h3] at h
          cases h4 : l.mapM (viewCol b.dim (pointRows G.gd) (res ++ more)) with
          | error e => simp only [h4, bind, Except.bind] at h; cases h
          | ok vs =>
            rcases List.mem_cons.1 hk with rfl | hk
            · unfold viewCol at h3
              split at h3
              · assumption
              · cases h3
            · exact ih h4 k hk
    have hlen : 0 < more.length := List.length_pos_iff.2 hm
    have := key e b.dim (List.mem_range.2 (by rw [List.length_append, hr]; omega))
    omega

/-! ## Examples -/

/-- A grid of three times two nodes on a box in the plane. -/
example : ∃ G : DefGrid 2, DefGrid.new ⟨2, [0, 1], [4, 3]⟩ [3, 2] = .ok G ∧ G.n = 6 ∧
    ∃ h : 3 < G.n, G.gd ⟨3, h⟩ = ![2, 3] := by
  have hb : (⟨2, [0, 1], [4, 3]⟩ : AABB ℝ).WF := by
    refine ⟨rfl, rfl, fun i lo hi h1 h2 => ?_⟩
    match i with
    | 0 => simp at h1 h2; subst h1; subst h2; norm_num
    | 1 => simp at h1 h2; subst h1; subst h2; norm_num
    | i + 2 => simp at h1
  obtain ⟨G, h1, -, -, h3, -, h4⟩ := C87_lattice hb (by norm_num) (res := [3, 2]) rfl
  obtain ⟨h, e⟩ := h4 [1, 1] (by simp [InShape])
  refine ⟨G, h1, by rw [h3]; rfl, h, ?_⟩
  funext c
  refine (e c).trans ?_
  fin_cases c <;> norm_num [AABB.node]

end
end Imodal
