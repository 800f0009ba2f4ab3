import Verif.Model.Spacing
import Verif.Props.C119
/-!
# C129: the grids of a box

`fill_uniform_spacing_grid` returns one tensor per axis. At every position, given by one index per
axis, the tensor of an axis holds the lower bound of the axis and the index of that axis times the
spacing. `grid2vec` of the tensors is `fill_uniform_spacing`. The docstring promises a tensor with
one row per point instead.
-/
set_option autoImplicit false
namespace Imodal
variable {𝕜 : Type}

namespace Spec

/-- The place of a position in row-major order: one index per axis, the last axis running fastest. -/
def place : List Nat → List Nat → Nat
  | _ :: shape, i :: idx => i * shape.prod + place shape idx
  | _, _ => 0

/-- One index per axis, each within the axis. -/
def Position (shape idx : List Nat) : Prop := List.Forall₂ (fun i n => i < n) idx shape

end Spec

theorem place_lt : ∀ (shape idx : List Nat), Spec.Position shape idx → Spec.place shape idx < shape.prod
  | [], _, h => by cases h; simp [Spec.place]
  | n :: shape, _, h => by
    cases h with
    | cons h1 h2 =>
      rename_i i idx
      have := place_lt shape idx h2
      simp only [Spec.place, List.prod_cons]
      calc i * shape.prod + Spec.place shape idx < i * shape.prod + shape.prod := by omega
        _ = (i + 1) * shape.prod := by ring
        _ ≤ n * shape.prod := Nat.mul_le_mul_right _ h1

theorem gridSize_prod {α : Type} : ∀ ls : List (List α), gridSize ls = (ls.map List.length).prod
  | [] => rfl
  | l :: ls => by simp [gridSize, gridSize_prod ls]

theorem slow_get {α : Type} (G : Nat) : ∀ (l : List α) (i r : Nat), r < G →
    (l.flatMap fun x => List.replicate G x)[i * G + r]? = l[i]?
  | [], i, r, _ => by simp
  | x :: l, 0, r, h => by
    rw [List.flatMap_cons, List.getElem?_append_left (by simpa using h)]
    simp [h]
  | x :: l, i + 1, r, h => by
    have e : (i + 1) * G + r = G + (i * G + r) := by ring
    rw [List.flatMap_cons, List.getElem?_append_right (by simp [e]), List.length_replicate, e, Nat.add_sub_cancel_left, slow_get G l i r h]
    simp

theorem fast_get {α : Type} (t : List α) : ∀ (n i r : Nat), i < n → r < t.length → (List.replicate n t).flatten[i * t.length + r]? = t[r]?
  | 0, i, _, h, _ => by omega
  | n + 1, 0, r, _, hr => by
    rw [List.replicate_succ, List.flatten_cons, List.getElem?_append_left (by simpa using hr)]
    simp
  | n + 1, i + 1, r, h, hr => by
    have e : (i + 1) * t.length + r = t.length + (i * t.length + r) := by ring
    rw [List.replicate_succ, List.flatten_cons, List.getElem?_append_right (by omega), e, Nat.add_sub_cancel_left]
    exact fast_get t n i r (by omega) hr

theorem mesh_length {α : Type} : ∀ (ls : List (List α)), (meshgrid ls).length = ls.length
  | [] => rfl
  | l :: ls => by simp [meshgrid, mesh_length ls]

theorem mesh_size {α : Type} : ∀ (ls : List (List α)), ∀ t ∈ meshgrid ls, t.length = (ls.map List.length).prod
  | [], t, h => by simp [meshgrid] at h
  | l :: ls, t, h => by
    simp only [meshgrid, List.mem_cons, List.mem_map] at h
    rcases h with rfl | ⟨u, hu, rfl⟩
    · simp [List.length_flatMap, gridSize_prod]
    · simp [mesh_size ls u hu]

/-- Entry of the mesh grid of an axis at a position. -/
theorem mesh_get {α : Type} : ∀ (ls : List (List α)) (idx : List Nat), Spec.Position (ls.map List.length) idx →
    ∀ (k i : Nat) (t l : List α), (meshgrid ls)[k]? = some t → ls[k]? = some l → idx[k]? = some i →
      t[Spec.place (ls.map List.length) idx]? = l[i]?
  | [], _, _, _, _, _, _, h, _, _ => by simp [meshgrid] at h
  | l0 :: ls, _, hp, k, i, t, l, ht, hl, hi => by
    cases hp with
    | cons h1 h2 =>
      rename_i i0 idx
      have hlt := place_lt _ _ h2
      simp only [List.map_cons, Spec.place]
      cases k with
      | zero =>
        simp only [meshgrid, List.getElem?_cons_zero, Option.some.injEq] at ht hl hi
        subst ht hl hi
        rw [gridSize_prod]
        exact slow_get _ _ _ _ hlt
      | succ k =>
        simp only [meshgrid, List.getElem?_cons_succ, List.getElem?_map, Option.map_eq_some_iff] at ht hl hi
        obtain ⟨u, hu, rfl⟩ := ht
        have hs := mesh_size ls u (List.mem_of_getElem? hu)
        rw [← mesh_get ls idx h2 k i u l hu hl hi, ← hs]
        exact fast_get u _ _ _ h1 (by rw [hs]; exact hlt)

variable [Field 𝕜] [LinearOrder 𝕜] [IsStrictOrderedRing 𝕜] [FloorRing 𝕜]

theorem aranges_get (step : 𝕜) : ∀ (as bs : List 𝕜) (ls : List (List 𝕜)), aranges step as bs = .ok ls →
    ∀ (k : Nat) (l : List 𝕜) (a b : 𝕜), ls[k]? = some l → as[k]? = some a → bs[k]? = some b → arange a b step = .ok l
  | [], _, ls, h, k, l, a, b, hl, ha, _ => by simp at ha
  | _ :: _, [], ls, h, k, l, a, b, hl, _, hb => by simp at hb
  | a0 :: as, b0 :: bs, ls, h, k, l, a, b, hl, ha, hb => by
    unfold aranges at h
    cases h1 : arange a0 b0 step with
    | error e => rw [h1] at h; simp at h
    | ok l0 =>
      rw [h1] at h
      cases h2 : aranges step as bs with
      | error e => rw [h2] at h; simp at h
      | ok ls' =>
        rw [h2] at h
        simp only [Except.ok.injEq] at h
        subst h
        cases k with
        | zero =>
          simp only [List.getElem?_cons_zero, Option.some.injEq] at hl ha hb
          subst hl ha hb
          exact h1
        | succ k => exact aranges_get step as bs ls' h2 k l a b (by simpa using hl) (by simpa using ha) (by simpa using hb)

theorem arange_entry (a b step : 𝕜) (l : List 𝕜) (h : arange a b step = .ok l) :
    l.length = ⌈(b - a) / step⌉.toNat ∧ ∀ i, i < l.length → l[i]? = some (a + (i : 𝕜) * step) := by
  unfold arange at h
  split_ifs at h
  simp only [Except.ok.injEq] at h
  subst h
  refine ⟨by simp, fun i hi => ?_⟩
  simp only [List.length_map, List.length_range] at hi
  simp [hi]

/-- **C129.** For a box with at least one axis and a positive spacing there is one tensor per axis. All
have the same shape: along an axis, the length of the box over the spacing, rounded up. At every
position the tensor of an axis holds the lower bound plus the index along that axis times the
spacing. `grid2vec` of the tensors is what `fill_uniform_spacing` returns. -/
theorem C129_grids_partial (b : AABB 𝕜) (hb : b.WF) (hd : 0 < b.dim) (spacing : 𝕜) (hs : 0 < spacing) :
    ∃ (gs : List (GridTensor 𝕜)) (shape : List Nat), b.fillUniformSpacingGrid spacing = .ok gs ∧ gs.length = b.dim ∧
      shape.length = b.dim ∧
      (∀ (k n : Nat) (lo hi : 𝕜), shape[k]? = some n → b.kmin[k]? = some lo → b.kmax[k]? = some hi → n = ⌈(hi - lo) / spacing⌉.toNat) ∧
      (∀ g ∈ gs, g.shape = shape ∧ g.data.length = shape.prod) ∧
      (∀ idx, Spec.Position shape idx → ∀ (k i : Nat) (g : GridTensor 𝕜) (lo : 𝕜), gs[k]? = some g → b.kmin[k]? = some lo → idx[k]? = some i →
        g.data[Spec.place shape idx]? = some (lo + (i : 𝕜) * spacing)) ∧
      grid2vec (gs.map (·.data)) = b.fillUniformSpacing spacing := by
  obtain ⟨ls, h1, h2, -⟩ := aranges_spec spacing hs b.kmin b.kmax (by rw [hb.lmin, hb.lmax]) hb.le
  have hdim : ls.length = b.dim := by rw [h2, hb.lmin]
  have hfun : b.fillUniformSpacingGrid spacing = .ok ((meshgrid ls).map fun t => ⟨ls.map List.length, t⟩) := by
    unfold AABB.fillUniformSpacingGrid
    rw [h1]
    cases ls with
    | nil => simp at hdim; omega
    | cons l ls => rfl
  have hax : ∀ (k : Nat) (l : List 𝕜), ls[k]? = some l → ∃ lo hi, b.kmin[k]? = some lo ∧ b.kmax[k]? = some hi ∧ arange lo hi spacing = .ok l := by
    intro k l hl
    have hk : k < b.dim := by rw [← hdim]; exact (List.getElem?_eq_some_iff.1 hl).1
    have e1 : b.kmin[k]? = some (b.kmin[k]'(by rw [hb.lmin]; exact hk)) := by simp
    have e2 : b.kmax[k]? = some (b.kmax[k]'(by rw [hb.lmax]; exact hk)) := by simp
    exact ⟨_, _, e1, e2, aranges_get spacing _ _ ls h1 k l _ _ hl e1 e2⟩
  refine ⟨_, ls.map List.length, hfun, by simp [mesh_length, hdim], by simp [hdim], ?_, ?_, ?_, ?_⟩
  · intro k n lo hi hn e1 e2
    simp only [List.getElem?_map, Option.map_eq_some_iff] at hn
    obtain ⟨l, hl, rfl⟩ := hn
    exact (arange_entry lo hi spacing l (aranges_get spacing _ _ ls h1 k l lo hi hl e1 e2)).1
  · intro g hg
    obtain ⟨t, ht, rfl⟩ := List.mem_map.1 hg
    exact ⟨rfl, mesh_size ls t ht⟩
  · intro idx hp k i g lo hg e1 hi
    simp only [List.getElem?_map, Option.map_eq_some_iff] at hg
    obtain ⟨t, ht, rfl⟩ := hg
    have hk : k < ls.length := by rw [← mesh_length ls]; exact (List.getElem?_eq_some_iff.1 ht).1
    have hl : ls[k]? = some ls[k] := by simp
    obtain ⟨lo', hi', e1', e2', ha⟩ := hax k _ hl
    have hlo : lo' = lo := by rw [e1] at e1'; exact (Option.some.inj e1').symm
    subst hlo
    have hin : i < ls[k].length := by
      have := List.forall₂_iff_get.1 hp
      obtain ⟨hki, rfl⟩ := List.getElem?_eq_some_iff.1 hi
      have h3 := this.2 k hki (by simpa using hk)
      simpa using h3
    change t[Spec.place (ls.map List.length) idx]? = _
    rw [mesh_get ls idx hp k i t _ ht hl hi]
    exact (arange_entry _ _ _ _ ha).2 i hin
  · simp only [AABB.fillUniformSpacing, h1, List.map_map, Function.comp_def, List.map_id']

/-- **C129, where the code disagrees.** The docstring promises one tensor of shape `[N, dim]`. Each of
the tensors has as many axes as the box, so none has the two of `[N, dim]` unless the box is a
plane one; and there is one tensor per axis, so there is more than one unless the box is an interval. -/
theorem C129_docstring_disagreement (b : AABB 𝕜) (hb : b.WF) (hd : 0 < b.dim) (spacing : 𝕜) (hs : 0 < spacing) (N : Nat) :
    ¬ ∃ g : GridTensor 𝕜, b.fillUniformSpacingGrid spacing = .ok [g] ∧ g.shape = [N, b.dim] := by
  rintro ⟨g, h, hg⟩
  obtain ⟨gs, shape, h1, h2, h3, -, h5, -⟩ := C129_grids_partial b hb hd spacing hs
  rw [h] at h1
  simp only [Except.ok.injEq] at h1
  subst h1
  have := (h5 g (by simp)).1
  rw [hg] at this
  rw [← this] at h3
  simp at h2 h3
  omega

/-- Without a spacing there are no grids. -/
theorem C129_zero (b : AABB 𝕜) (hb : b.WF) (hd : 0 < b.dim) : b.fillUniformSpacingGrid 0 = .error .runtime := by
  unfold AABB.fillUniformSpacingGrid
  cases hk : b.kmin with
  | nil => have := hb.lmin; rw [hk] at this; simp at this; omega
  | cons a as =>
    cases hk' : b.kmax with
    | nil => have := hb.lmax; rw [hk'] at this; simp at this; omega
    | cons c cs => simp [aranges, arange]

/-- A box of two by three with spacing one: the second tensor holds `0 1 2` in both rows. -/
example : meshgrid [[0, 1], [0, 1, 2]] = [[0, 0, 0, 1, 1, 1], [0, 1, 2, 0, 1, 2]] := by decide

/-- The box `[0, 2] × [1, 4]` with spacing one half has two tensors. -/
example : ∃ gs, box119.fillUniformSpacingGrid (1 / 2) = .ok gs ∧ gs.length = 2 := by
  obtain ⟨gs, _, h, h1, -⟩ := C129_grids_partial box119 box119_wf (by simp [box119]) (1 / 2) (by norm_num)
  exact ⟨gs, h, h1⟩

example : Spec.Position [2, 3] [1, 2] ∧ Spec.place [2, 3] [1, 2] = 5 := by
  refine ⟨?_, by simp [Spec.place]⟩
  exact .cons (by omega) (.cons (by omega) .nil)

end Imodal
