import Verif.Lemmas.Reorder
import Verif.Lemmas.RelabelRows
import Mathlib.Data.List.GetD
/-!
# Shooting with the modules in another order
-/
set_option autoImplicit false
namespace Imodal
noncomputable section
variable {d : Nat} {α β : Type}

/-! ## Coordinates -/

/-- Where the coordinate `j` of blocks of sizes `S` listed in the order `is` was before. -/
def shuffle (S : List Nat) : List Nat → Nat → Nat
  | [], j => j
  | i :: is, j => if j < S.getD i 0 then (S.take i).sum + j else shuffle S is (j - S.getD i 0)

/-- The sizes of the blocks. -/
def sizes (S : List Nat) (is : List Nat) : List Nat := is.map (S.getD · 0)

theorem shuffle_mem (S : List Nat) : (is : List Nat) → {j : Nat} → j < (sizes S is).sum → ∃ i ∈ is, ∃ c < S.getD i 0, shuffle S is j = (S.take i).sum + c
  | [], j, h => by simp [sizes] at h
  | i :: is, j, h => by
    by_cases h0 : j < S.getD i 0
    · exact ⟨i, List.mem_cons_self, j, h0, by rw [shuffle, if_pos h0]⟩
    · have : j - S.getD i 0 < (sizes S is).sum := by
        have : (sizes S (i :: is)).sum = S.getD i 0 + (sizes S is).sum := by simp [sizes]
        omega
      obtain ⟨i', hi, c, hc, e⟩ := shuffle_mem S is this
      exact ⟨i', List.mem_cons_of_mem _ hi, c, hc, by rw [shuffle, if_neg h0, e]⟩

theorem take_sum_succ (S : List Nat) : (i : Nat) → (S.take (i + 1)).sum = (S.take i).sum + S.getD i 0 := by
  induction S with
  | nil => simp
  | cons a S ih =>
    intro i
    cases i with
    | zero => simp
    | succ i => rw [List.take_succ_cons, List.take_succ_cons, List.sum_cons, List.sum_cons, ih i]; simp [Nat.add_assoc]
theorem take_sum_mono (S : List Nat) {i j : Nat} (h : i ≤ j) : (S.take i).sum ≤ (S.take j).sum := by
  induction h with
  | refl => exact Nat.le_refl _
  | step _ ih => rw [take_sum_succ]; omega
theorem take_sum_le (S : List Nat) (i : Nat) : (S.take i).sum ≤ S.sum := by
  conv_rhs => rw [← List.take_append_drop i S, List.sum_append]
  omega

theorem shuffle_lt (S is : List Nat) {j : Nat} (h : j < (sizes S is).sum) : shuffle S is j < S.sum := by
  obtain ⟨i, _, c, hc, e⟩ := shuffle_mem S is h
  have := take_sum_le S (i + 1)
  rw [take_sum_succ] at this
  omega

theorem block_unique (S : List Nat) {i i' c c' : Nat} (hc : c < S.getD i 0) (hc' : c' < S.getD i' 0) (h : (S.take i).sum + c = (S.take i').sum + c') : i = i' := by
  rcases Nat.lt_trichotomy i i' with h1 | h1 | h1
  · have := take_sum_mono S (show i + 1 ≤ i' from h1)
    rw [take_sum_succ] at this
    omega
  · exact h1
  · have := take_sum_mono S (show i' + 1 ≤ i from h1)
    rw [take_sum_succ] at this
    omega

theorem shuffle_inj (S : List Nat) : (is : List Nat) → is.Nodup → {j j' : Nat} → j < (sizes S is).sum → j' < (sizes S is).sum → shuffle S is j = shuffle S is j' → j = j'
  | [], _, j, _, h, _, _ => by simp [sizes] at h
  | i :: is, hn, j, j', h, h', e => by
    rw [List.nodup_cons] at hn
    have hs : (sizes S (i :: is)).sum = S.getD i 0 + (sizes S is).sum := by simp [sizes]
    rw [shuffle, shuffle] at e
    by_cases h0 : j < S.getD i 0 <;> by_cases h1 : j' < S.getD i 0
    · rw [if_pos h0, if_pos h1] at e; omega
    · rw [if_pos h0, if_neg h1] at e
      obtain ⟨i', hi, c, hc, e'⟩ := shuffle_mem S is (j := j' - S.getD i 0) (by omega)
      rw [e'] at e
      exact absurd (block_unique S h0 hc e ▸ hi) hn.1
    · rw [if_neg h0, if_pos h1] at e
      obtain ⟨i', hi, c, hc, e'⟩ := shuffle_mem S is (j := j - S.getD i 0) (by omega)
      rw [e'] at e
      exact absurd (block_unique S h1 hc e.symm ▸ hi) hn.1
    · rw [if_neg h0, if_neg h1] at e
      have := shuffle_inj S is hn.2 (by omega) (by omega) e
      omega

theorem sizes_eq {S is : List Nat} (hl : S.length = is.length) (hi : IsOrder is) : sizes S is = reorder is S := by
  rw [reorder_eq hl]
  have key : ∀ js : List Nat, (∀ i ∈ js, i < is.length) → sizes S js = js.filterMap (S[·]?) := by
    intro js
    induction js with
    | nil => intro _; rfl
    | cons i js ih =>
      intro hj
      have h0 : i < S.length := hl ▸ hj i List.mem_cons_self
      rw [List.filterMap_cons_some (List.getElem?_eq_getElem h0), ← ih fun i hi => hj i (List.mem_cons_of_mem _ hi)]
      simp [sizes, h0]
  exact key is fun i h => hi.lt h
theorem sizes_sum {S is : List Nat} (hl : S.length = is.length) (hi : IsOrder is) : (sizes S is).sum = S.sum := by
  rw [sizes_eq hl hi]; exact (reorder_perm hi S).sum_eq

/-! ## Rows made of blocks -/

theorem rowOf_append_left (l r : List ℝ) {j : Nat} (h : j < l.length) : rowOf (l ++ r) j = rowOf l j := by
  unfold rowOf
  rw [List.getD_append _ _ _ _ h]
theorem rowOf_append_right (l r : List ℝ) (j : Nat) : rowOf (l ++ r) (l.length + j) = rowOf r j := by
  unfold rowOf
  rw [List.getD_append_right _ _ _ _ (by omega), Nat.add_sub_cancel_left]

theorem rowOf_block (bs : List (List ℝ)) : (i c : Nat) → c < (bs.map List.length).getD i 0 → rowOf bs.flatten (((bs.map List.length).take i).sum + c) = rowOf (bs.getD i []) c := by
  induction bs with
  | nil => simp
  | cons b bs ih =>
    intro i c hc
    cases i with
    | zero =>
      rw [List.flatten_cons]
      simp only [List.map_cons, List.getD_cons_zero] at hc
      simpa using rowOf_append_left b bs.flatten hc
    | succ i =>
      rw [List.map_cons, List.take_succ_cons, List.sum_cons, List.flatten_cons, Nat.add_assoc, rowOf_append_right]
      rw [List.map_cons, List.getD_cons_succ] at hc
      rw [ih i c hc, List.getD_cons_succ]

theorem blocks_along (bs : List (List ℝ)) : (is : List Nat) → (∀ i ∈ is, i < bs.length) →
    Along (sizes (bs.map List.length) is).sum (shuffle (bs.map List.length) is) (rowOf bs.flatten) (rowOf (is.filterMap (bs[·]?)).flatten)
  | [], _, j, h => by simp [sizes] at h
  | i :: is, hlt, j, h => by
    have h0 : i < bs.length := hlt i List.mem_cons_self
    have hs : (sizes (bs.map List.length) (i :: is)).sum = (bs.map List.length).getD i 0 + (sizes (bs.map List.length) is).sum := by simp [sizes]
    have hg : (bs.map List.length).getD i 0 = bs[i].length := by simp [h0]
    rw [List.filterMap_cons_some (List.getElem?_eq_getElem h0), List.flatten_cons, shuffle]
    by_cases h1 : j < (bs.map List.length).getD i 0
    · rw [if_pos h1, rowOf_block bs i j h1, rowOf_append_left _ _ (hg ▸ h1)]
      simp [h0]
    · rw [if_neg h1]
      have := blocks_along bs is (fun i hi => hlt i (List.mem_cons_of_mem _ hi)) (j - (bs.map List.length).getD i 0) (by omega)
      rw [← this]
      have e : j = bs[i].length + (j - (bs.map List.length).getD i 0) := by omega
      conv_lhs => rw [e]
      rw [rowOf_append_right]

/-- Rows made of blocks listed in another order. -/
theorem along_blocks {is : List Nat} (hi : IsOrder is) {bs : List (List ℝ)} {S : List Nat} (hS : bs.map List.length = S) (hl : S.length = is.length) :
    Along S.sum (shuffle S is) (rowOf bs.flatten) (rowOf (reorder is bs).flatten) := by
  have hb : bs.length = is.length := by rw [← hl, ← hS, List.length_map]
  have := blocks_along bs is fun i h => hb ▸ hi.lt h
  rwa [hS, sizes_sum hl hi, ← reorder_eq hb] at this

/-! ## Reading rows -/

theorem withGdAll_get (x : Row) : (L : List (DefModule d)) → (o i : Nat) →
    (DefModule.withGdAll x o L)[i]? = L[i]?.map (·.withGd x (o + ((L.map fun m => m.manifold.size).take i).sum))
  | [], o, i => by rw [DefModule.withGdAll]; simp
  | m :: L, o, 0 => by rw [DefModule.withGdAll]; simp
  | m :: L, o, i + 1 => by
    rw [DefModule.withGdAll, List.getElem?_cons_succ, List.getElem?_cons_succ, withGdAll_get x L]
    simp [Nat.add_assoc]
theorem withCotAll_get (x : Row) : (L : List (DefModule d)) → (o i : Nat) →
    (DefModule.withCotAll x o L)[i]? = L[i]?.map (·.withCot x (o + ((L.map fun m => m.manifold.size).take i).sum))
  | [], o, i => by rw [DefModule.withCotAll]; simp
  | m :: L, o, 0 => by rw [DefModule.withCotAll]; simp
  | m :: L, o, i + 1 => by
    rw [DefModule.withCotAll, List.getElem?_cons_succ, List.getElem?_cons_succ, withCotAll_get x L]
    simp [Nat.add_assoc]

theorem withGd_pick {x x' : Row} (L : List (DefModule d)) {S : List Nat} (hS : (L.map fun m => m.manifold.size) = S) : (is : List Nat) → (∀ i ∈ is, i < L.length) → (o : Nat) →
    (∀ j < (sizes S is).sum, x' (o + j) = x (shuffle S is j)) → DefModule.withGdAll x' o (is.filterMap (L[·]?)) = is.filterMap ((DefModule.withGdAll x 0 L)[·]?)
  | [], _, _, _ => by simp [DefModule.withGdAll]
  | i :: is, hlt, o, h => by
    have h0 : i < L.length := hlt i List.mem_cons_self
    have hs : (sizes S (i :: is)).sum = S.getD i 0 + (sizes S is).sum := by simp [sizes]
    have hg : S.getD i 0 = L[i].manifold.size := by subst hS; simp [h0]
    have e1 : L[i]? = some L[i] := List.getElem?_eq_getElem h0
    have e2 : (DefModule.withGdAll x 0 L)[i]? = some (L[i].withGd x ((S.take i).sum)) := by
      rw [withGdAll_get, e1, hS, Nat.zero_add]; rfl
    rw [List.filterMap_cons_some e1, List.filterMap_cons_some e2, DefModule.withGdAll,
      withGd_pick L hS is (fun i hi => hlt i (List.mem_cons_of_mem _ hi)) (o + L[i].manifold.size) ?_]
    · refine congrArg (· :: _) (L[i].withGd_congr fun j hj => ?_)
      rw [h j (by omega), shuffle, if_pos (by omega)]
    · intro j hj
      have := h (L[i].manifold.size + j) (by omega)
      rw [shuffle, if_neg (by omega), hg, Nat.add_sub_cancel_left] at this
      rw [Nat.add_assoc, this]
theorem withCot_pick {x x' : Row} (L : List (DefModule d)) {S : List Nat} (hS : (L.map fun m => m.manifold.size) = S) : (is : List Nat) → (∀ i ∈ is, i < L.length) → (o : Nat) →
    (∀ j < (sizes S is).sum, x' (o + j) = x (shuffle S is j)) → DefModule.withCotAll x' o (is.filterMap (L[·]?)) = is.filterMap ((DefModule.withCotAll x 0 L)[·]?)
  | [], _, _, _ => by simp [DefModule.withCotAll]
  | i :: is, hlt, o, h => by
    have h0 : i < L.length := hlt i List.mem_cons_self
    have hs : (sizes S (i :: is)).sum = S.getD i 0 + (sizes S is).sum := by simp [sizes]
    have hg : S.getD i 0 = L[i].manifold.size := by subst hS; simp [h0]
    have e1 : L[i]? = some L[i] := List.getElem?_eq_getElem h0
    have e2 : (DefModule.withCotAll x 0 L)[i]? = some (L[i].withCot x ((S.take i).sum)) := by
      rw [withCotAll_get, e1, hS, Nat.zero_add]; rfl
    rw [List.filterMap_cons_some e1, List.filterMap_cons_some e2, DefModule.withCotAll,
      withCot_pick L hS is (fun i hi => hlt i (List.mem_cons_of_mem _ hi)) (o + L[i].manifold.size) ?_]
    · refine congrArg (· :: _) (L[i].withCot_congr fun j hj => ?_)
      rw [h j (by omega), shuffle, if_pos (by omega)]
    · intro j hj
      have := h (L[i].manifold.size + j) (by omega)
      rw [shuffle, if_neg (by omega), hg, Nat.add_sub_cancel_left] at this
      rw [Nat.add_assoc, this]

/-! ## The twin -/

/-- The sizes of the tensors of a module. -/
def shapeOf (m : DefModule d) : List Nat := m.manifold.unrollGd.map List.length

theorem sum_shapeOf (m : DefModule d) : (shapeOf m).sum = m.manifold.size := by
  unfold shapeOf
  rw [← List.length_flatten, Mfd.length_unrollGd]

theorem sizes_of_shapes {L : List (DefModule d)} {Z : List (List Nat)} (h : L.map shapeOf = Z) : (L.map fun m => m.manifold.size) = Z.map List.sum := by
  rw [← h, List.map_map]
  exact List.map_congr_left fun m _ => (sum_shapeOf m).symm

theorem sizeAll_sum : (Ms : List (Mfd d)) → Mfd.sizeAll Ms = (Ms.map Mfd.size).sum
  | [] => by rw [Mfd.sizeAll]; rfl
  | M :: Ms => by rw [Mfd.sizeAll, sizeAll_sum Ms, List.map_cons, List.sum_cons]
theorem unrollGdAll_flatten : (Ms : List (Mfd d)) → (Mfd.unrollGdAll Ms).flatten = (Ms.map fun M => M.unrollGd.flatten).flatten
  | [] => by rw [Mfd.unrollGdAll]; rfl
  | M :: Ms => by rw [Mfd.unrollGdAll, List.flatten_append, unrollGdAll_flatten Ms, List.map_cons, List.flatten_cons]
theorem unrollCotAll_flatten : (Ms : List (Mfd d)) → (Mfd.unrollCotAll Ms).flatten = (Ms.map fun M => M.unrollCot.flatten).flatten
  | [] => by rw [Mfd.unrollCotAll]; rfl
  | M :: Ms => by rw [Mfd.unrollCotAll, List.flatten_append, unrollCotAll_flatten Ms, List.map_cons, List.flatten_cons]
theorem unrollAll_flatten : (ts : List (Tan d)) → (Tan.unrollAll ts).flatten = (ts.map fun t => t.unroll.flatten).flatten
  | [] => by rw [Tan.unrollAll]; rfl
  | t :: ts => by rw [Tan.unrollAll, List.flatten_append, unrollAll_flatten ts, List.map_cons, List.flatten_cons]

mutual
theorem lengths_withGd_at (x : Row) : (M : Mfd d) → (o : Nat) → (M.withGd x o).unrollGd.map List.length = M.unrollGd.map List.length
  | .landmarks _ _, _ => by simp [Mfd.withGd, Mfd.unrollGd, length_flatVecs]
  | .direction .., _ => by simp [Mfd.withGd, Mfd.unrollGd, length_flatVecs]
  | .frame .., _ => by simp [Mfd.withGd, Mfd.unrollGd, length_flatVecs, length_flatMats]
  | .empty, _ => by rw [Mfd.withGd]
  | .compound ms, o => by simp only [Mfd.withGd, Mfd.unrollGd]; exact lengths_withGds_at x ms o
theorem lengths_withGds_at (x : Row) : (Ms : List (Mfd d)) → (o : Nat) → (Mfd.unrollGdAll (Mfd.withGdAll x o Ms)).map List.length = (Mfd.unrollGdAll Ms).map List.length
  | [], _ => by rw [Mfd.withGdAll]
  | M :: Ms, o => by simp only [Mfd.withGdAll, Mfd.unrollGdAll, List.map_append]; rw [lengths_withGd_at x M, lengths_withGds_at x Ms]
end
theorem shapes_withGd (x : Row) : (L : List (DefModule d)) → (o : Nat) → (DefModule.withGdAll x o L).map shapeOf = L.map shapeOf
  | [], _ => by rw [DefModule.withGdAll]
  | m :: L, o => by
    rw [DefModule.withGdAll, List.map_cons, List.map_cons, shapes_withGd x L]
    unfold shapeOf
    rw [DefModule.manifold_withGd, lengths_withGd_at]
theorem shapes_withCot (x : Row) : (L : List (DefModule d)) → (o : Nat) → (DefModule.withCotAll x o L).map shapeOf = L.map shapeOf
  | [], _ => by rw [DefModule.withCotAll]
  | m :: L, o => by
    rw [DefModule.withCotAll, List.map_cons, List.map_cons, shapes_withCot x L]
    unfold shapeOf
    rw [DefModule.manifold_withCot, Mfd.unrollGd_withCot]
theorem shapes_of_reset {L L' : List (DefModule d)} (h : (DefModule.compound L').reset = (DefModule.compound L).reset) : L'.map shapeOf = L.map shapeOf := by
  have h1 := manifold_of_reset h
  rw [DefModule.manifold, DefModule.manifold] at h1
  have h2 := Mfd.compound.inj h1
  rw [manifolds_map, manifolds_map] at h2
  have := congrArg (List.map fun M : Mfd d => M.unrollGd.map List.length) h2
  rwa [List.map_map, List.map_map] at this

/-- `b` is the compound `a` with its members listed in another order; the sizes of the tensors of the
members are `Z`. -/
def Reordered (is : List Nat) (Z : List (List Nat)) (a b : DefModule d) : Prop := ∃ L, a = .compound L ∧ b = .compound (reorder is L) ∧ L.map shapeOf = Z

theorem allFit_lengths : (ts : List (Tan d)) → {Ms : List (Mfd d)} → Tan.AllFit ts Ms → (ts.map fun t => t.unroll.flatten.length) = Ms.map Mfd.size
  | [], Ms, h => by
    cases Ms with
    | nil => rfl
    | cons _ _ => rw [Tan.AllFit] at h; exact h.elim; all_goals simp
  | t :: ts, Ms, h => by
    cases Ms with
    | nil => rw [Tan.AllFit] at h; exact h.elim; all_goals simp
    | cons M Ms =>
      rw [Tan.AllFit] at h
      rw [List.map_cons, List.map_cons, length_fits t h.1, allFit_lengths ts h.2]

theorem reordered_length {Z : List (List Nat)} {L : List (DefModule d)} (h : L.map shapeOf = Z) : L.length = Z.length := by rw [← h, List.length_map]

theorem reorder_twin {is : List Nat} (hi : IsOrder is) {Z : List (List Nat)} (hZ : Z.length = is.length) :
    Twin (d := d) (Z.map List.sum).sum (shuffle (Z.map List.sum) is) (Reordered is Z) (fun c c' => c' = c.reorder is) where
  lt j hj := shuffle_lt _ _ (by rw [sizes_sum (by rw [List.length_map, hZ]) hi]; exact hj)
  inj i h j h' e := shuffle_inj _ is hi.nodup (by rwa [sizes_sum (by rw [List.length_map, hZ]) hi]) (by rwa [sizes_sum (by rw [List.length_map, hZ]) hi]) e
  size := by
    rintro a b ⟨L, rfl, rfl, hL⟩
    have h1 := sizes_of_shapes hL
    have key : ∀ L' : List (DefModule d), numCoords (.compound L') = (L'.map fun m => m.manifold.size).sum := fun L' => by
      rw [numCoords_eq, DefModule.manifold, Mfd.size, sizeAll_sum, manifolds_map, List.map_map]; rfl
    rw [key, key, ← reorder_map, (reorder_perm hi _).sum_eq, h1]
    exact ⟨rfl, rfl⟩
  gd := by
    rintro a b ⟨L, rfl, rfl, hL⟩
    rw [gdRow, gdRow, manifold_reorder, DefModule.manifold, Mfd.unrollGd, Mfd.unrollGd, unrollGdAll_flatten, unrollGdAll_flatten, ← reorder_map]
    refine along_blocks hi ?_ (by rw [List.length_map, hZ])
    rw [← sizes_of_shapes hL, manifolds_map, List.map_map, List.map_map]
    exact List.map_congr_left fun m _ => Mfd.length_unrollGd _
  cot := by
    rintro a b ⟨L, rfl, rfl, hL⟩
    rw [cotRow, cotRow, manifold_reorder, DefModule.manifold, Mfd.unrollCot, Mfd.unrollCot, unrollCotAll_flatten, unrollCotAll_flatten, ← reorder_map]
    refine along_blocks hi ?_ (by rw [List.length_map, hZ])
    rw [← sizes_of_shapes hL, manifolds_map, List.map_map, List.map_map]
    exact List.map_congr_left fun m _ => Mfd.length_unrollCot _
  setGd := by
    rintro a b x x' ⟨L, rfl, rfl, hL⟩ hx
    have hl : L.length = is.length := (reordered_length hL).trans hZ
    refine ⟨DefModule.withGdAll x 0 L, by rw [DefModule.withGd], ?_, by rw [shapes_withGd, hL]⟩
    rw [DefModule.withGd, reorder_eq hl, reorder_eq (by rw [length_withGds, hl]), withGd_pick L (sizes_of_shapes hL) is (fun i h => hl ▸ hi.lt h) 0]
    intro j hj
    rw [Nat.zero_add]
    exact hx j (by rwa [sizes_sum (by rw [List.length_map, hZ]) hi] at hj)
  setCot := by
    rintro a b x x' ⟨L, rfl, rfl, hL⟩ hx
    have hl : L.length = is.length := (reordered_length hL).trans hZ
    refine ⟨DefModule.withCotAll x 0 L, by rw [DefModule.withCot], ?_, by rw [shapes_withCot, hL]⟩
    rw [DefModule.withCot, reorder_eq hl, reorder_eq (by rw [length_withCots, hl]), withCot_pick L (sizes_of_shapes hL) is (fun i h => hl ▸ hi.lt h) 0]
    intro j hj
    rw [Nat.zero_add]
    exact hx j (by rwa [sizes_sum (by rw [List.length_map, hZ]) hi] at hj)
  geo := by
    rintro a b ⟨L, rfl, rfl, hL⟩
    unfold Hamiltonian.geodesicControls
    rw [manifold_reorder, DefModule.manifold]
    rcases (geodesic_reorder hi L (mirror_reorder hi (DefModule.manifolds L))).both with ⟨a', b', e, e', l, rfl, rfl⟩ | ⟨_, _, e, e'⟩
    · rw [e, e']
      exact ⟨l, rfl, rfl, (shapes_of_reset (reset_geodesic e)).trans hL⟩
    · rw [e, e']; trivial
  fill := by
    rintro a b c c' ⟨L, rfl, rfl, hL⟩ rfl
    rcases (fill_reorder hi ((reordered_length hL).trans hZ) c).both with ⟨a', b', e, e', l, rfl, rfl⟩ | ⟨_, _, e, e'⟩
    · rw [e, e']
      exact ⟨l, rfl, rfl, (shapes_of_reset (reset_fill _ e)).trans hL⟩
    · rw [e, e']; trivial
  value := by
    rintro a b ⟨L, rfl, rfl, hL⟩
    exact value_reorder hi L
  cost := by
    rintro a b ⟨L, rfl, rfl, hL⟩
    exact cost_reorder hi L
  ctrl := by
    rintro a b ⟨L, rfl, rfl, hL⟩
    exact controls_reorder is L
  vel := by
    rintro a b ⟨L, rfl, rfl, hL⟩
    unfold DefModule.velocity
    rcases (field_reorder hi L).both with ⟨f, g, e, e', h⟩ | ⟨_, _, e, e'⟩
    · rw [e, e', manifold_reorder, DefModule.manifold]
      dsimp only
      rw [action_alike h, Mfd.action, Mfd.action, actionAll_collect, actionAll_collect]
      rcases (collect_reorder' hi (Mfd.action g) (DefModule.manifolds L)).both with ⟨ts, ts', e, e', rfl⟩ | ⟨_, _, e, e'⟩
      · rw [e, e']
        refine PyRel.ok ?_
        rw [Tan.unroll, Tan.unroll, unrollAll_flatten, unrollAll_flatten, ← reorder_map]
        refine along_blocks hi ?_ (by rw [List.length_map, hZ])
        rw [List.map_map]
        rw [← actionAll_collect] at e
        have := allFit_lengths ts (fits_actions g _ e)
        rw [← sizes_of_shapes hL]
        refine this.trans ?_
        rw [manifolds_map, List.map_map]; rfl
      · rw [e, e']; trivial
    · rw [e, e']; trivial
  plain := by
    rintro ms ms' ⟨L, h, h', hL⟩
    rw [DefModule.compound.inj h, DefModule.compound.inj h']
    unfold PlainMembers
    rw [manifolds_map, manifolds_map]
    simp only [List.mem_map, (reorder_perm hi L).mem_iff]

theorem reordered_self {is : List Nat} (L : List (DefModule d)) : Reordered is (L.map shapeOf) (.compound L) (.compound (reorder is L)) := ⟨L, rfl, rfl, rfl⟩

theorem shape_compound (L : List (DefModule d)) : shapeOf (.compound L) = (L.map shapeOf).flatten := by
  unfold shapeOf
  rw [DefModule.manifold, Mfd.unrollGd]
  induction L with
  | nil => rw [DefModule.manifolds, Mfd.unrollGdAll]; rfl
  | cons m L ih => rw [DefModule.manifolds, Mfd.unrollGdAll, List.map_append, ih, List.map_cons, List.flatten_cons]

theorem reorder_fits (is : List Nat) (Z : List (List Nat)) : FitTwin (Reordered (d := d) is Z) := by
  rintro a b a₀ b₀ ⟨L, rfl, rfl, h⟩ ⟨L₀, rfl, rfl, h₀⟩
  have h1 := shape_compound L
  have h2 := shape_compound L₀
  have h3 := shape_compound (reorder is L)
  have h4 := shape_compound (reorder is L₀)
  rw [← reorder_map] at h3 h4
  rw [h] at h1 h3
  rw [h₀] at h2 h4
  exact ⟨h2.trans h1.symm, h4.trans h3.symm⟩

end
end Imodal
