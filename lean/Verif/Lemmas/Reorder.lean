import Verif.Spec.Reorder
import Verif.Lemmas.RelabelAll
import Mathlib.Algebra.BigOperators.Group.List.Basic
/-!
# Lists of modules in another order
-/
set_option autoImplicit false
namespace Imodal
noncomputable section
variable {d : Nat} {α β γ : Type}

/-! ## Lists -/

theorem IsOrder.lt {is : List Nat} (h : IsOrder is) {i : Nat} (hi : i ∈ is) : i < is.length := List.mem_range.1 (h.mem_iff.1 hi)
theorem IsOrder.nodup {is : List Nat} (h : IsOrder is) : is.Nodup := h.nodup_iff.2 List.nodup_range

theorem range_filterMap (l : List α) : (List.range l.length).filterMap (l[·]?) = l := by
  induction l using List.reverseRecOn with
  | nil => rfl
  | append_singleton l a ih =>
    rw [List.length_append, List.length_singleton, List.range_succ, List.filterMap_append]
    congr 1
    · conv_rhs => rw [← ih]
      refine List.filterMap_congr fun i hi => ?_
      rw [List.getElem?_append_left (List.mem_range.1 hi)]
    · simp

theorem reorder_eq {is : List Nat} {l : List α} (h : l.length = is.length) : reorder is l = is.filterMap (l[·]?) := if_pos h

theorem reorder_perm {is : List Nat} (hi : IsOrder is) (l : List α) : (reorder is l).Perm l := by
  unfold reorder
  split
  · rename_i h
    have := hi.filterMap (l[·]?)
    rwa [← h, range_filterMap] at this
  · exact List.Perm.refl _

theorem length_reorder {is : List Nat} (hi : IsOrder is) (l : List α) : (reorder is l).length = l.length := (reorder_perm hi l).length_eq

theorem reorder_map (is : List Nat) (f : α → β) (l : List α) : reorder is (l.map f) = (reorder is l).map f := by
  unfold reorder
  rw [List.length_map]
  split
  · rw [List.map_filterMap]
    refine List.filterMap_congr fun i _ => ?_
    rw [List.getElem?_map]
  · rfl

theorem reorder_zip {is : List Nat} {l : List α} {r : List β} (h : l.length = is.length) (h' : r.length = is.length) (hi : IsOrder is) :
    reorder is (l.zip r) = (reorder is l).zip (reorder is r) := by
  rw [reorder_eq (by rw [List.length_zip, h, h', Nat.min_self]), reorder_eq h, reorder_eq h']
  have key : ∀ js : List Nat, (∀ i ∈ js, i < is.length) → js.filterMap ((l.zip r)[·]?) = (js.filterMap (l[·]?)).zip (js.filterMap (r[·]?)) := by
    intro js
    induction js with
    | nil => intro _; rfl
    | cons i js ih =>
      intro hj
      have h0 := hj i (List.mem_cons_self)
      have h1 : l[i]? = some l[i] := List.getElem?_eq_getElem (by omega)
      have h2 : r[i]? = some r[i] := List.getElem?_eq_getElem (by omega)
      have h3 : (l.zip r)[i]? = some (l[i], r[i]) := by rw [List.getElem?_zip_eq_some]; exact ⟨h1, h2⟩
      rw [List.filterMap_cons_some h3, List.filterMap_cons_some h1, List.filterMap_cons_some h2, List.zip_cons_cons,
        ih fun i hi => hj i (List.mem_cons_of_mem _ hi)]
  exact key is fun i h => hi.lt h

theorem forall₂_reorder {is : List Nat} (hi : IsOrder is) {R : α → β → Prop} {l : List α} {r : List β} (h : List.Forall₂ R l r) :
    List.Forall₂ R (reorder is l) (reorder is r) := by
  by_cases hl : l.length = is.length
  · have hr : r.length = is.length := h.length_eq ▸ hl
    rw [List.forall₂_iff_zip] at h ⊢
    refine ⟨by rw [length_reorder hi, length_reorder hi, h.1], fun {a b} hab => ?_⟩
    rw [← reorder_zip hl hr hi, (reorder_perm hi _).mem_iff] at hab
    exact h.2 hab
  · have hr : ¬r.length = is.length := h.length_eq ▸ hl
    unfold reorder
    rwa [if_neg hl, if_neg hr]

/-! ## Loops -/

theorem collectList_iff {f : α → Py β} {l : List α} {r : List β} : collectList f l = .ok r ↔ List.Forall₂ (fun x y => f x = .ok y) l r := by
  induction l generalizing r with
  | nil =>
    rw [collectList, List.forall₂_nil_left_iff]
    exact ⟨fun h => by cases h; rfl, fun h => by rw [h]⟩
  | cons a l ih =>
    rw [collectList]
    constructor
    · intro h
      cases h1 : f a with
      | error _ => rw [h1] at h; cases h
      | ok b =>
        rw [h1] at h
        dsimp only at h
        cases h2 : collectList f l with
        | error _ => rw [h2] at h; cases h
        | ok bs => rw [h2] at h; cases h; exact List.Forall₂.cons h1 (ih.1 h2)
    · intro h
      cases h with
      | cons h1 h2 => rw [h1, ih.2 h2]

theorem collect_error {f : α → Py β} {l : List α} {e : PyErr} (h : collectList f l = .error e) : ∃ x ∈ l, ∃ e, f x = .error e := by
  induction l with
  | nil => rw [collectList] at h; cases h
  | cons a l ih =>
    rw [collectList] at h
    cases h1 : f a with
    | error e => exact ⟨a, List.mem_cons_self, e, h1⟩
    | ok b =>
      rw [h1] at h
      dsimp only at h
      cases h2 : collectList f l with
      | error _ =>
        obtain ⟨x, hx, h3⟩ := ih (by rw [h2] at h; cases h; exact h2)
        exact ⟨x, List.mem_cons_of_mem _ hx, h3⟩
      | ok bs => rw [h2] at h; cases h

theorem collect_raises {f : α → Py β} {l : List α} {x : α} (hx : x ∈ l) {e : PyErr} (h : f x = .error e) : ∃ e, collectList f l = .error e := by
  cases hc : collectList f l with
  | error e => exact ⟨e, rfl⟩
  | ok r =>
    obtain ⟨i, hi, rfl⟩ := List.mem_iff_getElem.1 hx
    have h1 := collectList_iff.1 hc
    have h2 := h1.get hi (h1.length_eq ▸ hi)
    rw [List.get_eq_getElem] at h2
    rw [h2] at h; cases h

/-- A loop over the members in another order, and with a body that does the same. -/
theorem collect_reorder {is : List Nat} (hi : IsOrder is) {f f' : α → Py β} {l : List α} (hf : ∀ x ∈ l, PyRel Eq (f x) (f' x)) :
    PyRel (fun a b => b = reorder is a) (collectList f l) (collectList f' (reorder is l)) := by
  cases h : collectList f l with
  | ok r =>
    have h1 := collectList_iff.1 h
    have h2 : List.Forall₂ (fun x y => f' x = .ok y) l r := by
      refine List.forall₂_iff_get.2 ⟨h1.length_eq, fun i hi hi' => ?_⟩
      have h3 := h1.get hi hi'
      have h4 := hf _ (List.get_mem l ⟨i, hi⟩)
      rw [h3] at h4
      cases h5 : f' (l.get ⟨i, hi⟩) with
      | error _ => rw [h5] at h4; exact h4.elim
      | ok b => rw [h5] at h4; exact congrArg _ (show r.get ⟨i, hi'⟩ = b from h4).symm
    rw [collectList_iff.2 (forall₂_reorder hi h2)]
    exact PyRel.ok rfl
  | error e =>
    obtain ⟨x, hx, e, he⟩ := collect_error h
    have h4 := hf x hx
    rw [he] at h4
    cases h5 : f' x with
    | ok b => rw [h5] at h4; exact h4.elim
    | error e' =>
      obtain ⟨e, he⟩ := collect_raises ((reorder_perm hi l).mem_iff.2 hx) h5
      rw [he]; trivial

theorem collect_reorder' {is : List Nat} (hi : IsOrder is) (f : α → Py β) (l : List α) :
    PyRel (fun a b => b = reorder is a) (collectList f l) (collectList f (reorder is l)) :=
  collect_reorder hi fun _ _ => PyRel.refl (fun _ => rfl) _

/-- The sum of the results of a loop. -/
def sumPy (f : α → Py ℝ) (l : List α) : Py ℝ := (collectList f l).map List.sum

theorem sum_reorder {is : List Nat} (hi : IsOrder is) (f : α → Py ℝ) (l : List α) : PyRel Eq (sumPy f l) (sumPy f (reorder is l)) := by
  unfold sumPy
  rcases (collect_reorder' hi f l).both with ⟨a, b, e, e', rfl⟩ | ⟨_, _, e, e'⟩
  · rw [e, e']; exact PyRel.ok ((reorder_perm hi a).sum_eq).symm
  · rw [e, e']; trivial

theorem sumPy_cons (f : α → Py ℝ) (a : α) (l : List α) : sumPy f (a :: l) =
    (match f a with
    | .error e => .error e
    | .ok x =>
      match sumPy f l with
      | .error e => .error e
      | .ok y => .ok (x + y)) := by
  unfold sumPy
  rw [collectList]
  cases f a with
  | error _ => rfl
  | ok x => cases collectList f l <;> simp [Except.map]

theorem manifolds_map : (ms : List (DefModule d)) → DefModule.manifolds ms = ms.map DefModule.manifold
  | [] => by rw [DefModule.manifolds]; rfl
  | m :: ms => by rw [DefModule.manifolds, manifolds_map ms]; rfl
theorem controlsAll_map : (ms : List (DefModule d)) → DefModule.controlsAll ms = ms.map DefModule.controls
  | [] => by rw [DefModule.controlsAll]; rfl
  | m :: ms => by rw [DefModule.controlsAll, controlsAll_map ms]; rfl
theorem costs_sum : (ms : List (DefModule d)) → DefModule.costs ms = sumPy DefModule.cost ms
  | [] => by rw [DefModule.costs]; rfl
  | m :: ms => by rw [DefModule.costs, sumPy_cons, costs_sum ms]; cases m.cost <;> first | rfl | (cases sumPy DefModule.cost ms <;> rfl)
theorem innerProdAll_sum (f : FieldExpr d) : (ms : List (Mfd d)) → Mfd.innerProdAll f ms = sumPy (Mfd.innerProd f) ms
  | [] => by rw [Mfd.innerProdAll]; rfl
  | m :: ms => by rw [Mfd.innerProdAll, sumPy_cons, innerProdAll_sum f ms]; cases m.innerProd f <;> first | rfl | (cases sumPy (Mfd.innerProd f) ms <;> rfl)
theorem fields_collect : (ms : List (DefModule d)) → DefModule.fields ms = collectList DefModule.field ms
  | [] => by rw [DefModule.fields]; rfl
  | m :: ms => by rw [DefModule.fields, collectList, fields_collect ms]; cases m.field <;> first | rfl | (cases collectList DefModule.field ms <;> rfl)
theorem geodesics_collect (man : Mfd d) : (ms : List (DefModule d)) → DefModule.geodesics man ms = collectList (DefModule.geodesic man) ms
  | [] => by rw [DefModule.geodesics]; rfl
  | m :: ms => by rw [DefModule.geodesics, collectList, geodesics_collect man ms]; cases m.geodesic man <;> first | rfl | (cases collectList (DefModule.geodesic man) ms <;> rfl)
theorem actionAll_collect (f : FieldExpr d) : (ms : List (Mfd d)) → Mfd.actionAll f ms = collectList (Mfd.action f) ms
  | [] => by rw [Mfd.actionAll]; rfl
  | m :: ms => by rw [Mfd.actionAll, collectList, actionAll_collect f ms]; cases m.action f <;> first | rfl | (cases collectList (Mfd.action f) ms <;> rfl)
theorem cotToVsAll_collect (σ : ℝ) (r : Reduction) : (ms : List (Mfd d)) → Mfd.cotToVsAll σ r ms = collectList (Mfd.cotToVs σ r) ms
  | [] => by rw [Mfd.cotToVsAll]; rfl
  | m :: ms => by rw [Mfd.cotToVsAll, collectList, cotToVsAll_collect σ r ms]; cases m.cotToVs σ r <;> first | rfl | (cases collectList (Mfd.cotToVs σ r) ms <;> rfl)
theorem fillAll_collect : (ms : List (DefModule d)) → (hs : List (Ctrl d)) → DefModule.fillAll ms hs = collectList (fun p : DefModule d × Ctrl d => p.1.fillControls p.2) (ms.zip hs)
  | [], hs => by rw [DefModule.fillAll]; · rfl
                 all_goals simp
  | _ :: _, [] => by rw [DefModule.fillAll]; · rfl
                     all_goals simp
  | m :: ms, h :: hs => by rw [DefModule.fillAll, List.zip_cons_cons, collectList, fillAll_collect ms hs]; cases m.fillControls h <;> first | rfl | (cases collectList (fun p : DefModule d × Ctrl d => p.1.fillControls p.2) (ms.zip hs) <;> rfl)

/-! ## Sums of fields -/

mutual
/-- Values and first derivatives raise nothing but NotImplementedError. -/
theorem eval_error {k : Nat} (hk : k ≤ 1) (x : Vec d) : (f : FieldExpr d) → {e : PyErr} → f.eval k x = .error e → e = .notImplemented
  | .f0 .torch supp mom σ, e, h => by
    rw [FieldExpr.eval, field0Torch] at h
    by_cases h0 : k = 0
    · rw [if_pos h0] at h; cases h
    · rw [if_neg h0, kerRows, if_neg (by omega), if_neg (by omega)] at h; cases h
  | .f0 .keops supp mom σ, e, h => by
    rw [FieldExpr.eval, field0Keops] at h
    by_cases h0 : k = 0
    · rw [if_pos h0] at h; cases h
    · rw [if_neg h0, dif_pos (by omega)] at h; cases h
  | .f0u _ supp mom dir σ, e, h => by
    rw [FieldExpr.eval] at h
    cases k with
    | zero => rw [field0uTorch_zero] at h; cases h
    | succ k => rw [field0uTorch_succ] at h; cases h; rfl
  | .fp .torch supp M σ, e, h => by
    rw [FieldExpr.eval, fieldPmTorch, kerRows, if_neg (by omega), if_neg (by omega)] at h; cases h
  | .fp .keops supp M σ, e, h => by
    rw [FieldExpr.eval, fieldPmKeops] at h
    by_cases h0 : k = 0
    · rw [if_pos h0] at h; cases h
    · rw [if_neg h0, dif_pos (by omega)] at h; cases h
  | .fm .torch supp M σ, e, h => by
    rw [FieldExpr.eval, fieldPmTorch, kerRows, if_neg (by omega), if_neg (by omega)] at h; cases h
  | .fm .keops supp M σ, e, h => by
    rw [FieldExpr.eval, fieldPmKeops] at h
    by_cases h0 : k = 0
    · rw [if_pos h0] at h; cases h
    · rw [if_neg h0, dif_pos (by omega)] at h; cases h
  | .f1 .torch supp m σ, e, h => by
    rw [FieldExpr.eval, field1Torch] at h
    by_cases h0 : k = 0
    · subst h0
      rw [if_pos rfl, kerRows, if_neg (by omega), if_neg (by omega)] at h; cases h
    · rw [if_neg h0, kerRows, if_neg (by omega), if_neg (by omega)] at h; cases h
  | .f1 .keops supp m σ, e, h => by rw [FieldExpr.eval] at h; cases h; rfl
  | .affine A x0 u, e, h => by rw [FieldExpr.eval] at h; cases h
  | .const m, e, h => by rw [FieldExpr.eval] at h; cases h
  | .null, e, h => by rw [FieldExpr.eval] at h; cases h
  | .sum fs, e, h => by rw [FieldExpr.eval] at h; exact evalSum_error hk x fs h
theorem evalSum_error {k : Nat} (hk : k ≤ 1) (x : Vec d) : (fs : List (FieldExpr d)) → {e : PyErr} → FieldExpr.evalSum k fs x = .error e → e = .notImplemented
  | [], e, h => by rw [FieldExpr.evalSum] at h; cases h
  | f :: fs, e, h => by
    rw [FieldExpr.evalSum] at h
    cases h1 : f.eval k x with
    | error e' => rw [h1] at h; cases h; exact eval_error hk x f h1
    | ok t =>
      rw [h1] at h
      dsimp only at h
      cases h2 : FieldExpr.evalSum k fs x with
      | error e' => rw [h2] at h; cases h; exact evalSum_error hk x fs h2
      | ok ts => rw [h2] at h; cases h
end

theorem evalSum_perm {k : Nat} (hk : k ≤ 1) (x : Vec d) {fs gs : List (FieldExpr d)} (h : fs.Perm gs) : FieldExpr.evalSum k fs x = FieldExpr.evalSum k gs x := by
  induction h with
  | nil => rfl
  | cons f _ ih => rw [FieldExpr.evalSum, FieldExpr.evalSum, ih]
  | swap f g l =>
    simp only [FieldExpr.evalSum]
    cases h1 : f.eval k x with
    | error e =>
      cases h2 : g.eval k x with
      | error e' => rw [eval_error hk x f h1, eval_error hk x g h2]
      | ok t => rfl
    | ok s =>
      cases h2 : g.eval k x with
      | error e' => rfl
      | ok t =>
        cases FieldExpr.evalSum k l x with
        | error _ => rfl
        | ok ts => dsimp only; refine congrArg _ (funext fun I => ?_); ring
  | trans _ _ ih ih' => rw [ih, ih']

theorem alike_perm {fs gs : List (FieldExpr d)} (h : fs.Perm gs) : (FieldExpr.sum fs).Alike (.sum gs) := by
  constructor <;> funext x <;> rw [FieldExpr.eval, FieldExpr.eval]
  · exact evalSum_perm (by omega) x h
  · exact evalSum_perm (by omega) x h
theorem mkSum_perm {fs gs : List (FieldExpr d)} (h : fs.Perm gs) : PyRel FieldExpr.Alike (mkSumField fs) (mkSumField gs) := by
  cases fs with
  | nil => rw [List.nil_perm.1 h]; trivial
  | cons f fs =>
    cases gs with
    | nil => rw [List.perm_nil] at h; cases h
    | cons g gs => exact alike_perm h

theorem field_reorder {is : List Nat} (hi : IsOrder is) (ms : List (DefModule d)) :
    PyRel FieldExpr.Alike (DefModule.compound ms).field (DefModule.compound (reorder is ms)).field := by
  rw [DefModule.field, DefModule.field, fields_collect, fields_collect]
  rcases (collect_reorder' hi DefModule.field ms).both with ⟨a, b, e, e', rfl⟩ | ⟨_, _, e, e'⟩
  · rw [e, e']; exact mkSum_perm (reorder_perm hi a).symm
  · rw [e, e']; trivial

theorem mirror_reorder {is : List Nat} (hi : IsOrder is) (mans : List (Mfd d)) : Mirror (.compound mans) (.compound (reorder is mans)) where
  vs s r := by
    rw [Mfd.cotToVs, Mfd.cotToVs, cotToVsAll_collect, cotToVsAll_collect]
    rcases (collect_reorder' hi (Mfd.cotToVs s r) mans).both with ⟨a, b, e, e', rfl⟩ | ⟨_, _, e, e'⟩
    · rw [e, e']; exact mkSum_perm (reorder_perm hi a).symm
    · rw [e, e']; trivial
  inner f := by
    rw [Mfd.innerProd, Mfd.innerProd, innerProdAll_sum, innerProdAll_sum]
    exact sum_reorder hi _ _

/-! ## Geodesic controls for manifolds that give the same dual fields -/

theorem headOrder_one {N P : Nat} (i : Fin N) : headOrder (N := N) (P := P) 1 i = i := by
  unfold headOrder
  rw [dif_pos (by simp)]; rfl
theorem tailOrder_one {N P : Nat} (i : Fin P) : tailOrder (N := N) (P := P) 1 i = i := by
  unfold tailOrder
  rw [dif_pos (by simp)]
  exact Fin.ext (by simp)

/-- Every point stays where it is. -/
def Labels.same : Labels := fun _ _ => 1

theorem keepsParts_one (N P : Nat) : KeepsParts N P 1 := fun _ => Iff.rfl

mutual
theorem mfd_relabel_same : (M : Mfd d) → M.relabel Labels.same = M
  | .landmarks .. => by simp only [Mfd.relabel, Labels.same, Equiv.Perm.coe_one, id_eq]
  | .direction .. => by simp only [Mfd.relabel, Labels.same, Equiv.Perm.coe_one, id_eq]
  | .frame .. => by simp only [Mfd.relabel, Labels.same, Equiv.Perm.coe_one, id_eq]
  | .empty => by rw [Mfd.relabel]
  | .compound ms => by rw [Mfd.relabel, mfds_relabel_same 0 ms]
theorem mfds_relabel_same : (k : Nat) → (ms : List (Mfd d)) → Mfd.relabelAll Labels.same k ms = ms
  | _, [] => by rw [Mfd.relabelAll]
  | k, m :: ms => by
    rw [Mfd.relabelAll, mfds_relabel_same (k + 1) ms]
    exact congrArg (· :: ms) (mfd_relabel_same m)
end
mutual
theorem relabel_same : (m : DefModule d) → m.relabel Labels.same = m
  | .translations _ => by simp only [DefModule.relabel, Labels.same, Equiv.Perm.coe_one, id_eq]
  | .implicit0 _ => by simp only [DefModule.relabel, Labels.same, Equiv.Perm.coe_one, id_eq]
  | .oriented _ => by simp only [DefModule.relabel, Labels.same, Equiv.Perm.coe_one, id_eq]
  | .constrained _ => by simp only [DefModule.relabel, Labels.same, Equiv.Perm.coe_one, id_eq]; rfl
  | .globalTranslation _ => by rw [DefModule.relabel]
  | .linear _ => by rw [DefModule.relabel]
  | .implicit1 m => by
    simp only [DefModule.relabel, Labels.same, Equiv.Perm.coe_one, id_eq, Prod.mk.eta]
    exact congrArg (fun c => DefModule.implicit1 { m with cache := c }) Option.map_id'
  | .divFree m => by
    simp only [DefModule.relabel, Labels.same, Equiv.Perm.coe_one, id_eq, headOrder_one, tailOrder_one]
    refine congrArg (fun c => DefModule.divFree { m with lambdas := c }) ?_
    cases m.lambdas with
    | none => rfl
    | some l => refine congrArg some (funext fun q => ?_); cases q <;> rfl
  | .arap m => by
    simp only [DefModule.relabel, Labels.same, Equiv.Perm.coe_one, id_eq, headOrder_one, tailOrder_one]
    refine congrArg (fun c => DefModule.arap { m with lambdas := c }) ?_
    cases m.lambdas with
    | none => rfl
    | some l => refine congrArg some (funext fun q => ?_); cases q <;> rfl
  | .silent M => by rw [DefModule.relabel, mfd_relabel_same]
  | .compound ms => by rw [DefModule.relabel, relabels_same 0 ms]
theorem relabels_same : (k : Nat) → (ms : List (DefModule d)) → DefModule.relabelAll Labels.same k ms = ms
  | _, [] => by rw [DefModule.relabelAll]
  | k, m :: ms => by
    rw [DefModule.relabelAll, relabels_same (k + 1) ms]
    exact congrArg (· :: ms) (relabel_same m)
end
mutual
theorem keeps_same : (m : DefModule d) → m.Keeps Labels.same
  | .translations _ => by simp only [DefModule.Keeps]
  | .implicit0 _ => by simp only [DefModule.Keeps]
  | .oriented _ => by simp only [DefModule.Keeps]
  | .constrained _ => by simp only [DefModule.Keeps]
  | .globalTranslation _ => by simp only [DefModule.Keeps]
  | .linear _ => by simp only [DefModule.Keeps]
  | .implicit1 m => by simp only [DefModule.Keeps]
  | .divFree m => by rw [DefModule.Keeps]; exact keepsParts_one _ _
  | .arap m => by rw [DefModule.Keeps]; exact keepsParts_one _ _
  | .silent M => by simp only [DefModule.Keeps]
  | .compound ms => by rw [DefModule.Keeps]; exact keeps_sames 0 ms
theorem keeps_sames : (k : Nat) → (ms : List (DefModule d)) → DefModule.KeepsAll Labels.same k ms
  | _, [] => by rw [DefModule.KeepsAll]; trivial
  | k, m :: ms => by rw [DefModule.KeepsAll]; exact ⟨keeps_same m, keeps_sames (k + 1) ms⟩
end

theorem geodesic_mirror {man man' : Mfd d} (h : Mirror man man') (m : DefModule d) : PyRel Eq (m.geodesic man) (m.geodesic man') := by
  have := geodesic_relabel Labels.same h m (keeps_same m)
  rw [relabel_same] at this
  exact this.mono fun a b h => by rw [h, relabel_same]

theorem geodesic_reorder {is : List Nat} (hi : IsOrder is) (ms : List (DefModule d)) {man man' : Mfd d} (h : Mirror man man') :
    PyRel (fun a b => ∃ l, a = .compound l ∧ b = .compound (reorder is l)) ((DefModule.compound ms).geodesic man) ((DefModule.compound (reorder is ms)).geodesic man') := by
  rw [DefModule.geodesic, DefModule.geodesic, geodesics_collect, geodesics_collect]
  rcases (collect_reorder hi (f := DefModule.geodesic man) (f' := DefModule.geodesic man') (l := ms) fun m _ => geodesic_mirror h m).both with ⟨a, b, e, e', rfl⟩ | ⟨_, _, e, e'⟩
  · rw [e, e']; exact ⟨a, rfl, rfl⟩
  · rw [e, e']; trivial

theorem fill_reorder {is : List Nat} (hi : IsOrder is) {ms : List (DefModule d)} (hl : ms.length = is.length) (c : Ctrl d) :
    PyRel (fun a b => ∃ l, a = .compound l ∧ b = .compound (reorder is l)) ((DefModule.compound ms).fillControls c) ((DefModule.compound (reorder is ms)).fillControls (c.reorder is)) := by
  cases c with
  | list hs =>
    simp only [Ctrl.reorder, DefModule.fillControls]
    rw [length_reorder hi, length_reorder hi]
    by_cases h : hs.length = ms.length
    · rw [if_pos h, if_pos h, fillAll_collect, fillAll_collect, ← reorder_zip hl (h.trans hl) hi]
      rcases (collect_reorder' hi (fun p : DefModule d × Ctrl d => p.1.fillControls p.2) (ms.zip hs)).both with ⟨a, b, e, e', rfl⟩ | ⟨_, _, e, e'⟩
      · rw [e, e']; exact ⟨a, rfl, rfl⟩
      · rw [e, e']; trivial
    · rw [if_neg h, if_neg h]; trivial
  | _ => simp only [Ctrl.reorder, DefModule.fillControls]; trivial

theorem manifold_reorder (is : List Nat) (ms : List (DefModule d)) : (DefModule.compound (reorder is ms)).manifold = .compound (reorder is (DefModule.manifolds ms)) := by
  rw [DefModule.manifold, manifolds_map, manifolds_map, reorder_map]

theorem controls_reorder (is : List Nat) (ms : List (DefModule d)) : (DefModule.compound (reorder is ms)).controls = (DefModule.compound ms).controls.reorder is := by
  rw [DefModule.controls, DefModule.controls, Ctrl.reorder, controlsAll_map, controlsAll_map, reorder_map]

theorem cost_reorder {is : List Nat} (hi : IsOrder is) (ms : List (DefModule d)) : PyRel Eq (DefModule.compound ms).cost (DefModule.compound (reorder is ms)).cost := by
  rw [DefModule.cost, DefModule.cost, costs_sum, costs_sum]
  exact sum_reorder hi _ _

theorem value_reorder {is : List Nat} (hi : IsOrder is) (ms : List (DefModule d)) :
    PyRel Eq (Hamiltonian.value (.compound ms)) (Hamiltonian.value (.compound (reorder is ms))) := by
  unfold Hamiltonian.value hamiltonianOn
  rcases (field_reorder hi ms).both with ⟨f, g, e, e', h⟩ | ⟨_, _, e, e'⟩
  · rw [e, e', manifold_reorder]
    dsimp only
    rcases ((mirror_reorder hi (DefModule.manifolds ms)).inner' h).both with ⟨x, y, e, e', rfl⟩ | ⟨_, _, e, e'⟩
    · rw [DefModule.manifold, e, e']
      dsimp only
      rcases (cost_reorder hi ms).both with ⟨x, y, e, e', rfl⟩ | ⟨_, _, e, e'⟩
      · rw [e, e']; exact PyRel.refl (fun _ => rfl) _
      · rw [e, e']; trivial
    · rw [DefModule.manifold, e, e']; trivial
  · rw [e, e']; trivial

end
end Imodal
