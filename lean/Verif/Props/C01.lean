import Verif.Lemmas.CopyFill
import Mathlib.Tactic.FinCases
/-!
# C01  Unrolling and rolling manifold tensors are inverse
-/
set_option autoImplicit false
namespace Imodal

variable {α : Type}

/-- The objects of the tree exist, have at least one tensor per family, hold in family
`f` as many tensors as they have shapes, of one device and dtype. -/
def Man.Holds (w : World α) (f : Fam) (m : Man) : Prop := Ready w (w.held f) m.ids

/-- `unroll_*` lists the tensors of the manifold objects of the tree, depth first. -/
theorem C01_unroll_order (w : World α) (f : Fam) (m : Man) :
    m.unroll w f = (m.ids.map (w.held f)).flatten :=
  Man.unroll_eq w f m

/-- Rolling the unrolled list, with any tensors after it, consumes exactly the tree's own
tensors; filling (by reference) with the result succeeds and leaves every tensor of every
family of every manifold object where it was. -/
theorem C01_roll_unroll (w : World α) (f : Fam) (hf : f ≠ .tan) (m : Man) (hm : m.Holds w f)
    (rest : List Ref) :
    ∃ a w', m.roll w f (m.unroll w f ++ rest) = .ok (a, rest) ∧
      Man.fill f byRef m a w = (.ok (), w') ∧ w'.objs = w.objs ∧ w'.stores = w.stores ∧
      ∀ g i, w'.held g i = w.held g i := by
  obtain ⟨w', h, hF⟩ := Man.fill_ready (c := w.held f) (f := f) m w hm
  refine ⟨m.arg (w.held f), w', ?_, h, hF.objs, hF.stores, ?_⟩
  · rw [Man.unroll_eq]; exact Man.roll_ready hf m rest hm
  · intro g i
    unfold World.held
    cases hl : w.leaves[i]? with
    | none => rw [hF.lnone i hl]
    | some l =>
      obtain ⟨l', hl', _, h2, h3, h4⟩ := hF.lsome i l hl
      rw [hl']
      by_cases hi : i ∈ m.ids
      · by_cases hg : g = f
        · subst hg; simp only; rw [h3 hi]; simp [World.held, hl]
        · simp only; rw [h2 g hg]
      · rw [h4 hi]

/-- Cutting a list along the objects of a tree. -/
theorem exists_cut (n : Nat → Nat) : ∀ (ids : List Nat), ids.Nodup → ∀ (l : List Ref),
    l.length = (ids.map n).sum →
    ∃ c : Nat → List Ref, (ids.map c).flatten = l ∧ (∀ i ∈ ids, (c i).length = n i) ∧
      ∀ i ∈ ids, ∀ r ∈ c i, r ∈ l
  | [], _, l, hl => ⟨fun _ => [], by simp at hl; simp [hl], by simp, by simp⟩
  | i :: ids, hn, l, hl => by
    simp only [List.nodup_cons] at hn
    simp only [List.map_cons, List.sum_cons] at hl
    obtain ⟨c, hc, hlen, hmem⟩ := exists_cut n ids hn.2 (l.drop (n i)) (by simp; omega)
    refine ⟨fun j => if j = i then l.take (n i) else c j, ?_, ?_, ?_⟩
    · have : ids.map (fun j => if j = i then l.take (n i) else c j) = ids.map c := by
        apply List.map_congr_left
        intro j hj
        rw [if_neg]; rintro rfl; exact hn.1 hj
      simp only [List.map_cons, if_true, List.flatten_cons, this, hc, List.take_append_drop]
    · intro j hj
      by_cases hji : j = i
      · subst hji; simp; omega
      · simp only [hji, if_false]; exact hlen j ((List.mem_cons.1 hj).resolve_left hji)
    · intro j hj r hr
      by_cases hji : j = i
      · subst hji; simp only [if_true] at hr; exact List.mem_of_mem_take hr
      · simp only [hji, if_false] at hr
        exact List.mem_of_mem_drop (hmem j ((List.mem_cons.1 hj).resolve_left hji) r hr)

/-- The converse round trip.  Take any list of as many tensors as the tree has (of one
device and dtype).  Rolling it, with any tensors after it, leaves exactly those, filling
with the result succeeds, and unrolling then returns the list.  Nothing else changes. -/
theorem C01_unroll_roll (w : World α) (f : Fam) (hf : f ≠ .tan) (m : Man)
    (hn : m.ids.Nodup)
    (hm : ∀ i ∈ m.ids, ∃ l, w.leaves[i]? = some l ∧ 0 < l.gd.shapes.length ∧
      ∀ g, (l.tc g).shapes = l.gd.shapes)
    (ts rest : List Ref) (hlen : ts.length = w.total m.ids) (hk : SameKind w ts) :
    ∃ a w', m.roll w f (ts ++ rest) = .ok (a, rest) ∧
      Man.fill f byRef m a w = (.ok (), w') ∧ w'.objs = w.objs ∧ w'.stores = w.stores ∧
      m.unroll w' f = ts ∧ ∀ g i, i ∉ m.ids ∨ g ≠ f → w'.held g i = w.held g i := by
  obtain ⟨c, hc, hcl, hmem⟩ := exists_cut w.arity m.ids hn ts hlen
  have hr : Ready w c m.ids := by
    intro i hi
    obtain ⟨l, hl, hpos, hs⟩ := hm i hi
    have har : w.arity i = l.gd.shapes.length := by simp [World.arity, hl]
    refine ⟨l, hl, fun g => by rw [hs g, hcl i hi, har], by rw [hcl i hi, har]; exact hpos, ?_⟩
    obtain ⟨d, t, h⟩ := hk
    exact ⟨d, t, fun r hr => h r (hmem i hi r hr)⟩
  obtain ⟨w', h, hF⟩ := Man.fill_ready (c := c) (f := f) m w hr
  refine ⟨m.arg c, w', ?_, h, hF.objs, hF.stores, ?_, ?_⟩
  · rw [← hc]; exact Man.roll_ready hf m rest hr
  · rw [Man.unroll_eq, ← hc]
    congr 1
    apply List.map_congr_left
    intro i hi
    obtain ⟨l, hl, _⟩ := hm i hi
    obtain ⟨l', hl', _, _, h3, _⟩ := hF.lsome i l hl
    simp only [World.held, hl']
    exact h3 hi
  · intro g i hgi
    unfold World.held
    cases hl : w.leaves[i]? with
    | none => rw [hF.lnone i hl]
    | some l =>
      obtain ⟨l', hl', _, h2, h3, h4⟩ := hF.lsome i l hl
      rw [hl']
      rcases hgi with hi | hg
      · rw [h4 hi]
      · simp only; rw [h2 g hg]

theorem popN_short {τ : Type} : ∀ (n : Nat) (l : List τ), l.length < n → popN n l = .error .index
  | 0, _, h => by simp at h
  | n + 1, [], _ => rfl
  | n + 1, t :: l, h => by
    simp only [List.length_cons] at h
    simp [popN, popN_short n l (by omega)]

theorem popN_long {τ : Type} : ∀ (n : Nat) (l : List τ), n ≤ l.length →
    popN n l = .ok (l.take n, l.drop n)
  | 0, _, _ => by simp [popN]
  | n + 1, [], h => by simp at h
  | n + 1, t :: l, h => by
    simp only [List.length_cons] at h
    simp [popN, popN_long n l (by omega)]

theorem rollShapes_short {τ : Type} (n : Nat) (l : List τ) (h : l.length < n) :
    rollShapes n l = .error .index := by
  unfold rollShapes
  split
  · omega
  · split
    · cases l with
      | nil => rfl
      | cons t l => simp at h; omega
    · rw [popN_short n l h]

theorem rollShapes_long {τ : Type} (n : Nat) (l : List τ) (h : n ≤ l.length) :
    ∃ a, rollShapes n l = .ok (a, l.drop n) := by
  unfold rollShapes
  split
  · next h0 => subst h0; exact ⟨_, rfl⟩
  · split
    · next h0 h1 =>
      subst h1
      cases l with
      | nil => simp at h
      | cons t l => exact ⟨.tensor t, rfl⟩
    · rw [popN_long n l h]; exact ⟨_, rfl⟩

mutual
theorem Man.roll_count {τ : Type} {w : World α} {f : Fam} (hf : f ≠ .tan) : ∀ (m : Man)
    (l : List τ), (∀ i ∈ m.ids, ∃ lf, w.leaves[i]? = some lf ∧ ∀ g, (lf.tc g).shapes = lf.gd.shapes) →
    (l.length < w.total m.ids → m.roll w f l = .error .index) ∧
    (w.total m.ids ≤ l.length → ∃ a, m.roll w f l = .ok (a, l.drop (w.total m.ids)))
  | .empty, l, _ => by simp [Man.ids, World.total, Man.roll]
  | .leaf i, l, h => by
    obtain ⟨lf, hl, hs⟩ := h i (by simp [Man.ids])
    have ht : w.total (Man.leaf i).ids = (lf.tc f).shapes.length := by
      simp [Man.ids, World.total, World.arity, hl, hs f]
    rw [ht]
    simp only [Man.roll, hl]
    exact ⟨rollShapes_short _ _, rollShapes_long _ _⟩
  | .compound ms, l, h => by
    obtain ⟨h1, h2⟩ := Man.rollList_count (τ := τ) hf ms l h
    refine ⟨fun hlt => ?_, fun hle => ?_⟩
    · simp [Man.roll, hf, h1 hlt]
    · obtain ⟨as, h⟩ := h2 hle
      exact ⟨.list as, by simp only [Man.roll, hf, if_false, h]; rfl⟩
theorem Man.rollList_count {τ : Type} {w : World α} {f : Fam} (hf : f ≠ .tan) : ∀ (ms : List Man)
    (l : List τ), (∀ i ∈ Man.ids.idsList ms,
      ∃ lf, w.leaves[i]? = some lf ∧ ∀ g, (lf.tc g).shapes = lf.gd.shapes) →
    (l.length < w.total (Man.ids.idsList ms) → Man.roll.rollList w f ms l = .error .index) ∧
    (w.total (Man.ids.idsList ms) ≤ l.length →
      ∃ as, Man.roll.rollList w f ms l = .ok (as, l.drop (w.total (Man.ids.idsList ms))))
  | [], l, _ => by simp [Man.ids.idsList, World.total, Man.roll.rollList]
  | m :: ms, l, h => by
    have ht : w.total (Man.ids.idsList (m :: ms)) = w.total m.ids + w.total (Man.ids.idsList ms) := by
      simp [Man.ids.idsList, World.total]
    obtain ⟨h1, h2⟩ := Man.roll_count (τ := τ) hf m l
      (fun i hi => h i (by simp [Man.ids.idsList, hi]))
    rw [ht]
    by_cases hc : w.total m.ids ≤ l.length
    · obtain ⟨a, ha⟩ := h2 hc
      obtain ⟨h3, h4⟩ := Man.rollList_count (τ := τ) hf ms (l.drop (w.total m.ids))
        (fun i hi => h i (by simp [Man.ids.idsList, hi]))
      simp only [List.length_drop] at h3 h4
      refine ⟨fun hlt => ?_, fun hle => ?_⟩
      · simp [Man.roll.rollList, ha, h3 (by omega)]
      · obtain ⟨as, has⟩ := h4 (by omega)
        exact ⟨a :: as, by simp [Man.roll.rollList, ha, has, List.drop_drop]⟩
    · refine ⟨fun _ => ?_, fun hle => by omega⟩
      simp [Man.roll.rollList, h1 (by omega)]
end

/-- Rolling never takes more or fewer tensors than the tree has: with a list that is too
short it raises `IndexError`, otherwise it succeeds and leaves exactly the list without
its first `total` elements (whatever the elements are). -/
theorem C01_roll_consumes {τ : Type} (w : World α) (f : Fam) (hf : f ≠ .tan) (m : Man)
    (hm : ∀ i ∈ m.ids, ∃ l, w.leaves[i]? = some l ∧ ∀ g, (l.tc g).shapes = l.gd.shapes)
    (l : List τ) :
    (l.length < w.total m.ids → m.roll w f l = .error .index) ∧
    (w.total m.ids ≤ l.length → ∃ a, m.roll w f l = .ok (a, l.drop (w.total m.ids))) :=
  Man.roll_count hf m l hm

/-! Non-vacuity: a nested tree with an empty child, a one-tensor child and a two-tensor
child. -/

def exTObj (s : Nat) : TObj := ⟨s, "cpu", "float32", false, false⟩
def exTC (n : Nat) (ts : List Ref) : TC := ⟨List.replicate n [2, 2], ts, false, "cpu", "float32"⟩
def exWorld : World Int :=
  ⟨(List.range 9).map exTObj, [10, 11, 12, 13, 14, 15, 16, 17, 18],
   [⟨exTC 1 [0], exTC 1 [1], exTC 1 [2], "cpu", "float32", none⟩,
    ⟨exTC 2 [3, 4], exTC 2 [5, 6], exTC 2 [7, 8], "cpu", "float32", none⟩]⟩
def exMan : Man := .compound [.leaf 1, .compound [.empty, .leaf 0]]

theorem exMan_ids : exMan.ids = [1, 0] := rfl

theorem exMan_holds : exMan.Holds exWorld .gd := by
  intro i hi
  rw [exMan_ids] at hi
  simp only [List.mem_cons, List.not_mem_nil, or_false] at hi
  rcases hi with rfl | rfl
  · refine ⟨_, rfl, fun g => by cases g <;> rfl, by decide, "cpu", "float32", ?_⟩
    intro r hr
    fin_cases hr <;> exact ⟨_, rfl, rfl, rfl⟩
  · refine ⟨_, rfl, fun g => by cases g <;> rfl, by decide, "cpu", "float32", ?_⟩
    intro r hr
    fin_cases hr <;> exact ⟨_, rfl, rfl, rfl⟩

example : exMan.Holds exWorld .gd ∧ exMan.unroll exWorld .gd = [3, 4, 0] := ⟨exMan_holds, rfl⟩

/-- The hypotheses of `C01_unroll_roll` and `C01_roll_consumes` hold of that tree. -/
example : exMan.ids.Nodup ∧ (∀ i ∈ exMan.ids, ∃ l, exWorld.leaves[i]? = some l ∧
    0 < l.gd.shapes.length ∧ ∀ g, (l.tc g).shapes = l.gd.shapes) ∧
    ([5, 6, 1] : List Ref).length = exWorld.total exMan.ids ∧ SameKind exWorld [5, 6, 1] := by
  refine ⟨by decide, ?_, rfl, "cpu", "float32", ?_⟩
  · intro i hi
    rw [exMan_ids] at hi
    fin_cases hi <;> exact ⟨_, rfl, by decide, fun g => by cases g <;> rfl⟩
  · intro r hr
    fin_cases hr <;> exact ⟨_, rfl, rfl, rfl⟩

end Imodal
