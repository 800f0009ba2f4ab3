import Verif.Spec.Aabb
import Mathlib.Tactic.Common
import Mathlib.Tactic.FinCases
import Mathlib.Algebra.Order.Ring.Rat
import Mathlib.Tactic.NormNum
/-!
# C47  Bounding boxes enclose and round-trip
-/
set_option autoImplicit false
namespace Imodal
variable {𝕜 : Type}

section order
variable [LinearOrder 𝕜]

theorem checkOrder_ok_iff : ∀ (as bs : List 𝕜),
    checkOrder as bs = .ok () ↔ ∀ (i : Nat) (a b : 𝕜), as[i]? = some a → bs[i]? = some b → a ≤ b
  | [], bs => by simp [checkOrder]
  | a :: as, [] => by simp [checkOrder]
  | a :: as, b :: bs => by
    simp only [checkOrder]
    split
    · rename_i h
      constructor
      · intro h'; cases h'
      · intro h'; exact absurd (h' 0 a b rfl rfl) (not_le.2 h)
    · rename_i h
      rw [checkOrder_ok_iff as bs]
      constructor
      · intro h' i x y hx hy
        cases i with
        | zero => simp at hx hy; subst hx hy; exact not_lt.1 h
        | succ i => exact h' i x y (by simpa using hx) (by simpa using hy)
      · intro h' i x y hx hy
        exact h' (i + 1) x y (by simpa using hx) (by simpa using hy)

theorem checkOrder_cases (as bs : List 𝕜) :
    checkOrder as bs = .ok () ∨ checkOrder as bs = .error .value := by
  induction as generalizing bs with
  | nil => simp [checkOrder]
  | cons a as ih =>
    cases bs with
    | nil => simp [checkOrder]
    | cons b bs =>
      simp only [checkOrder]
      split
      · exact Or.inr rfl
      · exact ih bs

theorem ofTwo_wf {b : AABB 𝕜} (h : b.WF) : AABB.ofTwo b.kmin b.kmax = .ok b := by
  have := (checkOrder_ok_iff b.kmin b.kmax).2 h.le
  simp [AABB.ofTwo, h.lmin, h.lmax, this]

theorem evens_flat : ∀ (as bs : List 𝕜), as.length = bs.length →
    evens ((as.zip bs).flatMap fun c => [c.1, c.2]) = as ∧
    odds ((as.zip bs).flatMap fun c => [c.1, c.2]) = bs
  | [], [], _ => by simp [evens, odds]
  | a :: as, b :: bs, h => by
    have := evens_flat as bs (by simpa using h)
    simp only [List.zip_cons_cons, List.flatMap_cons, List.cons_append, List.nil_append, evens, odds]
    simp [this]

theorem flat_length : ∀ (as bs : List 𝕜), as.length = bs.length →
    ((as.zip bs).flatMap fun c => [c.1, c.2]).length = 2 * as.length
  | [], [], _ => by simp
  | a :: as, b :: bs, h => by
    have := flat_length as bs (by simpa using h)
    simp only [List.zip_cons_cons, List.flatMap_cons, List.length_append, this]
    simp; omega

theorem nums_map (l : List 𝕜) : BoxArg.nums (l.map BoxArg.num) = .ok l := by
  induction l with
  | nil => rfl
  | cons a l ih => simp [BoxArg.nums, ih]

theorem ofArgs_nums {l : List 𝕜} (h : l ≠ []) : AABB.ofArgs (l.map BoxArg.num) = AABB.ofFlat l := by
  match l, h with
  | [a], _ => simp [AABB.ofArgs, BoxArg.nums]
  | [a, b], _ => simp [AABB.ofArgs, BoxArg.nums]
  | a :: b :: c :: l, _ =>
    have := nums_map (a :: b :: c :: l)
    simp only [List.map_cons] at this
    simp [AABB.ofArgs, this]

/-- Every box the constructor returns from two iterables or a flat list is proper, and the
bounds are those given. -/
theorem C47_constructed_proper (kmin kmax : List 𝕜) (b : AABB 𝕜)
    (h : AABB.ofTwo kmin kmax = .ok b) :
    b.WF ∧ b.kmin = kmin ∧ b.kmax = kmax ∧ b.dim = kmin.length := by
  unfold AABB.ofTwo at h
  split at h
  · cases h
  · rename_i hl
    rcases checkOrder_cases kmin kmax with hc | hc
    · rw [hc] at h
      cases h
      exact ⟨⟨rfl, by simp at hl; exact hl.symm, (checkOrder_ok_iff _ _).1 hc⟩, rfl, rfl, rfl⟩
    · rw [hc] at h; cases h

/-- Bounds in the wrong order are rejected with `ValueError`. -/
theorem C47_inverted_rejected (kmin kmax : List 𝕜) (hl : kmin.length = kmax.length)
    (i : Nat) (lo hi : 𝕜) (h1 : kmin[i]? = some lo) (h2 : kmax[i]? = some hi) (h : hi < lo) :
    AABB.ofTwo kmin kmax = .error .value := by
  unfold AABB.ofTwo
  rw [if_neg (by simpa using hl)]
  rcases checkOrder_cases kmin kmax with hc | hc
  · exact absurd ((checkOrder_ok_iff _ _).1 hc i lo hi h1 h2) (not_le.2 h)
  · rw [hc]

/-- Couples, tuple and back. -/
theorem C47_tuple_roundtrip (b : AABB 𝕜) (hb : b.WF) (hd : 0 < b.dim) :
    AABB.ofArgs (b.totuple.map BoxArg.num) = .ok b ∧
    AABB.ofArgs [.iter (b.tocouple.map Prod.fst), .iter (b.tocouple.map Prod.snd)] = .ok b ∧
    b.totuple.length = 2 * b.dim ∧
    ∀ i : Nat, b.tocouple[i]? = (b.kmin[i]?).bind fun lo => (b.kmax[i]?).map fun hi => (lo, hi) := by
  have hl : b.kmin.length = b.kmax.length := by rw [hb.lmin, hb.lmax]
  have hlen : b.totuple.length = 2 * b.dim := by
    simp only [AABB.totuple, AABB.tocouple, flat_length _ _ hl, hb.lmin]
  refine ⟨?_, ?_, hlen, ?_⟩
  · rw [ofArgs_nums (by intro h; rw [h] at hlen; simp at hlen; omega)]
    have he := evens_flat b.kmin b.kmax hl
    have hc := (checkOrder_ok_iff b.kmin b.kmax).2 hb.le
    unfold AABB.ofFlat
    rw [hlen, if_neg (by omega)]
    simp only [AABB.totuple, AABB.tocouple, he.1, he.2, hc]
    congr 1
    cases b; simp
  · simp only [AABB.ofArgs, AABB.tocouple]
    rw [List.map_fst_zip (by omega), List.map_snd_zip (by omega)]
    exact ofTwo_wf hb
  · intro i
    simp only [AABB.tocouple, List.getElem?_zip_eq_some, List.zip, List.getElem?_zipWith]
    cases b.kmin[i]? <;> cases b.kmax[i]? <;> rfl

/-- Dictionary and back, in the one to three dimensions the class has names for. -/
theorem C47_dict_roundtrip (b : AABB 𝕜) (hb : b.WF) (hd : 0 < b.dim) (hd3 : b.dim ≤ 3) :
    AABB.ofKwargs b.todict = .ok b := by
  obtain ⟨d, kmin, kmax⟩ := b
  obtain ⟨h1, h2, h3⟩ := hb
  simp only at h1 h2 h3 hd hd3
  match kmin, kmax, h1, h2 with
  | [a], [b], h1, h2 =>
    subst h1
    have := not_lt.2 (h3 0 a b rfl rfl)
    simp [AABB.ofKwargs, AABB.todict, dictUpdate, dimPrefix, Dict.set, kwargsLoop, Dict.get?, this]
  | [a, a'], [b, b'], h1, h2 =>
    subst h1
    have := not_lt.2 (h3 0 a b rfl rfl)
    have := not_lt.2 (h3 1 a' b' rfl rfl)
    simp [AABB.ofKwargs, AABB.todict, dictUpdate, dimPrefix, Dict.set, kwargsLoop, Dict.get?, *]
  | [a, a', a''], [b, b', b''], h1, h2 =>
    subst h1
    have := not_lt.2 (h3 0 a b rfl rfl)
    have := not_lt.2 (h3 1 a' b' rfl rfl)
    have := not_lt.2 (h3 2 a'' b'' rfl rfl)
    simp [AABB.ofKwargs, AABB.todict, dictUpdate, dimPrefix, Dict.set, kwargsLoop, Dict.get?, *]
  | [], _, h1, h2 => simp at h1; omega
  | [_], [], h1, h2 => simp at h1 h2; omega
  | [_], _ :: _ :: _, h1, h2 => simp at h1 h2; omega
  | [_, _], [], h1, h2 => simp at h1 h2; omega
  | [_, _], [_], h1, h2 => simp at h1 h2; omega
  | [_, _], _ :: _ :: _ :: _, h1, h2 => simp at h1 h2; omega
  | [_, _, _], [], h1, h2 => simp at h1 h2; omega
  | [_, _, _], [_], h1, h2 => simp at h1 h2; omega
  | [_, _, _], [_, _], h1, h2 => simp at h1 h2; omega
  | [_, _, _], _ :: _ :: _ :: _ :: _, h1, h2 => simp at h1 h2; omega
  | _ :: _ :: _ :: _ :: _, _, h1, h2 => simp at h1; omega

/-- Disagreement: from four dimensions on the dictionary loses the extra axes. -/
theorem C47_dict_truncates (b : AABB 𝕜) (hb : b.WF) (hd3 : 3 < b.dim) :
    ∃ b', AABB.ofKwargs b.todict = .ok b' ∧ b'.dim = 3 := by
  obtain ⟨d, kmin, kmax⟩ := b
  obtain ⟨h1, h2, h3⟩ := hb
  simp only at h1 h2 h3 hd3
  match kmin, kmax, h1, h2 with
  | a :: a' :: a'' :: as, b :: b' :: b'' :: bs, h1, h2 =>
    have := not_lt.2 (h3 0 a b rfl rfl)
    have := not_lt.2 (h3 1 a' b' rfl rfl)
    have := not_lt.2 (h3 2 a'' b'' rfl rfl)
    refine ⟨⟨3, [a, a', a''], [b, b', b'']⟩, ?_, rfl⟩
    simp [AABB.ofKwargs, AABB.todict, dictUpdate, dimPrefix, Dict.set, kwargsLoop, Dict.get?, *]
  | [], _, h1, h2 => simp at h1; omega
  | [_], _, h1, h2 => simp at h1; omega
  | [_, _], _, h1, h2 => simp at h1; omega
  | _, [], h1, h2 => simp at h2; omega
  | _, [_], h1, h2 => simp at h2; omega
  | _, [_, _], h1, h2 => simp at h2; omega

theorem foldl_min_spec : ∀ (rs : List (Nat → 𝕜)) (j : Nat) (m : 𝕜),
    (rs.foldl (fun m p => min m (p j)) m ≤ m) ∧
    (∀ p ∈ rs, rs.foldl (fun m p => min m (p j)) m ≤ p j) ∧
    ∀ x, x ≤ m → (∀ p ∈ rs, x ≤ p j) → x ≤ rs.foldl (fun m p => min m (p j)) m
  | [], j, m => by simp
  | r :: rs, j, m => by
    have ih := foldl_min_spec rs j (min m (r j))
    refine ⟨le_trans ih.1 (min_le_left _ _), ?_, ?_⟩
    · intro p hp
      rcases List.mem_cons.1 hp with rfl | hp
      · exact le_trans ih.1 (min_le_right _ _)
      · exact ih.2.1 p hp
    · intro x hx hp
      exact ih.2.2 x (le_min hx (hp r (by simp))) (fun p h => hp p (by simp [h]))

theorem foldl_max_spec : ∀ (rs : List (Nat → 𝕜)) (j : Nat) (m : 𝕜),
    (m ≤ rs.foldl (fun m p => max m (p j)) m) ∧
    (∀ p ∈ rs, p j ≤ rs.foldl (fun m p => max m (p j)) m) ∧
    ∀ x, m ≤ x → (∀ p ∈ rs, p j ≤ x) → rs.foldl (fun m p => max m (p j)) m ≤ x
  | [], j, m => by simp
  | r :: rs, j, m => by
    have ih := foldl_max_spec rs j (max m (r j))
    refine ⟨le_trans (le_max_left _ _) ih.1, ?_, ?_⟩
    · intro p hp
      rcases List.mem_cons.1 hp with rfl | hp
      · exact le_trans (le_max_right _ _) ih.1
      · exact ih.2.1 p hp
    · intro x hx hp
      exact ih.2.2 x (max_le hx (hp r (by simp))) (fun p h => hp p (by simp [h]))

/-- A box built from at least one point succeeds, has the dimension of the points,
contains every point, and lies inside every box that contains every point. -/
theorem C47_build_smallest (cols : Nat) (rows : List (Nat → 𝕜)) (hne : rows ≠ []) :
    ∃ b, AABB.buildFromPoints cols rows = .ok b ∧ b.WF ∧ b.dim = cols ∧
      (∀ p ∈ rows, b.Contains p) ∧
      ∀ b' : AABB 𝕜, b'.WF → b'.dim = cols → (∀ p ∈ rows, b'.Contains p) →
        ∀ (i : Nat) (lo hi lo' hi' : 𝕜), b.kmin[i]? = some lo → b.kmax[i]? = some hi →
          b'.kmin[i]? = some lo' → b'.kmax[i]? = some hi' → lo' ≤ lo ∧ hi ≤ hi' := by
  match rows, hne with
  | r :: rs, _ =>
    let lo := (List.range cols).map fun j => rs.foldl (fun m p => min m (p j)) (r j)
    let hi := (List.range cols).map fun j => rs.foldl (fun m p => max m (p j)) (r j)
    have hlo : ∀ i x, lo[i]? = some x → i < cols ∧ x = rs.foldl (fun m p => min m (p i)) (r i) := by
      intro i x h
      simp only [lo, List.getElem?_map, Option.map_eq_some_iff] at h
      obtain ⟨j, hj, rfl⟩ := h
      rw [List.getElem?_eq_some_iff] at hj
      obtain ⟨h1, h2⟩ := hj
      simp at h1 h2
      subst h2; exact ⟨h1, rfl⟩
    have hhi : ∀ i x, hi[i]? = some x → i < cols ∧ x = rs.foldl (fun m p => max m (p i)) (r i) := by
      intro i x h
      simp only [hi, List.getElem?_map, Option.map_eq_some_iff] at h
      obtain ⟨j, hj, rfl⟩ := h
      rw [List.getElem?_eq_some_iff] at hj
      obtain ⟨h1, h2⟩ := hj
      simp at h1 h2
      subst h2; exact ⟨h1, rfl⟩
    have hwf : (⟨cols, lo, hi⟩ : AABB 𝕜).WF := by
      refine ⟨by simp [lo], by simp [hi], ?_⟩
      intro i a b ha hb
      rw [(hlo i a ha).2, (hhi i b hb).2]
      exact le_trans (foldl_min_spec rs i (r i)).1 (foldl_max_spec rs i (r i)).1
    refine ⟨⟨cols, lo, hi⟩, ?_, hwf, rfl, ?_, ?_⟩
    · exact ofTwo_wf hwf
    · intro p hp i a b ha hb
      rw [(hlo i a ha).2, (hhi i b hb).2]
      rcases List.mem_cons.1 hp with rfl | hp
      · exact ⟨(foldl_min_spec rs i (p i)).1, (foldl_max_spec rs i (p i)).1⟩
      · exact ⟨(foldl_min_spec rs i (r i)).2.1 p hp, (foldl_max_spec rs i (r i)).2.1 p hp⟩
    · intro b' _ _ hc i a b a' b'' ha hb ha' hb'
      rw [(hlo i a ha).2, (hhi i b hb).2]
      constructor
      · exact (foldl_min_spec rs i (r i)).2.2 a' (hc r (by simp) i a' b'' ha' hb').1
          (fun p hp => (hc p (by simp [hp]) i a' b'' ha' hb').1)
      · exact (foldl_max_spec rs i (r i)).2.2 b'' (hc r (by simp) i a' b'' ha' hb').2
          (fun p hp => (hc p (by simp [hp]) i a' b'' ha' hb').2)

end order

section inside
variable [Field 𝕜] [LinearOrder 𝕜]

theorem foldl_mul_ne : ∀ (xs : List 𝕜) (x : 𝕜), xs.foldl (· * ·) x ≠ 0 ↔ x ≠ 0 ∧ ∀ y ∈ xs, y ≠ 0
  | [], x => by simp
  | y :: xs, x => by
    simp only [List.foldl_cons, foldl_mul_ne xs (x * y), ne_eq, mul_eq_zero, List.mem_cons,
      forall_eq_or_imp]
    tauto

/-- `is_inside` decides membership, for every proper box of at least one dimension and
points with at least that many coordinates. -/
theorem C47_is_inside (b : AABB 𝕜) (hb : b.WF) (hd : 0 < b.dim) (cols : Nat) (hc : b.dim ≤ cols)
    (p : Nat → 𝕜) :
    ∃ r, b.isInside cols p = .ok r ∧ (r = true ↔ b.Contains p) := by
  have hmap : (List.range b.dim).mapM (insideCol b p) = some ((List.range b.dim).map fun i =>
      if b.kmin.getD i 0 ≤ p i ∧ p i ≤ b.kmax.getD i 0 then (1 : 𝕜) else 0) := by
    have : ∀ l : List Nat, (∀ i ∈ l, i < b.dim) → l.mapM (insideCol b p) = some (l.map fun i =>
        if b.kmin.getD i 0 ≤ p i ∧ p i ≤ b.kmax.getD i 0 then (1 : 𝕜) else 0) := by
      intro l
      induction l with
      | nil => intro _; rfl
      | cons i l ih =>
        intro hl
        have hi := hl i (by simp)
        have h1 : i < b.kmin.length := by rw [hb.lmin]; exact hi
        have h2 : i < b.kmax.length := by rw [hb.lmax]; exact hi
        rw [List.mapM_cons, ih (fun j hj => hl j (by simp [hj]))]
        simp [insideCol, h1, h2]
    exact this _ (by simp)
  unfold AABB.isInside
  rw [if_neg (by omega), hmap]
  obtain ⟨n, hn⟩ : ∃ n, b.dim = n + 1 := ⟨b.dim - 1, by omega⟩
  cases hxs : (List.range b.dim).map (fun i =>
      if b.kmin.getD i 0 ≤ p i ∧ p i ≤ b.kmax.getD i 0 then (1 : 𝕜) else 0) with
  | nil => rw [hn] at hxs; simp at hxs
  | cons x xs =>
    simp only [accumulateLast]
    refine ⟨_, rfl, ?_⟩
    rw [decide_eq_true_iff, foldl_mul_ne]
    have : (x ≠ 0 ∧ ∀ y ∈ xs, y ≠ 0) ↔ ∀ y ∈ x :: xs, y ≠ 0 := by simp
    rw [this, ← hxs]
    simp only [List.mem_map, List.mem_range, forall_exists_index, and_imp, forall_apply_eq_imp_iff₂]
    constructor
    · intro h i lo hi hlo hhi
      have hi' : i < b.dim := by rw [← hb.lmin]; exact (List.getElem?_eq_some_iff.1 hlo).1
      have := h i hi'
      simp only [List.getD_eq_getElem?_getD, hlo, hhi, Option.getD_some] at this
      by_contra hcon
      rw [if_neg hcon] at this
      exact this rfl
    · intro h i hi
      have h1 : i < b.kmin.length := by rw [hb.lmin]; exact hi
      have h2 : i < b.kmax.length := by rw [hb.lmax]; exact hi
      have := h i b.kmin[i] b.kmax[i] (by simp [h1]) (by simp [h2])
      simp [h1, h2, this]

end inside

/-! Non-vacuity. -/
def exBox : AABB ℚ := ⟨2, [0, -1], [2, 3]⟩

theorem exBox_wf : exBox.WF := by
  refine ⟨rfl, rfl, ?_⟩
  intro i lo hi h1 h2
  match i with
  | 0 => simp [exBox] at h1 h2; subst h1 h2; norm_num
  | 1 => simp [exBox] at h1 h2; subst h1 h2; norm_num
  | i + 2 => simp [exBox] at h1

example : ∃ b, AABB.ofTwo (𝕜 := ℚ) [0, -1] [2, 3] = .ok b := ⟨_, ofTwo_wf exBox_wf⟩
example : ∃ r, exBox.isInside 2 (fun _ => 1) = .ok r ∧ (r = true ↔ exBox.Contains fun _ => 1) :=
  C47_is_inside exBox exBox_wf (by decide) 2 (by decide) _
example : exBox.Contains fun _ => 1 := by
  intro i lo hi h1 h2
  match i with
  | 0 => simp [exBox] at h1 h2; subst h1 h2; norm_num
  | 1 => simp [exBox] at h1 h2; subst h1 h2; norm_num
  | i + 2 => simp [exBox] at h1

end Imodal
