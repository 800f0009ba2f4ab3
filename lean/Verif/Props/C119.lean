import Verif.Model.BoxItems
import Verif.Spec.Aabb
import Verif.Props.C47
import Verif.Props.C49
/-!
# C119: the items of a box, its sizes, and filling it by density
-/
set_option autoImplicit false
namespace Imodal

/-- What Python's iteration over an object without `__iter__` does: items `0, 1, …` until
`IndexError`. -/
def IterGives (get : Int → Py ℝ) (l : List ℝ) : Prop :=
  (∀ (i : Nat) (x : ℝ), l[i]? = some x → get i = .ok x) ∧ get l.length = .error .index

theorem pyItem_nat {α : Type} (l : List α) (i : Nat) (x : α) (h : l[i]? = some x) :
    pyItem l i = .ok x := by
  have : ¬ ((i : Int) < 0) := by omega
  simp [pyItem, this, h]

theorem pyItem_neg {α : Type} (l : List α) (i : Nat) (h0 : 0 < i) (hi : i ≤ l.length) (x : α)
    (h : l[l.length - i]? = some x) : pyItem l (-(i : Int)) = .ok x := by
  have h1 : (-(i : Int)) < 0 := by omega
  have h2 : (-(i : Int) + l.length).toNat = l.length - i := by omega
  have h3 : ¬ (-(i : Int) + l.length < 0) := by omega
  simp only [pyItem, h1, if_true, h2, h, h3, if_false]

theorem pyItem_out {α : Type} (l : List α) (i : Int) (h : i < -(l.length : Int) ∨ (l.length : Int) ≤ i) :
    pyItem l i = .error .index := by
  unfold pyItem
  rcases h with h | h
  · have h1 : i < 0 := by omega
    have h2 : i + l.length < 0 := by omega
    simp only [h1, if_true, h2]
    split <;> rfl
  · have h1 : ¬ i < 0 := by omega
    have h2 : l[i.toNat]? = none := by rw [List.getElem?_eq_none_iff]; omega
    simp only [h1, if_false, h2]

/-- Integer items: the bounds in the order `xmin, xmax, ymin, …`, from the front and from the
back; every other integer raises `IndexError`. -/
theorem C119_items (b : AABB ℝ) (hb : b.WF) :
    (∀ (i : Nat) (lo hi : ℝ), b.kmin[i]? = some lo → b.kmax[i]? = some hi →
      b.item (.int (2 * i)) = .ok lo ∧ b.item (.int (2 * i + 1)) = .ok hi ∧
      b.item (.int (2 * i - 2 * b.dim)) = .ok lo ∧ b.item (.int (2 * i + 1 - 2 * b.dim)) = .ok hi) ∧
    ∀ i : Int, i < -(2 * b.dim : Int) ∨ (2 * b.dim : Int) ≤ i → b.item (.int i) = .error .index := by
  have hl : b.kmin.length = b.kmax.length := by rw [hb.lmin, hb.lmax]
  have hlen : b.totuple.length = 2 * b.dim := by
    simp only [AABB.totuple, AABB.tocouple, flat_length _ _ hl, hb.lmin]
  have key : ∀ (as bs : List ℝ) (i : Nat) (lo hi : ℝ), as[i]? = some lo → bs[i]? = some hi →
      ((as.zip bs).flatMap fun c => [c.1, c.2])[2 * i]? = some lo ∧
      ((as.zip bs).flatMap fun c => [c.1, c.2])[2 * i + 1]? = some hi := by
    intro as
    induction as with
    | nil => intro bs i lo hi h; simp at h
    | cons a as ih =>
      intro bs i lo hi h1 h2
      cases bs with
      | nil => simp at h2
      | cons b bs =>
        cases i with
        | zero => simp at h1 h2; simp [h1, h2]
        | succ i =>
          have := ih bs i lo hi (by simpa using h1) (by simpa using h2)
          simpa [Nat.mul_add, Nat.add_right_comm] using this
  refine ⟨?_, ?_⟩
  · intro i lo hi h1 h2
    obtain ⟨k1, k2⟩ := key b.kmin b.kmax i lo hi h1 h2
    have hi' : i < b.dim := by rw [← hb.lmin]; exact (List.getElem?_eq_some_iff.1 h1).1
    refine ⟨?_, ?_, ?_, ?_⟩
    · exact_mod_cast pyItem_nat b.totuple (2 * i) lo k1
    · exact_mod_cast pyItem_nat b.totuple (2 * i + 1) hi k2
    · have := pyItem_neg b.totuple (2 * b.dim - 2 * i) (by omega) (by omega) lo
        (by rw [hlen, show 2 * b.dim - (2 * b.dim - 2 * i) = 2 * i by omega]; exact k1)
      rw [show (-((2 * b.dim - 2 * i : Nat) : Int)) = 2 * i - 2 * b.dim by omega] at this
      exact this
    · have := pyItem_neg b.totuple (2 * b.dim - (2 * i + 1)) (by omega) (by omega) hi
        (by rw [hlen, show 2 * b.dim - (2 * b.dim - (2 * i + 1)) = 2 * i + 1 by omega]; exact k2)
      rw [show (-((2 * b.dim - (2 * i + 1) : Nat) : Int)) = 2 * i + 1 - 2 * b.dim by omega] at this
      exact this
  · intro i h
    exact pyItem_out _ _ (by rw [hlen]; push_cast; exact h)

/-- Iterating over a box gives exactly its tuple, so `AABB(*box)` rebuilds the box. -/
theorem C119_iterate (b : AABB ℝ) (hb : b.WF) (hd : 0 < b.dim) (l : List ℝ) :
    (IterGives (fun i => b.item (.int i)) l ↔ l = b.totuple) ∧
    (IterGives (fun i => b.item (.int i)) l → AABB.ofArgs (l.map BoxArg.num) = .ok b) := by
  have h1 : IterGives (fun i => b.item (.int i)) l ↔ l = b.totuple := by
    constructor
    · rintro ⟨h, he⟩
      have hle : l.length ≤ b.totuple.length := by
        by_contra hc
        have hlt : b.totuple.length < l.length := by omega
        have := h b.totuple.length l[b.totuple.length] (by simp)
        simp only [AABB.item] at this
        rw [pyItem_out _ _ (Or.inr le_rfl)] at this
        cases this
      have hge : b.totuple.length ≤ l.length := by
        by_contra hc
        have hlt : l.length < b.totuple.length := by omega
        have := pyItem_nat b.totuple l.length b.totuple[l.length] (by simp)
        simp only [AABB.item] at he
        rw [this] at he; cases he
      apply List.ext_getElem (le_antisymm hle hge)
      intro i hi hi'
      have e1 := h i l[i] (by simp)
      have e2 := pyItem_nat b.totuple i b.totuple[i] (by simp)
      simp only [AABB.item] at e1
      rw [e2] at e1
      exact (Except.ok.inj e1).symm
    · rintro rfl
      exact ⟨fun i x h => pyItem_nat _ _ _ h, pyItem_out _ _ (Or.inr le_rfl)⟩
  exact ⟨h1, fun h => by rw [h1.1 h]; exact (C47_tuple_roundtrip b hb hd).1⟩

/-- String items: the bounds and side lengths along the first three axes; an axis the box does
not have raises `IndexError`. A key that is neither an integer nor a string is rejected. -/
theorem C119_names (b : AABB ℝ) (hb : b.WF) (i : Fin 3) :
    (∀ lo hi : ℝ, b.kmin[i.val]? = some lo → b.kmax[i.val]? = some hi →
      b.item (.str (["xmin", "ymin", "zmin"].get i)) = .ok lo ∧
      b.item (.str (["xmax", "ymax", "zmax"].get i)) = .ok hi ∧
      b.item (.str (["width", "height", "depth"].get i)) = .ok (hi - lo)) ∧
    (b.dim ≤ i.val →
      b.item (.str (["xmin", "ymin", "zmin"].get i)) = .error .index ∧
      b.item (.str (["xmax", "ymax", "zmax"].get i)) = .error .index ∧
      b.item (.str (["width", "height", "depth"].get i)) = .error .index) ∧
    b.item .other = .error .value := by
  refine ⟨?_, ?_, rfl⟩
  · intro lo hi h1 h2
    have e1 := pyItem_nat _ _ _ h1
    have e2 := pyItem_nat _ _ _ h2
    fin_cases i <;> simp at e1 e2 ⊢ <;> simp [AABB.item, AABB.attr, AABB.lengthIndex, e1, e2]
  · intro h
    have e1 : pyItem b.kmin (i.val : Int) = .error .index :=
      pyItem_out _ _ (Or.inr (by rw [hb.lmin]; omega))
    have e2 : pyItem b.kmax (i.val : Int) = .error .index :=
      pyItem_out _ _ (Or.inr (by rw [hb.lmax]; omega))
    fin_cases i <;> simp at e1 e2 ⊢ <;> simp [AABB.item, AABB.attr, AABB.lengthIndex, e1, e2]

/-- `length`, `area` and `volume`: the product of the side lengths, never negative, each in
its own dimension only. -/
theorem C119_sizes (b : AABB ℝ) (hb : b.WF) :
    0 ≤ b.shape.prod ∧
    b.length = (if b.dim = 1 then .ok b.shape.prod else .error .assertion) ∧
    b.area = (if b.dim = 2 then .ok b.shape.prod else .error .assertion) ∧
    b.volume = (if b.dim = 3 then .ok b.shape.prod else .error .assertion) := by
  have hnn : 0 ≤ b.shape.prod := by
    have : ∀ (as bs : List ℝ), (∀ (i : Nat) (lo hi : ℝ), as[i]? = some lo → bs[i]? = some hi → lo ≤ hi) →
        0 ≤ (List.zipWith (fun hi lo => hi - lo) bs as).prod := by
      intro as
      induction as with
      | nil => intro bs _; simp
      | cons a as ih =>
        intro bs h
        cases bs with
        | nil => simp
        | cons c bs =>
          simp only [List.zipWith_cons_cons, List.prod_cons]
          exact mul_nonneg (sub_nonneg.2 (h 0 a c rfl rfl))
            (ih bs fun i lo hi e1 e2 => h (i + 1) lo hi (by simpa using e1) (by simpa using e2))
    exact this _ _ hb.le
  obtain ⟨n, as, bs⟩ := b
  have l1 := hb.lmin
  have l2 := hb.lmax
  have hle := hb.le
  simp only at l1 l2 hle
  refine ⟨hnn, ?_, ?_, ?_⟩
  · by_cases h : n = 1
    · subst h
      match as, bs, l1, l2 with
      | [a], [c], _, _ =>
        simp [AABB.length, AABB.attr, AABB.lengthIndex, pyItem, AABB.shape]
    · simp [AABB.length, h]
  · by_cases h : n = 2
    · subst h
      match as, bs, l1, l2, hle with
      | [a, a'], [c, c'], _, _, hle =>
        have h0 : |c - a| = c - a := abs_of_nonneg (sub_nonneg.2 (hle 0 a c rfl rfl))
        have h1 : |c' - a'| = c' - a' := abs_of_nonneg (sub_nonneg.2 (hle 1 a' c' rfl rfl))
        simp [AABB.area, AABB.side, AABB.shape, h0, h1, bind, Except.bind, pure, Except.pure]
    · simp [AABB.area, h]
  · by_cases h : n = 3
    · subst h
      match as, bs, l1, l2, hle with
      | [a, a', a''], [c, c', c''], _, _, hle =>
        have h0 : |c - a| = c - a := abs_of_nonneg (sub_nonneg.2 (hle 0 a c rfl rfl))
        have h1 : |c' - a'| = c' - a' := abs_of_nonneg (sub_nonneg.2 (hle 1 a' c' rfl rfl))
        have h2 : |c'' - a''| = c'' - a'' := abs_of_nonneg (sub_nonneg.2 (hle 2 a'' c'' rfl rfl))
        simp [AABB.volume, AABB.absDiff, AABB.attr, pyItem, AABB.shape, h0, h1, h2, bind, Except.bind]
        ring
    · simp [AABB.volume, h]

/-- `fill_random_density`: for a non-negative density the number of points is the size of the
box times the density, rounded down, and all points lie in the box. -/
theorem C119_random_density (b : AABB ℝ) (hb : b.WF) (density : ℝ) (hρ : 0 ≤ density)
    (rand : Nat → List (List ℝ))
    (hr : ∀ n, (rand n).length = n ∧ ∀ u ∈ rand n, u.length = b.dim ∧ ∀ x ∈ u, 0 ≤ x ∧ x < 1) :
    ∃ rows, b.fillRandomDensity density rand = .ok rows ∧
      (rows.length : ℝ) ≤ b.shape.prod * density ∧ b.shape.prod * density < rows.length + 1 ∧
      ∀ row ∈ rows, b.ContainsL row := by
  have hp : 0 ≤ b.shape.prod * density := mul_nonneg (C119_sizes b hb).1 hρ
  have e : pyInt (b.shape.prod * density) = ⌊b.shape.prod * density⌋ := by
    unfold pyInt; rw [if_pos hp]
  have h0 : 0 ≤ ⌊b.shape.prod * density⌋ := Int.floor_nonneg.2 hp
  have hf := C49_fill_random b hb (rand ⌊b.shape.prod * density⌋.toNat) (hr _).2
  have hc : ((⌊b.shape.prod * density⌋.toNat : ℕ) : ℝ) = (⌊b.shape.prod * density⌋ : ℝ) := by
    exact_mod_cast congrArg (Int.cast (R := ℝ)) (Int.toNat_of_nonneg h0)
  refine ⟨_, by unfold AABB.fillRandomDensity; rw [e, if_neg (not_lt.2 h0)], ?_, ?_, hf.2⟩
  · rw [hf.1, (hr _).1, hc]; exact Int.floor_le _
  · rw [hf.1, (hr _).1, hc]; exact Int.lt_floor_add_one _

/-- A density so negative that less than minus one point is asked for is rejected. -/
theorem C119_random_negative (b : AABB ℝ) (density : ℝ) (rand : Nat → List (List ℝ))
    (h : b.shape.prod * density ≤ -1) : b.fillRandomDensity density rand = .error .runtime := by
  have e : pyInt (b.shape.prod * density) < 0 := by
    unfold pyInt
    rw [if_neg (by linarith)]
    have : ⌈b.shape.prod * density⌉ ≤ -1 := Int.ceil_le.2 (by push_cast; exact h)
    omega
  unfold AABB.fillRandomDensity; rw [if_pos e]

theorem arange_count (a b step : ℝ) (hab : a ≤ b) (hs : 0 < step) (l : List ℝ)
    (h : arange a b step = .ok l) : (b - a) / step ≤ l.length ∧ (l.length : ℝ) < (b - a) / step + 1 := by
  unfold arange at h
  rw [if_neg hs.ne', if_neg (by
    rintro (h | h)
    · exact absurd h.2 (not_lt.2 hab)
    · exact absurd h.1 (not_lt.2 hs.le))] at h
  have hl : l.length = ⌈(b - a) / step⌉.toNat := by rw [← Except.ok.inj h]; simp
  have h0 : 0 ≤ (b - a) / step := div_nonneg (sub_nonneg.2 hab) hs.le
  have hc : (l.length : ℝ) = (⌈(b - a) / step⌉ : ℝ) := by
    rw [hl]; exact_mod_cast congrArg (Int.cast (R := ℝ)) (Int.toNat_of_nonneg (Int.ceil_nonneg h0))
  rw [hc]
  exact ⟨Int.le_ceil _, Int.ceil_lt_add_one _⟩

theorem aranges_count (step : ℝ) (hs : 0 < step) : ∀ (as bs : List ℝ) (ls : List (List ℝ)),
    as.length = bs.length →
    (∀ (i : Nat) (lo hi : ℝ), as[i]? = some lo → bs[i]? = some hi → lo ≤ hi) →
    aranges step as bs = .ok ls →
    0 ≤ (List.zipWith (fun hi lo => hi - lo) bs as).prod ∧
    (List.zipWith (fun hi lo => hi - lo) bs as).prod * (1 / step) ^ as.length ≤ ((ls.map List.length).prod : ℕ) ∧
    (((ls.map List.length).prod : ℕ) : ℝ) ≤
      ((List.zipWith (fun hi lo => hi - lo) bs as).map fun s => s / step + 1).prod
  | [], [], ls, _, _, h => by
    have : ls = [] := (Except.ok.inj h).symm
    subst this; simp
  | a :: as, b :: bs, ls, hl, hle, h => by
    obtain ⟨l, h1, _⟩ := arange_spec a b step (hle 0 a b rfl rfl) hs
    obtain ⟨ls', h3, _⟩ := aranges_spec step hs as bs (by simpa using hl)
      (fun i lo hi e1 e2 => hle (i + 1) lo hi (by simpa using e1) (by simpa using e2))
    have he : ls = l :: ls' := by
      simp only [aranges, h1, h3] at h
      exact (Except.ok.inj h).symm
    subst he
    obtain ⟨k0, k1, k2⟩ := aranges_count step hs as bs ls' (by simpa using hl)
      (fun i lo hi e1 e2 => hle (i + 1) lo hi (by simpa using e1) (by simpa using e2)) h3
    obtain ⟨c1, c2⟩ := arange_count a b step (hle 0 a b rfl rfl) hs l h1
    have hab : 0 ≤ b - a := sub_nonneg.2 (hle 0 a b rfl rfl)
    have hd : 0 ≤ (b - a) / step := div_nonneg hab hs.le
    simp only [List.zipWith_cons_cons, List.prod_cons, List.map_cons, List.length_cons, Nat.cast_mul]
    refine ⟨mul_nonneg hab k0, ?_, ?_⟩
    · calc (b - a) * (List.zipWith (fun hi lo => hi - lo) bs as).prod * (1 / step) ^ (as.length + 1)
          = ((b - a) / step) * ((List.zipWith (fun hi lo => hi - lo) bs as).prod * (1 / step) ^ as.length) := by
            rw [pow_succ]; ring
        _ ≤ _ := mul_le_mul c1 k1 (mul_nonneg k0 (by positivity)) (by positivity)
    · exact mul_le_mul c2.le k2 (by positivity) (by linarith)

/-- `fill_uniform_density` with a positive density succeeds. Its points lie in the box. There
are at least as many as the size of the box times the density, and at most the product of
`side · density^(1/dim) + 1` over the sides. -/
theorem C119_uniform_density (b : AABB ℝ) (hb : b.WF) (hd : 0 < b.dim) (density : ℝ) (hρ : 0 < density) :
    ∃ rows, b.fillUniformDensity density = .ok rows ∧ (∀ row ∈ rows, b.ContainsL row) ∧
      b.shape.prod * density ≤ rows.length ∧
      (rows.length : ℝ) ≤ (b.shape.map fun s => s * density ^ ((1 : ℝ) / b.dim) + 1).prod := by
  have hr : 0 < density ^ ((1 : ℝ) / b.dim) := Real.rpow_pos_of_pos hρ _
  have hs : 0 < 1 / density ^ ((1 : ℝ) / b.dim) := by positivity
  have hl : b.kmin.length = b.kmax.length := by rw [hb.lmin, hb.lmax]
  obtain ⟨rows, h1, h2⟩ := C49_fill_spacing b hb hd _ hs
  obtain ⟨ls, h3, h4, _⟩ := aranges_spec _ hs b.kmin b.kmax hl hb.le
  have hne : ls ≠ [] := by
    intro h; rw [h, hb.lmin] at h4; simp at h4; omega
  have h5 : rows = cart ls := by
    have : b.fillUniformSpacing (1 / density ^ ((1 : ℝ) / b.dim)) = .ok (cart ls) := by
      simp only [AABB.fillUniformSpacing, h3]; exact grid2vec_meshgrid ls hne
    rw [h1] at this; exact Except.ok.inj this
  obtain ⟨_, k1, k2⟩ := aranges_count _ hs b.kmin b.kmax ls hl hb.le h3
  refine ⟨rows, ?_, fun row hrow => (h2 row hrow).1, ?_, ?_⟩
  · unfold AABB.fillUniformDensity
    rw [if_neg (by omega), if_neg hρ.ne', if_neg (not_lt.2 hρ.le)]; exact h1
  · rw [h5, cart_length]
    refine le_trans (le_of_eq ?_) k1
    rw [one_div_one_div, hb.lmin, ← Real.rpow_natCast, ← Real.rpow_mul hρ.le,
      one_div_mul_cancel (by exact_mod_cast hd.ne'), Real.rpow_one]
    rfl
  · rw [h5, cart_length]
    refine le_trans k2 (le_of_eq ?_)
    simp only [div_div_eq_mul_div, div_one, AABB.shape]

/-- Densities that are not positive: zero always raises; a negative one raises `TypeError` from
dimension two on, and in dimension one unless the box is a single point. -/
theorem C119_uniform_rejected (b : AABB ℝ) (hb : b.WF) (hd : 0 < b.dim) :
    b.fillUniformDensity 0 = .error .zeroDivision ∧
    (∀ density < 0, 1 < b.dim → b.fillUniformDensity density = .error .type) ∧
    (∀ density < 0, b.dim = 1 → ∀ lo hi, b.kmin[0]? = some lo → b.kmax[0]? = some hi → lo < hi →
      b.fillUniformDensity density = .error .runtime) := by
  refine ⟨?_, ?_, ?_⟩
  · unfold AABB.fillUniformDensity; rw [if_neg (by omega), if_pos rfl]
  · intro ρ h h1
    unfold AABB.fillUniformDensity
    rw [if_neg (by omega), if_neg h.ne, if_pos h, if_neg (by omega)]
  · intro ρ h h1 lo hi e1 e2 hlt
    have l1 := hb.lmin
    have l2 := hb.lmax
    obtain ⟨n, as, bs⟩ := b
    simp only at h1 l1 l2 e1 e2
    subst h1
    match as, bs, l1, l2 with
    | [a], [c], _, _ =>
      simp at e1 e2
      subst e1 e2
      have hneg : 1 / ρ < 0 := one_div_neg.2 h
      have : arange a c (1 / ρ) = .error .runtime := by
        unfold arange; rw [if_neg hneg.ne, if_pos (Or.inr ⟨hneg, hlt⟩)]
      unfold AABB.fillUniformDensity
      rw [if_neg (by norm_num), if_neg h.ne, if_pos h, if_pos rfl]
      simp only [AABB.fillUniformSpacing, aranges, this]

/-! ### A concrete box -/

noncomputable def box119 : AABB ℝ := ⟨2, [0, 1], [2, 4]⟩

theorem box119_wf : box119.WF := by
  refine ⟨rfl, rfl, ?_⟩
  intro i lo hi h1 h2
  match i with
  | 0 => simp [box119] at h1 h2; subst h1 h2; norm_num
  | 1 => simp [box119] at h1 h2; subst h1 h2; norm_num
  | n + 2 => simp [box119] at h1

example : box119.item (.int 3) = .ok 4 ∧ box119.item (.int (-4)) = .ok 0 ∧
    box119.item (.int 4) = .error .index := by
  have h := C119_items box119 box119_wf
  refine ⟨?_, ?_, h.2 4 (Or.inr (by simp [box119]))⟩
  · simpa using (h.1 1 1 4 rfl rfl).2.1
  · simpa [box119] using (h.1 0 0 2 rfl rfl).2.2.1

example : box119.area = .ok 6 ∧ box119.volume = .error .assertion := by
  obtain ⟨_, _, h2, h3⟩ := C119_sizes box119 box119_wf
  rw [h2, h3]
  simp [box119, AABB.shape]; norm_num

example : ∃ rows, box119.fillUniformDensity 4 = .ok rows ∧ (24 : ℝ) ≤ rows.length := by
  obtain ⟨rows, h, _, h1, _⟩ := C119_uniform_density box119 box119_wf (by simp [box119]) 4 (by norm_num)
  refine ⟨rows, h, le_trans (le_of_eq ?_) h1⟩
  simp [box119, AABB.shape]; norm_num

example : ∃ rows, box119.fillRandomDensity (1/4) (fun n => List.replicate n [0, 1/2]) = .ok rows ∧
    rows.length = 1 := by
  obtain ⟨rows, h, h1, h2, _⟩ := C119_random_density box119 box119_wf (1/4) (by norm_num)
    (fun n => List.replicate n [0, 1/2]) (by
      intro n
      refine ⟨by simp, ?_⟩
      intro u hu
      rw [List.mem_replicate] at hu
      rw [hu.2]
      refine ⟨rfl, ?_⟩
      intro x hx
      simp at hx
      rcases hx with rfl | rfl <;> norm_num)
  refine ⟨rows, h, ?_⟩
  have e : box119.shape.prod * (1/4 : ℝ) = 3/2 := by simp [box119, AABB.shape]; norm_num
  rw [e] at h1 h2
  have a1 : rows.length < 2 := by
    have : (rows.length : ℝ) < 2 := by linarith
    exact_mod_cast this
  have a2 : 0 < rows.length := by
    have : (0 : ℝ) < rows.length := by linarith
    exact_mod_cast this
  omega

end Imodal
