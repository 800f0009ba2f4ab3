import Verif.Props.C48
import Verif.Props.C50
import Mathlib.Data.List.Forall2
import Mathlib.Tactic.Positivity
import Mathlib.Algebra.Order.Floor.Semiring
/-!
# C49  Box sampling stays inside and has the right count
-/
set_option autoImplicit false
namespace Imodal

section cart
variable {α : Type}

/-- Specification of a point grid: all choices of one value per axis, first axis slowest. -/
def cart : List (List α) → List (List α)
  | [] => [[]]
  | l :: ls => l.flatMap fun x => (cart ls).map (x :: ·)

theorem mem_cart : ∀ (ls : List (List α)) (row : List α),
    row ∈ cart ls ↔ List.Forall₂ (· ∈ ·) row ls
  | [], row => by simp [cart]
  | l :: ls, row => by
    simp only [cart, List.mem_flatMap, List.mem_map]
    constructor
    · rintro ⟨x, hx, r, hr, rfl⟩
      exact List.Forall₂.cons hx ((mem_cart ls r).1 hr)
    · intro h
      cases h with
      | cons hx hr => exact ⟨_, hx, _, (mem_cart ls _).2 hr, rfl⟩

theorem cart_length : ∀ (ls : List (List α)), (cart ls).length = (ls.map List.length).prod
  | [] => rfl
  | l :: ls => by
    simp [cart, cart_length ls, List.length_flatMap]

theorem gridSize_eq : ∀ (ls : List (List α)), gridSize ls = (ls.map List.length).prod
  | [] => rfl
  | l :: ls => by simp [gridSize, gridSize_eq ls]

theorem meshgrid_size : ∀ (ls : List (List α)), ∀ g ∈ meshgrid ls, g.length = gridSize ls
  | [], g, h => by simp [meshgrid] at h
  | l :: ls, g, h => by
    simp only [meshgrid, List.mem_cons, List.mem_map] at h
    rcases h with rfl | ⟨t, ht, rfl⟩
    · simp [gridSize, List.length_flatMap]
    · simp [gridSize, meshgrid_size ls t ht]

theorem stackRows_append (n m : Nat) : ∀ (gs hs : List (List α)), (∀ g ∈ gs, g.length = n) →
    gs.length = hs.length →
    stackRows (n + m) (List.zipWith (· ++ ·) gs hs) = stackRows n gs ++ stackRows m hs
  | [], [], _, _ => by simp [stackRows, List.replicate_append_replicate]
  | g :: gs, h :: hs, hg, hl => by
    have ih := stackRows_append n m gs hs (fun x hx => hg x (by simp [hx])) (by simpa using hl)
    simp only [List.zipWith_cons_cons, stackRows]
    rw [ih, List.zipWith_append]
    rw [stackRows_length n gs (fun x hx => hg x (by simp [hx])), hg g (by simp)]

theorem stackRows_replicate (n : Nat) (gs : List (List α)) (hg : ∀ g ∈ gs, g.length = n) :
    ∀ (k : Nat), stackRows (k * n) (gs.map fun t => (List.replicate k t).flatten) =
      (List.replicate k (stackRows n gs)).flatten
  | 0 => by
    simp only [Nat.zero_mul, List.replicate_zero, List.flatten_nil]
    have : ∀ l : List (List α), stackRows 0 (l.map fun _ => ([] : List α)) = [] := by
      intro l
      induction l with
      | nil => rfl
      | cons a l ih => simp [stackRows, ih]
    exact this gs
  | k + 1 => by
    have ih := stackRows_replicate n gs hg k
    have := stackRows_append n (k * n) gs (gs.map fun t => (List.replicate k t).flatten) hg (by simp)
    rw [show (k + 1) * n = n + k * n by rw [Nat.succ_mul]; omega]
    simp only [List.replicate_succ, List.flatten_cons]
    rw [← ih, ← this]
    congr 1
    clear this ih hg
    induction gs with
    | nil => rfl
    | cons g gs ih => simp [ih]

theorem zip_cons_flat (n : Nat) (R : List (List α)) (hR : R.length = n) : ∀ (l : List α),
    List.zipWith (fun x r => x :: r) (l.flatMap fun x => List.replicate n x)
      (List.replicate l.length R).flatten = l.flatMap fun x => R.map (x :: ·)
  | [] => rfl
  | x :: l => by
    simp only [List.flatMap_cons, List.length_cons, List.replicate_succ, List.flatten_cons]
    rw [List.zipWith_append (by simp [hR]), zip_cons_flat n R hR l]
    congr 1
    subst hR
    clear * -
    induction R with
    | nil => rfl
    | cons r R ih => simp [List.replicate_succ, ih]

/-- The points of a mesh grid are all combinations of axis values. -/
theorem stackRows_meshgrid : ∀ (ls : List (List α)),
    stackRows (gridSize ls) (meshgrid ls) = cart ls
  | [] => rfl
  | l :: ls => by
    simp only [meshgrid, stackRows, gridSize, cart]
    rw [stackRows_replicate _ _ (meshgrid_size ls), stackRows_meshgrid ls]
    apply zip_cons_flat
    rw [cart_length, gridSize_eq]

theorem grid2vec_meshgrid (ls : List (List α)) (h : ls ≠ []) :
    grid2vec (meshgrid ls) = .ok (cart ls) := by
  match ls, h with
  | l :: ls, _ =>
    have hsz := meshgrid_size (l :: ls)
    rw [← stackRows_meshgrid]
    cases hm : meshgrid (l :: ls) with
    | nil => simp [meshgrid] at hm
    | cons g rest =>
      rw [hm] at hsz
      have hg := hsz g (by simp)
      have hall : (rest.all fun t => t.length == g.length) = true := by
        rw [List.all_eq_true]
        intro t ht
        simp [hsz t (by simp [ht]), hg]
      simp only [grid2vec, hall, if_true]
      rw [hg]

end cart

variable {𝕜 : Type} [Field 𝕜] [LinearOrder 𝕜] [IsStrictOrderedRing 𝕜]

theorem linspace_length (a b : 𝕜) (n : Nat) : (linspace a b n).length = n := by
  match n with
  | 0 => rfl
  | 1 => rfl
  | n + 2 => simp [linspace]

theorem linspace_mem (a b : 𝕜) (hab : a ≤ b) (n : Nat) (x : 𝕜) (hx : x ∈ linspace a b n) :
    a ≤ x ∧ x ≤ b := by
  match n with
  | 0 => simp [linspace] at hx
  | 1 => simp [linspace] at hx; subst hx; exact ⟨le_refl _, hab⟩
  | n + 2 =>
    simp only [linspace, List.mem_map, List.mem_range] at hx
    obtain ⟨i, hi, rfl⟩ := hx
    have hd : 0 ≤ b - a := sub_nonneg.2 hab
    have hn : (0 : 𝕜) < (n : 𝕜) + 1 := by positivity
    have hi' : (i : 𝕜) ≤ (n : 𝕜) + 1 := by
      have : i ≤ n + 1 := by omega
      calc (i : 𝕜) ≤ ((n + 1 : Nat) : 𝕜) := by exact_mod_cast this
        _ = (n : 𝕜) + 1 := by push_cast; rfl
    have h0 : 0 ≤ (i : 𝕜) * ((b - a) / ((n : 𝕜) + 1)) := by positivity
    have h1 : (i : 𝕜) * ((b - a) / ((n : 𝕜) + 1)) ≤ b - a := by
      rw [mul_div_assoc', div_le_iff₀ hn, mul_comm]
      exact mul_le_mul_of_nonneg_left hi' hd
    constructor <;> linarith

theorem linspace_ends (a b : 𝕜) (n : Nat) (hn : 2 ≤ n) : a ∈ linspace a b n ∧ b ∈ linspace a b n := by
  obtain ⟨m, rfl⟩ : ∃ m, n = m + 2 := ⟨n - 2, by omega⟩
  simp only [linspace, List.mem_map, List.mem_range]
  refine ⟨⟨0, by omega, by simp⟩, ⟨m + 1, by omega, ?_⟩⟩
  have : (m : 𝕜) + 1 ≠ 0 := by positivity
  push_cast
  field_simp
  ring

theorem linspaces_spec : ∀ (as bs : List 𝕜) (ns : List Nat), as.length = ns.length →
    bs.length = ns.length → (linspaces as bs ns).map List.length = ns
  | [], [], [], _, _ => rfl
  | [], _ :: _, [], _, h => by simp at h
  | _ :: _, _, [], h, _ => by simp at h
  | [], _, _ :: _, h, _ => by simp at h
  | _ :: _, [], _ :: _, _, h => by simp at h
  | a :: as, b :: bs, n :: ns, h1, h2 => by
    simp [linspaces, linspace_length, linspaces_spec as bs ns (by simpa using h1) (by simpa using h2)]

theorem linspaces_get : ∀ (as bs : List 𝕜) (ns : List Nat) (i : Nat) (l : List 𝕜),
    (linspaces as bs ns)[i]? = some l → ∃ a b n, as[i]? = some a ∧ bs[i]? = some b ∧ ns[i]? = some n ∧
      l = linspace a b n
  | [], bs, ns, i, l, h => by simp [linspaces] at h
  | a :: as, [], ns, i, l, h => by simp [linspaces] at h
  | a :: as, b :: bs, [], i, l, h => by simp [linspaces] at h
  | a :: as, b :: bs, n :: ns, 0, l, h => by
    simp [linspaces] at h; exact ⟨a, b, n, rfl, rfl, rfl, h.symm⟩
  | a :: as, b :: bs, n :: ns, i + 1, l, h => by
    simp only [linspaces, List.getElem?_cons_succ] at h ⊢
    exact linspaces_get as bs ns i l h

theorem forall₂_get {α β : Type} {R : α → β → Prop} : ∀ {l : List α} {m : List β},
    List.Forall₂ R l m → ∀ (i : Nat) (x : α), l[i]? = some x → ∃ y, m[i]? = some y ∧ R x y
  | _, _, .nil, i, x, h => by simp at h
  | _, _, .cons hab hr, 0, x, h => by simp at h; subst h; exact ⟨_, rfl, hab⟩
  | _, _, .cons hab hr, i + 1, x, h => by
    simp only [List.getElem?_cons_succ] at h ⊢
    exact forall₂_get hr i x h

/-- `fill_count`: the number of points is the product of the counts and all points lie in
the box. -/
theorem C49_fill_count (b : AABB 𝕜) (hb : b.WF) (hd : 0 < b.dim) (counts : List Nat)
    (hc : counts.length = b.dim) :
    ∃ rows, b.fillCount counts = .ok rows ∧ rows.length = counts.prod ∧
      ∀ row ∈ rows, b.ContainsL row := by
  have hl : (linspaces b.kmin b.kmax counts).map List.length = counts :=
    linspaces_spec _ _ _ (by rw [hb.lmin, hc]) (by rw [hb.lmax, hc])
  have hlen : (linspaces b.kmin b.kmax counts).length = b.dim := by
    have := congrArg List.length hl
    rw [List.length_map] at this; omega
  have hne : linspaces b.kmin b.kmax counts ≠ [] := by
    intro h; rw [h] at hlen; simp at hlen; omega
  refine ⟨_, by simp only [AABB.fillCount]; rw [if_neg (by simpa using hc), grid2vec_meshgrid _ hne],
    by rw [cart_length, hl], ?_⟩
  intro row hrow
  rw [mem_cart] at hrow
  refine ⟨by rw [hrow.length_eq, hlen], ?_⟩
  intro i lo hi x h1 h2 hx
  obtain ⟨l, h3, h4⟩ := forall₂_get hrow i x hx
  obtain ⟨a, b', n, e1, e2, _, rfl⟩ := linspaces_get _ _ _ i l h3
  rw [h1] at e1; rw [h2] at e2; cases e1; cases e2
  exact linspace_mem _ _ (hb.le i _ _ h1 h2) n x h4

/-- The corner of the box selected by `sel` (`true` takes the upper bound). -/
def corner : List Bool → List 𝕜 → List 𝕜 → List 𝕜
  | s :: sel, a :: as, b :: bs => (if s then b else a) :: corner sel as bs
  | _, _, _ => []

/-- `fill_count` with counts of at least two reaches every corner. -/
theorem C49_fill_count_corners (b : AABB 𝕜) (hb : b.WF) (hd : 0 < b.dim) (counts : List Nat)
    (hc : counts.length = b.dim) (h2 : ∀ n ∈ counts, 2 ≤ n) (sel : List Bool)
    (hs : sel.length = b.dim) :
    ∃ rows, b.fillCount counts = .ok rows ∧ corner sel b.kmin b.kmax ∈ rows := by
  have hl : (linspaces b.kmin b.kmax counts).map List.length = counts :=
    linspaces_spec _ _ _ (by rw [hb.lmin, hc]) (by rw [hb.lmax, hc])
  have hlen : (linspaces b.kmin b.kmax counts).length = b.dim := by
    have := congrArg List.length hl
    rw [List.length_map] at this; omega
  have hne : linspaces b.kmin b.kmax counts ≠ [] := by
    intro h; rw [h] at hlen; simp at hlen; omega
  refine ⟨_, by simp only [AABB.fillCount]; rw [if_neg (by simpa using hc), grid2vec_meshgrid _ hne], ?_⟩
  rw [mem_cart]
  have : ∀ (sel : List Bool) (as bs : List 𝕜) (ns : List Nat), (∀ n ∈ ns, 2 ≤ n) →
      sel.length = ns.length → as.length = ns.length → bs.length = ns.length →
      List.Forall₂ (· ∈ ·) (corner sel as bs) (linspaces as bs ns) := by
    intro sel
    induction sel with
    | nil =>
      intro as bs ns _ h1 h2 h3
      cases ns with
      | nil => cases as <;> simp_all [corner, linspaces]
      | cons _ _ => simp at h1
    | cons s sel ih =>
      intro as bs ns hn h1 h2 h3
      match as, bs, ns, h1, h2, h3 with
      | [], _, [], h1, _, _ => simp at h1
      | [], _, _ :: _, _, h2, _ => simp at h2
      | _ :: _, [], [], _, h2, _ => simp at h2
      | _ :: _, [], _ :: _, _, _, h3 => simp at h3
      | _ :: _, _ :: _, [], _, h2, _ => simp at h2
      | a :: as, b :: bs, n :: ns, h1, h2, h3 =>
        simp only [corner, linspaces]
        refine .cons ?_ (ih as bs ns (fun m hm => hn m (by simp [hm])) (by simpa using h1)
          (by simpa using h2) (by simpa using h3))
        have := linspace_ends a b n (hn n (by simp))
        cases s
        · exact this.1
        · exact this.2
  exact this sel b.kmin b.kmax counts h2 (by omega) (by rw [hb.lmin, hc]) (by rw [hb.lmax, hc])

section spacing
variable [FloorRing 𝕜]

theorem arange_spec (a b step : 𝕜) (hab : a ≤ b) (hs : 0 < step) :
    ∃ l, arange a b step = .ok l ∧ (∀ x ∈ l, a ≤ x ∧ x < b) ∧
      (∀ i : Nat, a + (i : 𝕜) * step < b ↔ i < l.length) ∧
      ∀ i : Nat, i < l.length → l[i]? = some (a + (i : 𝕜) * step) := by
  have hlt : ∀ i : Nat, a + (i : 𝕜) * step < b ↔ i < ⌈(b - a) / step⌉.toNat := by
    intro i
    rw [show i < ⌈(b - a) / step⌉.toNat ↔ (i : ℤ) < ⌈(b - a) / step⌉ by omega, Int.lt_ceil,
      lt_div_iff₀ hs]
    push_cast
    constructor <;> intro h <;> linarith
  refine ⟨_, by unfold arange; rw [if_neg hs.ne', if_neg]; intro h; rcases h with h | h
                · exact absurd h.2 (not_lt.2 hab)
                · exact absurd h.1 (not_lt.2 hs.le), ?_, ?_, ?_⟩
  · intro x hx
    simp only [List.mem_map, List.mem_range] at hx
    obtain ⟨i, hi, rfl⟩ := hx
    refine ⟨?_, (hlt i).2 hi⟩
    have : 0 ≤ (i : 𝕜) * step := by positivity
    linarith
  · intro i; simp only [List.length_map, List.length_range]; exact hlt i
  · intro i hi
    simp only [List.length_map, List.length_range] at hi
    simp [hi]

theorem aranges_spec (step : 𝕜) (hs : 0 < step) : ∀ (as bs : List 𝕜), as.length = bs.length →
    (∀ (i : Nat) (lo hi : 𝕜), as[i]? = some lo → bs[i]? = some hi → lo ≤ hi) →
    ∃ ls, aranges step as bs = .ok ls ∧ ls.length = as.length ∧
      ∀ (i : Nat) (l : List 𝕜) (a b : 𝕜), ls[i]? = some l → as[i]? = some a → bs[i]? = some b →
        ∀ x ∈ l, a ≤ x ∧ x < b
  | [], [], _, _ => ⟨[], rfl, rfl, by simp⟩
  | a :: as, b :: bs, hl, hle => by
    obtain ⟨l, h1, h2, _⟩ := arange_spec a b step (hle 0 a b rfl rfl) hs
    obtain ⟨ls, h3, h4, h5⟩ := aranges_spec step hs as bs (by simpa using hl)
      (fun i lo hi e1 e2 => hle (i + 1) lo hi (by simpa using e1) (by simpa using e2))
    refine ⟨l :: ls, by simp [aranges, h1, h3], by simp [h4], ?_⟩
    intro i l' a' b' e1 e2 e3
    cases i with
    | zero => simp at e1 e2 e3; subst e1 e2 e3; exact h2
    | succ i => exact h5 i l' a' b' (by simpa using e1) (by simpa using e2) (by simpa using e3)

/-- `fill_uniform_spacing` with a positive spacing succeeds and stays in the box (below the
upper bounds). -/
theorem C49_fill_spacing (b : AABB 𝕜) (hb : b.WF) (hd : 0 < b.dim) (spacing : 𝕜) (hs : 0 < spacing) :
    ∃ rows, b.fillUniformSpacing spacing = .ok rows ∧ ∀ row ∈ rows, b.ContainsL row ∧
      ∀ (i : Nat) (hi x : 𝕜), b.kmax[i]? = some hi → row[i]? = some x → x < hi := by
  obtain ⟨ls, h1, h2, h3⟩ := aranges_spec spacing hs b.kmin b.kmax (by rw [hb.lmin, hb.lmax]) hb.le
  have hne : ls ≠ [] := by
    intro h; rw [h, hb.lmin] at h2; simp at h2; omega
  refine ⟨cart ls, by simp only [AABB.fillUniformSpacing, h1]; exact grid2vec_meshgrid ls hne, ?_⟩
  intro row hrow
  rw [mem_cart] at hrow
  have hlen : row.length = b.dim := by rw [hrow.length_eq, h2, hb.lmin]
  refine ⟨⟨hlen, ?_⟩, ?_⟩
  · intro i lo hi x e1 e2 e3
    obtain ⟨l, e4, e5⟩ := forall₂_get hrow i x e3
    have := h3 i l lo hi e4 e1 e2 x e5
    exact ⟨this.1, this.2.le⟩
  · intro i hi x e2 e3
    obtain ⟨l, e4, e5⟩ := forall₂_get hrow i x e3
    have hi' : i < b.kmin.length := by
      rw [hb.lmin, ← hlen]; exact (List.getElem?_eq_some_iff.1 e3).1
    exact (h3 i l b.kmin[i] hi e4 (by simp [hi']) e2 x e5).2

/-- A zero spacing is rejected. -/
theorem C49_zero_spacing (b : AABB 𝕜) (hb : b.WF) (hd : 0 < b.dim) :
    b.fillUniformSpacing 0 = .error .runtime := by
  unfold AABB.fillUniformSpacing
  cases hk : b.kmin with
  | nil => have := hb.lmin; rw [hk] at this; simp at this; omega
  | cons a as =>
    cases hk' : b.kmax with
    | nil => have := hb.lmax; rw [hk'] at this; simp at this; omega
    | cons c cs => simp [aranges, arange]

end spacing

/-- `fill_random`: for random numbers in `[0, 1)` there is one point per sample, all in the
box. -/
theorem C49_fill_random (b : AABB 𝕜) (hb : b.WF) (us : List (List 𝕜))
    (hu : ∀ u ∈ us, u.length = b.dim ∧ ∀ x ∈ u, 0 ≤ x ∧ x < 1) :
    (b.fillRandom us).length = us.length ∧ ∀ row ∈ b.fillRandom us, b.ContainsL row := by
  refine ⟨by simp [AABB.fillRandom], ?_⟩
  intro row hrow
  simp only [AABB.fillRandom, List.mem_map] at hrow
  obtain ⟨u, hu', rfl⟩ := hrow
  obtain ⟨hl, hx⟩ := hu u hu'
  refine ⟨by simp [AABB.shape, hb.lmin, hb.lmax, hl], ?_⟩
  intro i lo hi x e1 e2 e3
  simp only [List.getElem?_zipWith, b.shape_getElem? i lo hi e1 e2, e1] at e3
  cases hui : u[i]? with
  | none => simp [hui] at e3
  | some v =>
    simp [hui] at e3
    have hv := hx v (List.mem_of_getElem? hui)
    have hle := sub_nonneg.2 (hb.le i lo hi e1 e2)
    have h0 : 0 ≤ (hi - lo) * v := mul_nonneg hle hv.1
    have h1 : (hi - lo) * v ≤ (hi - lo) * 1 := mul_le_mul_of_nonneg_left hv.2.le hle
    subst e3
    constructor <;> linarith

example : [3, 2].length = exBox.dim ∧ ∀ n ∈ [3, 2], 2 ≤ n := by simp [exBox]

end Imodal
