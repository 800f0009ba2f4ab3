import Verif.Spec.Coercive
import Verif.Lemmas.Speed
import Verif.Lemmas.SmoothLearn
/-! Costs that grow with the controls. -/
set_option autoImplicit false
namespace Imodal
noncomputable section
open Matrix
variable {d : Nat}

/-! ### Quadratic forms below their trace -/

theorem psd_cauchy {ι : Type} [Fintype ι] {S : Matrix ι ι ℝ} (hs : Sᵀ = S) (hp : ∀ l, 0 ≤ l ⬝ᵥ S *ᵥ l) (u v : ι → ℝ) :
    (u ⬝ᵥ S *ᵥ v) ^ 2 ≤ (u ⬝ᵥ S *ᵥ u) * (v ⬝ᵥ S *ᵥ v) := by
  have hc : v ⬝ᵥ S *ᵥ u = u ⬝ᵥ S *ᵥ v := by
    rw [dotProduct_mulVec, ← mulVec_transpose, hs, dotProduct_comm]
  have key : ∀ t : ℝ, 0 ≤ (v ⬝ᵥ S *ᵥ v) * (t * t) + 2 * (u ⬝ᵥ S *ᵥ v) * t + u ⬝ᵥ S *ᵥ u := fun t => by
    have := hp (u + t • v)
    rw [mulVec_add, mulVec_smul, add_dotProduct, dotProduct_add, dotProduct_add, smul_dotProduct, smul_dotProduct, dotProduct_smul, dotProduct_smul, hc] at this
    simp only [smul_eq_mul] at this
    linarith
  have := discrim_le_zero key
  unfold discrim at this
  nlinarith

theorem psd_trace {ι : Type} [Fintype ι] [DecidableEq ι] {S : Matrix ι ι ℝ} (hs : Sᵀ = S) (hp : ∀ l, 0 ≤ l ⬝ᵥ S *ᵥ l) (b : ι → ℝ) :
    b ⬝ᵥ S *ᵥ b ≤ (∑ i, S i i) * ∑ i, b i ^ 2 := by
  have hent : ∀ i j, (Pi.single i 1 : ι → ℝ) ⬝ᵥ S *ᵥ Pi.single j 1 = S i j := fun i j => by
    simp
  have hd : ∀ i, 0 ≤ S i i := fun i => by rw [← hent i i]; exact hp _
  have hij : ∀ i j, |S i j| ≤ √(S i i) * √(S j j) := fun i j => by
    rw [← Real.sqrt_mul (hd i)]
    refine Real.abs_le_sqrt ?_
    have := psd_cauchy hs hp (Pi.single i 1) (Pi.single j 1)
    rwa [hent, hent, hent] at this
  calc b ⬝ᵥ S *ᵥ b = ∑ i, ∑ j, b i * (S i j * b j) := by
        unfold dotProduct mulVec dotProduct
        exact Finset.sum_congr rfl fun i _ => Finset.mul_sum _ _ _
    _ ≤ ∑ i, ∑ j, (√(S i i) * |b i|) * (√(S j j) * |b j|) := by
        refine Finset.sum_le_sum fun i _ => Finset.sum_le_sum fun j _ => ?_
        refine (le_abs_self _).trans ?_
        rw [abs_mul, abs_mul]
        have := mul_le_mul_of_nonneg_left (hij i j) (mul_nonneg (abs_nonneg (b i)) (abs_nonneg (b j)))
        nlinarith
    _ = (∑ i, √(S i i) * |b i|) ^ 2 := by rw [sq, Finset.sum_mul_sum]
    _ ≤ (∑ i, √(S i i) ^ 2) * ∑ i, |b i| ^ 2 := Finset.sum_mul_sq_le_sq_mul_sq _ _ _
    _ = (∑ i, S i i) * ∑ i, b i ^ 2 := by
        congr 1
        · exact Finset.sum_congr rfl fun i _ => Real.sq_sqrt (hd i)
        · exact Finset.sum_congr rfl fun i _ => sq_abs _

theorem inv_below {ι : Type} [Fintype ι] [DecidableEq ι] {S : Matrix ι ι ℝ} (hs : Sᵀ = S) (hp : ∀ l, 0 ≤ l ⬝ᵥ S *ᵥ l) (hd : S.det ≠ 0) (b : ι → ℝ) :
    ∑ i, b i ^ 2 ≤ (∑ i, S i i) * (b ⬝ᵥ S⁻¹ *ᵥ b) := by
  have h : S *ᵥ (S⁻¹ *ᵥ b) = b := by rw [mulVec_mulVec, mul_nonsing_inv S (Ne.isUnit hd), one_mulVec]
  have h2 : b ⬝ᵥ S⁻¹ *ᵥ b = (S⁻¹ *ᵥ b) ⬝ᵥ S *ᵥ (S⁻¹ *ᵥ b) := by rw [h, dotProduct_comm]
  have h3 := psd_cauchy hs hp b (S⁻¹ *ᵥ b)
  rw [← h2, h] at h3
  have h4 := psd_trace hs hp b
  have h5 : b ⬝ᵥ b = ∑ i, b i ^ 2 := Finset.sum_congr rfl fun i _ => (sq _).symm
  rw [h5] at h3
  have h6 : 0 ≤ b ⬝ᵥ S⁻¹ *ᵥ b := inv_psd hs hp hd b
  have h7 : 0 ≤ ∑ i, b i ^ 2 := Finset.sum_nonneg fun i _ => sq_nonneg _
  rcases h7.eq_or_lt with h8 | h8
  · rw [← h8] at h4 ⊢
    have : 0 ≤ ∑ i, S i i := Finset.sum_nonneg fun i _ => by
      have := hp (Pi.single i 1); simpa using this
    exact mul_nonneg this h6
  · refine le_of_mul_le_mul_left (a := ∑ i, b i ^ 2) ?_ h8
    nlinarith [mul_le_mul_of_nonneg_right h4 h6]

/-- An atom applied to its own field does not depend on where it is. -/
theorem self_pair (σ : ℝ) {a b : Atom d} (hα : a.α = b.α) (hM : a.M = b.M) : a.pair (a.rep σ) (a.repJ σ) = b.pair (b.rep σ) (b.repJ σ) := by
  have e : ∀ x y : Vec d, relDiff x x = relDiff y y := fun x y => by
    funext c; simp [relDiff]
  unfold Atom.pair Atom.rep Atom.repJ
  rw [hα, hM, kXY_self, kXY_self, e a.x b.x]

/-- The cost of the module with the controls `c` is at least `κ` times their squares. -/
def Stiff (κ : ℝ) (m : DefModule d) : Prop := ∀ c m' a, m.fillControls c = .ok m' → m'.cost = .ok a → κ * c.sq ≤ a

theorem sq_ctrl_nonneg (c : Ctrl d) : 0 ≤ c.sq := by
  cases c with
  | vecs h => exact Finset.sum_nonneg fun _ _ => Finset.sum_nonneg fun _ _ => sq_nonneg _
  | scalars h => exact Finset.sum_nonneg fun _ _ => sq_nonneg _
  | scalar h => exact sq_nonneg _
  | vec h => exact Finset.sum_nonneg fun _ _ => sq_nonneg _
  | none => exact le_rfl
  | list _ => exact le_rfl

theorem Stiff.mono {κ κ' : ℝ} {m : DefModule d} (h : Stiff κ m) (hκ : κ' ≤ κ) (c : Ctrl d) {m' : DefModule d} {a : ℝ} (h1 : m.fillControls c = .ok m')
    (h2 : m'.cost = .ok a) : κ' * c.sq ≤ a :=
  le_trans (mul_le_mul_of_nonneg_right hκ (sq_ctrl_nonneg c)) (h c m' a h1 h2)

theorem ctrlSq_nonneg : (ms : List (DefModule d)) → (cs : List (Ctrl d)) → 0 ≤ ctrlSq ms cs
  | [], _ => by simp [ctrlSq]
  | m :: ms, [] => by cases m <;> simp [ctrlSq]
  | m :: ms, c :: cs => by
    have h1 := ctrlSq_nonneg ms cs
    have h2 := sq_ctrl_nonneg c
    cases m <;> rw [ctrlSq] <;> first | positivity | assumption | simp

theorem sum_zeroThen {κ : Type} [Fintype κ] {P : Nat} (k : Fin P → Vec d) :
    ∑ i, (zeroThen k : κ ⊕ Fin P × Fin d → ℝ) i ^ 2 = (Ctrl.vecs k).sq := by
  rw [Fintype.sum_sum_type, Fintype.sum_prod_type]
  simp [zeroThen, Ctrl.sq]

theorem grows_inv {ι : Type} [Fintype ι] [DecidableEq ι] {S : Matrix ι ι ℝ} (hs : Sᵀ = S) (hp : ∀ l, 0 ≤ l ⬝ᵥ S *ᵥ l) (hd : S.det ≠ 0) (b : ι → ℝ)
    {co t : ℝ} (hc : 0 < co) (ht : ∑ i, S i i ≤ t) (h0 : 0 < t) : 0.5 * co / t * ∑ i, b i ^ 2 ≤ 0.5 * co * (b ⬝ᵥ S⁻¹ *ᵥ b) := by
  have h1 := (inv_below hs hp hd b).trans (mul_le_mul_of_nonneg_right ht (inv_psd hs hp hd b))
  rw [div_mul_eq_mul_div, div_le_iff₀ h0]
  nlinarith

theorem implicit0_cost_ge {n : Nat} (m : Implicit0 d n) (hc : 0 ≤ m.coeff) : 0.5 * m.coeff * m.ν * (Ctrl.vecs m.ctrl).sq ≤ m.cost := by
  rw [Implicit0.cost_eq, quad_nu]
  have h1 := mul_nonneg hc (gramMat_psd m.σ (pointAtom m.gd) fun q => m.ctrl q.1 q.2)
  have h2 : ∑ q : Fin n × Fin d, m.ctrl q.1 q.2 * m.ctrl q.1 q.2 = (Ctrl.vecs m.ctrl).sq := by
    rw [Fintype.sum_prod_type]
    simp only [Ctrl.sq, sq]
  rw [h2]
  nlinarith

theorem grows_leaf {m : DefModule d} (h : m.Coercive) (hs : ∀ s, m ≠ .silent s) :
    ∃ κ, 0 < κ ∧ ∀ (q : Row) (o : Nat) (p : Row) (o' : Nat), Stiff κ ((m.withGd q o).withCot p o') := by
  cases m with
  | translations m => exact h.elim
  | oriented m => exact h.elim
  | constrained m => exact h.elim
  | implicit1 m => exact h.elim
  | compound ms => exact h.elim
  | silent s => exact absurd rfl (hs s)
  | implicit0 m =>
    obtain ⟨hc, hν⟩ := h
    refine ⟨0.5 * m.coeff * m.ν, by positivity, fun q o p o' c m' a h1 h2 => ?_⟩
    rw [DefModule.withGd, DefModule.withCot] at h1
    obtain ⟨k, rfl, rfl⟩ := fill_implicit0 h1
    rw [DefModule.cost] at h2
    rw [← Except.ok.inj h2]
    exact implicit0_cost_ge { m with gd := viewVecs fun j => q (o + j), cot := viewVecs fun j => p (o' + j), ctrl := k } hc.le
  | globalTranslation m =>
    refine ⟨0.5 * m.coeff, by have : 0 < m.coeff := h; positivity, fun q o p o' c m' a h1 h2 => ?_⟩
    rw [DefModule.withGd, DefModule.withCot] at h1
    obtain ⟨k, rfl, rfl⟩ := fill_global h1
    rw [DefModule.cost] at h2
    rw [← Except.ok.inj h2]
    refine le_of_eq ?_
    show 0.5 * m.coeff * ∑ c, k c ^ 2 = 0.5 * m.coeff * ∑ c, k c * k c
    simp only [sq]
  | linear m =>
    refine ⟨0.5 * m.coeff, by have : 0 < m.coeff := h; positivity, fun q o p o' c m' a h1 h2 => ?_⟩
    rw [DefModule.withGd, DefModule.withCot] at h1
    obtain ⟨k, rfl, rfl⟩ := fill_linear h1
    rw [DefModule.cost] at h2
    rw [← Except.ok.inj h2]
    exact le_rfl
  | @divFree N P m =>
    obtain ⟨hc, hν⟩ := h
    set t : ℝ := |∑ i, m.SKS i i| + 1 with ht
    have h0 : 0 < t := by positivity
    refine ⟨0.5 * m.coeff / t, by positivity, fun q o p o' c m' a h1 h2 => ?_⟩
    rw [DefModule.withGd, DefModule.withCot] at h1
    obtain ⟨k, m2, rfl, ha, rfl⟩ := fill_divFree h1
    obtain ⟨hd, rfl⟩ := DivFree.fill_ok ha
    rw [DefModule.cost] at h2
    rw [← Except.ok.inj h2, ← sum_zeroThen (κ := Fin N) k]
    refine grows_inv (S := DivFree.SKS { m with gd := viewVecs fun j => q (o + j), cot := viewVecs fun j => p (o' + j) }) (DivFree.SKS_symm _) (DivFree.SKS_psd _ hν.le) hd _ hc ?_ h0
    refine le_trans (le_of_eq ?_) ((le_abs_self (∑ i, m.SKS i i)).trans (by rw [ht]; linarith))
    refine Finset.sum_congr rfl fun i _ => ?_
    rw [DivFree.SKS_eq, DivFree.SKS_eq, Matrix.add_apply, Matrix.add_apply]
    congr 1
    refine self_pair m.σ ?_ ?_
    · cases i <;> rfl
    · cases i <;> rfl
  | @arap N P m =>
    obtain ⟨hc, hν⟩ := h
    set t : ℝ := |∑ i, m.SKS i i| + 1 with ht
    have h0 : 0 < t := by positivity
    refine ⟨0.5 * m.coeff / t, by positivity, fun q o p o' c m' a h1 h2 => ?_⟩
    rw [DefModule.withGd, DefModule.withCot] at h1
    obtain ⟨k, m2, rfl, ha, rfl⟩ := fill_arap h1
    obtain ⟨hd, rfl⟩ := Arap.fill_ok ha
    rw [DefModule.cost] at h2
    rw [← Except.ok.inj h2, ← sum_zeroThen (κ := Fin N × Fin (symDim d)) k]
    refine grows_inv (S := Arap.SKS { m with gd := viewVecs fun j => q (o + j), cot := viewVecs fun j => p (o' + j) }) (Arap.SKS_symm _) (Arap.SKS_psd _ hν.le) hd _ hc ?_ h0
    refine le_trans (le_of_eq ?_) ((le_abs_self (∑ i, m.SKS i i)).trans (by rw [ht]; linarith))
    refine Finset.sum_congr rfl fun i _ => ?_
    rw [Arap.SKS_eq, Arap.SKS_eq, Matrix.add_apply, Matrix.add_apply]
    congr 1
    refine self_pair m.σ ?_ ?_
    · cases i <;> rfl
    · cases i <;> rfl

theorem grows_all : (ms : List (DefModule d)) → (∀ m ∈ ms, m.Coercive) → ∃ κ, 0 < κ ∧ ∀ (q : Row) (o : Nat) (p : Row) (o' : Nat) (cs : List (Ctrl d))
    (ms' : List (DefModule d)) (a : ℝ), cs.length = ms.length → DefModule.fillAll (DefModule.withCotAll p o' (DefModule.withGdAll q o ms)) cs = .ok ms' →
      DefModule.costs ms' = .ok a → κ * ctrlSq ms cs ≤ a
  | [], _ => ⟨1, one_pos, fun q o p o' cs ms' a _ h1 h2 => by
      rw [DefModule.withGdAll, DefModule.withCotAll, fillAll_nil] at h1
      obtain rfl := Except.ok.inj h1
      rw [DefModule.costs] at h2
      rw [← Except.ok.inj h2]
      simp [ctrlSq]⟩
  | m :: ms, h => by
    obtain ⟨κ, hκ, hall⟩ := grows_all ms fun m' hm' => h m' (List.mem_cons_of_mem _ hm')
    have split : ∀ (q : Row) (o : Nat) (p : Row) (o' : Nat) (cs : List (Ctrl d)) (ms' : List (DefModule d)) (a : ℝ), cs.length = (m :: ms).length →
        DefModule.fillAll (DefModule.withCotAll p o' (DefModule.withGdAll q o (m :: ms))) cs = .ok ms' → DefModule.costs ms' = .ok a →
        ∃ c cs' m1 a1 a2, cs = c :: cs' ∧ ((m.withGd q o).withCot p o').fillControls c = .ok m1 ∧ m1.cost = .ok a1 ∧ κ * ctrlSq ms cs' ≤ a2 ∧ a = a1 + a2 := by
      intro q o p o' cs ms' a hl h1 h2
      cases cs with
      | nil => simp at hl
      | cons c cs =>
        rw [DefModule.withGdAll, DefModule.withCotAll, DefModule.fillAll] at h1
        cases e1 : ((m.withGd q o).withCot p o').fillControls c with
        | error e => rw [e1] at h1; cases h1
        | ok m1 =>
          rw [e1] at h1
          dsimp only at h1
          cases e2 : DefModule.fillAll (DefModule.withCotAll p (o' + (m.withGd q o).manifold.size) (DefModule.withGdAll q (o + m.manifold.size) ms)) cs with
          | error e => rw [e2] at h1; cases h1
          | ok ms1 =>
            rw [e2] at h1
            obtain rfl := Except.ok.inj h1
            rw [DefModule.costs] at h2
            cases e3 : m1.cost with
            | error e => rw [e3] at h2; cases h2
            | ok a1 =>
              rw [e3] at h2
              dsimp only at h2
              cases e4 : DefModule.costs ms1 with
              | error e => rw [e4] at h2; cases h2
              | ok a2 =>
                rw [e4] at h2
                exact ⟨c, cs, m1, a1, a2, rfl, e1, e3, hall _ _ _ _ _ _ _ (Nat.succ.inj hl) e2 e4, (Except.ok.inj h2).symm⟩
    by_cases hs : ∃ s, m = .silent s
    · obtain ⟨s, rfl⟩ := hs
      refine ⟨κ, hκ, fun q o p o' cs ms' a hl h1 h2 => ?_⟩
      obtain ⟨c, cs', m1, a1, a2, rfl, e1, e2, e3, rfl⟩ := split q o p o' cs ms' a hl h1 h2
      rw [DefModule.withGd, DefModule.withCot] at e1
      have : ∀ s : Mfd d, (DefModule.silent s).fillControls c = .ok (.silent s) := fun s => by cases c <;> rw [DefModule.fillControls]
      rw [this] at e1
      rw [← Except.ok.inj e1, DefModule.cost] at e2
      rw [← Except.ok.inj e2, zero_add]
      simpa only [ctrlSq] using e3
    · push Not at hs
      obtain ⟨κ', hκ', hm⟩ := grows_leaf (h m List.mem_cons_self) hs
      refine ⟨min κ κ', lt_min hκ hκ', fun q o p o' cs ms' a hl h1 h2 => ?_⟩
      obtain ⟨c, cs', m1, a1, a2, rfl, e1, e2, e3, rfl⟩ := split q o p o' cs ms' a hl h1 h2
      have e4 := (hm q o p o').mono (min_le_right κ κ') c e1 e2
      have e5 : min κ κ' * ctrlSq ms cs' ≤ a2 := by
        exact le_trans (mul_le_mul_of_nonneg_right (min_le_left κ κ') (ctrlSq_nonneg ms cs')) e3
      rw [ctrlSq]
      · linarith
      · exact fun s e => hs s e

/-! ### All controls, as rows of numbers -/

/-- The number of numbers in the controls of a module whose cost grows with them. -/
def DefModule.ctrlSize : DefModule d → Nat
  | @DefModule.implicit0 _ n _ => n * d
  | .globalTranslation _ => d
  | .linear _ => 1
  | @DefModule.divFree _ _ P _ => P * d
  | @DefModule.arap _ _ P _ => P * d
  | _ => 0

def ctrlSizes : List (DefModule d) → Nat
  | [] => 0
  | m :: ms => m.ctrlSize + ctrlSizes ms

/-- The controls of the module read from a row. -/
def DefModule.readCtrl (x : Row) (off : Nat) : DefModule d → Ctrl d
  | @DefModule.implicit0 _ n _ => .vecs (n := n) (viewVecs fun j => x (off + j))
  | .globalTranslation _ => .vec fun c => x (off + c)
  | .linear _ => .scalar (x off)
  | @DefModule.divFree _ _ P _ => .vecs (n := P) (viewVecs fun j => x (off + j))
  | @DefModule.arap _ _ P _ => .vecs (n := P) (viewVecs fun j => x (off + j))
  | _ => .none

/-- The same for each module of a list, as functions of the row. -/
def ctrlFns : Nat → List (DefModule d) → List (Row → Ctrl d)
  | _, [] => []
  | off, m :: ms => (fun x => m.readCtrl x off) :: ctrlFns (off + m.ctrlSize) ms

theorem sum_view {n : Nat} (x : Row) : ∑ i, ∑ c, (viewVecs x : Fin n → Vec d) i c ^ 2 = ∑ j ∈ Finset.range (n * d), x j ^ 2 := by
  induction n with
  | zero => simp
  | succ n ih =>
    rw [Fin.sum_univ_castSucc, Nat.succ_mul, Finset.sum_range_add, ← ih]
    congr 1
    rw [Finset.sum_range]
    exact Finset.sum_congr rfl fun c _ => by simp [viewVecs]

theorem sq_readCtrl (x : Row) (off : Nat) (m : DefModule d) : (m.readCtrl x off).sq = ∑ j ∈ Finset.range m.ctrlSize, x (off + j) ^ 2 := by
  cases m with
  | implicit0 m => exact sum_view fun j => x (off + j)
  | divFree m => exact sum_view fun j => x (off + j)
  | arap m => exact sum_view fun j => x (off + j)
  | globalTranslation m => exact (Finset.sum_range (fun j => x (off + j) ^ 2)).symm
  | linear m => simp [DefModule.readCtrl, DefModule.ctrlSize, Ctrl.sq]
  | _ => simp [DefModule.readCtrl, DefModule.ctrlSize, Ctrl.sq]

theorem sq_ctrlFns (x : Row) : (ms : List (DefModule d)) → (off : Nat) → ctrlSq ms ((ctrlFns off ms).map fun f => f x) = ∑ j ∈ Finset.range (ctrlSizes ms), x (off + j) ^ 2
  | [], off => by simp [ctrlSq, ctrlSizes]
  | m :: ms, off => by
    rw [ctrlFns, List.map_cons, ctrlSizes, Finset.sum_range_add]
    simp only [← Nat.add_assoc]
    rw [← sq_ctrlFns x ms (off + m.ctrlSize), ← sq_readCtrl]
    cases m <;> simp [ctrlSq, DefModule.readCtrl, Ctrl.sq]

theorem fits_ctrlFns (x : Row) : (ms : List (DefModule d)) → (∀ m ∈ ms, m.Coercive) → (off : Nat) → OwnControls ms ((ctrlFns off ms).map fun f => f x)
  | [], _, _ => .nil
  | m :: ms, h, off => by
    refine .cons ?_ (fits_ctrlFns x ms (fun m hm => h m (List.mem_cons_of_mem _ hm)) _)
    have := h m List.mem_cons_self
    cases m with
    | silent s => exact ⟨by rw [DefModule.Fits]; trivial, fun _ _ => rfl⟩
    | implicit0 m => exact ⟨by rw [DefModule.Fits]; exact ⟨_, rfl⟩, fun _ h => by cases h⟩
    | globalTranslation m => exact ⟨by rw [DefModule.Fits]; exact ⟨_, rfl⟩, fun _ h => by cases h⟩
    | linear m => exact ⟨by rw [DefModule.Fits]; exact ⟨_, rfl⟩, fun _ h => by cases h⟩
    | divFree m => exact ⟨by rw [DefModule.Fits]; exact ⟨_, rfl⟩, fun _ h => by cases h⟩
    | arap m => exact ⟨by rw [DefModule.Fits]; exact ⟨_, rfl⟩, fun _ h => by cases h⟩
    | _ => exact this.elim

theorem view_exists {n : Nat} (h : Fin n → Vec d) (off : Nat) : ∃ x : Row, ∀ y : Row, (∀ j < n * d, y (off + j) = x (off + j)) → viewVecs (fun j => y (off + j)) = h := by
  refine ⟨fun j => if hj : j - off < n * d then h (Fin.divNat ⟨j - off, hj⟩) (Fin.modNat ⟨j - off, hj⟩) else 0, fun y hy => ?_⟩
  funext i c
  have hlt : (i : Nat) * d + c < n * d := by
    have := Nat.mul_le_mul_right d (Nat.succ_le_of_lt i.2)
    have h2 := c.2
    rw [Nat.succ_mul] at this
    omega
  show y (off + (i * d + c)) = _
  rw [hy _ hlt]
  have hd : 0 < d := Nat.pos_of_ne_zero fun e => by subst e; exact c.elim0
  simp only [Nat.add_sub_cancel_left, dif_pos hlt]
  congr 1
  · congr 1
    refine Fin.ext ?_
    simp [Fin.divNat, Nat.add_div, Nat.mul_comm _ d, hd, Nat.div_eq_of_lt c.2, Nat.mod_eq_of_lt c.2]
  · refine Fin.ext ?_
    simp [Fin.modNat, Nat.mod_eq_of_lt c.2]

theorem readCtrl_exists {m : DefModule d} (hc : m.Coercive) {c : Ctrl d} (hf : m.Fits c) (hs : ∀ s, m = .silent s → c = .none) (off : Nat) :
    ∃ x : Row, ∀ y : Row, (∀ j < m.ctrlSize, y (off + j) = x (off + j)) → m.readCtrl y off = c := by
  cases m with
  | silent s => exact ⟨0, fun _ _ => (hs s rfl).symm⟩
  | implicit0 m =>
    rw [DefModule.Fits] at hf
    obtain ⟨h, rfl⟩ := hf
    obtain ⟨x, hx⟩ := view_exists h off
    exact ⟨x, fun y hy => congrArg Ctrl.vecs (hx y hy)⟩
  | divFree m =>
    rw [DefModule.Fits] at hf
    obtain ⟨h, rfl⟩ := hf
    obtain ⟨x, hx⟩ := view_exists h off
    exact ⟨x, fun y hy => congrArg Ctrl.vecs (hx y hy)⟩
  | arap m =>
    rw [DefModule.Fits] at hf
    obtain ⟨h, rfl⟩ := hf
    obtain ⟨x, hx⟩ := view_exists h off
    exact ⟨x, fun y hy => congrArg Ctrl.vecs (hx y hy)⟩
  | globalTranslation m =>
    rw [DefModule.Fits] at hf
    obtain ⟨h, rfl⟩ := hf
    refine ⟨fun j => if hj : j - off < d then h ⟨j - off, hj⟩ else 0, fun y hy => congrArg Ctrl.vec (funext fun c => ?_)⟩
    rw [hy c c.2]
    simp
  | linear m =>
    rw [DefModule.Fits] at hf
    obtain ⟨h, rfl⟩ := hf
    exact ⟨fun _ => h, fun y hy => congrArg Ctrl.scalar (hy 0 Nat.one_pos)⟩
  | _ => exact hc.elim

theorem ctrlFns_exists : (ms : List (DefModule d)) → (∀ m ∈ ms, m.Coercive) → (cs : List (Ctrl d)) → OwnControls ms cs → (off : Nat) →
    ∃ x : Row, ∀ y : Row, (∀ j < ctrlSizes ms, y (off + j) = x (off + j)) → (ctrlFns off ms).map (fun f => f y) = cs
  | [], _, cs, h, _ => by cases h; exact ⟨0, fun _ _ => rfl⟩
  | m :: ms, hc, cs, h, off => by
    cases h with
    | cons h1 h2 =>
      obtain ⟨x, hx⟩ := readCtrl_exists (hc m List.mem_cons_self) h1.1 h1.2 off
      obtain ⟨x', hx'⟩ := ctrlFns_exists ms (fun m hm => hc m (List.mem_cons_of_mem _ hm)) _ h2 (off + m.ctrlSize)
      refine ⟨fun j => if j < off + m.ctrlSize then x j else x' j, fun y hy => ?_⟩
      rw [ctrlFns, List.map_cons]
      refine congrArg₂ List.cons (hx y fun j hj => ?_) (hx' y fun j hj => ?_)
      · exact (hy j (by rw [ctrlSizes]; omega)).trans (if_pos (by omega))
      · rw [Nat.add_assoc]
        exact (hy (m.ctrlSize + j) (by rw [ctrlSizes]; omega)).trans (if_neg (by omega))

theorem smCtrl_fns {E : Type} [NormedAddCommGroup E] [NormedSpace ℝ E] {n : WithTop ℕ∞} {e₀ : E} {x : E → Row} (hx : SmRow n e₀ x) :
    (ms : List (DefModule d)) → (off : Nat) → ∀ f ∈ ctrlFns off ms, SmCtrl n e₀ fun e => f (x e)
  | [], _, f, hf => by cases hf
  | m :: ms, off, f, hf => by
    rw [ctrlFns, List.mem_cons] at hf
    rcases hf with rfl | hf
    · cases m with
      | implicit0 m => exact .vecs _ fun i c => hx _
      | divFree m => exact .vecs _ fun i c => hx _
      | arap m => exact .vecs _ fun i c => hx _
      | globalTranslation m => exact .vec _ fun c => hx _
      | linear m => exact .scalar _ (hx _)
      | _ => exact .none
    · exact smCtrl_fns hx ms _ f hf

end
end Imodal
