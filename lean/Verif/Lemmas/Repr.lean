import Verif.Lemmas.Avail
import Verif.Lemmas.DerivGram
/-! Kernel fields as representers of functionals of a field: point values and Jacobians.

An atom `(x, α, M)` stands for the functional `v ↦ ⟨α, v(x)⟩ + ⟨M, Dv(x)⟩`. -/
set_option autoImplicit false
namespace Imodal
noncomputable section
variable {d : Nat}

structure Atom (d : Nat) where
  x : Vec d
  α : Vec d
  M : Mat d

/-- Value of the functional on a field given by values and Jacobians. -/
def Atom.pair (a : Atom d) (v : Vec d → Vec d) (J : Vec d → Mat d) : ℝ :=
  ∑ b, a.α b * v a.x b + ∑ b, ∑ c, a.M b c * J a.x b c

/-- Value of the field representing the atom. -/
def Atom.rep (σ : ℝ) (a : Atom d) (y : Vec d) : Vec d := fun b =>
  kXY σ y a.x * a.α b - ∑ c, g1 σ (relDiff y a.x) c * a.M b c

/-- Jacobian of the field representing the atom. -/
def Atom.repJ (σ : ℝ) (a : Atom d) (y : Vec d) : Mat d := fun b c =>
  g1 σ (relDiff y a.x) c * a.α b - ∑ e, g2 σ (relDiff y a.x) e c * a.M b e

def pair (A : List (Atom d)) (v : Vec d → Vec d) (J : Vec d → Mat d) : ℝ :=
  (A.map fun a => a.pair v J).sum
def rep (σ : ℝ) (A : List (Atom d)) (y : Vec d) : Vec d := fun b => (A.map fun a => a.rep σ y b).sum
def repJ (σ : ℝ) (A : List (Atom d)) (y : Vec d) : Mat d := fun b c => (A.map fun a => a.repJ σ y b c).sum

/-- Product of two functionals: the first applied to the field representing the second. -/
def gram (σ : ℝ) (A B : List (Atom d)) : ℝ := pair A (rep σ B) (repJ σ B)

/-! ### Bilinearity -/

theorem pair_nil (v : Vec d → Vec d) (J : Vec d → Mat d) : pair [] v J = 0 := rfl
theorem pair_cons (a : Atom d) (A : List (Atom d)) (v : Vec d → Vec d) (J : Vec d → Mat d) :
    pair (a :: A) v J = a.pair v J + pair A v J := by simp [pair]
theorem pair_append (A B : List (Atom d)) (v : Vec d → Vec d) (J : Vec d → Mat d) :
    pair (A ++ B) v J = pair A v J + pair B v J := by simp [pair]
theorem pair_ofFn {n : Nat} (f : Fin n → Atom d) (v : Vec d → Vec d) (J : Vec d → Mat d) :
    pair (List.ofFn f) v J = ∑ i, (f i).pair v J := by
  unfold pair; rw [List.map_ofFn, List.sum_ofFn]; rfl

theorem rep_nil (σ : ℝ) (y : Vec d) : rep σ [] y = 0 := rfl
theorem repJ_nil (σ : ℝ) (y : Vec d) : repJ σ [] y = 0 := rfl
theorem rep_append (σ : ℝ) (A B : List (Atom d)) (y : Vec d) :
    rep σ (A ++ B) y = rep σ A y + rep σ B y := by funext b; simp [rep]
theorem repJ_append (σ : ℝ) (A B : List (Atom d)) (y : Vec d) :
    repJ σ (A ++ B) y = repJ σ A y + repJ σ B y := by funext b c; simp [repJ]
theorem rep_cons (σ : ℝ) (a : Atom d) (A : List (Atom d)) (y : Vec d) :
    rep σ (a :: A) y = a.rep σ y + rep σ A y := by funext b; simp [rep]
theorem repJ_cons (σ : ℝ) (a : Atom d) (A : List (Atom d)) (y : Vec d) :
    repJ σ (a :: A) y = a.repJ σ y + repJ σ A y := by funext b c; simp [repJ]
theorem rep_ofFn (σ : ℝ) {n : Nat} (f : Fin n → Atom d) (y : Vec d) :
    rep σ (List.ofFn f) y = fun b => ∑ i, (f i).rep σ y b := by
  funext b; unfold rep; rw [List.map_ofFn, List.sum_ofFn]; rfl
theorem repJ_ofFn (σ : ℝ) {n : Nat} (f : Fin n → Atom d) (y : Vec d) :
    repJ σ (List.ofFn f) y = fun b c => ∑ i, (f i).repJ σ y b c := by
  funext b c; unfold repJ; rw [List.map_ofFn, List.sum_ofFn]; rfl

theorem Atom.pair_zero (a : Atom d) : a.pair 0 0 = 0 := by simp [Atom.pair]

theorem Atom.pair_add (a : Atom d) (v w : Vec d → Vec d) (J L : Vec d → Mat d) :
    a.pair (v + w) (J + L) = a.pair v J + a.pair w L := by
  unfold Atom.pair
  simp only [Pi.add_apply, Matrix.add_apply, mul_add, Finset.sum_add_distrib]
  ring

theorem Atom.pair_smul (a : Atom d) (t : ℝ) (v : Vec d → Vec d) (J : Vec d → Mat d) :
    a.pair (t • v) (t • J) = t * a.pair v J := by
  unfold Atom.pair
  simp only [Pi.smul_apply, Matrix.smul_apply, smul_eq_mul, mul_add, Finset.mul_sum]
  congr 1
  · exact Finset.sum_congr rfl fun b _ => by ring
  · exact Finset.sum_congr rfl fun b _ => Finset.sum_congr rfl fun c _ => by ring

theorem pair_add (A : List (Atom d)) (v w : Vec d → Vec d) (J L : Vec d → Mat d) :
    pair A (v + w) (J + L) = pair A v J + pair A w L := by
  induction A with
  | nil => simp [pair_nil]
  | cons a A ih => rw [pair_cons, pair_cons, pair_cons, ih, Atom.pair_add]; ring

theorem pair_smul (A : List (Atom d)) (t : ℝ) (v : Vec d → Vec d) (J : Vec d → Mat d) :
    pair A (t • v) (t • J) = t * pair A v J := by
  induction A with
  | nil => simp [pair_nil]
  | cons a A ih => rw [pair_cons, pair_cons, ih, Atom.pair_smul]; ring

theorem pair_zero (A : List (Atom d)) : pair A 0 0 = 0 := by
  induction A with
  | nil => rfl
  | cons a A ih => rw [pair_cons, ih, Atom.pair_zero]; ring

/-- Atoms without matrix part do not look at the Jacobian. -/
theorem pair_no_matrix {A : List (Atom d)} (hA : ∀ a ∈ A, a.M = 0) (v : Vec d → Vec d)
    (J L : Vec d → Mat d) : pair A v J = pair A v L := by
  induction A with
  | nil => rfl
  | cons a A ih =>
    rw [pair_cons, pair_cons, ih fun b hb => hA b (List.mem_cons_of_mem _ hb)]
    unfold Atom.pair
    rw [hA a List.mem_cons_self]
    simp

/-! ### Symmetry -/

theorem atom_gram_symm (σ : ℝ) (a b : Atom d) :
    a.pair (b.rep σ) (b.repJ σ) = b.pair (a.rep σ) (a.repJ σ) := by
  unfold Atom.pair Atom.rep Atom.repJ
  have hk : kXY σ a.x b.x = kXY σ b.x a.x := kXY_comm σ _ _
  have e1 : ∀ c, g1 σ (relDiff a.x b.x) c = -g1 σ (relDiff b.x a.x) c := fun c => g1_neg σ _ _ c
  have e2 : ∀ c e, g2 σ (relDiff a.x b.x) c e = g2 σ (relDiff b.x a.x) c e := fun c e => g2_neg σ _ _ c e
  simp only [e1, e2, hk]
  set K := kXY σ b.x a.x
  set u := g1 σ (relDiff b.x a.x)
  set H := g2 σ (relDiff b.x a.x) with hH
  have hs : ∀ c e, H c e = H e c := fun c e => g2_comm σ _ c e
  have l : ∑ p, a.α p * (K * b.α p - ∑ c, -u c * b.M p c)
        + ∑ p, ∑ c, a.M p c * (-u c * b.α p - ∑ e, H e c * b.M p e)
      = ∑ p, (K * a.α p * b.α p) + ∑ p, ∑ c, a.α p * u c * b.M p c - ∑ p, ∑ c, a.M p c * u c * b.α p
        - ∑ p, ∑ c, ∑ e, a.M p c * H e c * b.M p e := by
    simp only [mul_sub, Finset.sum_sub_distrib, Finset.mul_sum, neg_mul, mul_neg, Finset.sum_neg_distrib]
    have t1 : ∑ p, a.α p * (K * b.α p) = ∑ p, K * a.α p * b.α p :=
      Finset.sum_congr rfl fun p _ => by ring
    have t2 : ∑ p, ∑ c, a.α p * (u c * b.M p c) = ∑ p, ∑ c, a.α p * u c * b.M p c :=
      Finset.sum_congr rfl fun p _ => Finset.sum_congr rfl fun c _ => by ring
    have t3 : ∑ p, ∑ c, a.M p c * (u c * b.α p) = ∑ p, ∑ c, a.M p c * u c * b.α p :=
      Finset.sum_congr rfl fun p _ => Finset.sum_congr rfl fun c _ => by ring
    have t4 : ∑ p, ∑ c, ∑ e, a.M p c * (H e c * b.M p e) = ∑ p, ∑ c, ∑ e, a.M p c * H e c * b.M p e :=
      Finset.sum_congr rfl fun p _ => Finset.sum_congr rfl fun c _ => Finset.sum_congr rfl fun e _ => by ring
    rw [t1, t2, t3, t4]; ring
  have r : ∑ p, b.α p * (K * a.α p - ∑ c, u c * a.M p c)
        + ∑ p, ∑ c, b.M p c * (u c * a.α p - ∑ e, H e c * a.M p e)
      = ∑ p, (K * a.α p * b.α p) - ∑ p, ∑ c, a.M p c * u c * b.α p + ∑ p, ∑ c, a.α p * u c * b.M p c
        - ∑ p, ∑ c, ∑ e, a.M p c * H e c * b.M p e := by
    simp only [mul_sub, Finset.sum_sub_distrib, Finset.mul_sum]
    have t1 : ∑ p, b.α p * (K * a.α p) = ∑ p, K * a.α p * b.α p :=
      Finset.sum_congr rfl fun p _ => by ring
    have t2 : ∑ p, ∑ c, b.α p * (u c * a.M p c) = ∑ p, ∑ c, a.M p c * u c * b.α p :=
      Finset.sum_congr rfl fun p _ => Finset.sum_congr rfl fun c _ => by ring
    have t3 : ∑ p, ∑ c, b.M p c * (u c * a.α p) = ∑ p, ∑ c, a.α p * u c * b.M p c :=
      Finset.sum_congr rfl fun p _ => Finset.sum_congr rfl fun c _ => by ring
    have t4 : ∑ p, ∑ c, ∑ e, b.M p c * (H e c * a.M p e) = ∑ p, ∑ c, ∑ e, a.M p c * H e c * b.M p e := by
      refine Finset.sum_congr rfl fun p _ => ?_
      rw [Finset.sum_comm]
      exact Finset.sum_congr rfl fun c _ => Finset.sum_congr rfl fun e _ => by rw [hs e c]; ring
    rw [t1, t2, t3, t4]; ring
  rw [l, r]; ring

theorem gram_cons_right (σ : ℝ) (A : List (Atom d)) (b : Atom d) (B : List (Atom d)) :
    gram σ A (b :: B) = pair A (b.rep σ) (b.repJ σ) + gram σ A B := by
  unfold gram
  rw [← pair_add]
  exact congrArg₂ (pair A) (funext fun y => rep_cons σ b B y) (funext fun y => repJ_cons σ b B y)

theorem gram_atom (σ : ℝ) (a : Atom d) (B : List (Atom d)) :
    a.pair (rep σ B) (repJ σ B) = pair B (a.rep σ) (a.repJ σ) := by
  induction B with
  | nil => exact a.pair_zero
  | cons b B ih =>
    rw [pair_cons, ← ih, ← atom_gram_symm, ← Atom.pair_add]
    exact congrArg₂ a.pair (funext fun y => rep_cons σ b B y) (funext fun y => repJ_cons σ b B y)

theorem gram_symm (σ : ℝ) (A B : List (Atom d)) : gram σ A B = gram σ B A := by
  induction A with
  | nil =>
    have : gram σ B [] = 0 := pair_zero B
    rw [this]; rfl
  | cons a A ih =>
    rw [gram_cons_right, ← ih]
    unfold gram
    rw [pair_cons, gram_atom]

theorem gram_append_left (σ : ℝ) (A B C : List (Atom d)) : gram σ (A ++ B) C = gram σ A C + gram σ B C :=
  pair_append A B _ _

theorem gram_append_right (σ : ℝ) (A B C : List (Atom d)) : gram σ A (B ++ C) = gram σ A B + gram σ A C := by
  rw [gram_symm, gram_append_left, gram_symm σ B, gram_symm σ C]

/-! ### Positivity -/

theorem gram_ofFn (σ : ℝ) {n m : Nat} (f : Fin n → Atom d) (g : Fin m → Atom d) :
    gram σ (List.ofFn f) (List.ofFn g) = ∑ i, ∑ j, (f i).pair ((g j).rep σ) ((g j).repJ σ) := by
  unfold gram
  rw [pair_ofFn]
  refine Finset.sum_congr rfl fun i _ => ?_
  rw [gram_atom, pair_ofFn]
  exact Finset.sum_congr rfl fun j _ => atom_gram_symm σ _ _

/-- The pairing of two atoms, split over the coordinates of the fields. -/
theorem atom_entry (σ : ℝ) (a b : Atom d) :
    a.pair (b.rep σ) (b.repJ σ) = ∑ p, entry σ a.x b.x (a.α p) (b.α p) (a.M p) (b.M p) := by
  unfold Atom.pair Atom.rep Atom.repJ entry dot
  rw [← Finset.sum_add_distrib]
  refine Finset.sum_congr rfl fun p _ => ?_
  simp only [mul_sub, Finset.sum_sub_distrib, Finset.mul_sum, Finset.sum_mul]
  have t1 : ∑ c, a.M p c * (g1 σ (relDiff a.x b.x) c * b.α p)
      = ∑ c, a.M p c * g1 σ (relDiff a.x b.x) c * b.α p := Finset.sum_congr rfl fun c _ => by ring
  have t2 : ∑ c, ∑ e, a.M p c * (g2 σ (relDiff a.x b.x) e c * b.M p e)
      = ∑ c, ∑ e, a.M p c * b.M p e * g2 σ (relDiff a.x b.x) c e :=
    Finset.sum_congr rfl fun c _ => Finset.sum_congr rfl fun e _ => by rw [g2_comm]; ring
  have t3 : ∑ c, a.α p * (g1 σ (relDiff a.x b.x) c * b.M p c)
      = ∑ c, a.α p * (b.M p c * g1 σ (relDiff a.x b.x) c) := Finset.sum_congr rfl fun c _ => by ring
  rw [t1, t2, t3]; ring

theorem gram_nonneg (σ : ℝ) (A : List (Atom d)) : 0 ≤ gram σ A A := by
  have h := gram_ofFn σ (fun i => A[i.1]) (fun i => A[i.1])
  have e : List.ofFn (fun i : Fin A.length => A[i.1]) = A := List.ofFn_getElem
  rw [e] at h
  rw [h]
  simp only [atom_entry]
  have : ∑ i : Fin A.length, ∑ j : Fin A.length, ∑ p, entry σ A[i.1].x A[j.1].x (A[i.1].α p) (A[j.1].α p) (A[i.1].M p) (A[j.1].M p)
      = ∑ p, ∑ i : Fin A.length, ∑ j : Fin A.length, entry σ A[i.1].x A[j.1].x (A[i.1].α p) (A[j.1].α p) (A[i.1].M p) (A[j.1].M p) := by
    rw [Finset.sum_comm' (s := Finset.univ) (t := fun _ => Finset.univ) (t' := Finset.univ) (s' := fun _ => Finset.univ) (by simp)]
    rw [Finset.sum_comm]
    refine (Finset.sum_congr rfl fun i _ => Finset.sum_comm).trans ?_
    rw [Finset.sum_comm]
  rw [this]
  exact Finset.sum_nonneg fun p _ => entry_psd σ (fun i : Fin A.length => A[i.1].x) (fun i => A[i.1].α p) (fun i => A[i.1].M p)

/-! ### Kernel fields represent atoms -/

/-- `f` has values and is the field representing `A`; its Jacobian, if the library offers it,
is the Jacobian of that field. -/
structure IsRep (σ : ℝ) (f : FieldExpr d) (A : List (Atom d)) : Prop where
  avail : Avail 0 f
  val : ∀ y, fieldVal f y = rep σ A y
  jac : Avail 1 f → ∀ y, fieldJac f y = repJ σ A y

def atom0 (x α : Vec d) : Atom d := ⟨x, α, 0⟩
def atom1 (x : Vec d) (M : Mat d) : Atom d := ⟨x, 0, M⟩

theorem eval_f0_zero (r : Reduction) {n : Nat} (supp mom : Fin n → Vec d) (σ : ℝ) (y : Vec d) :
    (FieldExpr.f0 r supp mom σ).eval 0 y = .ok fun I => ∑ j, kXY σ y (supp j) * mom j (I 0) := by
  cases r
  · exact field0Torch_zero supp mom σ y
  · exact (field0Keops_zero supp mom σ y).trans (field0Torch_zero supp mom σ y)

theorem eval_f0_one (r : Reduction) {n : Nat} (supp mom : Fin n → Vec d) (σ : ℝ) (y : Vec d) :
    (FieldExpr.f0 r supp mom σ).eval 1 y = .ok fun I => ∑ j, g1 σ (relDiff y (supp j)) (I 1) * mom j (I 0) := by
  cases r
  · exact field0Torch_one supp mom σ y
  · exact (field0Keops_one supp mom σ y).trans (field0Torch_one supp mom σ y)

theorem isRep_f0 (r : Reduction) {n : Nat} (supp mom : Fin n → Vec d) (σ : ℝ) :
    IsRep σ (.f0 r supp mom σ) (List.ofFn fun j => atom0 (supp j) (mom j)) where
  avail := ⟨_, fun y => eval_f0_zero r supp mom σ y⟩
  val y := by
    rw [fieldVal_of_eval (eval_f0_zero r supp mom σ y), rep_ofFn]
    simp [Atom.rep, atom0]
  jac _ y := by
    rw [fieldJac_of_eval (eval_f0_one r supp mom σ y), repJ_ofFn]
    funext b c
    simp [Atom.repJ, atom0]

theorem avail_f0_one (r : Reduction) {n : Nat} (supp mom : Fin n → Vec d) (σ : ℝ) :
    Avail 1 (.f0 r supp mom σ) := ⟨_, fun y => eval_f0_one r supp mom σ y⟩

theorem isRep_f0u (r : Reduction) {n : Nat} (supp mom dir : Fin n → Vec d) (σ : ℝ) :
    IsRep σ (.f0u r supp mom dir σ) (List.ofFn fun j => atom1 (supp j) (Matrix.vecMulVec (mom j) (dir j))) where
  avail := ⟨_, fun y => field0uTorch_zero supp mom dir σ y⟩
  val y := by
    have h : (FieldExpr.f0u r supp mom dir σ).eval 0 y = _ := field0uTorch_zero supp mom dir σ y
    rw [fieldVal_of_eval h, rep_ofFn]
    funext b
    refine Finset.sum_congr rfl fun j _ => ?_
    simp only [Atom.rep, atom1, Matrix.vecMulVec_apply, Pi.zero_apply, mul_zero, zero_sub, Finset.sum_mul, ← Finset.sum_neg_distrib]
    exact Finset.sum_congr rfl fun c _ => by ring
  jac h := by
    obtain ⟨V, hV⟩ := h
    have := (field0uTorch_succ supp mom dir σ (fun _ => 0) 0).symm.trans (hV fun _ => 0)
    cases this

theorem fieldPm_isRep {n : Nat} {f : FieldExpr d} (supp : Fin n → Vec d) (P : Fin n → Mat d) (σ : ℝ)
    (h0 : ∀ y, f.eval 0 y = fieldPmTorch supp P σ 0 y) (h1 : ∀ y, f.eval 1 y = fieldPmTorch supp P σ 1 y) :
    IsRep σ f (List.ofFn fun j => atom1 (supp j) (P j)) where
  avail := ⟨_, fun y => (h0 y).trans (fieldPmTorch_zero supp P σ y)⟩
  val y := by
    rw [fieldVal_of_eval ((h0 y).trans (fieldPmTorch_zero supp P σ y)), rep_ofFn]
    funext b
    refine Finset.sum_congr rfl fun j _ => ?_
    simp [Atom.rep, atom1]
  jac _ y := by
    rw [fieldJac_of_eval ((h1 y).trans (fieldPmTorch_one supp P σ y)), repJ_ofFn]
    funext b c
    refine Finset.sum_congr rfl fun j _ => ?_
    simp [Atom.repJ, atom1]

theorem isRep_fp (r : Reduction) {n : Nat} (supp : Fin n → Vec d) (M : Fin n → Mat d) (σ : ℝ) :
    IsRep σ (.fp r supp M σ) (List.ofFn fun j => atom1 (supp j) (symPart (M j))) := by
  cases r
  · exact fieldPm_isRep supp _ σ (fun _ => rfl) (fun _ => rfl)
  · exact fieldPm_isRep supp _ σ (fun y => fieldPmKeops_zero supp _ σ y) (fun y => fieldPmKeops_one supp _ σ y)

theorem isRep_fm (r : Reduction) {n : Nat} (supp : Fin n → Vec d) (M : Fin n → Mat d) (σ : ℝ) :
    IsRep σ (.fm r supp M σ) (List.ofFn fun j => atom1 (supp j) (skewPart (M j))) := by
  cases r
  · exact fieldPm_isRep supp _ σ (fun _ => rfl) (fun _ => rfl)
  · exact fieldPm_isRep supp _ σ (fun y => fieldPmKeops_zero supp _ σ y) (fun y => fieldPmKeops_one supp _ σ y)

theorem avail_fp_one (r : Reduction) {n : Nat} (supp : Fin n → Vec d) (M : Fin n → Mat d) (σ : ℝ) :
    Avail 1 (.fp r supp M σ) := by
  cases r
  · exact ⟨_, fun y => fieldPmTorch_one supp _ σ y⟩
  · exact ⟨_, fun y => (fieldPmKeops_one supp _ σ y).trans (fieldPmTorch_one supp _ σ y)⟩

theorem avail_fm_one (r : Reduction) {n : Nat} (supp : Fin n → Vec d) (M : Fin n → Mat d) (σ : ℝ) :
    Avail 1 (.fm r supp M σ) := by
  cases r
  · exact ⟨_, fun y => fieldPmTorch_one supp _ σ y⟩
  · exact ⟨_, fun y => (fieldPmKeops_one supp _ σ y).trans (fieldPmTorch_one supp _ σ y)⟩

theorem isRep_f1 {n : Nat} (supp : Fin n → Vec d) (m : Fin n → ℝ) (σ : ℝ) :
    IsRep σ (.f1 .torch supp m σ) (List.ofFn fun j => atom1 (supp j) (m j • (1 : Mat d))) where
  avail := ⟨_, fun y => field1Torch_zero supp m σ y⟩
  val y := by
    have h : (FieldExpr.f1 .torch supp m σ).eval 0 y = _ := field1Torch_zero supp m σ y
    rw [fieldVal_of_eval h, rep_ofFn]
    funext b
    refine Finset.sum_congr rfl fun j _ => ?_
    simp [Atom.rep, atom1, Matrix.one_apply, g1_neg σ (supp j) y]
  jac _ y := by
    have h : (FieldExpr.f1 .torch supp m σ).eval 1 y = _ := field1Torch_one supp m σ y
    rw [fieldJac_of_eval h, repJ_ofFn]
    funext b c
    refine Finset.sum_congr rfl fun j _ => ?_
    simp [Atom.repJ, atom1, Matrix.one_apply, g2_neg σ (supp j) y]

theorem avail_f1_one {n : Nat} (supp : Fin n → Vec d) (m : Fin n → ℝ) (σ : ℝ) :
    Avail 1 (.f1 .torch supp m σ) := ⟨_, fun y => field1Torch_one supp m σ y⟩

theorem isRep_null (σ : ℝ) : IsRep σ (.null : FieldExpr d) [] where
  avail := ⟨_, fun _ => rfl⟩
  val _ := rfl
  jac _ _ := rfl

theorem isRep_sum_nil (σ : ℝ) : IsRep σ (.sum [] : FieldExpr d) [] where
  avail := avail_sum_nil 0
  val _ := rfl
  jac _ _ := rfl

theorem IsRep.sum_cons {σ : ℝ} {f : FieldExpr d} {fs : List (FieldExpr d)} {A B : List (Atom d)}
    (hf : IsRep σ f A) (hs : IsRep σ (.sum fs) B) : IsRep σ (.sum (f :: fs)) (A ++ B) where
  avail := avail_sum_cons.mpr ⟨hf.avail, hs.avail⟩
  val y := by rw [fieldVal_sum_cons hf.avail hs.avail, hf.val, hs.val, rep_append]
  jac h y := by
    obtain ⟨h1, h2⟩ := avail_sum_cons.mp h
    rw [fieldJac_sum_cons h1 h2, hf.jac h1, hs.jac h2, repJ_append]

/-! ### Momenta -/

mutual
/-- The functional of fields that a momentum is. -/
def momAtoms : Mfd d → List (Atom d)
  | .landmarks gd cot => List.ofFn fun i => atom0 (gd i) (cot i)
  | .direction .vector gd dir cot cdir =>
    (List.ofFn fun i => atom0 (gd i) (cot i)) ++ List.ofFn fun i => atom1 (gd i) (Matrix.vecMulVec (cdir i) (dir i))
  | .direction .orthogonal gd dir cot cdir =>
    (List.ofFn fun i => atom0 (gd i) (cot i)) ++ List.ofFn fun i => atom1 (gd i) (Matrix.vecMulVec (fun c => -dir i c) (cdir i))
  | .frame gd R cot cR =>
    (List.ofFn fun i => atom0 (gd i) (cot i)) ++
      List.ofFn fun i => atom1 (gd i) (skewPart fun b c => ∑ k, cR i b k * R i c k)
  | .empty => []
  | .compound ms => momAtomsAll ms
def momAtomsAll : List (Mfd d) → List (Atom d)
  | [] => []
  | m :: ms => momAtoms m ++ momAtomsAll ms
end

theorem atom0_pair (x α : Vec d) (v : Vec d → Vec d) (J : Vec d → Mat d) :
    (atom0 x α).pair v J = ∑ c, α c * v x c := by simp [Atom.pair, atom0]
theorem atom1_pair (x : Vec d) (M : Mat d) (v : Vec d → Vec d) (J : Vec d → Mat d) :
    (atom1 x M).pair v J = ∑ b, ∑ c, M b c * J x b c := by simp [Atom.pair, atom1]

theorem frame_pair (C R J : Mat d) :
    ∑ b, ∑ k, C b k * ∑ c, 0.5 * (J b c - J c b) * R c k
      = ∑ b, ∑ c, skewPart (fun b c => ∑ k, C b k * R c k) b c * J b c := by
  have l : ∑ b, ∑ k, C b k * ∑ c, 0.5 * (J b c - J c b) * R c k
      = ∑ b, ∑ c, (∑ k, C b k * R c k) * (0.5 * (J b c - J c b)) := by
    refine Finset.sum_congr rfl fun b _ => ?_
    simp only [Finset.mul_sum, Finset.sum_mul]
    rw [Finset.sum_comm]
    exact Finset.sum_congr rfl fun c _ => Finset.sum_congr rfl fun k _ => by ring
  rw [l]
  set P : Mat d := fun b c => ∑ k, C b k * R c k with hP
  have e1 : ∑ b, ∑ c, P b c * (0.5 * (J b c - J c b)) = ∑ b, ∑ c, 0.5 * (P b c * J b c) - ∑ b, ∑ c, 0.5 * (P b c * J c b) := by
    simp only [← Finset.sum_sub_distrib]
    exact Finset.sum_congr rfl fun b _ => Finset.sum_congr rfl fun c _ => by ring
  have e2 : ∑ b, ∑ c, 0.5 * (P b c * J c b) = ∑ b, ∑ c, 0.5 * (P c b * J b c) := Finset.sum_comm
  have e3 : ∑ b, ∑ c, skewPart P b c * J b c = ∑ b, ∑ c, 0.5 * (P b c * J b c) - ∑ b, ∑ c, 0.5 * (P c b * J b c) := by
    simp only [← Finset.sum_sub_distrib]
    exact Finset.sum_congr rfl fun b _ => Finset.sum_congr rfl fun c _ => by unfold skewPart; ring
  show ∑ b, ∑ c, P b c * (0.5 * (J b c - J c b)) = _
  rw [e1, e2, e3]

mutual
/-- `inner_prod_field` is the functional `momAtoms`. -/
theorem innerProd_ok {f : FieldExpr d} : (M : Mfd d) → {a : ℝ} → M.innerProd f = .ok a →
    a = pair (momAtoms M) (fieldVal f) (fieldJac f)
  | .landmarks gd cot, a, h => by
    rw [Mfd.innerProd] at h
    cases hv : actLandmarks gd f with
    | error e => rw [hv] at h; cases h
    | ok v =>
      rw [hv] at h
      obtain ⟨-, rfl⟩ := values_ok hv
      rw [← Except.ok.inj h, momAtoms, pair_ofFn]
      simp only [atom0_pair]
      rfl
  | .direction t gd dir cot cdir, a, h => by
    rw [Mfd.innerProd] at h
    cases hv : actDirection t gd dir f with
    | error e => rw [hv] at h; cases h
    | ok vw =>
      rw [hv] at h
      unfold actDirection at hv
      cases h1 : f.values gd with
      | error e => rw [h1] at hv; cases hv
      | ok v =>
        cases h2 : f.jacobians gd with
        | error e => rw [h1, h2] at hv; cases hv
        | ok J =>
          rw [h1, h2] at hv
          obtain ⟨-, rfl⟩ := values_ok h1
          obtain ⟨-, rfl⟩ := jacobians_ok h2
          cases t
          · have hv' := (Except.ok.inj hv).symm
            subst hv'
            rw [← Except.ok.inj h, momAtoms, pair_append, pair_ofFn, pair_ofFn]
            simp only [atom0_pair, atom1_pair, Matrix.vecMulVec_apply]
            congr 1
            refine Finset.sum_congr rfl fun i _ => Finset.sum_congr rfl fun b _ => ?_
            rw [Finset.mul_sum]
            exact Finset.sum_congr rfl fun c _ => by ring
          · have hv' := (Except.ok.inj hv).symm
            subst hv'
            rw [← Except.ok.inj h, momAtoms, pair_append, pair_ofFn, pair_ofFn]
            simp only [atom0_pair, atom1_pair, Matrix.vecMulVec_apply]
            congr 1
            refine Finset.sum_congr rfl fun i _ => ?_
            simp only [mul_neg, Finset.mul_sum, ← Finset.sum_neg_distrib]
            rw [Finset.sum_comm]
            exact Finset.sum_congr rfl fun b _ => Finset.sum_congr rfl fun c _ => by ring
  | .frame gd R cot cR, a, h => by
    rw [Mfd.innerProd] at h
    cases hv : actFrame gd R f with
    | error e => rw [hv] at h; cases h
    | ok vw =>
      rw [hv] at h
      unfold actFrame at hv
      cases h1 : f.values gd with
      | error e => rw [h1] at hv; cases hv
      | ok v =>
        cases h2 : f.jacobians gd with
        | error e => rw [h1, h2] at hv; cases hv
        | ok J =>
          rw [h1, h2] at hv
          obtain ⟨-, rfl⟩ := values_ok h1
          obtain ⟨-, rfl⟩ := jacobians_ok h2
          have hv' := (Except.ok.inj hv).symm
          subst hv'
          rw [← Except.ok.inj h, momAtoms, pair_append, pair_ofFn, pair_ofFn]
          simp only [atom0_pair, atom1_pair]
          congr 1
          exact Finset.sum_congr rfl fun i _ => frame_pair (cR i) (R i) (fieldJac f (gd i))
  | .empty, a, h => (Except.ok.inj h).symm
  | .compound ms, a, h => innerProdAll_ok ms h
theorem innerProdAll_ok {f : FieldExpr d} : (ms : List (Mfd d)) → {a : ℝ} → Mfd.innerProdAll f ms = .ok a →
    a = pair (momAtomsAll ms) (fieldVal f) (fieldJac f)
  | [], a, h => (Except.ok.inj h).symm
  | m :: ms, a, h => by
    rw [Mfd.innerProdAll] at h
    cases h1 : Mfd.innerProd f m with
    | error e => rw [h1] at h; cases h
    | ok p =>
      cases h2 : Mfd.innerProdAll f ms with
      | error e => rw [h1, h2] at h; cases h
      | ok q =>
        rw [h1, h2] at h
        rw [← Except.ok.inj h, momAtomsAll, pair_append, innerProd_ok m h1, innerProdAll_ok ms h2]
end

mutual
/-- A field with values and Jacobian can be paired with every momentum. -/
theorem innerProd_avail {f : FieldExpr d} (h0 : Avail 0 f) (h1 : Avail 1 f) : (M : Mfd d) →
    ∃ a, M.innerProd f = .ok a
  | .landmarks gd cot => by
    rw [Mfd.innerProd]; unfold actLandmarks; rw [h0.values]; exact ⟨_, rfl⟩
  | .direction t gd dir cot cdir => by
    rw [Mfd.innerProd]; unfold actDirection; rw [h0.values, h1.jacobians]
    cases t
    · exact ⟨_, rfl⟩
    · exact ⟨_, rfl⟩
  | .frame gd R cot cR => by
    rw [Mfd.innerProd]; unfold actFrame; rw [h0.values, h1.jacobians]; exact ⟨_, rfl⟩
  | .empty => ⟨0, rfl⟩
  | .compound ms => innerProdAll_avail h0 h1 ms
theorem innerProdAll_avail {f : FieldExpr d} (h0 : Avail 0 f) (h1 : Avail 1 f) : (ms : List (Mfd d)) →
    ∃ a, Mfd.innerProdAll f ms = .ok a
  | [] => ⟨0, rfl⟩
  | m :: ms => by
    obtain ⟨a, ha⟩ := innerProd_avail h0 h1 m
    obtain ⟨b, hb⟩ := innerProdAll_avail h0 h1 ms
    exact ⟨a + b, by rw [Mfd.innerProdAll, ha, hb]⟩
end

theorem mkSumField_ok {fs : List (FieldExpr d)} {w : FieldExpr d} (h : mkSumField fs = .ok w) :
    w = .sum fs := by
  cases fs with
  | nil => cases h
  | cons f fs => exact (Except.ok.inj h).symm

mutual
/-- `cot_to_vs` represents the momentum. -/
theorem cotToVs_isRep {σ : ℝ} {r : Reduction} : (M : Mfd d) → {w : FieldExpr d} →
    M.cotToVs σ r = .ok w → IsRep σ w (momAtoms M)
  | .landmarks gd cot, w, h => by
    rw [Mfd.cotToVs] at h
    rw [← Except.ok.inj h]
    exact isRep_f0 r gd cot σ
  | .direction .vector gd dir cot cdir, w, h => by
    rw [Mfd.cotToVs] at h
    rw [mkSumField_ok h, momAtoms]
    have := (isRep_f0u r gd cdir dir σ).sum_cons (isRep_sum_nil σ)
    rw [List.append_nil] at this
    exact (isRep_f0 r gd cot σ).sum_cons this
  | .direction .orthogonal gd dir cot cdir, w, h => by
    rw [Mfd.cotToVs] at h
    rw [mkSumField_ok h, momAtoms]
    have := (isRep_f0u r gd (fun i c => -dir i c) cdir σ).sum_cons (isRep_sum_nil σ)
    rw [List.append_nil] at this
    exact (isRep_f0 r gd cot σ).sum_cons this
  | .frame gd R cot cR, w, h => by
    rw [Mfd.cotToVs] at h
    rw [mkSumField_ok h, momAtoms]
    have := (isRep_fm r gd (fun i b c => ∑ k, cR i b k * R i c k) σ).sum_cons (isRep_sum_nil σ)
    rw [List.append_nil] at this
    exact (isRep_f0 r gd cot σ).sum_cons this
  | .empty, w, h => by
    rw [Mfd.cotToVs] at h
    rw [← Except.ok.inj h]
    exact isRep_null σ
  | .compound ms, w, h => by
    rw [Mfd.cotToVs] at h
    cases h1 : Mfd.cotToVsAll σ r ms with
    | error e => rw [h1] at h; cases h
    | ok fs =>
      rw [h1] at h
      have h2 : mkSumField fs = .ok w := h
      rw [mkSumField_ok h2]
      exact cotToVsAll_isRep ms h1
theorem cotToVsAll_isRep {σ : ℝ} {r : Reduction} : (ms : List (Mfd d)) → {fs : List (FieldExpr d)} →
    Mfd.cotToVsAll σ r ms = .ok fs → IsRep σ (.sum fs) (momAtomsAll ms)
  | [], fs, h => by
    rw [Mfd.cotToVsAll] at h
    rw [← Except.ok.inj h]
    exact isRep_sum_nil σ
  | m :: ms, fs, h => by
    rw [Mfd.cotToVsAll] at h
    cases h1 : Mfd.cotToVs σ r m with
    | error e => rw [h1] at h; cases h
    | ok f =>
      cases h2 : Mfd.cotToVsAll σ r ms with
      | error e => rw [h1, h2] at h; cases h
      | ok gs =>
        rw [h1, h2] at h
        rw [← Except.ok.inj h, momAtomsAll]
        exact (cotToVs_isRep m h1).sum_cons (cotToVsAll_isRep ms h2)
end

/-- Pairing a momentum with a kernel field. -/
theorem innerProd_rep {σ : ℝ} {f : FieldExpr d} {A : List (Atom d)} (hf : IsRep σ f A) (h1 : Avail 1 f)
    (M : Mfd d) : M.innerProd f = .ok (gram σ (momAtoms M) A) := by
  obtain ⟨a, ha⟩ := innerProd_avail hf.avail h1 M
  rw [ha, innerProd_ok M ha]
  unfold gram
  rw [funext hf.val, funext (hf.jac h1)]

end
end Imodal
