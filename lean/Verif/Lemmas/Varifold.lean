import Verif.Lemmas.Gram
import Verif.Lemmas.Kernel
import Verif.Model.Varifold
/-!
# Finite varifolds

A finite varifold is a list of atoms, each a position and a vector: the vector's length is the
weight of the atom, its line the direction.
-/
set_option autoImplicit false
namespace Imodal
noncomputable section
variable {d : Nat}

/-- The kernel of two atoms. -/
def Spec.atomKernel (σ : ℝ) (p q : Vec d × Vec d) : ℝ := kXY σ p.1 q.1 * (∑ c, p.2 c * q.2 c) ^ 2 / (tnorm p.2 * tnorm q.2)

/-- The scalar product of two finite varifolds. -/
def Spec.vinner (σ : ℝ) (A B : List (Vec d × Vec d)) : ℝ := (A.map fun p => (B.map fun q => Spec.atomKernel σ p q).sum).sum

/-- The squared distance of two finite varifolds. -/
def Spec.vdist (σ : ℝ) (A B : List (Vec d × Vec d)) : ℝ := Spec.vinner σ A A + Spec.vinner σ B B - 2 * Spec.vinner σ A B

theorem sum_swap {α β : Type} (K : α → β → ℝ) (B : List β) : ∀ A : List α,
    (A.map fun p => (B.map fun q => K p q).sum).sum = (B.map fun q => (A.map fun p => K p q).sum).sum
  | [] => by simp
  | a :: A => by
    simp only [List.map_cons, List.sum_cons]
    rw [sum_swap K B A, List.sum_map_add]

theorem atomKernel_comm (σ : ℝ) (p q : Vec d × Vec d) : Spec.atomKernel σ p q = Spec.atomKernel σ q p := by
  unfold Spec.atomKernel
  rw [kXY_comm, mul_comm (tnorm p.2), Finset.sum_congr rfl fun c _ => mul_comm (p.2 c) (q.2 c)]

theorem vinner_comm (σ : ℝ) (A B : List (Vec d × Vec d)) : Spec.vinner σ A B = Spec.vinner σ B A := by
  unfold Spec.vinner
  rw [sum_swap]
  simp only [atomKernel_comm σ]

theorem vdist_comm (σ : ℝ) (A B : List (Vec d × Vec d)) : Spec.vdist σ A B = Spec.vdist σ B A := by
  unfold Spec.vdist; rw [vinner_comm σ A B]; ring

theorem vdist_self (σ : ℝ) (A : List (Vec d × Vec d)) : Spec.vdist σ A A = 0 := by unfold Spec.vdist; ring

/-- Weighted atoms: the quadratic form is non-negative. -/
theorem weighted_psd (σ : ℝ) (C : List (ℝ × Vec d × Vec d)) :
    0 ≤ (C.map fun p => (C.map fun q => p.1 * q.1 * (kXY σ p.2.1 q.2.1 * (∑ c, p.2.2 c * q.2.2 c) ^ 2)).sum).sum := by
  have hl : ∀ (f : ℝ × Vec d × Vec d → ℝ), (C.map f).sum = ∑ i : Fin C.length, f C[i.1] := fun f => (Fin.sum_univ_fun_getElem C f).symm
  simp only [hl]
  have hexp : ∀ i j : Fin C.length, C[i.1].1 * C[j.1].1 * (kXY σ C[i.1].2.1 C[j.1].2.1 * (∑ c, C[i.1].2.2 c * C[j.1].2.2 c) ^ 2) =
      ∑ a, ∑ b, (C[i.1].1 * C[i.1].2.2 a * C[i.1].2.2 b) * (C[j.1].1 * C[j.1].2.2 a * C[j.1].2.2 b) * kXY σ C[i.1].2.1 C[j.1].2.1 := by
    intro i j
    rw [sq, Finset.sum_mul_sum, Finset.mul_sum, Finset.mul_sum]
    refine Finset.sum_congr rfl fun a _ => ?_
    rw [Finset.mul_sum, Finset.mul_sum]
    exact Finset.sum_congr rfl fun b _ => by ring
  simp only [hexp]
  have hsw : ∑ i : Fin C.length, ∑ j : Fin C.length, ∑ a, ∑ b, (C[i.1].1 * C[i.1].2.2 a * C[i.1].2.2 b) * (C[j.1].1 * C[j.1].2.2 a * C[j.1].2.2 b) * kXY σ C[i.1].2.1 C[j.1].2.1 =
      ∑ a, ∑ b, ∑ i : Fin C.length, ∑ j : Fin C.length, (C[i.1].1 * C[i.1].2.2 a * C[i.1].2.2 b) * (C[j.1].1 * C[j.1].2.2 a * C[j.1].2.2 b) * kXY σ C[i.1].2.1 C[j.1].2.1 := by
    rw [Finset.sum_congr rfl fun i _ => Finset.sum_comm, Finset.sum_comm]
    refine Finset.sum_congr rfl fun a _ => ?_
    rw [Finset.sum_congr rfl fun i _ => Finset.sum_comm, Finset.sum_comm]
  rw [hsw]
  exact Finset.sum_nonneg fun a _ => Finset.sum_nonneg fun b _ => gaussian_psd σ (fun i : Fin C.length => C[i.1].2.1) (fun i => C[i.1].1 * C[i.1].2.2 a * C[i.1].2.2 b)

/-- The squared distance is non-negative. -/
theorem vdist_nonneg (σ : ℝ) (A B : List (Vec d × Vec d)) : 0 ≤ Spec.vdist σ A B := by
  have h := weighted_psd σ (A.map (fun p => (1 / tnorm p.2, p.1, p.2)) ++ B.map (fun p => (-(1 / tnorm p.2), p.1, p.2)))
  simp only [List.map_append, List.map_map, List.sum_append, Function.comp_def, List.sum_map_add] at h
  have e1 : ∀ p q : Vec d × Vec d, 1 / tnorm p.2 * (1 / tnorm q.2) * (kXY σ p.1 q.1 * (∑ c, p.2 c * q.2 c) ^ 2) = Spec.atomKernel σ p q := by
    intro p q; unfold Spec.atomKernel; rw [div_mul_div_comm, one_mul, div_mul_eq_mul_div, one_mul]
  have e2 : ∀ p q : Vec d × Vec d, 1 / tnorm p.2 * -(1 / tnorm q.2) * (kXY σ p.1 q.1 * (∑ c, p.2 c * q.2 c) ^ 2) = -Spec.atomKernel σ p q := by
    intro p q; rw [← e1]; ring
  have e3 : ∀ p q : Vec d × Vec d, -(1 / tnorm p.2) * (1 / tnorm q.2) * (kXY σ p.1 q.1 * (∑ c, p.2 c * q.2 c) ^ 2) = -Spec.atomKernel σ p q := by
    intro p q; rw [← e1]; ring
  have e4 : ∀ p q : Vec d × Vec d, -(1 / tnorm p.2) * -(1 / tnorm q.2) * (kXY σ p.1 q.1 * (∑ c, p.2 c * q.2 c) ^ 2) = Spec.atomKernel σ p q := by
    intro p q; rw [← e1]; ring
  simp only [e1, e2, e3, e4] at h
  have neg : ∀ (L : List (Vec d × Vec d)) (f : Vec d × Vec d → ℝ), (L.map fun q => -f q).sum = -(L.map f).sum := by
    intro L f
    induction L with
    | nil => simp
    | cons a L ih => simp [ih]; ring
  simp only [neg] at h
  have hc := vinner_comm σ A B
  unfold Spec.vdist
  unfold Spec.vinner at hc ⊢
  linarith

/-- Two atoms that are the same up to the orientation of the line. -/
def Spec.SameAtom (p q : Vec d × Vec d) : Prop := p.1 = q.1 ∧ (p.2 = q.2 ∨ p.2 = -q.2)

theorem tnorm_neg (v : Vec d) : tnorm (-v) = tnorm v := by simp [tnorm]

theorem atomKernel_same {σ : ℝ} {p p' : Vec d × Vec d} (h : Spec.SameAtom p p') (q : Vec d × Vec d) : Spec.atomKernel σ p q = Spec.atomKernel σ p' q := by
  unfold Spec.atomKernel
  rw [h.1]
  rcases h.2 with e | e
  · rw [e]
  · rw [e, tnorm_neg]
    simp only [Pi.neg_apply, neg_mul, Finset.sum_neg_distrib, neg_sq]

/-- Two lists of atoms that are the same up to order and orientation. -/
def Spec.SameVarifold (A A' : List (Vec d × Vec d)) : Prop := ∃ L, A.Perm L ∧ List.Forall₂ Spec.SameAtom L A'

theorem vinner_same_left {σ : ℝ} {A A' : List (Vec d × Vec d)} (h : Spec.SameVarifold A A') (B : List (Vec d × Vec d)) : Spec.vinner σ A B = Spec.vinner σ A' B := by
  obtain ⟨L, h1, h2⟩ := h
  unfold Spec.vinner
  rw [(h1.map _).sum_eq]
  clear h1
  induction h2 with
  | nil => rfl
  | cons hp _ ih =>
    simp only [List.map_cons, List.sum_cons, ih, atomKernel_same hp]

theorem vdist_same_left {σ : ℝ} {A A' : List (Vec d × Vec d)} (h : Spec.SameVarifold A A') (B : List (Vec d × Vec d)) : Spec.vdist σ A B = Spec.vdist σ A' B := by
  unfold Spec.vdist
  rw [vinner_same_left h B, vinner_same_left h A, vinner_comm σ A' A, vinner_same_left h A']

theorem kXY_translate (σ : ℝ) (x y t : Vec d) : kXY σ (x + t) (y + t) = kXY σ x y := by
  simp [kXY, sqDistance]

theorem vinner_translate (σ : ℝ) (t : Vec d) (A B : List (Vec d × Vec d)) :
    Spec.vinner σ (A.map fun p => (p.1 + t, p.2)) (B.map fun p => (p.1 + t, p.2)) = Spec.vinner σ A B := by
  simp only [Spec.vinner, List.map_map, Function.comp_def, Spec.atomKernel, kXY_translate]

theorem vdist_translate (σ : ℝ) (t : Vec d) (A B : List (Vec d × Vec d)) :
    Spec.vdist σ (A.map fun p => (p.1 + t, p.2)) (B.map fun p => (p.1 + t, p.2)) = Spec.vdist σ A B := by
  simp only [Spec.vdist, vinner_translate]

end
end Imodal
