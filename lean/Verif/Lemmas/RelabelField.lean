import Verif.Spec.Relabel
import Verif.Lemmas.BackendShoot
/-!
# Fields and manifolds with their points listed in another order
-/
set_option autoImplicit false
namespace Imodal
noncomputable section
open Matrix
variable {d : Nat}

/-! ## Fields -/

theorem kerRows_perm {n : Nat} (σ : ℝ) (k : Nat) (rows : Fin n → Vec d) (e : PyErr) (π : Equiv.Perm (Fin n)) :
    kerRows σ k (fun j => rows (π j)) e = (kerRows σ k rows e).map fun t j => t (π j) := by
  unfold kerRows
  split
  · rfl
  · split <;> rfl

theorem field0Torch_perm {n : Nat} (supp mom : Fin n → Vec d) (σ : ℝ) (π : Equiv.Perm (Fin n)) (k : Nat) (x : Vec d) :
    field0Torch (fun j => supp (π j)) (fun j => mom (π j)) σ k x = field0Torch supp mom σ k x := by
  unfold field0Torch
  by_cases hk : k = 0
  · rw [if_pos hk, if_pos hk]
    exact congrArg Except.ok (funext fun I => Equiv.sum_comp π fun j => kXY σ x (supp j) * mom j (I 0))
  · rw [if_neg hk, if_neg hk, kerRows_perm σ k (fun j => relDiff x (supp j)) .attribute π]
    cases kerRows σ k (fun j => relDiff x (supp j)) .attribute with
    | error e => rfl
    | ok t =>
      exact congrArg Except.ok (funext fun I => Finset.sum_congr rfl fun a _ =>
        Equiv.sum_comp π fun j => eye a (I 0) * t j (Fin.tail I) * mom j a)

theorem field0uTorch_perm {n : Nat} (supp mom dir : Fin n → Vec d) (σ : ℝ) (π : Equiv.Perm (Fin n)) (k : Nat) (x : Vec d) :
    field0uTorch (fun j => supp (π j)) (fun j => mom (π j)) (fun j => dir (π j)) σ k x = field0uTorch supp mom dir σ k x := by
  unfold field0uTorch
  by_cases hk : k = 0
  · rw [if_pos hk, if_pos hk, kerRows_perm σ 1 (fun j => relDiff x (supp j)) .attribute π]
    cases kerRows σ 1 (fun j => relDiff x (supp j)) .attribute with
    | error e => rfl
    | ok t =>
      exact congrArg Except.ok (funext fun I => Equiv.sum_comp π fun j => (∑ c, -t j (fun _ => c) * dir j c) * mom j (I 0))
  · rw [if_neg hk, if_neg hk]

theorem fieldPmTorch_perm {n : Nat} (supp : Fin n → Vec d) (P : Fin n → Mat d) (σ : ℝ) (π : Equiv.Perm (Fin n)) (k : Nat) (x : Vec d) :
    fieldPmTorch (fun j => supp (π j)) (fun j => P (π j)) σ k x = fieldPmTorch supp P σ k x := by
  unfold fieldPmTorch
  rw [kerRows_perm σ (k + 1) (fun j => relDiff x (supp j)) .type π]
  cases kerRows σ (k + 1) (fun j => relDiff x (supp j)) .type with
  | error e => rfl
  | ok t =>
    exact congrArg Except.ok (funext fun I => Finset.sum_congr rfl fun a _ =>
      Equiv.sum_comp π fun j => ∑ c, eye a (I 0) * -t j (Fin.cons c (Fin.tail I)) * P j a c)

theorem field1Torch_perm {n : Nat} (supp : Fin n → Vec d) (mom : Fin n → ℝ) (σ : ℝ) (π : Equiv.Perm (Fin n)) (k : Nat) (x : Vec d) :
    field1Torch (fun j => supp (π j)) (fun j => mom (π j)) σ k x = field1Torch supp mom σ k x := by
  unfold field1Torch
  by_cases hk : k = 0
  · rw [if_pos hk, if_pos hk, kerRows_perm σ (0 + 1) (fun j => relDiff (supp j) x) .attribute π]
    cases kerRows σ (0 + 1) (fun j => relDiff (supp j) x) .attribute with
    | error e => rfl
    | ok t => exact congrArg Except.ok (funext fun I => Equiv.sum_comp π fun j => t j (fun _ => I 0) * mom j)
  · rw [if_neg hk, if_neg hk, kerRows_perm σ (k + 1) (fun j => relDiff (supp j) x) .type π]
    cases kerRows σ (k + 1) (fun j => relDiff (supp j) x) .type with
    | error e => rfl
    | ok t => exact congrArg Except.ok (funext fun I => Equiv.sum_comp π fun j => ((-1) ^ k * t j I) * mom j)

theorem perm_f0 {n : Nat} (r : Reduction) (supp mom : Fin n → Vec d) (σ : ℝ) (π : Equiv.Perm (Fin n)) :
    (FieldExpr.f0 r supp mom σ).Alike (.f0 r (fun j => supp (π j)) (fun j => mom (π j)) σ) := by
  refine (alike_f0 r .torch supp mom σ).trans (FieldExpr.Alike.trans ?_ (alike_f0 .torch r _ _ σ))
  constructor <;> funext x <;> simp only [FieldExpr.eval, field0Torch_perm]
theorem perm_f0u {n : Nat} (r : Reduction) (supp mom dir : Fin n → Vec d) (σ : ℝ) (π : Equiv.Perm (Fin n)) :
    (FieldExpr.f0u r supp mom dir σ).Alike (.f0u r (fun j => supp (π j)) (fun j => mom (π j)) (fun j => dir (π j)) σ) := by
  constructor <;> funext x <;> simp only [FieldExpr.eval, field0uTorch_perm]
theorem perm_fp {n : Nat} (r : Reduction) (supp : Fin n → Vec d) (M : Fin n → Mat d) (σ : ℝ) (π : Equiv.Perm (Fin n)) :
    (FieldExpr.fp r supp M σ).Alike (.fp r (fun j => supp (π j)) (fun j => M (π j)) σ) := by
  refine (alike_fp r .torch supp M σ).trans (FieldExpr.Alike.trans ?_ (alike_fp .torch r _ _ σ))
  constructor <;> funext x <;> simp only [FieldExpr.eval]
  · exact (fieldPmTorch_perm supp (fun j => symPart (M j)) σ π 0 x).symm
  · exact (fieldPmTorch_perm supp (fun j => symPart (M j)) σ π 1 x).symm
theorem perm_fm {n : Nat} (r : Reduction) (supp : Fin n → Vec d) (M : Fin n → Mat d) (σ : ℝ) (π : Equiv.Perm (Fin n)) :
    (FieldExpr.fm r supp M σ).Alike (.fm r (fun j => supp (π j)) (fun j => M (π j)) σ) := by
  refine (alike_fm r .torch supp M σ).trans (FieldExpr.Alike.trans ?_ (alike_fm .torch r _ _ σ))
  constructor <;> funext x <;> simp only [FieldExpr.eval]
  · exact (fieldPmTorch_perm supp (fun j => skewPart (M j)) σ π 0 x).symm
  · exact (fieldPmTorch_perm supp (fun j => skewPart (M j)) σ π 1 x).symm
theorem perm_f1 {n : Nat} (supp : Fin n → Vec d) (mom : Fin n → ℝ) (σ : ℝ) (π : Equiv.Perm (Fin n)) :
    (FieldExpr.f1 .torch supp mom σ).Alike (.f1 .torch (fun j => supp (π j)) (fun j => mom (π j)) σ) := by
  constructor <;> funext x <;> simp only [FieldExpr.eval, field1Torch_perm]

theorem values_perm (f : FieldExpr d) {n : Nat} (pts : Fin n → Vec d) (π : Equiv.Perm (Fin n)) :
    f.values (fun i => pts (π i)) = (f.values pts).map fun v i => v (π i) := by
  unfold FieldExpr.values FieldExpr.batch
  cases f.eval 0 (fun _ => 0) <;> rfl
theorem jacobians_perm (f : FieldExpr d) {n : Nat} (pts : Fin n → Vec d) (π : Equiv.Perm (Fin n)) :
    f.jacobians (fun i => pts (π i)) = (f.jacobians pts).map fun v i => v (π i) := by
  unfold FieldExpr.jacobians FieldExpr.batch
  cases f.eval 1 (fun _ => 0) <;> rfl

/-- Any function instead of a permutation. -/
theorem values_comp (f : FieldExpr d) {n k : Nat} (pts : Fin n → Vec d) (π : Fin k → Fin n) :
    f.values (fun i => pts (π i)) = (f.values pts).map fun v i => v (π i) := by
  unfold FieldExpr.values FieldExpr.batch
  cases f.eval 0 (fun _ => 0) <;> rfl
theorem jacobians_comp (f : FieldExpr d) {n k : Nat} (pts : Fin n → Vec d) (π : Fin k → Fin n) :
    f.jacobians (fun i => pts (π i)) = (f.jacobians pts).map fun v i => v (π i) := by
  unfold FieldExpr.jacobians FieldExpr.batch
  cases f.eval 1 (fun _ => 0) <;> rfl

/-! ## Manifolds -/

mutual
/-- A velocity with the points listed in another order. -/
def Tan.relabel (σ : Labels) : Tan d → Tan d
  | @Tan.landmarks _ n v => .landmarks fun i => v (σ [] n i)
  | @Tan.direction _ n v w => .direction (fun i => v (σ [] n i)) (fun i => w (σ [] n i))
  | @Tan.frame _ n v W => .frame (fun i => v (σ [] n i)) (fun i => W (σ [] n i))
  | .empty => .empty
  | .compound ts => .compound (Tan.relabelAll σ 0 ts)
def Tan.relabelAll (σ : Labels) : Nat → List (Tan d) → List (Tan d)
  | _, [] => []
  | k, t :: ts => t.relabel (σ.at k) :: Tan.relabelAll σ (k + 1) ts
end

theorem actDirection_perm (f : FieldExpr d) (t : Transport) {n : Nat} (gd dir : Fin n → Vec d) (π : Equiv.Perm (Fin n)) :
    actDirection t (fun i => gd (π i)) (fun i => dir (π i)) f
      = (actDirection t gd dir f).map fun vw => (fun i => vw.1 (π i), fun i => vw.2 (π i)) := by
  unfold actDirection
  rw [values_perm, jacobians_perm]
  cases f.values gd with
  | error e => rfl
  | ok v =>
    cases f.jacobians gd with
    | error e => rfl
    | ok J => cases t <;> rfl
theorem actFrame_perm (f : FieldExpr d) {n : Nat} (gd : Fin n → Vec d) (R : Fin n → Mat d) (π : Equiv.Perm (Fin n)) :
    actFrame (fun i => gd (π i)) (fun i => R (π i)) f = (actFrame gd R f).map fun vw => (fun i => vw.1 (π i), fun i => vw.2 (π i)) := by
  unfold actFrame
  rw [values_perm, jacobians_perm]
  cases f.values gd with
  | error e => rfl
  | ok v => cases f.jacobians gd <;> rfl

mutual
theorem action_relabel (f : FieldExpr d) : (σ : Labels) → (M : Mfd d) → (M.relabel σ).action f = (M.action f).map (Tan.relabel σ)
  | σ, .landmarks gd _ => by
    rw [Mfd.relabel, Mfd.action, Mfd.action, actLandmarks, actLandmarks, values_perm]
    cases f.values gd <;> simp only [Except.map, Tan.relabel]
  | σ, .direction t gd dir _ _ => by
    rw [Mfd.relabel, Mfd.action, Mfd.action, actDirection_perm]
    cases actDirection t gd dir f <;> simp only [Except.map, Tan.relabel]
  | σ, .frame gd R _ _ => by
    rw [Mfd.relabel, Mfd.action, Mfd.action, actFrame_perm]
    cases actFrame gd R f <;> simp only [Except.map, Tan.relabel]
  | σ, .empty => by simp only [Mfd.relabel, Mfd.action, Except.map, Tan.relabel]
  | σ, .compound ms => by
    rw [Mfd.relabel, Mfd.action, Mfd.action, actionAll_relabel f σ 0 ms]
    cases Mfd.actionAll f ms <;> simp only [Except.map, Tan.relabel]
theorem actionAll_relabel (f : FieldExpr d) : (σ : Labels) → (k : Nat) → (ms : List (Mfd d)) →
    Mfd.actionAll f (Mfd.relabelAll σ k ms) = (Mfd.actionAll f ms).map (Tan.relabelAll σ k)
  | σ, k, [] => by simp only [Mfd.relabelAll, Mfd.actionAll, Except.map, Tan.relabelAll]
  | σ, k, m :: ms => by
    rw [Mfd.relabelAll, Mfd.actionAll, Mfd.actionAll, action_relabel f (σ.at k) m, actionAll_relabel f σ (k + 1) ms]
    cases m.action f with
    | error e => rfl
    | ok t => cases Mfd.actionAll f ms <;> simp only [Except.map, Tan.relabelAll]
end

theorem dotFlat_perm {n : Nat} (a b : Fin n → Vec d) (π : Equiv.Perm (Fin n)) : dotFlat (fun i => a (π i)) (fun i => b (π i)) = dotFlat a b :=
  Equiv.sum_comp π fun i => ∑ c, a i c * b i c

mutual
theorem innerProd_relabel (f : FieldExpr d) : (σ : Labels) → (M : Mfd d) → (M.relabel σ).innerProd f = M.innerProd f
  | σ, .landmarks gd cot => by
    rw [Mfd.relabel, Mfd.innerProd, Mfd.innerProd, actLandmarks, actLandmarks, values_perm]
    cases f.values gd with
    | error e => rfl
    | ok v => exact congrArg Except.ok (dotFlat_perm cot v _)
  | σ, .direction t gd dir cot cdir => by
    rw [Mfd.relabel, Mfd.innerProd, Mfd.innerProd, actDirection_perm]
    cases actDirection t gd dir f with
    | error e => rfl
    | ok vw => exact congrArg Except.ok (congrArg₂ (· + ·) (dotFlat_perm cot vw.1 _) (dotFlat_perm cdir vw.2 _))
  | σ, .frame gd R cot cR => by
    rw [Mfd.relabel, Mfd.innerProd, Mfd.innerProd, actFrame_perm]
    cases actFrame gd R f with
    | error e => rfl
    | ok vw =>
      exact congrArg Except.ok (congrArg₂ (· + ·) (dotFlat_perm cot vw.1 _) (Equiv.sum_comp _ fun i => ∑ b, ∑ c, cR i b c * vw.2 i b c))
  | σ, .empty => by rw [Mfd.relabel]
  | σ, .compound ms => by rw [Mfd.relabel, Mfd.innerProd, Mfd.innerProd, innerProdAll_relabel f σ 0 ms]
theorem innerProdAll_relabel (f : FieldExpr d) : (σ : Labels) → (k : Nat) → (ms : List (Mfd d)) →
    Mfd.innerProdAll f (Mfd.relabelAll σ k ms) = Mfd.innerProdAll f ms
  | σ, k, [] => by rw [Mfd.relabelAll]
  | σ, k, m :: ms => by
    rw [Mfd.relabelAll, Mfd.innerProdAll, Mfd.innerProdAll, innerProd_relabel f (σ.at k) m, innerProdAll_relabel f σ (k + 1) ms]
end

mutual
theorem cotToVs_relabel (s : ℝ) (r : Reduction) : (σ : Labels) → (M : Mfd d) → PyRel FieldExpr.Alike (M.cotToVs s r) ((M.relabel σ).cotToVs s r)
  | σ, .landmarks gd cot => by
    rw [Mfd.relabel, Mfd.cotToVs, Mfd.cotToVs]
    exact perm_f0 ..
  | σ, .direction .vector gd dir cot cdir => by
    rw [Mfd.relabel, Mfd.cotToVs, Mfd.cotToVs]
    exact alike_mkSum (.cons (perm_f0 ..) (.cons (perm_f0u ..) .nil))
  | σ, @Mfd.direction _ .orthogonal n gd dir cot cdir => by
    rw [Mfd.relabel, Mfd.cotToVs, Mfd.cotToVs]
    exact alike_mkSum (.cons (perm_f0 ..) (.cons (perm_f0u r gd (fun i c => -dir i c) cdir s (σ [] n)) .nil))
  | σ, @Mfd.frame _ n gd R cot cR => by
    rw [Mfd.relabel, Mfd.cotToVs, Mfd.cotToVs]
    exact alike_mkSum (.cons (perm_f0 ..) (.cons (perm_fm r gd (fun i b c => ∑ k, cR i b k * R i c k) s (σ [] n)) .nil))
  | σ, .empty => by rw [Mfd.relabel, Mfd.cotToVs]; exact FieldExpr.Alike.refl _
  | σ, .compound ms => by
    rw [Mfd.relabel, Mfd.cotToVs, Mfd.cotToVs]
    rcases (cotToVsAll_relabel s r σ 0 ms).both with ⟨a, b, e, e', h⟩ | ⟨_, _, e, e'⟩
    · rw [e, e']; exact alike_mkSum h
    · rw [e, e']; trivial
theorem cotToVsAll_relabel (s : ℝ) (r : Reduction) : (σ : Labels) → (k : Nat) → (ms : List (Mfd d)) →
    PyRel (List.Forall₂ FieldExpr.Alike) (Mfd.cotToVsAll s r ms) (Mfd.cotToVsAll s r (Mfd.relabelAll σ k ms))
  | σ, k, [] => by rw [Mfd.relabelAll, Mfd.cotToVsAll]; exact List.Forall₂.nil
  | σ, k, m :: ms => by
    rw [Mfd.relabelAll, Mfd.cotToVsAll, Mfd.cotToVsAll]
    rcases (cotToVs_relabel s r (σ.at k) m).both with ⟨a, b, e, e', h⟩ | ⟨_, _, e, e'⟩
    · rw [e, e']
      dsimp only
      rcases (cotToVsAll_relabel s r σ (k + 1) ms).both with ⟨a, b, e, e', h'⟩ | ⟨_, _, e, e'⟩
      · rw [e, e']; exact List.Forall₂.cons h h'
      · rw [e, e']; trivial
    · rw [e, e']; trivial
end

/-- Two manifolds that give the same dual fields and the same pairings. -/
structure Mirror (man man' : Mfd d) : Prop where
  vs : ∀ s r, PyRel FieldExpr.Alike (man.cotToVs s r) (man'.cotToVs s r)
  inner : ∀ f : FieldExpr d, PyRel Eq (man.innerProd f) (man'.innerProd f)

theorem mirror_relabel (σ : Labels) (M : Mfd d) : Mirror M (M.relabel σ) where
  vs s r := cotToVs_relabel s r σ M
  inner f := by rw [innerProd_relabel]; exact PyRel.refl (fun _ => rfl) _

theorem Mirror.inner' {man man' : Mfd d} (h : Mirror man man') {f g : FieldExpr d} (hf : f.Alike g) : PyRel Eq (man.innerProd f) (man'.innerProd g) := by
  rw [innerProd_alike hf]; exact h.inner g

end
end Imodal
