import Verif.Model.Registration
import Verif.Spec.Shooting
import Mathlib.GroupTheory.Perm.Basic
/-! Listing the same points in another order. -/
set_option autoImplicit false
namespace Imodal
noncomputable section
variable {d : Nat}

/-- An order for the points of every tensor of `n` points, at every place of a (nested) compound:
the point listed at `i` is the one that was listed at `σ place n i`. -/
abbrev Labels := List Nat → (n : Nat) → Equiv.Perm (Fin n)
/-- The orders used inside member `i` of a compound. -/
def Labels.at (σ : Labels) (i : Nat) : Labels := fun place => σ (i :: place)

mutual
/-- The manifold with its points listed in another order. -/
def Mfd.relabel (σ : Labels) : Mfd d → Mfd d
  | @Mfd.landmarks _ n gd cot => .landmarks (fun i => gd (σ [] n i)) (fun i => cot (σ [] n i))
  | @Mfd.direction _ t n gd dir cot cdir =>
    .direction t (fun i => gd (σ [] n i)) (fun i => dir (σ [] n i)) (fun i => cot (σ [] n i)) (fun i => cdir (σ [] n i))
  | @Mfd.frame _ n gd R cot cR =>
    .frame (fun i => gd (σ [] n i)) (fun i => R (σ [] n i)) (fun i => cot (σ [] n i)) (fun i => cR (σ [] n i))
  | .empty => .empty
  | .compound ms => .compound (Mfd.relabelAll σ 0 ms)
def Mfd.relabelAll (σ : Labels) : Nat → List (Mfd d) → List (Mfd d)
  | _, [] => []
  | k, m :: ms => m.relabel (σ.at k) :: Mfd.relabelAll σ (k + 1) ms
end

/-- What an order of `N + P` points that keeps the first `N` first does to the first ones. -/
def headOrder {N P : Nat} (π : Equiv.Perm (Fin (N + P))) (i : Fin N) : Fin N :=
  if h : (π (Fin.castAdd P i)).val < N then ⟨(π (Fin.castAdd P i)).val, h⟩ else i
/-- What it does to the last ones. -/
def tailOrder {N P : Nat} (π : Equiv.Perm (Fin (N + P))) (j : Fin P) : Fin P :=
  if h : N ≤ (π (Fin.natAdd N j)).val then ⟨(π (Fin.natAdd N j)).val - N, by have := (π (Fin.natAdd N j)).isLt; omega⟩ else j
/-- The first `N` points stay the first ones. -/
def KeepsParts (N P : Nat) (π : Equiv.Perm (Fin (N + P))) : Prop := ∀ i, (π i).val < N ↔ i.val < N

mutual
/-- The module with the points of its manifold listed in another order, and everything it stores
for its points listed accordingly. The two functions of a module of constrained translations are
told the points in their old order. -/
def DefModule.relabel (σ : Labels) : DefModule d → DefModule d
  | @DefModule.translations _ n m =>
    .translations { m with gd := fun i => m.gd (σ [] n i), cot := fun i => m.cot (σ [] n i), ctrl := fun i => m.ctrl (σ [] n i) }
  | @DefModule.implicit0 _ n m =>
    .implicit0 { m with gd := fun i => m.gd (σ [] n i), cot := fun i => m.cot (σ [] n i), ctrl := fun i => m.ctrl (σ [] n i) }
  | @DefModule.oriented _ n m =>
    .oriented { m with
      gd := fun i => m.gd (σ [] n i), dir := fun i => m.dir (σ [] n i)
      cot := fun i => m.cot (σ [] n i), cdir := fun i => m.cdir (σ [] n i), ctrl := fun i => m.ctrl (σ [] n i) }
  | @DefModule.constrained _ n _ m =>
    .constrained { m with
      gd := fun i => m.gd (σ [] n i), cot := fun i => m.cot (σ [] n i)
      fsupp := fun g => m.fsupp fun i => g ((σ [] n).symm i), fvec := fun g => m.fvec fun i => g ((σ [] n).symm i) }
  | .globalTranslation m => .globalTranslation m
  | .linear m => .linear m
  | @DefModule.implicit1 _ n _ m =>
    .implicit1 { m with
      gd := fun i => m.gd (σ [] n i), R := fun i => m.R (σ [] n i)
      cot := fun i => m.cot (σ [] n i), cR := fun i => m.cR (σ [] n i), C := fun i => m.C (σ [] n i)
      cache := m.cache.map fun k =>
        ⟨fun q => k.aqh (σ [] n q.1, q.2), fun q => k.lambdas (σ [] n q.1, q.2), fun i => k.moments (σ [] n i)⟩ }
  | @DefModule.divFree _ N P m =>
    .divFree { m with
      gd := fun i => m.gd (σ [] (N + P) i), cot := fun i => m.cot (σ [] (N + P) i)
      ctrl := fun j => m.ctrl (tailOrder (σ [] (N + P)) j)
      lambdas := m.lambdas.map fun l =>
        Sum.elim (fun i => l (.inl (headOrder (σ [] (N + P)) i))) fun q => l (.inr (tailOrder (σ [] (N + P)) q.1, q.2)) }
  | @DefModule.arap _ N P m =>
    .arap { m with
      gd := fun i => m.gd (σ [] (N + P) i), cot := fun i => m.cot (σ [] (N + P) i)
      ctrl := fun j => m.ctrl (tailOrder (σ [] (N + P)) j)
      lambdas := m.lambdas.map fun l =>
        Sum.elim (fun q => l (.inl (headOrder (σ [] (N + P)) q.1, q.2))) fun q => l (.inr (tailOrder (σ [] (N + P)) q.1, q.2)) }
  | .silent man => .silent (man.relabel σ)
  | .compound ms => .compound (DefModule.relabelAll σ 0 ms)
def DefModule.relabelAll (σ : Labels) : Nat → List (DefModule d) → List (DefModule d)
  | _, [] => []
  | k, m :: ms => m.relabel (σ.at k) :: DefModule.relabelAll σ (k + 1) ms
end

mutual
/-- The order does not mix the two kinds of points of the modules that have two kinds. -/
def DefModule.Keeps (σ : Labels) : DefModule d → Prop
  | @DefModule.divFree _ N P _ => KeepsParts N P (σ [] (N + P))
  | @DefModule.arap _ N P _ => KeepsParts N P (σ [] (N + P))
  | .compound ms => DefModule.KeepsAll σ 0 ms
  | _ => True
def DefModule.KeepsAll (σ : Labels) : Nat → List (DefModule d) → Prop
  | _, [] => True
  | k, m :: ms => m.Keeps (σ.at k) ∧ DefModule.KeepsAll σ (k + 1) ms
end

mutual
/-- The controls for the module with its points listed in another order. -/
def DefModule.relabelCtrl (σ : Labels) : DefModule d → Ctrl d → Ctrl d
  | .translations _, .vecs (n := n) h => .vecs fun i => h (σ [] n i)
  | .implicit0 _, .vecs (n := n) h => .vecs fun i => h (σ [] n i)
  | .oriented _, .scalars (n := n) h => .scalars fun i => h (σ [] n i)
  | @DefModule.divFree _ N _ _, .vecs (n := P) h => .vecs fun j => h (tailOrder (σ [] (N + P)) j)
  | @DefModule.arap _ N _ _, .vecs (n := P) h => .vecs fun j => h (tailOrder (σ [] (N + P)) j)
  | .compound ms, .list hs => .list (DefModule.relabelCtrls σ 0 ms hs)
  | _, c => c
def DefModule.relabelCtrls (σ : Labels) : Nat → List (DefModule d) → List (Ctrl d) → List (Ctrl d)
  | k, m :: ms, h :: hs => m.relabelCtrl (σ.at k) h :: DefModule.relabelCtrls σ (k + 1) ms hs
  | _, _, hs => hs
end

/-- What shooting `m` leaves behind, listed in another order. -/
def Shot.relabel (σ : Labels) (m : DefModule d) (r : Shot d) : Shot d :=
  ⟨r.module.relabel σ, r.costs, r.states.map (Mfd.relabel σ), r.ctrls.map (m.relabelCtrl σ)⟩

variable {G T : Type}

/-- The registration with the points of the deformation modules listed in another order: momenta
and learnable controls are listed accordingly; the deformables stay. -/
def RegModel.relabel (σ : Labels) (M : RegModel d G T) : RegModel d G T :=
  { M with
    modules := DefModule.relabelAll σ 0 M.modules
    init := M.init.take M.deformables.length ++ Mfd.relabelAll σ 0 (M.init.drop M.deformables.length)
    learned := M.learned.map fun l => (l.1, l.2.map (DefModule.relabelCtrls σ 0 M.modules)) }

end
end Imodal
