import Verif.Lemmas.Twin
import Verif.Lemmas.RegSame
/-!
# Registration with twin modules
-/
set_option autoImplicit false
namespace Imodal
noncomputable section
variable {d : Nat} {G T : Type}

/-- Modules that are related fit the states of modules that are related. -/
def FitTwin (Q : DefModule d → DefModule d → Prop) : Prop := ∀ {a b a₀ b₀}, Q a b → Q a₀ b₀ → a₀.manifold.Fits a ∧ b₀.manifold.Fits b

namespace Twin
variable {N : Nat} {e : Nat → Nat} {Q : DefModule d → DefModule d → Prop} {κ : Ctrl d → Ctrl d → Prop} (W : Twin N e Q κ) (hF : FitTwin Q)
include W hF

theorem fillGdFrom {a b a₀ b₀ : DefModule d} (h : Q a b) (h₀ : Q a₀ b₀) : PyRel Q (a.fillGdFrom a₀.manifold) (b.fillGdFrom b₀.manifold) := by
  rw [fillGdFrom_fits (hF h h₀).1, fillGdFrom_fits (hF h h₀).2]
  exact W.setGd h (W.gd h₀)

theorem totalLoop {states states' : List (Mfd d)} (hs : List.Forall₂ (fun S S' => ∃ a a', Q a a' ∧ S = a.manifold ∧ S' = a'.manifold) states states')
    {cs cs' : List (Ctrl d)} (hc : List.Forall₂ κ cs cs') : ∀ (k i : Nat) {a b : DefModule d}, Q a b →
    PyRel (fun r r' : ℝ × DefModule d => r'.1 = r.1 ∧ Q r.2 r'.2) (Imodal.totalLoop states cs i k a) (Imodal.totalLoop states' cs' i k b)
  | 0, i, a, b, h => by rw [Imodal.totalLoop, Imodal.totalLoop]; exact PyRel.ok ⟨rfl, h⟩
  | k + 1, i, a, b, h => by
    rw [Imodal.totalLoop, Imodal.totalLoop]
    have h1 := hs.get (i := i)
    have h2 := hc.get (i := i)
    by_cases hi : i < states.length
    · have hi' : i < states'.length := hs.length_eq ▸ hi
      obtain ⟨a₀, b₀, h₀, e1, e2⟩ := h1 hi hi'
      rw [List.get_eq_getElem] at e1 e2
      rw [List.getElem?_eq_getElem hi, List.getElem?_eq_getElem hi', e1, e2]
      dsimp only
      rcases (W.fillGdFrom hF h h₀).both with ⟨a1, b1, e, e', h3⟩ | ⟨_, _, e, e'⟩
      · rw [e, e']
        dsimp only
        by_cases hj : i < cs.length
        · have hj' : i < cs'.length := hc.length_eq ▸ hj
          have h4 := h2 hj hj'
          rw [List.get_eq_getElem, List.get_eq_getElem] at h4
          rw [List.getElem?_eq_getElem hj, List.getElem?_eq_getElem hj']
          dsimp only
          rcases (W.fill h3 h4).both with ⟨a2, b2, e, e', h5⟩ | ⟨_, _, e, e'⟩
          · rw [e, e']
            dsimp only
            rcases (W.cost h5).both with ⟨x, y, e, e', rfl⟩ | ⟨_, _, e, e'⟩
            · rw [e, e']
              dsimp only
              rcases (totalLoop hs hc k (i + 1) h5).both with ⟨r, r', e, e', h6, h7⟩ | ⟨_, _, e, e'⟩
              · rw [e, e']; exact PyRel.ok ⟨by rw [h6], h7⟩
              · rw [e, e']; trivial
            · rw [e, e']; trivial
          · rw [e, e']; trivial
        · rw [List.getElem?_eq_none (by omega), List.getElem?_eq_none (by rw [← hc.length_eq]; omega)]; trivial
      · rw [e, e']; trivial
    · rw [List.getElem?_eq_none (l := states) (by omega), List.getElem?_eq_none (l := states') (by rw [← hs.length_eq]; omega)]; trivial

theorem reduceCost (red : Reduce) (it : Nat) (costs : Option (List ℝ)) {states states' : List (Mfd d)}
    (hs : List.Forall₂ (fun S S' => ∃ a a', Q a a' ∧ S = a.manifold ∧ S' = a'.manifold) states states') {cs cs' : Option (List (Ctrl d))}
    (hc : Option.Rel (List.Forall₂ κ) cs cs') {a b : DefModule d} (h : Q a b) :
    PyRel (fun r r' : Option ℝ × DefModule d => r'.1 = r.1 ∧ Q r.2 r'.2) (Imodal.reduceCost red it costs cs states a)
      (Imodal.reduceCost red it costs cs' states' b) := by
  unfold Imodal.reduceCost
  cases red with
  | sum =>
    dsimp only
    cases costs with
    | none => trivial
    | some cs => exact PyRel.ok ⟨rfl, h⟩
  | previous =>
    dsimp only
    rcases (W.geo h).both with ⟨a, b, e, e', h1⟩ | ⟨_, _, e, e'⟩
    · unfold Hamiltonian.geodesicControls at e e'
      rw [e, e']
      dsimp only
      rcases (W.cost h1).both with ⟨x, y, e, e', rfl⟩ | ⟨_, _, e, e'⟩
      · rw [e, e']; exact PyRel.ok ⟨rfl, h1⟩
      · rw [e, e']; trivial
    · unfold Hamiltonian.geodesicControls at e e'
      rw [e, e']; trivial
  | lastCompound =>
    dsimp only
    rcases (W.cost h).both with ⟨x, y, e, e', rfl⟩ | ⟨_, _, e, e'⟩
    · rw [e, e']; exact PyRel.ok ⟨rfl, h⟩
    · rw [e, e']; trivial
  | totalCompound =>
    dsimp only
    cases hc with
    | none =>
      dsimp only
      by_cases h0 : it = 0
      · simp only [if_pos h0]; exact PyRel.ok ⟨rfl, h⟩
      · simp only [if_neg h0]
        cases hs with
        | nil => trivial
        | cons h1 _ =>
          obtain ⟨a₀, b₀, h₀, rfl, rfl⟩ := h1
          rw [List.getElem?_cons_zero, List.getElem?_cons_zero]
          dsimp only
          rcases (W.fillGdFrom hF h h₀).both with ⟨_, _, e, e', _⟩ | ⟨_, _, e, e'⟩ <;> rw [e, e'] <;> trivial
    | some hc =>
      dsimp only
      rcases (W.totalLoop hF hs hc it 0 h).both with ⟨r, r', e, e', h6, h7⟩ | ⟨_, _, e, e'⟩
      · rw [e, e']; exact PyRel.ok ⟨by rw [h6], h7⟩
      · rw [e, e']; trivial
  | other => exact PyRel.ok ⟨rfl, h⟩

/-- `deformables_compute_deformed` for modules that are related, if related modules give the
deformables the same points. -/
theorem deformed {Ds : List (Deformable d G)} (hg : ∀ {a b : DefModule d}, Q a b → toGeometries Ds b.members = toGeometries Ds a.members)
    {ms ms' : List (DefModule d)} (h : Q (.compound (Ds.map Deformable.silent ++ ms)) (.compound (Ds.map Deformable.silent ++ ms')))
    {cs cs' : Option (List (List (Ctrl d)))} (hc : Option.Rel (List.Forall₂ κ) (padControls Ds.length cs) (padControls Ds.length cs')) (s : SolverName) (it : Nat)
    (w : Bool) (t1 : ℝ) (red : Reduce) :
    PyRel (fun r r' : Deformed d G => r'.geometries = r.geometries ∧ r'.cost = r.cost ∧ Shot.Twin N e Q κ r.shot r'.shot ∧ Q r.compound r'.compound)
      (computeDeformed Ds ms s it w cs t1 red) (computeDeformed Ds ms' s it w cs' t1 red) := by
  unfold computeDeformed
  dsimp only
  rcases (W.shoot h hc s it t1).both with ⟨⟨r, co⟩, ⟨r', co'⟩, e, e', h1, h2⟩ | ⟨_, _, e, e'⟩
  · rw [e, e']
    dsimp only at h1 h2 ⊢
    subst h2
    by_cases hb : (Ds.any fun D => D.backward.isSome) = true
    · simp only [if_pos hb]
      cases backwardModules Ds <;> trivial
    · simp only [if_neg hb]
      rw [hg h1.module]
      cases w with
      | true =>
        simp only [if_true]
        rcases (W.reduceCost hF red it co' h1.states hc h1.module).both with ⟨⟨x, a⟩, ⟨y, b⟩, e, e', h6, h7⟩ | ⟨_, _, e, e'⟩
        · rw [e, e']
          dsimp only at h6 h7 ⊢
          cases toGeometries Ds r.module.members with
          | error _ => trivial
          | ok gs => exact PyRel.ok ⟨rfl, h6, h1, h7⟩
        · rw [e, e']; trivial
      | false =>
        simp only [Bool.false_eq_true, if_false]
        cases toGeometries Ds r.module.members with
        | error _ => trivial
        | ok gs => exact PyRel.ok ⟨rfl, rfl, h1, h1.module⟩
  · rw [e, e']; trivial

end Twin

end
end Imodal
