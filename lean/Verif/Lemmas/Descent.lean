import Verif.Spec.FitReg
import Verif.Lemmas.GradList
import Mathlib.Analysis.Calculus.FDeriv.Comp
import Mathlib.Analysis.Calculus.Deriv.Pi
import Mathlib.Analysis.Normed.Module.FiniteDimension
import Mathlib.LinearAlgebra.Matrix.DotProduct
/-!
Gradient descent on two problems related by a map that preserves products of entries.
-/
set_option autoImplicit false
namespace Imodal
noncomputable section
open Matrix

/-- The sum of the products of entries. -/
def prodL (a b : List ℝ) : ℝ := (List.zipWith (· * ·) a b).sum

theorem prodL_append {a a' b b' : List ℝ} (h : a.length = b.length) : prodL (a ++ a') (b ++ b') = prodL a b + prodL a' b' := by
  unfold prodL
  rw [List.zipWith_append h, List.sum_append]

theorem prodL_ofFn {N : Nat} (v w : Fin N → ℝ) : prodL (List.ofFn v) (List.ofFn w) = v ⬝ᵥ w := by
  unfold prodL dotProduct
  rw [← List.sum_ofFn]
  congr 1
  refine List.ext_getElem (by simp) fun i h1 h2 => by simp

/-- `K` maps lists of `N` entries to lists of `N` entries and preserves their products. -/
structure Preserves (N : Nat) (K : List ℝ → List ℝ) : Prop where
  length : ∀ a, a.length = N → (K a).length = N
  dot : ∀ a b, a.length = N → b.length = N → prodL (K a) (K b) = prodL a b

/-- `K` on vectors. -/
def onVec (N : Nat) (K : List ℝ → List ℝ) (v : Fin N → ℝ) : Fin N → ℝ := fun i => (K (List.ofFn v)).getD i 0

section
variable {N : Nat} {K : List ℝ → List ℝ} (hK : Preserves N K)
include hK

theorem Preserves.ofFn (v : Fin N → ℝ) : K (List.ofFn v) = List.ofFn (onVec N K v) :=
  (ofFn_entries (hK.length _ List.length_ofFn)).symm

theorem Preserves.dotVec (v w : Fin N → ℝ) : onVec N K v ⬝ᵥ onVec N K w = v ⬝ᵥ w := by
  rw [← prodL_ofFn, ← prodL_ofFn, ← hK.ofFn, ← hK.ofFn]
  exact hK.dot _ _ List.length_ofFn List.length_ofFn

theorem Preserves.linear (v w : Fin N → ℝ) (t : ℝ) : onVec N K (v + t • w) = onVec N K v + t • onVec N K w := by
  have h : (onVec N K (v + t • w) - onVec N K v - t • onVec N K w) ⬝ᵥ (onVec N K (v + t • w) - onVec N K v - t • onVec N K w) = 0 := by
    simp only [sub_dotProduct, dotProduct_sub, smul_dotProduct, dotProduct_smul, hK.dotVec, add_dotProduct, dotProduct_add]
    simp only [smul_eq_mul, dotProduct_comm w v]
    ring
  have := dotProduct_self_eq_zero.1 h
  rw [sub_sub, sub_eq_zero] at this
  exact this

/-- `K` as a linear map. -/
def Preserves.map : (Fin N → ℝ) →ₗ[ℝ] (Fin N → ℝ) where
  toFun := onVec N K
  map_add' v w := by have := hK.linear v w 1; simpa using this
  map_smul' t w := by
    have h0 : onVec N K 0 = 0 := by
      have := hK.dotVec 0 0
      rw [dotProduct_zero] at this
      exact dotProduct_self_eq_zero.1 this
    have := hK.linear 0 w t
    simpa [h0] using this

theorem Preserves.injective : Function.Injective hK.map := by
  rw [← LinearMap.ker_eq_bot, LinearMap.ker_eq_bot']
  intro v hv
  have : onVec N K v ⬝ᵥ onVec N K v = 0 := by rw [show onVec N K v = 0 from hv, dotProduct_zero]
  rw [hK.dotVec] at this
  exact dotProduct_self_eq_zero.1 this

/-- `K` as an invertible linear map. -/
def Preserves.equiv : (Fin N → ℝ) ≃ₗ[ℝ] (Fin N → ℝ) := LinearEquiv.ofInjectiveEndo hK.map hK.injective

theorem Preserves.equiv_apply (v : Fin N → ℝ) : hK.equiv v = onVec N K v := rfl

theorem Preserves.move {a b : List ℝ} (ha : a.length = N) (hb : b.length = N) (t : ℝ) :
    K (List.zipWith (fun p q => p - t • q) a b) = List.zipWith (fun p q => p - t • q) (K a) (K b) := by
  have hz : ∀ v w : Fin N → ℝ, List.zipWith (fun p q => p - t • q) (List.ofFn v) (List.ofFn w) = List.ofFn (v + (-t) • w) := fun v w => by
    refine List.ext_getElem (by simp) fun i h1 h2 => ?_
    simp [sub_eq_add_neg]
  rw [← ofFn_entries ha, ← ofFn_entries hb, hz, hK.ofFn, hK.ofFn, hK.ofFn, hz, hK.linear]
end

/-! ## Partial derivatives -/

theorem overwrite_full {E : Type} (g ys : List E) (h : ys.length = g.length) : overwrite g ys = ys := by
  rw [overwrite_take g ys h.ge, ← h, List.take_length]

theorem gdFill_one {E : Type} (g ys : List E) (h : ys.length = g.length) : gdFill [g] ys = [ys] := by
  rw [gdFill, gdFill, overwrite_full g ys h]

theorem partials_one (f : List (List ℝ) → ℝ) (a : List ℝ) :
    partials f [a] = [List.ofFn fun i : Fin a.length => deriv (fun u => f [a.set i u]) (a.getD i 0)] := by
  have key : ∀ l : List ℝ, l = a → gdFill [a] (List.ofFn fun i : Fin l.length => deriv (fun u => f (gdFill [a] (l.set i u))) (l.getD i 0))
      = [List.ofFn fun i : Fin a.length => deriv (fun u => f [a.set i u]) (a.getD i 0)] := by
    intro l hl
    subst hl
    rw [gdFill_one _ _ List.length_ofFn]
    simp only [gdFill_one _ _ (List.length_set ..)]
  exact key [a].flatten (by simp)

theorem partials_vec {N : Nat} {f : List (List ℝ) → ℝ} (hf : Differentiable ℝ fun e : Fin N → ℝ => f [List.ofFn e]) (v : Fin N → ℝ) :
    partials f [List.ofFn v] = [List.ofFn fun i => fderiv ℝ (fun e : Fin N → ℝ => f [List.ofFn e]) v (Pi.single i 1)] := by
  rw [partials_one]
  congr 1
  refine List.ext_getElem (by simp) fun i h1 h2 => ?_
  rw [List.getElem_ofFn, List.getElem_ofFn]
  have hi : i < N := by simpa using h2
  have hset : ∀ u, (List.ofFn v).set i u = List.ofFn (Function.update v ⟨i, hi⟩ u) := fun u => by
    refine List.ext_getElem (by simp) fun j h1 h2 => ?_
    rw [List.getElem_set]
    by_cases hj : i = j
    · subst hj
      rw [if_pos rfl, List.getElem_ofFn, Function.update_self]
    · rw [if_neg hj, List.getElem_ofFn, List.getElem_ofFn, Function.update_of_ne]
      exact fun h => hj (congrArg Fin.val h).symm
  have hget : (List.ofFn v).getD i 0 = v ⟨i, hi⟩ := by
    rw [List.getD_eq_getElem _ _ (by simpa using hi), List.getElem_ofFn]
  have h2 : (fun u => f [(List.ofFn v).set i u]) = (fun e : Fin N → ℝ => f [List.ofFn e]) ∘ Function.update v ⟨i, hi⟩ := by
    funext u
    rw [hset u]
    rfl
  show deriv (fun u => f [(List.ofFn v).set i u]) ((List.ofFn v).getD i 0) = _
  rw [h2, hget]
  refine HasDerivAt.deriv (HasFDerivAt.comp_hasDerivAt _ ?_ (hasDerivAt_update v ⟨i, hi⟩ _))
  rw [Function.update_eq_self]
  exact (hf v).hasFDerivAt

theorem fderiv_dot {N : Nat} (D : (Fin N → ℝ) →L[ℝ] ℝ) (h : Fin N → ℝ) : D h = (fun i => D (Pi.single i 1)) ⬝ᵥ h := by
  conv_lhs => rw [pi_eq_sum_univ' h]
  rw [map_sum]
  refine Finset.sum_congr rfl fun i _ => ?_
  rw [map_smul, smul_eq_mul, mul_comm]

/-- If the costs agree along `K`, the partial derivatives are related by `K`. -/
theorem Preserves.partials {N : Nat} {K : List ℝ → List ℝ} (hK : Preserves N K) {f f' : List (List ℝ) → ℝ}
    (hf : Differentiable ℝ fun e : Fin N → ℝ => f [List.ofFn e]) (hff : ∀ a, a.length = N → f' [K a] = f [a]) {a : List ℝ} (ha : a.length = N) :
    ∃ g, g.length = N ∧ partials f [a] = [g] ∧ Imodal.partials f' [K a] = [K g] := by
  set φ := fun e : Fin N → ℝ => f [List.ofFn e] with hφ
  set φ' := fun e : Fin N → ℝ => f' [List.ofFn e] with hφ'
  let L : (Fin N → ℝ) ≃L[ℝ] (Fin N → ℝ) := hK.equiv.toContinuousLinearEquiv
  have hLa : ∀ v, L v = onVec N K v := fun v => rfl
  have hcomp : φ = φ' ∘ L := by
    funext v
    show f [List.ofFn v] = f' [List.ofFn (L v)]
    rw [hLa, ← hK.ofFn, hff _ List.length_ofFn]
  have hf' : Differentiable ℝ φ' := by
    have : φ' = φ ∘ L.symm := by
      rw [hcomp]
      funext v
      simp
    rw [this]
    exact hf.comp L.symm.differentiable
  set v : Fin N → ℝ := fun i => a.getD i 0 with hv
  have hav : a = List.ofFn v := (ofFn_entries ha).symm
  refine ⟨List.ofFn fun i => fderiv ℝ φ v (Pi.single i 1), List.length_ofFn, ?_, ?_⟩
  · rw [hav]
    exact partials_vec hf v
  · rw [hav, hK.ofFn, hK.ofFn, partials_vec hf']
    congr 2
    set g : Fin N → ℝ := fun i => fderiv ℝ φ v (Pi.single i 1) with hg
    set g' : Fin N → ℝ := fun i => fderiv ℝ φ' (onVec N K v) (Pi.single i 1) with hg'
    have hchain : ∀ h, fderiv ℝ φ v h = fderiv ℝ φ' (L v) (L h) := fun h => by
      rw [hcomp, L.comp_right_fderiv]
      rfl
    have hz : ∀ h, (g' - onVec N K g) ⬝ᵥ L h = 0 := fun h => by
      rw [sub_dotProduct, hLa, hK.dotVec, ← hLa, hg', hg, ← fderiv_dot (fderiv ℝ φ' (onVec N K v)) (L h), ← fderiv_dot (fderiv ℝ φ v) h, hchain]
      exact sub_self _
    have := hz (L.symm (g' - onVec N K g))
    rw [L.apply_symm_apply] at this
    exact sub_eq_zero.1 (dotProduct_self_eq_zero.1 this)

/-! ## Steps -/

/-- What the optimiser sees of two problems is related by `K`. -/
structure Shadows (N : Nat) (K : List ℝ → List ℝ) (pb pb' : GDProblem ℝ ℝ) : Prop where
  preserves : Preserves N K
  cost : ∀ a, a.length = N → pb'.cost [K a] = pb.cost [a]
  grad : ∀ a, a.length = N → ∃ g, g.length = N ∧ pb.grad [a] = [g] ∧ pb'.grad [K a] = [K g]

/-- The state with its parameters mapped. -/
def GDState.turn (K : List ℝ → List ℝ) (s : GDState ℝ ℝ) : GDState ℝ ℝ := ⟨s.params.map K, s.steps⟩

/-- One group of `N` parameters. -/
def GDState.One (N : Nat) (s : GDState ℝ ℝ) : Prop := ∃ a, a.length = N ∧ s.params = [a]

section
variable {N : Nat} {K : List ℝ → List ℝ} {pb pb' : GDProblem ℝ ℝ} (h : Shadows N K pb pb') (cf : GDConf ℝ)
include h

theorem Shadows.fill {a g b : List ℝ} (ha : a.length = N) (hg : g.length = N) (hb : b.length = N) (steps : List ℝ) :
    ∃ c, c.length = N ∧ gdFill [b] (gdMove [a] [g] steps).flatten = [c] ∧ gdFill [K b] (gdMove [K a] [K g] steps).flatten = [K c] := by
  cases steps with
  | nil =>
    refine ⟨b, hb, ?_, ?_⟩
    · simp [gdMove, gdFill, overwrite.eq_def]
    · simp [gdMove, gdFill, overwrite.eq_def]
  | cons t ts =>
    have hKa := h.preserves.length a ha
    have hKg := h.preserves.length g hg
    have hKb := h.preserves.length b hb
    refine ⟨List.zipWith (fun p q => p - t • q) a g, by simp [ha, hg], ?_, ?_⟩
    · show gdFill [b] ([List.zipWith (fun p q => p - t • q) a g].flatten) = _
      rw [List.flatten_singleton, gdFill_one _ _ (by simp [ha, hg, hb])]
    · show gdFill [K b] ([List.zipWith (fun p q => p - t • q) (K a) (K g)].flatten) = _
      rw [List.flatten_singleton, gdFill_one _ _ (by simp [hKa, hKg, hKb]), h.preserves.move ha hg]

theorem Shadows.loop {a g : List ℝ} (ha : a.length = N) (hg : g.length = N) (costK : XF ℝ) : (fuel k : Nat) → (b : List ℝ) → b.length = N → (steps : List ℝ) →
    gdLoop pb' cf [K a] [K g] costK fuel k ⟨[K b], steps⟩ = (gdLoop pb cf [a] [g] costK fuel k ⟨[b], steps⟩).map (GDState.turn K) ∧
    ∀ r, gdLoop pb cf [a] [g] costK fuel k ⟨[b], steps⟩ = some r → r.One N
  | 0, _, _, _, _ => ⟨rfl, fun _ hr => by cases hr⟩
  | fuel + 1, k, b, hb, steps => by
    obtain ⟨c, hc, e1, e2⟩ := h.fill ha hg hb steps
    rw [gdLoop, gdLoop]
    dsimp only
    rw [e1, e2, h.cost c hc]
    by_cases h1 : (pb.cost [c]).lt costK ∧ (pb.cost [c]).isFinite = true
    · rw [if_pos h1, if_pos h1]
      by_cases h2 : k = 1
      · rw [if_pos h2, if_pos h2]
        exact ⟨rfl, fun r hr => by cases hr; exact ⟨c, hc, rfl⟩⟩
      · rw [if_neg h2, if_neg h2]
        exact ⟨rfl, fun r hr => by cases hr; exact ⟨c, hc, rfl⟩⟩
    · rw [if_neg h1, if_neg h1]
      by_cases h2 : (pb.cost [c]).eq costK
      · rw [if_pos h2, if_pos h2]
        exact ⟨rfl, fun r hr => by cases hr; exact ⟨c, hc, rfl⟩⟩
      · rw [if_neg h2, if_neg h2]
        exact Shadows.loop ha hg costK fuel (k + 1) c hc _

/-- One step of the descent on the one problem is one step on the other. -/
theorem Shadows.step (fuel : Nat) (s : GDState ℝ ℝ) (hs : s.One N) :
    gdStep pb' cf fuel (s.turn K) = (gdStep pb cf fuel s).map (GDState.turn K) ∧ ∀ r, gdStep pb cf fuel s = some r → r.One N := by
  obtain ⟨params, steps⟩ := s
  obtain ⟨a, ha, rfl⟩ := hs
  obtain ⟨g, hg, e1, e2⟩ := h.grad a ha
  have f1 : gdFill [a] [a].flatten = [a] := by rw [List.flatten_singleton, gdFill_one _ _ rfl]
  have f2 : gdFill [K a] [K a].flatten = [K a] := by rw [List.flatten_singleton, gdFill_one _ _ rfl]
  unfold gdStep GDState.turn
  simp only [List.map_cons, List.map_nil]
  rw [f1, f2, e1, e2, h.cost a ha]
  exact h.loop cf ha hg _ fuel 1 a ha steps

/-- A whole run. -/
theorem Shadows.run (fuel : Nat → Nat) (run : Nat → GDState ℝ ℝ) (h0 : (run 0).One N) (hr : ∀ i, gdStep pb cf (fuel i) (run i) = some (run (i + 1))) (i : Nat) :
    (run i).One N ∧ gdStep pb' cf (fuel i) ((run i).turn K) = some ((run (i + 1)).turn K) := by
  have h1 : (run i).One N := by
    induction i with
    | zero => exact h0
    | succ i ih => exact (h.step cf (fuel i) (run i) ih).2 _ (hr i)
  refine ⟨h1, ?_⟩
  rw [(h.step cf (fuel i) (run i) h1).1, hr i]
  rfl
end

end
end Imodal
