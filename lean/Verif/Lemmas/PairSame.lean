import Verif.Lemmas.Envelope
import Verif.Spec.Shooting
/-! Geodesic controls depend on a manifold only through the pairing of its momentum with fields. -/
set_option autoImplicit false
namespace Imodal
noncomputable section
variable {d : Nat} {J : Prop}

/-- What can be computed from the first manifold can be computed from the second (Jacobians only under
`J`), and the momenta pair with fields in the same way. -/
structure DualSame (J : Prop) (man man' : Mfd d) : Prop where
  like : ∀ σ r vs, man.cotToVs σ r = .ok vs → ∃ vs', man'.cotToVs σ r = .ok vs' ∧ (J → Avail 1 vs → Avail 1 vs')
  pair : ∀ v J, pair (momAtoms man) v J = pair (momAtoms man') v J

theorem rep_eq_pair (σ : ℝ) (A : List (Atom d)) (y : Vec d) (b : Fin d) :
    rep σ A y b = pair A ((atom0 y (Pi.single b 1)).rep σ) ((atom0 y (Pi.single b 1)).repJ σ) := by
  rw [← gram_atom]
  simp [Atom.pair, atom0, Pi.single_apply]

theorem repJ_eq_pair (σ : ℝ) (A : List (Atom d)) (y : Vec d) (b c : Fin d) :
    repJ σ A y b c = pair A ((atom1 y (Matrix.single b c 1)).rep σ) ((atom1 y (Matrix.single b c 1)).repJ σ) := by
  rw [← gram_atom]
  simp [Atom.pair, atom1, Matrix.single_apply, ite_and]

theorem DualSame.vs {man man' : Mfd d} (hd : DualSame J man man') {σ : ℝ} {r : Reduction} {vs : FieldExpr d}
    (h : man.cotToVs σ r = .ok vs) : ∃ vs', man'.cotToVs σ r = .ok vs' ∧
      (∀ {n : Nat} {pts : Fin n → Vec d} {V : Fin n → Vec d}, vs.values pts = .ok V → vs'.values pts = .ok V) ∧
      (J → ∀ {n : Nat} {pts : Fin n → Vec d} {D : Fin n → Mat d}, vs.jacobians pts = .ok D → vs'.jacobians pts = .ok D) := by
  obtain ⟨vs', h', ha⟩ := hd.like σ r vs h
  have hr := cotToVs_isRep man h
  have hr' := cotToVs_isRep man' h'
  refine ⟨vs', h', fun {n pts V} hv => ?_, fun hJ {n pts D} hv => ?_⟩
  · obtain ⟨a0, rfl⟩ := values_ok hv
    rw [hr'.avail.values]
    congr 1
    funext i b
    rw [hr.val, hr'.val, rep_eq_pair, rep_eq_pair, hd.pair]
  · obtain ⟨a1, rfl⟩ := jacobians_ok hv
    have a1' := ha hJ a1
    rw [a1'.jacobians]
    congr 1
    funext i b c
    rw [hr.jac a1, hr'.jac a1', repJ_eq_pair, repJ_eq_pair, hd.pair]

theorem DualSame.inner {man man' : Mfd d} (hd : DualSame J man man') {f : FieldExpr d} (h0 : Avail 0 f) (h1 : Avail 1 f) :
    man.innerProd f = man'.innerProd f := by
  obtain ⟨a, ha⟩ := innerProd_avail h0 h1 man
  obtain ⟨a', ha'⟩ := innerProd_avail h0 h1 man'
  rw [ha, ha', innerProd_ok man ha, innerProd_ok man' ha', hd.pair]

theorem Translations.geodesic_same {man man' : Mfd d} (hd : DualSame J man man') {n : Nat} {m m' : Translations d n}
    (h : m.geodesic man = .ok m') : m.geodesic man' = .ok m' := by
  unfold Translations.geodesic at h ⊢
  cases h1 : man.cotToVs m.σ m.r with
  | error e => rw [h1] at h; cases h
  | ok vs =>
    rw [h1] at h; dsimp only at h
    obtain ⟨vs', h1', hv, hj⟩ := hd.vs h1
    rw [h1']; dsimp only
    cases h2 : vs.values m.gd with
    | error e => rw [h2] at h; cases h
    | ok V => rw [h2] at h; rw [hv h2]; exact h

theorem Implicit0.geodesic_same {man man' : Mfd d} (hd : DualSame J man man') {n : Nat} {m m' : Implicit0 d n}
    (h : m.geodesic man = .ok m') : m.geodesic man' = .ok m' := by
  unfold Implicit0.geodesic at h ⊢
  cases h1 : man.cotToVs m.σ m.r with
  | error e => rw [h1] at h; cases h
  | ok vs =>
    rw [h1] at h; dsimp only at h
    obtain ⟨vs', h1', hv, hj⟩ := hd.vs h1
    rw [h1']; dsimp only
    cases h2 : vs.values m.gd with
    | error e => rw [h2] at h; cases h
    | ok V => rw [h2] at h; rw [hv h2]; exact h

theorem Oriented.geodesic_same {man man' : Mfd d} (hd : DualSame J man man') {n : Nat} {m m' : Oriented d n}
    (h : m.geodesic man = .ok m') : m.geodesic man' = .ok m' := by
  unfold Oriented.geodesic at h ⊢
  cases h1 : man.cotToVs m.σ .torch with
  | error e => rw [h1] at h; cases h
  | ok vs =>
    rw [h1] at h; dsimp only at h
    obtain ⟨vs', h1', hv, hj⟩ := hd.vs h1
    rw [h1']; dsimp only
    cases h2 : vs.values m.gd with
    | error e => rw [h2] at h; cases h
    | ok V => rw [h2] at h; rw [hv h2]; exact h

theorem Implicit1.geodesic_same {man man' : Mfd d} (hd : DualSame J man man') (hJ : J) {n p : Nat} {m m' : Implicit1 d n p}
    (h : m.geodesic man = .ok m') : m.geodesic man' = .ok m' := by
  unfold Implicit1.geodesic at h ⊢
  cases h1 : man.cotToVs m.σ m.r with
  | error e => rw [h1] at h; cases h
  | ok vs =>
    rw [h1] at h; dsimp only at h
    obtain ⟨vs', h1', hv, hj⟩ := hd.vs h1
    rw [h1']; dsimp only
    cases h2 : vs.jacobians m.gd with
    | error e => rw [h2] at h; cases h
    | ok V => rw [h2] at h; rw [hj hJ h2]; exact h

theorem DivFree.geodesic_same {man man' : Mfd d} (hd : DualSame J man man') (hJ : J) {N P : Nat} {m m' : DivFree d N P}
    (h : m.geodesic man = .ok m') : m.geodesic man' = .ok m' := by
  unfold DivFree.geodesic at h ⊢
  cases h1 : man.cotToVs m.σ .torch with
  | error e => rw [h1] at h; cases h
  | ok vs =>
    rw [h1] at h; dsimp only at h
    obtain ⟨vs', h1', hv, hj⟩ := hd.vs h1
    rw [h1']; dsimp only
    cases h2 : vs.jacobians m.X with
    | error e => rw [h2] at h; cases h
    | ok J =>
      rw [h2] at h; rw [hj hJ h2]; dsimp only at h ⊢
      cases h3 : vs.values m.Y with
      | error e => rw [h3] at h; cases h
      | ok V => rw [h3] at h; rw [hv h3]; exact h

theorem Arap.geodesic_same {man man' : Mfd d} (hd : DualSame J man man') (hJ : J) {N P : Nat} {m m' : Arap d N P}
    (h : m.geodesic man = .ok m') : m.geodesic man' = .ok m' := by
  unfold Arap.geodesic at h ⊢
  cases h1 : man.cotToVs m.σ .torch with
  | error e => rw [h1] at h; cases h
  | ok vs =>
    rw [h1] at h; dsimp only at h
    obtain ⟨vs', h1', hv, hj⟩ := hd.vs h1
    rw [h1']; dsimp only
    cases h2 : vs.jacobians m.X with
    | error e => rw [h2] at h; cases h
    | ok J =>
      rw [h2] at h; rw [hj hJ h2]; dsimp only at h ⊢
      cases h3 : vs.values m.Y with
      | error e => rw [h3] at h; cases h
      | ok V => rw [h3] at h; rw [hv h3]; exact h

theorem Constrained.geodesic_same {man man' : Mfd d} (hd : DualSame J man man') {n p : Nat} (m : Constrained d n p) :
    m.geodesic man = m.geodesic man' := by
  unfold Constrained.geodesic
  rw [hd.inner (isRep_f0 .torch (m.fsupp m.gd) (m.fvec m.gd) m.σ).avail (avail_f0_one .torch (m.fsupp m.gd) (m.fvec m.gd) m.σ)]

theorem Linear.geodesic_same {man man' : Mfd d} (hd : DualSame J man man') (m : Linear d) : m.geodesic man = m.geodesic man' := by
  unfold Linear.geodesic
  rw [hd.inner (avail_affine 0 m.A m.gd 0) (avail_affine 1 m.A m.gd 0)]

theorem GlobalTranslation.geodesic_same {man man' : Mfd d} (hd : DualSame J man man') (m : GlobalTranslation d) :
    m.geodesic man = m.geodesic man' := by
  have : m.entry man = m.entry man' := funext fun i => by
    unfold GlobalTranslation.entry
    rw [hd.inner (avail_const 0 fun c => if c = i then (1 : ℝ) else 0) (avail_const 1 fun c => if c = i then (1 : ℝ) else 0)]
  unfold GlobalTranslation.geodesic
  rw [this]

theorem wrap_same {α : Type} {f : α → DefModule d} {x y : Py α} (h : ∀ a, x = .ok a → y = .ok a) {m : DefModule d} (hm : wrap f x = .ok m) :
    wrap f y = .ok m := by
  obtain ⟨a, ha, rfl⟩ := wrap_ok hm
  rw [h a ha]; rfl

mutual
theorem geodesic_same {man man' : Mfd d} (hd : DualSame J man man') : (m : DefModule d) → (m.ReadsJac → J) → {m' : DefModule d} →
    m.geodesic man = .ok m' → m.geodesic man' = .ok m'
  | .translations m, hJ, m', h => by
    rw [DefModule.geodesic] at h ⊢; exact wrap_same (fun _ => Translations.geodesic_same hd) h
  | .implicit0 m, hJ, m', h => by
    rw [DefModule.geodesic] at h ⊢; exact wrap_same (fun _ => Implicit0.geodesic_same hd) h
  | .oriented m, hJ, m', h => by
    rw [DefModule.geodesic] at h ⊢; exact wrap_same (fun _ => Oriented.geodesic_same hd) h
  | .constrained m, hJ, m', h => by
    rw [DefModule.geodesic] at h ⊢; rwa [← Constrained.geodesic_same hd]
  | .globalTranslation m, hJ, m', h => by
    rw [DefModule.geodesic] at h ⊢; rwa [← GlobalTranslation.geodesic_same hd]
  | .linear m, hJ, m', h => by
    rw [DefModule.geodesic] at h ⊢; rwa [← Linear.geodesic_same hd]
  | .implicit1 m, hJ, m', h => by
    rw [DefModule.geodesic] at h ⊢; exact wrap_same (fun _ => Implicit1.geodesic_same hd (hJ (by rw [DefModule.ReadsJac]; trivial))) h
  | .divFree m, hJ, m', h => by
    rw [DefModule.geodesic] at h ⊢; exact wrap_same (fun _ => DivFree.geodesic_same hd (hJ (by rw [DefModule.ReadsJac]; trivial))) h
  | .arap m, hJ, m', h => by
    rw [DefModule.geodesic] at h ⊢; exact wrap_same (fun _ => Arap.geodesic_same hd (hJ (by rw [DefModule.ReadsJac]; trivial))) h
  | .silent s, hJ, m', h => by rw [DefModule.geodesic] at h ⊢; exact h
  | .compound ms, hJ, m', h => by
    obtain ⟨ms', h1, rfl⟩ := geodesic_compound h
    rw [DefModule.geodesic, geodesics_same hd ms (fun a => hJ (by rw [DefModule.ReadsJac]; exact a)) h1]
theorem geodesics_same {man man' : Mfd d} (hd : DualSame J man man') : (ms : List (DefModule d)) → (DefModule.SomeReadsJac ms → J) → {ms' : List (DefModule d)} →
    DefModule.geodesics man ms = .ok ms' → DefModule.geodesics man' ms = .ok ms'
  | [], _, ms', h => by rw [DefModule.geodesics] at h ⊢; exact h
  | m :: ms, hJ, ms', h => by
    rw [DefModule.geodesics] at h ⊢
    cases h1 : m.geodesic man with
    | error e => rw [h1] at h; cases h
    | ok a =>
      rw [h1] at h; dsimp only at h
      rw [geodesic_same hd m (fun a => hJ (by rw [DefModule.SomeReadsJac]; exact Or.inl a)) h1]; dsimp only
      cases h2 : DefModule.geodesics man ms with
      | error e => rw [h2] at h; cases h
      | ok b => rw [h2] at h; rw [geodesics_same hd ms (fun a => hJ (by rw [DefModule.SomeReadsJac]; exact Or.inr a)) h2]; exact h
end

end
end Imodal
