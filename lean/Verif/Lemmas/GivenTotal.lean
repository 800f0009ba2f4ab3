import Verif.Spec.Fits
import Verif.Lemmas.ShootCtrl
import Verif.Lemmas.Envelope
import Verif.Props.C20
/-!
# Controls of the right shape can be set everywhere
-/
set_option autoImplicit false
namespace Imodal
noncomputable section
variable {d : Nat}

mutual
theorem settable_nonneg : (m : DefModule d) → m.Settable → m.NonnegWeights
  | .translations _, _ => by rw [DefModule.NonnegWeights]; trivial
  | .implicit0 _, h => by rw [DefModule.Settable] at h; rw [DefModule.NonnegWeights]; exact h
  | .oriented _, h => by rw [DefModule.Settable] at h; rw [DefModule.NonnegWeights]; exact h
  | .constrained _, h => by rw [DefModule.Settable] at h; rw [DefModule.NonnegWeights]; exact h
  | .globalTranslation _, h => by rw [DefModule.Settable] at h; rw [DefModule.NonnegWeights]; exact h
  | .linear _, h => by rw [DefModule.Settable] at h; rw [DefModule.NonnegWeights]; exact h
  | .implicit1 _, h => by rw [DefModule.Settable] at h; rw [DefModule.NonnegWeights]; exact ⟨h.1, h.2.le⟩
  | .divFree _, h => by rw [DefModule.Settable] at h; rw [DefModule.NonnegWeights]; exact ⟨h.1, h.2.le⟩
  | .arap _, h => by rw [DefModule.Settable] at h; rw [DefModule.NonnegWeights]; exact ⟨h.1, h.2.le⟩
  | .silent _, _ => by rw [DefModule.NonnegWeights]; trivial
  | .compound ms, h => by
    rw [DefModule.Settable] at h; rw [DefModule.NonnegWeights]
    exact ⟨h.1, settable_nonnegAll ms h.2⟩
theorem settable_nonnegAll : (ms : List (DefModule d)) → DefModule.AllSettable ms → DefModule.AllNonnegWeights ms
  | [], _ => by rw [DefModule.AllNonnegWeights]; trivial
  | m :: ms, h => by
    rw [DefModule.AllSettable] at h; rw [DefModule.AllNonnegWeights]
    exact ⟨settable_nonneg m h.1, settable_nonnegAll ms h.2⟩
end

mutual
theorem settable_withGd (x : Row) : (m : DefModule d) → (o : Nat) → m.Settable → (m.withGd x o).Settable
  | .translations _, _, _ => by rw [DefModule.withGd, DefModule.Settable]; trivial
  | .implicit0 _, _, h => by rw [DefModule.Settable] at h; rw [DefModule.withGd, DefModule.Settable]; exact h
  | .oriented _, _, h => by rw [DefModule.Settable] at h; rw [DefModule.withGd, DefModule.Settable]; exact h
  | .constrained _, _, h => by rw [DefModule.Settable] at h; rw [DefModule.withGd, DefModule.Settable]; exact h
  | .globalTranslation _, _, h => by rw [DefModule.Settable] at h; rw [DefModule.withGd, DefModule.Settable]; exact h
  | .linear _, _, h => by rw [DefModule.Settable] at h; rw [DefModule.withGd, DefModule.Settable]; exact h
  | .implicit1 _, _, h => by rw [DefModule.Settable] at h; rw [DefModule.withGd, DefModule.Settable]; exact h
  | .divFree _, _, h => by rw [DefModule.Settable] at h; rw [DefModule.withGd, DefModule.Settable]; exact h
  | .arap _, _, h => by rw [DefModule.Settable] at h; rw [DefModule.withGd, DefModule.Settable]; exact h
  | .silent _, _, _ => by rw [DefModule.withGd, DefModule.Settable]; trivial
  | .compound ms, o, h => by
    rw [DefModule.Settable] at h; rw [DefModule.withGd, DefModule.Settable]
    refine ⟨?_, settable_withGdAll x ms o h.2⟩
    cases ms with
    | nil => exact absurd rfl h.1
    | cons m ms => rw [DefModule.withGdAll]; exact List.cons_ne_nil _ _
theorem settable_withGdAll (x : Row) : (ms : List (DefModule d)) → (o : Nat) → DefModule.AllSettable ms → DefModule.AllSettable (DefModule.withGdAll x o ms)
  | [], _, _ => by rw [DefModule.withGdAll, DefModule.AllSettable]; trivial
  | m :: ms, o, h => by
    rw [DefModule.AllSettable] at h; rw [DefModule.withGdAll, DefModule.AllSettable]
    exact ⟨settable_withGd x m o h.1, settable_withGdAll x ms _ h.2⟩
end

mutual
theorem fits_withGd (x : Row) : (m : DefModule d) → (o : Nat) → (c : Ctrl d) → m.Fits c → (m.withGd x o).Fits c
  | .translations _, _, _, h => by rw [DefModule.Fits] at h; rw [DefModule.withGd, DefModule.Fits]; exact h
  | .implicit0 _, _, _, h => by rw [DefModule.Fits] at h; rw [DefModule.withGd, DefModule.Fits]; exact h
  | .oriented _, _, _, h => by rw [DefModule.Fits] at h; rw [DefModule.withGd, DefModule.Fits]; exact h
  | .constrained _, _, _, h => by rw [DefModule.Fits] at h; rw [DefModule.withGd, DefModule.Fits]; exact h
  | .globalTranslation _, _, _, h => by rw [DefModule.Fits] at h; rw [DefModule.withGd, DefModule.Fits]; exact h
  | .linear _, _, _, h => by rw [DefModule.Fits] at h; rw [DefModule.withGd, DefModule.Fits]; exact h
  | .implicit1 _, _, _, h => by rw [DefModule.Fits] at h; rw [DefModule.withGd, DefModule.Fits]; exact h
  | .divFree _, _, _, h => by rw [DefModule.Fits] at h; rw [DefModule.withGd, DefModule.Fits]; exact h
  | .arap _, _, _, h => by rw [DefModule.Fits] at h; rw [DefModule.withGd, DefModule.Fits]; exact h
  | .silent _, _, _, _ => by rw [DefModule.withGd, DefModule.Fits]; trivial
  | .compound ms, o, c, h => by
    rw [DefModule.Fits] at h; rw [DefModule.withGd, DefModule.Fits]
    obtain ⟨cs, e, h⟩ := h
    exact ⟨cs, e, fits_withGdAll x ms o cs h⟩
theorem fits_withGdAll (x : Row) : (ms : List (DefModule d)) → (o : Nat) → (cs : List (Ctrl d)) → DefModule.FitsAll ms cs →
    DefModule.FitsAll (DefModule.withGdAll x o ms) cs
  | [], _, _, h => by rw [DefModule.FitsAll] at h; rw [DefModule.withGdAll, DefModule.FitsAll]; exact h
  | m :: ms, o, cs, h => by
    rw [DefModule.FitsAll] at h; rw [DefModule.withGdAll, DefModule.FitsAll]
    obtain ⟨c, cs', e, h1, h2⟩ := h
    exact ⟨c, cs', e, fits_withGd x m o c h1, fits_withGdAll x ms _ cs' h2⟩
end

mutual
theorem settable_withCot (x : Row) : (m : DefModule d) → (o : Nat) → m.Settable → (m.withCot x o).Settable
  | .translations _, _, h => by rw [DefModule.Settable] at h; rw [DefModule.withCot, DefModule.Settable]; exact h
  | .implicit0 _, _, h => by rw [DefModule.Settable] at h; rw [DefModule.withCot, DefModule.Settable]; exact h
  | .oriented _, _, h => by rw [DefModule.Settable] at h; rw [DefModule.withCot, DefModule.Settable]; exact h
  | .constrained _, _, h => by rw [DefModule.Settable] at h; rw [DefModule.withCot, DefModule.Settable]; exact h
  | .globalTranslation _, _, h => by rw [DefModule.Settable] at h; rw [DefModule.withCot, DefModule.Settable]; exact h
  | .linear _, _, h => by rw [DefModule.Settable] at h; rw [DefModule.withCot, DefModule.Settable]; exact h
  | .implicit1 _, _, h => by rw [DefModule.Settable] at h; rw [DefModule.withCot, DefModule.Settable]; exact h
  | .divFree _, _, h => by rw [DefModule.Settable] at h; rw [DefModule.withCot, DefModule.Settable]; exact h
  | .arap _, _, h => by rw [DefModule.Settable] at h; rw [DefModule.withCot, DefModule.Settable]; exact h
  | .silent _, _, _ => by rw [DefModule.withCot, DefModule.Settable]; trivial
  | .compound ms, o, h => by
    rw [DefModule.Settable] at h; rw [DefModule.withCot, DefModule.Settable]
    refine ⟨?_, settable_withCotAll x ms o h.2⟩
    cases ms with
    | nil => exact absurd rfl h.1
    | cons m ms => rw [DefModule.withCotAll]; exact List.cons_ne_nil _ _
theorem settable_withCotAll (x : Row) : (ms : List (DefModule d)) → (o : Nat) → DefModule.AllSettable ms → DefModule.AllSettable (DefModule.withCotAll x o ms)
  | [], _, _ => by rw [DefModule.withCotAll, DefModule.AllSettable]; trivial
  | m :: ms, o, h => by
    rw [DefModule.AllSettable] at h; rw [DefModule.withCotAll, DefModule.AllSettable]
    exact ⟨settable_withCot x m o h.1, settable_withCotAll x ms _ h.2⟩
end

mutual
theorem fits_withCot (x : Row) : (m : DefModule d) → (o : Nat) → (c : Ctrl d) → m.Fits c → (m.withCot x o).Fits c
  | .translations _, _, _, h => by rw [DefModule.Fits] at h; rw [DefModule.withCot, DefModule.Fits]; exact h
  | .implicit0 _, _, _, h => by rw [DefModule.Fits] at h; rw [DefModule.withCot, DefModule.Fits]; exact h
  | .oriented _, _, _, h => by rw [DefModule.Fits] at h; rw [DefModule.withCot, DefModule.Fits]; exact h
  | .constrained _, _, _, h => by rw [DefModule.Fits] at h; rw [DefModule.withCot, DefModule.Fits]; exact h
  | .globalTranslation _, _, _, h => by rw [DefModule.Fits] at h; rw [DefModule.withCot, DefModule.Fits]; exact h
  | .linear _, _, _, h => by rw [DefModule.Fits] at h; rw [DefModule.withCot, DefModule.Fits]; exact h
  | .implicit1 _, _, _, h => by rw [DefModule.Fits] at h; rw [DefModule.withCot, DefModule.Fits]; exact h
  | .divFree _, _, _, h => by rw [DefModule.Fits] at h; rw [DefModule.withCot, DefModule.Fits]; exact h
  | .arap _, _, _, h => by rw [DefModule.Fits] at h; rw [DefModule.withCot, DefModule.Fits]; exact h
  | .silent _, _, _, _ => by rw [DefModule.withCot, DefModule.Fits]; trivial
  | .compound ms, o, c, h => by
    rw [DefModule.Fits] at h; rw [DefModule.withCot, DefModule.Fits]
    obtain ⟨cs, e, h⟩ := h
    exact ⟨cs, e, fits_withCotAll x ms o cs h⟩
theorem fits_withCotAll (x : Row) : (ms : List (DefModule d)) → (o : Nat) → (cs : List (Ctrl d)) → DefModule.FitsAll ms cs →
    DefModule.FitsAll (DefModule.withCotAll x o ms) cs
  | [], _, _, h => by rw [DefModule.FitsAll] at h; rw [DefModule.withCotAll, DefModule.FitsAll]; exact h
  | m :: ms, o, cs, h => by
    rw [DefModule.FitsAll] at h; rw [DefModule.withCotAll, DefModule.FitsAll]
    obtain ⟨c, cs', e, h1, h2⟩ := h
    exact ⟨c, cs', e, fits_withCot x m o c h1, fits_withCotAll x ms _ cs' h2⟩
end

mutual
theorem settable_reset : (m : DefModule d) → (m.reset.Settable ↔ m.Settable)
  | .translations _ => by rw [DefModule.reset, DefModule.Settable, DefModule.Settable]
  | .implicit0 _ => by rw [DefModule.reset, DefModule.Settable, DefModule.Settable]
  | .oriented _ => by rw [DefModule.reset, DefModule.Settable, DefModule.Settable]
  | .constrained _ => by rw [DefModule.reset, DefModule.Settable, DefModule.Settable]
  | .globalTranslation _ => by rw [DefModule.reset, DefModule.Settable, DefModule.Settable]
  | .linear _ => by rw [DefModule.reset, DefModule.Settable, DefModule.Settable]
  | .implicit1 _ => by rw [DefModule.reset, DefModule.Settable, DefModule.Settable]
  | .divFree _ => by rw [DefModule.reset, DefModule.Settable, DefModule.Settable]
  | .arap _ => by rw [DefModule.reset, DefModule.Settable, DefModule.Settable]
  | .silent _ => by rw [DefModule.reset]
  | .compound ms => by
    rw [DefModule.reset, DefModule.Settable, DefModule.Settable, settable_resetAll ms]
    cases ms <;> simp [DefModule.resetAll]
theorem settable_resetAll : (ms : List (DefModule d)) →
    (DefModule.AllSettable (DefModule.resetAll ms) ↔ DefModule.AllSettable ms)
  | [] => by rw [DefModule.resetAll]
  | m :: ms => by
    rw [DefModule.resetAll, DefModule.AllSettable, DefModule.AllSettable, settable_reset m, settable_resetAll ms]
end

mutual
theorem fits_reset : (m : DefModule d) → (c : Ctrl d) → (m.reset.Fits c ↔ m.Fits c)
  | .translations _, _ => by rw [DefModule.reset, DefModule.Fits, DefModule.Fits]
  | .implicit0 _, _ => by rw [DefModule.reset, DefModule.Fits, DefModule.Fits]
  | .oriented _, _ => by rw [DefModule.reset, DefModule.Fits, DefModule.Fits]
  | .constrained _, _ => by rw [DefModule.reset, DefModule.Fits, DefModule.Fits]
  | .globalTranslation _, _ => by rw [DefModule.reset, DefModule.Fits, DefModule.Fits]
  | .linear _, _ => by rw [DefModule.reset, DefModule.Fits, DefModule.Fits]
  | .implicit1 _, _ => by rw [DefModule.reset, DefModule.Fits, DefModule.Fits]
  | .divFree _, _ => by rw [DefModule.reset, DefModule.Fits, DefModule.Fits]
  | .arap _, _ => by rw [DefModule.reset, DefModule.Fits, DefModule.Fits]
  | .silent _, _ => by rw [DefModule.reset]
  | .compound ms, c => by
    rw [DefModule.reset, DefModule.Fits, DefModule.Fits]
    simp only [fits_resetAll ms]
theorem fits_resetAll : (ms : List (DefModule d)) → (cs : List (Ctrl d)) →
    (DefModule.FitsAll (DefModule.resetAll ms) cs ↔ DefModule.FitsAll ms cs)
  | [], _ => by rw [DefModule.resetAll]
  | m :: ms, cs => by
    rw [DefModule.resetAll, DefModule.FitsAll, DefModule.FitsAll]
    simp only [fits_reset m, fits_resetAll ms]
end

theorem fitsAll_length : ∀ {ms : List (DefModule d)} {cs : List (Ctrl d)}, DefModule.FitsAll ms cs → cs.length = ms.length
  | [], cs, h => by rw [DefModule.FitsAll] at h; rw [h]; rfl
  | m :: ms, cs, h => by
    rw [DefModule.FitsAll] at h
    obtain ⟨c, cs', rfl, -, h2⟩ := h
    rw [List.length_cons, List.length_cons, fitsAll_length h2]

theorem fitsAll_iff : ∀ {ms : List (DefModule d)} {cs : List (Ctrl d)}, DefModule.FitsAll ms cs ↔ List.Forall₂ DefModule.Fits ms cs
  | [], cs => by rw [DefModule.FitsAll]; simp
  | m :: ms, [] => by rw [DefModule.FitsAll]; simp
  | m :: ms, c :: cs => by
    rw [DefModule.FitsAll, List.forall₂_cons, ← fitsAll_iff]
    constructor
    · rintro ⟨c, cs', e, h1, h2⟩; cases e; exact ⟨h1, h2⟩
    · rintro ⟨h1, h2⟩; exact ⟨c, cs, rfl, h1, h2⟩

mutual
/-- Controls of the right shape can be set. -/
theorem settable_fill : (m : DefModule d) → m.Settable → (c : Ctrl d) → m.Fits c → ∃ m', m.fillControls c = .ok m'
  | .translations m, _, c, hc => by
    rw [DefModule.Fits] at hc; obtain ⟨h, rfl⟩ := hc
    rw [DefModule.fillControls, dif_pos rfl]; exact ⟨_, rfl⟩
  | .implicit0 m, _, c, hc => by
    rw [DefModule.Fits] at hc; obtain ⟨h, rfl⟩ := hc
    rw [DefModule.fillControls, dif_pos rfl]; exact ⟨_, rfl⟩
  | .oriented m, _, c, hc => by
    rw [DefModule.Fits] at hc; obtain ⟨h, rfl⟩ := hc
    rw [DefModule.fillControls, dif_pos rfl]; exact ⟨_, rfl⟩
  | .constrained m, _, c, hc => by
    rw [DefModule.Fits] at hc; obtain ⟨h, rfl⟩ := hc
    rw [DefModule.fillControls]; exact ⟨_, rfl⟩
  | .globalTranslation m, _, c, hc => by
    rw [DefModule.Fits] at hc; obtain ⟨h, rfl⟩ := hc
    rw [DefModule.fillControls]; exact ⟨_, rfl⟩
  | .linear m, _, c, hc => by
    rw [DefModule.Fits] at hc; obtain ⟨h, rfl⟩ := hc
    rw [DefModule.fillControls]; exact ⟨_, rfl⟩
  | .implicit1 m, hs, c, hc => by
    rw [DefModule.Settable] at hs
    rw [DefModule.Fits] at hc; obtain ⟨h, rfl⟩ := hc
    obtain ⟨m', h1, -⟩ := C20_implicit1_fill m hs.2 h
    rw [DefModule.fillControls, dif_pos rfl]
    exact ⟨.implicit1 m', by rw [h1]; rfl⟩
  | .divFree m, hs, c, hc => by
    rw [DefModule.Settable] at hs
    rw [DefModule.Fits] at hc; obtain ⟨h, rfl⟩ := hc
    obtain ⟨m', h1, -⟩ := (C20_divFree m hs.2).1 h
    rw [DefModule.fillControls, dif_pos rfl]
    exact ⟨.divFree m', by rw [h1]; rfl⟩
  | .arap m, hs, c, hc => by
    rw [DefModule.Settable] at hs
    rw [DefModule.Fits] at hc; obtain ⟨h, rfl⟩ := hc
    obtain ⟨m', h1, -⟩ := (C20_arap m hs.2).1 h
    rw [DefModule.fillControls, dif_pos rfl]
    exact ⟨.arap m', by rw [h1]; rfl⟩
  | .silent s, _, c, _ => ⟨.silent s, by cases c <;> rw [DefModule.fillControls]⟩
  | .compound ms, hs, c, hc => by
    rw [DefModule.Settable] at hs
    rw [DefModule.Fits] at hc; obtain ⟨cs, rfl, hc⟩ := hc
    obtain ⟨ms', h1⟩ := settable_fillAll ms hs.2 cs hc
    rw [DefModule.fillControls, if_pos (fitsAll_length hc), h1]
    exact ⟨_, rfl⟩
theorem settable_fillAll : (ms : List (DefModule d)) → DefModule.AllSettable ms → (cs : List (Ctrl d)) → DefModule.FitsAll ms cs →
    ∃ ms', DefModule.fillAll ms cs = .ok ms'
  | [], _, cs, _ => ⟨[], by cases cs <;> simp [DefModule.fillAll]⟩
  | m :: ms, hs, cs, hc => by
    rw [DefModule.AllSettable] at hs
    rw [DefModule.FitsAll] at hc
    obtain ⟨c, cs', rfl, h1, h2⟩ := hc
    obtain ⟨m', e1⟩ := settable_fill m hs.1 c h1
    obtain ⟨ms', e2⟩ := settable_fillAll ms hs.2 cs' h2
    rw [DefModule.fillAll, e1]
    dsimp only
    rw [e2]
    exact ⟨_, rfl⟩
end

/-- Wherever the points are, the velocity under controls of the right shape can be computed. -/
theorem settable_ctrlEval {m : DefModule d} (hs : m.Settable) {c : Ctrl d} (hc : m.Fits c) (x : Row) : ∃ r, ctrlEval m c x = .ok r := by
  obtain ⟨m', hm⟩ := settable_fill _ (settable_withGd x m 0 hs) c (fits_withGd x m 0 c hc)
  obtain ⟨Q⟩ := quad_exists m'.manifold _ (settable_nonneg _ (settable_withGd x m 0 hs))
  haveI := Q.inst
  obtain ⟨f, hf, h0, h1, -, hcost⟩ := Q.fill c m' hm
  obtain ⟨v, hv⟩ := action_avail h0 h1 m'.manifold
  unfold ctrlEval
  rw [hm]
  dsimp only
  rw [hcost]
  dsimp only
  rw [hf]
  dsimp only
  rw [hv]
  exact ⟨_, rfl⟩

theorem settable_ctrlRhs {m : DefModule d} (hs : m.Settable) {c : Ctrl d} (hc : m.Fits c) (x : Row) : ∃ v, ctrlRhs m c x = .ok v := by
  obtain ⟨r, hr⟩ := settable_ctrlEval hs hc x
  exact ⟨r.2, by unfold ctrlRhs; rw [hr]; rfl⟩

end
end Imodal
