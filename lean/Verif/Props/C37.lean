import Verif.Model.Attachment
/-!
# C37: the value of a compound attachment
-/
set_option autoImplicit false
namespace Imodal
noncomputable section
variable {S T : Type}

/-- The value the property asks for: a member counts with its own weight. -/
inductive WeightedValue (s : S) (t : T) : Attach S T → ℝ → Prop
  | simple {w : ℝ} {loss : S → T → Py ℝ} {a : ℝ} : loss s t = .ok a → WeightedValue s t (.simple w loss) (w * a)
  | compound {w : ℝ} {as : List (Attach S T)} {vs : List ℝ} : List.Forall₂ (WeightedValue s t) as vs →
    WeightedValue s t (.compound w as) (w * vs.sum)

/-- All members, at any depth, have weight one. -/
inductive UnitMembers : Attach S T → Prop
  | simple {w : ℝ} {loss : S → T → Py ℝ} : UnitMembers (.simple w loss)
  | compound {w : ℝ} {as : List (Attach S T)} : (∀ a ∈ as, a.weight = 1) → (∀ a ∈ as, UnitMembers a) → UnitMembers (.compound w as)

theorem lossAll_ok {s : S} {t : T} : ∀ {as : List (Attach S T)} {x : ℝ}, Attach.lossAll s t as = .ok x →
    ∃ vs, List.Forall₂ (fun (a : Attach S T) v => a.loss s t = .ok v) as vs ∧ x = vs.sum
  | [], x, h => by
    rw [Attach.lossAll] at h
    cases h
    exact ⟨[], .nil, rfl⟩
  | a :: as, x, h => by
    rw [Attach.lossAll] at h
    cases h1 : a.loss s t with
    | error e => rw [h1] at h; cases h
    | ok v =>
      rw [h1] at h; dsimp only at h
      cases h2 : Attach.lossAll s t as with
      | error e => rw [h2] at h; cases h
      | ok y =>
        rw [h2] at h
        cases h
        obtain ⟨vs, hv, rfl⟩ := lossAll_ok h2
        exact ⟨v :: vs, .cons h1 hv, by simp⟩

theorem lossAll_of {s : S} {t : T} {as : List (Attach S T)} {vs : List ℝ}
    (h : List.Forall₂ (fun (a : Attach S T) v => a.loss s t = .ok v) as vs) : Attach.lossAll s t as = .ok vs.sum := by
  induction h with
  | nil => rw [Attach.lossAll]; rfl
  | cons h _ ih => rw [Attach.lossAll, h]; dsimp only; rw [ih]; simp

/-- **C37**, as the code has it: the value is the weight times the sum of the *unweighted* losses
of the members. The weights of the members are never read. -/
theorem C37_value {s : S} {t : T} {w : ℝ} {as : List (Attach S T)} {x : ℝ} :
    (Attach.compound w as).call s t = .ok x ↔
      ∃ vs, List.Forall₂ (fun (a : Attach S T) v => a.loss s t = .ok v) as vs ∧ x = w * vs.sum := by
  unfold Attach.call
  rw [Attach.loss, Attach.weight]
  constructor
  · intro h
    cases h1 : Attach.lossAll s t as with
    | error e => rw [h1] at h; cases h
    | ok y =>
      rw [h1] at h
      cases h
      obtain ⟨vs, hv, rfl⟩ := lossAll_ok h1
      exact ⟨vs, hv, rfl⟩
  · rintro ⟨vs, hv, rfl⟩
    rw [lossAll_of hv]

mutual
theorem unit_loss {s : S} {t : T} : (a : Attach S T) → {x : ℝ} → UnitMembers a → a.loss s t = .ok x → WeightedValue s t a (a.weight * x)
  | .simple w loss, x, _, h => by rw [Attach.loss] at h; exact .simple h
  | .compound w as, x, hu, h => by
    rw [Attach.loss] at h
    obtain ⟨vs, hv, rfl⟩ := unit_lossAll as (by cases hu with | compound h1 h2 => exact fun a ha => ⟨h1 a ha, h2 a ha⟩) h
    exact .compound hv
theorem unit_lossAll {s : S} {t : T} : (as : List (Attach S T)) → {x : ℝ} → (∀ a ∈ as, a.weight = 1 ∧ UnitMembers a) →
    Attach.lossAll s t as = .ok x → ∃ vs, List.Forall₂ (WeightedValue s t) as vs ∧ x = vs.sum
  | [], x, _, h => by
    rw [Attach.lossAll] at h
    cases h
    exact ⟨[], .nil, rfl⟩
  | a :: as, x, hu, h => by
    rw [Attach.lossAll] at h
    cases h1 : a.loss s t with
    | error e => rw [h1] at h; cases h
    | ok v =>
      rw [h1] at h; dsimp only at h
      cases h2 : Attach.lossAll s t as with
      | error e => rw [h2] at h; cases h
      | ok y =>
        rw [h2] at h
        cases h
        obtain ⟨vs, hv, rfl⟩ := unit_lossAll as (fun b hb => hu b (List.mem_cons_of_mem _ hb)) h2
        have hw := unit_loss a (hu a (List.mem_cons_self ..)).2 h1
        rw [(hu a (List.mem_cons_self ..)).1, one_mul] at hw
        exact ⟨v :: vs, .cons hw hv, by simp⟩
end

/-- **C37** for members of weight one, at any depth. Missing: members of other weights, for which
it is false (`C37_weights_disagreement`). -/
theorem C37_partial {s : S} {t : T} {a : Attach S T} {x : ℝ} (hu : UnitMembers a) (h : a.call s t = .ok x) : WeightedValue s t a x := by
  unfold Attach.call at h
  cases h1 : a.loss s t with
  | error e => rw [h1] at h; cases h
  | ok y =>
    rw [h1] at h
    cases h
    exact unit_loss a hu h1

theorem weightedValue_pair {s : S} {t : T} {w u a x : ℝ} (h : WeightedValue s t (.compound w [.simple u fun _ _ => .ok a]) x) : x = w * (u * a) := by
  cases h with
  | compound h =>
    cases h with
    | cons h h' =>
      cases h'
      cases h with
      | simple h =>
        cases h
        simp

/-- A member of weight other than one counts as if it had weight one. -/
theorem C37_weights_disagreement (s : S) (t : T) {w u a : ℝ} (hw : w ≠ 0) (hu : u ≠ 1) (ha : a ≠ 0) :
    (Attach.compound w [.simple u fun _ _ => .ok a]).call s t = .ok (w * a) ∧
      ¬ WeightedValue s t (.compound w [.simple u fun _ _ => .ok a]) (w * a) := by
  constructor
  · rw [C37_value]
    exact ⟨[a], .cons (by rw [Attach.loss]) .nil, by simp⟩
  · intro h
    have := weightedValue_pair h
    have := mul_left_cancel₀ hw this
    have h2 : (1 - u) * a = 0 := by linarith
    rcases mul_eq_zero.1 h2 with h | h
    · exact hu (by linarith)
    · exact ha h

theorem lossAll_null (s : S) (t : T) (bs : List (Attach S T)) : (as : List (Attach S T)) →
    Attach.lossAll s t (as ++ nullLoss :: bs) = Attach.lossAll s t (as ++ bs)
  | [] => by
    rw [List.nil_append, List.nil_append, Attach.lossAll, nullLoss, Attach.loss]
    dsimp only
    cases Attach.lossAll s t bs with
    | error e => rfl
    | ok y => dsimp only; rw [zero_add]
  | a :: as => by
    rw [List.cons_append, List.cons_append, Attach.lossAll, Attach.lossAll, lossAll_null s t bs as]

/-- The null attachment is worth nothing, alone and as a member. -/
theorem C37_null (s : S) (t : T) : (nullLoss : Attach S T).call s t = .ok 0 ∧
    ∀ (w : ℝ) (as bs : List (Attach S T)), (Attach.compound w (as ++ nullLoss :: bs)).call s t = (Attach.compound w (as ++ bs)).call s t := by
  constructor
  · unfold Attach.call
    rw [nullLoss, Attach.loss, Attach.weight]
    dsimp only
    rw [mul_zero]
  · intro w as bs
    unfold Attach.call
    rw [Attach.loss, Attach.loss, lossAll_null]
    rfl

/-! A compound of two attachments of weight one, one of them a compound. -/
example : UnitMembers (Attach.compound 3 [.simple 1 fun (_ _ : Unit) => .ok 2, .compound 1 [.simple 1 fun _ _ => .ok 5]]) := by
  refine .compound (by simp [Attach.weight]) fun a ha => ?_
  rcases List.mem_cons.1 ha with rfl | ha
  · exact .simple
  · rcases List.mem_cons.1 ha with rfl | ha
    · refine .compound (by simp [Attach.weight]) fun a ha => ?_
      rcases List.mem_cons.1 ha with rfl | ha
      · exact .simple
      · cases ha
    · cases ha
example : (Attach.compound 3 [.simple 1 fun (_ _ : Unit) => .ok 2, .compound 1 [.simple 1 fun _ _ => .ok 5]]).call () () = .ok 21 := by
  simp only [Attach.call, Attach.loss, Attach.lossAll, Attach.weight]
  norm_num

end
end Imodal
