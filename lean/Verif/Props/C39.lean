import Verif.Model.Optim
import Mathlib.Data.List.Nodup
/-!
# C39 Optimizer vector packing is lossless

Parameters are tensor references, so that aliasing is visible: writing and reading back
is the identity only when no tensor is listed twice (`C39_alias_disagreement`).
-/
set_option autoImplicit false
namespace Imodal
variable {𝕜 : Type}

/-- Number of elements of the listed parameters. -/
def totalNumel (refs : List Nat) (st : PStore 𝕜) : Nat := (refs.map (fun r => (st r).numel)).sum

theorem totalNumel_cons (r : Nat) (rs : List Nat) (st : PStore 𝕜) :
    totalNumel (r :: rs) st = (st r).numel + totalNumel rs st := by
  simp [totalNumel]

/-- `st'` differs from `st` at most in the content (and memory layout) of the listed
parameters: shapes, gradients and all other tensors are the same. -/
def OnlyDataChanged (refs : List Nat) (st st' : PStore 𝕜) : Prop :=
  (∀ r, (st' r).shape = (st r).shape ∧ (st' r).grad = (st r).grad) ∧
  ∀ r, r ∉ refs → st' r = st r

theorem numpyToModelLoop_cons (x : List 𝕜) (r : Nat) (rs : List Nat) (i : Nat) (st : PStore 𝕜) :
    numpyToModelLoop x (r :: rs) i st =
      if ((x.drop i).take (st r).numel).length = (st r).numel then
        numpyToModelLoop x rs (i + (st r).numel)
          (Function.update st r { st r with
            data := (x.drop i).take (st r).numel, contiguous := true })
      else (.error .runtime, st) := by
  simp only [numpyToModelLoop, Prog.bind_run, writeParam]
  by_cases h : ((x.drop i).take (st r).numel).length = (st r).numel
  · rw [if_pos h, if_pos h]
  · rw [if_neg h, if_neg h]

/-- Writing `r` does not change sizes. -/
theorem totalNumel_update (rs : List Nat) (st : PStore 𝕜) (r : Nat) (d : List 𝕜) :
    totalNumel rs (Function.update st r { st r with data := d, contiguous := true }) =
      totalNumel rs st := by
  unfold totalNumel
  congr 1
  refine List.map_congr_left fun r' _ => ?_
  by_cases h : r' = r
  · subst h; simp [Param.numel]
  · simp [Function.update_of_ne h]

theorem loop_ok (x : List 𝕜) (refs : List Nat) (i : Nat) (st : PStore 𝕜)
    (hn : refs.Nodup) (hi : i + totalNumel refs st ≤ x.length) :
    ∃ st', numpyToModelLoop x refs i st = (.ok (i + totalNumel refs st), st') ∧
      (refs.map (fun r => (st' r).data)).flatten = (x.drop i).take (totalNumel refs st) ∧
      (∀ r ∈ refs, (st' r).contiguous = true) ∧ OnlyDataChanged refs st st' := by
  induction refs generalizing i st with
  | nil => exact ⟨st, rfl, by simp [totalNumel], by simp, fun _ => ⟨rfl, rfl⟩, fun _ _ => rfl⟩
  | cons r rs ih =>
    rw [List.nodup_cons] at hn
    rw [totalNumel_cons] at hi
    have hlen : ((x.drop i).take (st r).numel).length = (st r).numel := by
      rw [List.length_take, List.length_drop]; omega
    set st1 := Function.update st r { st r with
            data := (x.drop i).take (st r).numel, contiguous := true } with hst1
    have htot : totalNumel rs st1 = totalNumel rs st := totalNumel_update _ _ _ _
    obtain ⟨st', h1, h2, h3, h4, h5⟩ := ih (i + (st r).numel) st1 hn.2 (by rw [htot]; omega)
    have hr : st' r = st1 r := h5 r hn.1
    have hr1 : st1 r = { st r with data := (x.drop i).take (st r).numel, contiguous := true } := by
      simp [hst1]
    refine ⟨st', ?_, ?_, ?_, ?_, ?_⟩
    · rw [numpyToModelLoop_cons, if_pos hlen, h1, htot, totalNumel_cons]
      rw [Nat.add_assoc]
    · rw [List.map_cons, List.flatten_cons, h2, hr, hr1, htot, totalNumel_cons, ← List.drop_drop,
        ← List.take_add]
    · intro r' hr'
      rcases List.mem_cons.1 hr' with rfl | hr'
      · rw [hr, hr1]
      · exact h3 r' hr'
    · intro r'
      by_cases h : r' = r
      · subst h; rw [hr, hr1]; exact ⟨rfl, rfl⟩
      · have := h4 r'
        rw [hst1, Function.update_of_ne h] at this
        exact this
    · intro r' hr'
      rw [List.mem_cons, not_or] at hr'
      rw [h5 r' hr'.2, hst1, Function.update_of_ne hr'.1]

/-- Writing a vector of the right length into distinct parameters succeeds, reading back
gives the same vector, and nothing but the content of these parameters changes. -/
theorem C39_write_read_partial (refs : List Nat) (st : PStore 𝕜) (x : List 𝕜)
    (hne : refs ≠ []) (hn : refs.Nodup) (hx : x.length = totalNumel refs st) :
    ∃ st', numpyToModel refs x st = (.ok (), st') ∧ modelToNumpy refs st' = .ok x ∧
      OnlyDataChanged refs st st' := by
  obtain ⟨st', h1, h2, h3, h4⟩ := loop_ok x refs 0 st hn (by omega)
  refine ⟨st', ?_, ?_, h4⟩
  · unfold numpyToModel
    rw [Prog.bind_run_ok h1, if_pos (by omega)]
    rfl
  · unfold modelToNumpy
    rw [if_pos (List.all_eq_true.2 h3)]
    cases refs with
    | nil => exact absurd rfl hne
    | cons r rs => rw [h2, ← hx]; simp

/-- Each parameter receives its own block of the vector: the block of the parameter after
`pre` starts after all elements of `pre`. -/
theorem C39_blocks (pre post : List Nat) (r : Nat) (st st' : PStore 𝕜) (x : List 𝕜)
    (hn : (pre ++ r :: post).Nodup) (hx : x.length = totalNumel (pre ++ r :: post) st)
    (h : numpyToModel (pre ++ r :: post) x st = (.ok (), st')) :
    (st' r).data = (x.drop (totalNumel pre st)).take (st r).numel := by
  suffices H : ∀ (pre : List Nat) (i : Nat) (st st' : PStore 𝕜) (j : Nat),
      (pre ++ r :: post).Nodup →
      numpyToModelLoop x (pre ++ r :: post) i st = (.ok j, st') →
      (st' r).data = (x.drop (i + totalNumel pre st)).take (st r).numel by
    unfold numpyToModel at h
    rw [Prog.bind_run] at h
    cases hl : numpyToModelLoop x (pre ++ r :: post) 0 st with
    | mk res s2 =>
      rw [hl] at h
      cases res with
      | error e => cases h
      | ok j =>
        have hs : s2 = st' := by
          by_cases hj : j = x.length
          · simp [hj] at h; exact h
          · simp [hj] at h
        subst hs
        have := H pre 0 st s2 j hn hl
        rwa [Nat.zero_add] at this
  clear h hx hn st st' pre
  have hskip : ∀ (rs : List Nat) (i j : Nat) (st st' : PStore 𝕜), r ∉ rs →
      numpyToModelLoop x rs i st = (.ok j, st') → st' r = st r := by
    intro rs
    induction rs with
    | nil => intro i j st st' _ h; cases h; rfl
    | cons a rs ih =>
      intro i j st st' hr h
      rw [List.mem_cons, not_or] at hr
      rw [numpyToModelLoop_cons] at h
      split at h
      · rw [ih _ _ _ _ hr.2 h, Function.update_of_ne hr.1]
      · cases h
  intro pre
  induction pre with
  | nil =>
    intro i st st' j hn h
    rw [List.nil_append, numpyToModelLoop_cons] at h
    rw [List.nil_append, List.nodup_cons] at hn
    split at h
    · rw [hskip _ _ _ _ _ hn.1 h]; simp [totalNumel]
    · cases h
  | cons a pre ih =>
    intro i st st' j hn h
    rw [List.cons_append, List.nodup_cons] at hn
    rw [List.cons_append, numpyToModelLoop_cons] at h
    split at h
    · have har : r ≠ a := by
        intro e; apply hn.1; simp [e]
      have := ih _ _ _ _ hn.2 h
      rw [this, totalNumel_update, totalNumel_cons, Function.update_of_ne har, Nat.add_assoc]
    · cases h

/-- Reading the parameters and writing the vector back succeeds and leaves every tensor
unchanged, even if a tensor is listed twice. -/
theorem C39_read_write (refs : List Nat) (st : PStore 𝕜) (x : List 𝕜)
    (hwf : ∀ r ∈ refs, (st r).data.length = (st r).numel)
    (hread : modelToNumpy refs st = .ok x) :
    numpyToModel refs x st = (.ok (), st) := by
  have hc : ∀ r ∈ refs, (st r).contiguous = true := by
    unfold modelToNumpy at hread
    split at hread
    · rename_i h; exact List.all_eq_true.1 h
    · cases hread
  have hx : x = (refs.map (fun r => (st r).data)).flatten := by
    unfold modelToNumpy at hread
    rw [if_pos (List.all_eq_true.2 hc)] at hread
    cases refs with
    | nil => cases hread
    | cons r rs => cases hread; rfl
  have key : ∀ (rs : List Nat) (i : Nat), (∀ r ∈ rs, (st r).data.length = (st r).numel) →
      (∀ r ∈ rs, (st r).contiguous = true) →
      x.drop i = (rs.map (fun r => (st r).data)).flatten →
      numpyToModelLoop x rs i st = (.ok (i + totalNumel rs st), st) := by
    intro rs
    induction rs with
    | nil => intro i _ _ _; simp [numpyToModelLoop, totalNumel]
    | cons r rs ih =>
      intro i hw hc hd
      have hw' := hw r (by simp)
      rw [List.map_cons, List.flatten_cons] at hd
      have htake : (x.drop i).take (st r).numel = (st r).data := by
        rw [hd, ← hw', List.take_left]
      rw [numpyToModelLoop_cons, htake, if_pos hw']
      have hup : Function.update st r { st r with data := (st r).data, contiguous := true } = st := by
        have : { st r with data := (st r).data, contiguous := true } = st r := by
          have := hc r (by simp)
          cases h : st r with
          | mk a b c d => rw [h] at this; simp at this; simp [this]
        rw [this, Function.update_eq_self]
      rw [hup, ih _ (fun r' h => hw r' (by simp [h])) (fun r' h => hc r' (by simp [h])) ?_,
        totalNumel_cons, Nat.add_assoc]
      rw [← List.drop_drop, hd, ← hw', List.drop_left]
  have hk := key refs 0 hwf hc (by rw [hx, List.drop_zero])
  unfold numpyToModel
  rw [Prog.bind_run_ok hk, if_pos]
  · rfl
  · rw [hx, List.length_flatten, List.map_map, Nat.zero_add, totalNumel]
    congr 1
    exact List.map_congr_left fun r hr => (hwf r hr).symm

/-- A vector of the wrong length is rejected: RuntimeError when it is too short,
AssertionError when it is too long. -/
theorem C39_wrong_length (refs : List Nat) (st : PStore 𝕜) (x : List 𝕜)
    (hx : x.length ≠ totalNumel refs st) :
    ∃ st', numpyToModel refs x st =
      (.error (if x.length < totalNumel refs st then .runtime else .assertion), st') := by
  have key : ∀ (rs : List Nat) (i : Nat) (st : PStore 𝕜), i ≤ x.length →
      (x.length < i + totalNumel rs st →
        ∃ st', numpyToModelLoop x rs i st = (.error .runtime, st')) ∧
      (i + totalNumel rs st ≤ x.length →
        ∃ st', numpyToModelLoop x rs i st = (.ok (i + totalNumel rs st), st')) := by
    intro rs
    induction rs with
    | nil =>
      intro i st hi
      refine ⟨fun h => ?_, fun _ => ⟨st, rfl⟩⟩
      simp [totalNumel] at h; omega
    | cons r rs ih =>
      intro i st hi
      rw [numpyToModelLoop_cons, totalNumel_cons]
      by_cases hl : ((x.drop i).take (st r).numel).length = (st r).numel
      · rw [if_pos hl]
        rw [List.length_take, List.length_drop] at hl
        have := ih (i + (st r).numel) (Function.update st r { st r with
            data := (x.drop i).take (st r).numel, contiguous := true }) (by omega)
        rw [totalNumel_update, Nat.add_assoc] at this
        exact this
      · rw [if_neg hl]
        rw [List.length_take, List.length_drop] at hl
        exact ⟨fun _ => ⟨_, rfl⟩, fun h => by omega⟩
  obtain ⟨k1, k2⟩ := key refs 0 st (Nat.zero_le _)
  rw [Nat.zero_add] at k1 k2
  by_cases hlt : x.length < totalNumel refs st
  · obtain ⟨st', h⟩ := k1 hlt
    refine ⟨st', ?_⟩
    unfold numpyToModel
    rw [Prog.bind_run_error h, if_pos hlt]
  · obtain ⟨st', h⟩ := k2 (by omega)
    refine ⟨st', ?_⟩
    unfold numpyToModel
    rw [Prog.bind_run_ok h, if_neg (by omega), if_neg hlt]
    rfl

/-- The gradient vector is laid out like the parameter vector: it is what would be read if
the content of every parameter were its gradient. A missing gradient raises. -/
theorem C39_gradient (refs : List Nat) (st : PStore 𝕜) (hc : ∀ r ∈ refs, (st r).contiguous = true) :
    ((∀ r ∈ refs, (st r).grad.isSome) →
      modelGradToNumpy refs st =
        modelToNumpy refs (fun r => { st r with data := (st r).grad.getD [] })) ∧
    ((∃ r ∈ refs, (st r).grad = none) → modelGradToNumpy refs st = .error .attribute) := by
  constructor
  · intro hg
    have key : ∀ rs : List Nat, (∀ r ∈ rs, (st r).grad.isSome) →
        collectGrads st rs = .ok (rs.map (fun r => (st r).grad.getD [])) := by
      intro rs
      induction rs with
      | nil => intro _; rfl
      | cons r rs ih =>
        intro h
        obtain ⟨g, hg'⟩ := Option.isSome_iff_exists.1 (h r (by simp))
        simp [collectGrads, hg', ih (fun r' hr' => h r' (by simp [hr']))]
    unfold modelGradToNumpy modelToNumpy
    rw [if_pos (List.all_eq_true.2 hc)]
    have : refs.all (fun r => ({ st r with data := (st r).grad.getD [] } : Param 𝕜).contiguous) = true :=
      List.all_eq_true.2 hc
    rw [if_pos this]
    cases refs with
    | nil => rfl
    | cons r rs => simp only [key _ hg]
  · rintro ⟨r, hr, hg⟩
    have key : ∀ rs : List Nat, r ∈ rs → collectGrads st rs = .error .attribute := by
      intro rs
      induction rs with
      | nil => intro h; cases h
      | cons a rs ih =>
        intro h
        by_cases ha : a = r
        · subst ha; simp [collectGrads, hg]
        · have := ih ((List.mem_cons.1 h).resolve_left (Ne.symm ha))
          cases hga : (st a).grad <;> simp [collectGrads, hga, this]
    unfold modelGradToNumpy
    rw [if_pos (List.all_eq_true.2 hc)]
    cases refs with
    | nil => cases hr
    | cons a rs => simp only [key _ hr]

/-- A parameter that is not contiguous is rejected when reading. -/
theorem C39_not_contiguous (refs : List Nat) (st : PStore 𝕜)
    (h : ∃ r ∈ refs, (st r).contiguous = false) :
    modelToNumpy refs st = .error .value ∧ modelGradToNumpy refs st = .error .value := by
  have : ¬ refs.all (fun r => (st r).contiguous) = true := by
    rw [List.all_eq_true]
    obtain ⟨r, hr, hc⟩ := h
    intro h'
    rw [h' r hr] at hc
    cases hc
  unfold modelToNumpy modelGradToNumpy
  exact ⟨if_neg this, if_neg this⟩

/-- **Disagreement.** If a tensor is listed twice, writing a vector of the right length and
reading back need not return it. -/
theorem C39_alias_disagreement (a b : 𝕜) (hab : a ≠ b) :
    ∃ (refs : List Nat) (st st' : PStore 𝕜) (x : List 𝕜), refs ≠ [] ∧
      x.length = totalNumel refs st ∧ numpyToModel refs x st = (.ok (), st') ∧
      modelToNumpy refs st' ≠ .ok x := by
  refine ⟨[0, 0], fun _ => ⟨[1], [a], true, none⟩,
    Function.update (fun _ => ⟨[1], [a], true, none⟩) 0 ⟨[1], [b], true, none⟩, [a, b],
    by simp, by simp [totalNumel, Param.numel], ?_, ?_⟩
  · unfold numpyToModel
    rw [Prog.bind_run, numpyToModelLoop_cons, if_pos (by simp [Param.numel]), numpyToModelLoop_cons,
      if_pos (by simp [Param.numel])]
    simp [numpyToModelLoop, Param.numel]
  · simp [modelToNumpy, hab.symm]

/-- Two parameters of shapes 1×2 and 1. -/
example : ∃ st', numpyToModel [3, 5] [7, 8, 9]
      (fun r => if r = 3 then ⟨[1, 2], [0, 0], true, none⟩ else ⟨[1], [0], false, none⟩ : PStore ℚ)
      = (.ok (), st') ∧ modelToNumpy [3, 5] st' = .ok [7, 8, 9] := by
  obtain ⟨st', h1, h2, _⟩ := C39_write_read_partial [3, 5]
    (fun r => if r = 3 then ⟨[1, 2], [0, 0], true, none⟩ else ⟨[1], [0], false, none⟩ : PStore ℚ)
    [7, 8, 9] (by simp) (by simp) (by simp [totalNumel, Param.numel])
  exact ⟨st', h1, h2⟩

end Imodal
