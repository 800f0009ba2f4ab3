import Verif.Props.C56
/-!
# C66: resampling a curve

`resample_curve` does not do what it is for: its first point is the opposite of the first point
of the curve, and it walks one vertex per point whatever their distance, past the end.
-/
set_option autoImplicit false
namespace Imodal
noncomputable section
variable {d : Nat}

/-- The length of the polyline. -/
def Spec.polyLength (curve : List (Vec d)) : ℝ := ((edges curve).map fun e => Spec.euclid e.1 e.2).sum

theorem lengths_eq (curve : List (Vec d)) : ((edges curve).map fun e => tdist e.2 e.1) = (edges curve).map fun e => Spec.euclid e.1 e.2 :=
  List.map_congr_left fun e _ => by rw [tdist_eq]; exact dist_comm _ _

theorem edges_length {β : Type} : ∀ l : List β, (edges l).length = l.length - 1
  | [] => rfl
  | [_] => rfl
  | a :: b :: l => by rw [edges, List.length_cons, edges_length (b :: l)]; simp

theorem resampleCurve_run (p0 p1 : Vec d) (l : List (Vec d)) (density : ℝ) (hd : 0 < density) :
    resampleCurve (p0 :: p1 :: l) density = resampleLoop (p0 :: p1 :: l) ((edges (p0 :: p1 :: l)).map fun e => tdist e.2 e.1) (1 / density)
      ⌊Spec.polyLength (p0 :: p1 :: l) * density⌋₊ p0 p1 0 0 := by
  have hs : ((edges (p0 :: p1 :: l)).map fun e => tdist e.2 e.1).sum = Spec.polyLength (p0 :: p1 :: l) := by rw [lengths_eq]; rfl
  have h0 : 0 ≤ Spec.polyLength (p0 :: p1 :: l) := by
    unfold Spec.polyLength
    refine List.sum_nonneg fun x hx => ?_
    obtain ⟨e, _, rfl⟩ := List.mem_map.1 hx
    exact dist_nonneg
  unfold resampleCurve
  simp only [hs]
  rw [if_neg (not_lt.2 (Int.floor_nonneg.2 (mul_nonneg h0 hd.le))), if_neg hd.ne', Int.floor_toNat]

theorem resampleLoop_length (curve : List (Vec d)) (lengths : List ℝ) (interval : ℝ) : ∀ (m : Nat) (p0 p1 : Vec d) (cur : ℝ) (idx : Nat) (out : List (Vec d)),
    resampleLoop curve lengths interval m p0 p1 cur idx = .ok out → out.length = m
  | 0, _, _, _, _, out, h => by simp [resampleLoop] at h; subst h; rfl
  | m + 1, p0, p1, cur, idx, out, h => by
    rw [resampleLoop] at h
    cases h1 : lengths[idx]? with
    | none => simp [h1] at h
    | some len =>
      simp only [h1] at h
      split_ifs at h with hc
      · cases h2 : curve[idx + 2]? with
        | none => simp [h2] at h
        | some q =>
          simp only [h2] at h
          cases h3 : resampleLoop curve lengths interval m p1 q (cur + interval) (idx + 1) with
          | error e => simp [h3, bind, Except.bind] at h
          | ok rest =>
            simp [h3, bind, Except.bind, pure, Except.pure] at h
            subst h
            simp [resampleLoop_length _ _ _ m _ _ _ _ _ h3]
      · cases h3 : resampleLoop curve lengths interval m p0 p1 (cur + interval) idx with
        | error e => simp [h3, bind, Except.bind] at h
        | ok rest =>
          simp [h3, bind, Except.bind, pure, Except.pure] at h
          subst h
          simp [resampleLoop_length _ _ _ m _ _ _ _ _ h3]

theorem resampleLoop_ok (curve : List (Vec d)) (lengths : List ℝ) (interval : ℝ) (hl : lengths.length = curve.length - 1) :
    ∀ (m : Nat) (p0 p1 : Vec d) (cur : ℝ) (idx : Nat), idx + m + 2 ≤ curve.length → ∃ out, resampleLoop curve lengths interval m p0 p1 cur idx = .ok out
  | 0, _, _, _, _, _ => ⟨_, rfl⟩
  | m + 1, p0, p1, cur, idx, h => by
    have h1 : idx < lengths.length := by omega
    have h2 : idx + 2 < curve.length := by omega
    rw [resampleLoop, List.getElem?_eq_getElem h1]
    simp only []
    split_ifs with hc
    · rw [List.getElem?_eq_getElem h2]
      obtain ⟨out, ho⟩ := resampleLoop_ok curve lengths interval hl m p1 curve[idx + 2] (cur + interval) (idx + 1) (by omega)
      simp only [ho, bind, Except.bind, pure, Except.pure]
      exact ⟨_, rfl⟩
    · obtain ⟨out, ho⟩ := resampleLoop_ok curve lengths interval hl m p0 p1 (cur + interval) idx (by omega)
      simp only [ho, bind, Except.bind, pure, Except.pure]
      exact ⟨_, rfl⟩

/-- What holds of the claim: the number of points is the integer part of length times density,
curves of at most one point are returned as they are, and the call succeeds if it has at most as
many points to make as the curve has inner vertices. Missing: that the points lie on the curve
and start with its first point, which is false. -/
theorem C66_partial (density : ℝ) (hd : 0 < density) (curve : List (Vec d)) :
    (curve.length ≤ 1 → resampleCurve curve density = .ok curve) ∧
    (2 ≤ curve.length → ∀ out, resampleCurve curve density = .ok out → out.length = ⌊Spec.polyLength curve * density⌋₊) ∧
    (2 ≤ curve.length → ⌊Spec.polyLength curve * density⌋₊ + 2 ≤ curve.length → ∃ out, resampleCurve curve density = .ok out) := by
  match curve with
  | [] => exact ⟨fun _ => rfl, by simp, by simp⟩
  | [_] => exact ⟨fun _ => rfl, by simp, by simp⟩
  | p0 :: p1 :: l =>
    refine ⟨by simp, fun _ out h => ?_, fun _ h => ?_⟩
    · rw [resampleCurve_run p0 p1 l density hd] at h
      exact resampleLoop_length _ _ _ _ _ _ _ _ _ h
    · rw [resampleCurve_run p0 p1 l density hd]
      refine resampleLoop_ok _ _ _ ?_ _ _ _ _ _ (by omega)
      rw [List.length_map, edges_length]

/-- The first point of a resampled curve is the opposite of the curve's first point, for every
curve of at least two points and every result that has a point. -/
theorem C66_first_disagreement (density : ℝ) (hd : 0 < density) (p0 p1 : Vec d) (l : List (Vec d)) (q : Vec d) (out : List (Vec d))
    (h : resampleCurve (p0 :: p1 :: l) density = .ok (q :: out)) : q = fun c => -p0 c := by
  rw [resampleCurve_run p0 p1 l density hd] at h
  generalize ⌊Spec.polyLength (p0 :: p1 :: l) * density⌋₊ = m at h
  cases m with
  | zero => simp [resampleLoop] at h
  | succ m =>
    rw [resampleLoop, edges, List.map_cons, List.getElem?_cons_zero] at h
    dsimp only at h
    rw [if_pos (by rw [List.take_zero, List.sum_nil]; positivity)] at h
    cases h2 : (p0 :: p1 :: l)[0 + 2]? with
    | none => simp only [h2] at h; cases h
    | some r =>
      simp only [h2] at h
      cases h3 : resampleLoop (p0 :: p1 :: l) (tdist p1 p0 :: (edges (p1 :: l)).map fun e => tdist e.2 e.1) (1 / density) m p1 r (0 + 1 / density) (0 + 1) with
      | error e => rw [h3] at h; simp [bind, Except.bind] at h
      | ok rest =>
        rw [h3] at h
        simp [bind, Except.bind, pure, Except.pure] at h
        exact h.1.symm

/-- So it does not start at the first point of the curve unless that is the origin. -/
theorem C66_start_disagreement (density : ℝ) (hd : 0 < density) (p0 p1 : Vec d) (l : List (Vec d)) (hp : p0 ≠ 0) (q : Vec d) (out : List (Vec d))
    (h : resampleCurve (p0 :: p1 :: l) density = .ok (q :: out)) : q ≠ p0 := by
  rw [C66_first_disagreement density hd p0 p1 l q out h]
  intro e
  apply hp
  funext c
  have : -p0 c = p0 c := congrFun e c
  show p0 c = 0
  linarith

/-- A segment of at least the length of one interval cannot be resampled: the call raises. -/
theorem C66_segment_disagreement (density : ℝ) (hd : 0 < density) (p0 p1 : Vec d) (hl : 1 ≤ Spec.euclid p0 p1 * density) :
    resampleCurve [p0, p1] density = .error .index := by
  rw [resampleCurve_run p0 p1 [] density hd]
  have h1 : Spec.polyLength [p0, p1] = Spec.euclid p0 p1 := by simp [Spec.polyLength, edges]
  rw [h1]
  obtain ⟨m, hm⟩ : ∃ m, ⌊Spec.euclid p0 p1 * density⌋₊ = m + 1 :=
    ⟨⌊Spec.euclid p0 p1 * density⌋₊ - 1, by have := (Nat.one_le_floor_iff _).2 hl; omega⟩
  rw [hm, resampleLoop, edges, List.map_cons, List.getElem?_cons_zero]
  dsimp only
  rw [if_pos (by rw [List.take_zero, List.sum_nil]; positivity)]
  rfl

/-- A curve of three points away from the origin for which a point is made. -/
example : ∃ q out, resampleCurve [(![1] : Vec 1), ![2], ![2]] 1 = .ok (q :: out) ∧ (![1] : Vec 1) ≠ 0 := by
  have e : ∀ a b : ℝ, Spec.euclid (![a] : Vec 1) ![b] = |a - b| := by
    intro a b
    rw [← tdist_eq]
    simp [tdist, sqDistance, Real.sqrt_sq_eq_abs]
  have hl : Spec.polyLength [(![1] : Vec 1), ![2], ![2]] = 1 := by
    simp only [Spec.polyLength, edges, List.map_cons, List.map_nil, e, List.sum_cons, List.sum_nil]
    norm_num
  have hfl : ⌊Spec.polyLength [(![1] : Vec 1), ![2], ![2]] * 1⌋₊ = 1 := by rw [hl]; norm_num
  obtain ⟨_, h2, h3⟩ := C66_partial 1 one_pos [(![1] : Vec 1), ![2], ![2]]
  obtain ⟨out, ho⟩ := h3 (by simp) (by rw [hfl]; simp)
  have := h2 (by simp) out ho
  rw [hfl] at this
  cases out with
  | nil => simp at this
  | cons q out => exact ⟨q, out, ho, by intro h; simpa using congrFun h 0⟩

end
end Imodal
