import Verif.Model.TorchOptim
import Verif.Props.C41
/-!
# C112: calling a torch optimiser again continues where it stopped
-/
set_option autoImplicit false
namespace Imodal
variable {O S W K : Type} [Field K] [LinearOrder K]

/-- Every step returns and evaluates the model at least once. -/
def TorchKind.Sound (k : TorchKind O S W K) : Prop := ∀ s w, (k.step s w).result = .ok () ∧ (k.step s w).evals ≠ []

/-- The torch optimiser and the parameters after a number of steps. -/
def TorchKind.after (k : TorchKind O S W K) (s : S) (w : W) : Nat → S × W
  | 0 => (s, w)
  | n + 1 => ((k.step (k.after s w n).1 (k.after s w n).2).inner, (k.step (k.after s w n).1 (k.after s w n).2).world)

/-- The cost dictionaries that the model is evaluated to in step `i`. -/
def TorchKind.evalsAt (k : TorchKind O S W K) (s : S) (w : W) (i : Nat) : List (Dict String (XF K)) := (k.step (k.after s w i).1 (k.after s w i).2).evals

/-- The number of evaluations in the first steps. -/
def TorchKind.evaluations (k : TorchKind O S W K) (s : S) (w : W) (n : Nat) : Nat := ((List.range n).map fun i => (k.evalsAt s w i).length).sum

/-- The last costs of step `i`. -/
def TorchKind.costsAt (k : TorchKind O S W K) (s : S) (w : W) (i : Nat) : Dict String (XF K) := (k.evalsAt s w i).getLast?.getD []

/-- Their sum. -/
def TorchKind.totalAt (k : TorchKind O S W K) (s : S) (w : W) (i : Nat) : XF K := sumCosts (k.costsAt s w i)

/-- What the callback is given in the steps from `i` on. -/
def TorchKind.shown (k : TorchKind O S W K) (s : S) (w : W) (i n : Nat) : List (W × Option (Dict String (XF K))) :=
  (List.range' i n).map fun i => ((k.after s w (i + 1)).2, some (k.costsAt s w i))

/-- The result without the count of evaluations. -/
def TorchRes.brief (r : TorchRes K) : OptResult K := ⟨r.success, r.final, r.message⟩

theorem after_add (k : TorchKind O S W K) (s : S) (w : W) (n : Nat) : ∀ m, k.after s w (n + m) = k.after (k.after s w n).1 (k.after s w n).2 m
  | 0 => rfl
  | m + 1 => by
    rw [← Nat.add_assoc, TorchKind.after, TorchKind.after, after_add k s w n m]

theorem stepOnce_after {k : TorchKind O S W K} (hk : k.Sound) (s : S) (w : W) (i : Nat) (l : Option (Dict String (XF K))) (sn : List (W × Option (Dict String (XF K)))) :
    k.stepOnce ⟨(k.after s w i).1, (k.after s w i).2, k.evaluations s w i, l, sn⟩
      = (.ok (), ⟨(k.after s w (i + 1)).1, (k.after s w (i + 1)).2, k.evaluations s w (i + 1), some (k.costsAt s w i), sn⟩) := by
  obtain ⟨h1, h2⟩ := hk (k.after s w i).1 (k.after s w i).2
  unfold TorchKind.stepOnce
  dsimp only
  rw [h1]
  have e : k.evaluations s w (i + 1) = k.evaluations s w i + (k.evalsAt s w i).length := by
    unfold TorchKind.evaluations
    rw [List.range_succ, List.map_append, List.sum_append]
    simp
  rw [e]
  have e2 : (k.evalsAt s w i).getLast?.or l = some (k.costsAt s w i) := by
    unfold TorchKind.costsAt
    cases h : (k.evalsAt s w i).getLast? with
    | none => exact absurd (List.getLast?_eq_none_iff.1 h) h2
    | some c => rfl
  simp only [Prod.mk.injEq, TorchRun.mk.injEq, true_and]
  exact ⟨rfl, rfl, rfl, e2, trivial⟩

/-- The loop, from any state that is reached. -/
theorem loop_after {k : TorchKind O S W K} (hk : k.Sound) (s : S) (w : W) (tol : K) (miniter M : Nat) : ∀ (n i : Nat) (last : XF K) (l : Option (Dict String (XF K)))
    (sn : List (W × Option (Dict String (XF K)))), ∃ (j : Nat) (x : Option (TorchRes K)),
      k.loop tol miniter n i last ⟨(k.after s w i).1, (k.after s w i).2, k.evaluations s w i, l, sn⟩
        = (.ok x, ⟨(k.after s w (i + j)).1, (k.after s w (i + j)).2, k.evaluations s w (i + j), if j = 0 then l else some (k.costsAt s w (i + j - 1)),
            sn ++ k.shown s w i j⟩) ∧
      torchLoop (k.totalAt s w) tol miniter M n i last = (List.range' i j, x.map TorchRes.brief) ∧
      (x = none → j = n) ∧
      ∀ r, x = some r → 0 < j ∧ (k.totalAt s w (i + j - 1) ≠ .nan → r.neval = .count (k.evaluations s w (i + j)))
  | 0, i, last, l, sn => ⟨0, none, by simp [TorchKind.loop, TorchKind.shown], by simp [torchLoop], fun _ => rfl, by simp⟩
  | n + 1, i, last, l, sn => by
    have hone : sn ++ [((k.after s w (i + 1)).2, some (k.costsAt s w i))] = sn ++ k.shown s w i 1 := rfl
    rw [TorchKind.loop, stepOnce_after hk]
    dsimp only
    rw [torchLoop]
    dsimp only
    by_cases hn : (k.totalAt s w i).isNan = true
    · have ht : k.totalAt s w i = .nan := by
        cases h : k.totalAt s w i <;> simp [h, XF.isNan] at hn ⊢
      refine ⟨1, some ⟨false, .nan, .nan, .cost .nan⟩, ?_, ?_, by simp, ?_⟩
      · rw [show sumCosts (k.costsAt s w i) = k.totalAt s w i from rfl, if_pos hn, hone, ht]
        rfl
      · rw [if_pos hn]; rfl
      · intro r hr
        exact ⟨one_pos, fun h => absurd ht h⟩
    · have ht : k.totalAt s w i ≠ .nan := fun h => by rw [h] at hn; exact hn rfl
      by_cases hs : ((last.sub (k.totalAt s w i)).div (XF.max3 (k.totalAt s w i) last (.fin 1))).le (.fin tol) ∧ miniter ≤ i
      · refine ⟨1, some ⟨true, k.totalAt s w i, .converged, .count (k.evaluations s w (i + 1))⟩, ?_, ?_, by simp, ?_⟩
        · rw [show sumCosts (k.costsAt s w i) = k.totalAt s w i from rfl, if_neg hn, if_pos hs, hone]
          rfl
        · rw [if_neg hn, if_pos hs]; rfl
        · intro r hr
          cases hr
          exact ⟨one_pos, fun _ => rfl⟩
      · obtain ⟨j, x, h1, h2, h3, h4⟩ := loop_after hk s w tol miniter M n (i + 1) (k.totalAt s w i) (some (k.costsAt s w i)) (sn ++ [((k.after s w (i + 1)).2, some (k.costsAt s w i))])
        have hij : i + 1 + j = i + (j + 1) := by omega
        refine ⟨j + 1, x, ?_, ?_, fun h => by rw [h3 h], ?_⟩
        · rw [show sumCosts (k.costsAt s w i) = k.totalAt s w i from rfl, if_neg hn, if_neg hs, h1, hij]
          congr 2
          · by_cases hj : j = 0
            · rw [if_pos hj, if_neg (by omega), hj]; rfl
            · rw [if_neg hj, if_neg (by omega)]
          · rw [List.append_assoc]; rfl
        · rw [if_neg hn, if_neg hs, h2]; rfl
        · intro r hr
          obtain ⟨g1, g2⟩ := h4 r hr
          rw [hij] at g2
          exact ⟨by omega, g2⟩

/-- The object after a number of steps. -/
def TorchKind.objAfter (k : TorchKind O S W K) (s : S) (w : W) (j : Nat) : TorchObj S W K :=
  ⟨some (k.after s w j).1, (k.after s w j).2, k.evaluations s w j, if j = 0 then none else some (k.costsAt s w (j - 1))⟩

/-- Whether a call has a torch optimiser: the one of earlier calls, or else a new one made of the options. -/
def TorchKind.Starts (k : TorchKind O S W K) (o : TorchObj S W K) (options : O) (s : S) : Prop := o.inner = some s ∨ o.inner = none ∧ k.create options = .ok s

/-- **C112.** For every torch optimiser whose steps return and evaluate the model: a call of `optimize`
does `j` steps from the present parameters with the present torch optimiser, or a new one if there is
none. It shows the parameters and the last costs after each of them to the callback, in order; returns
what C41 says of the totals of these steps; counts the evaluations of this call; and leaves the
parameters and the torch optimiser after `j` steps. Missing: for a total of NaN the count is that NaN
(`C112_neval_disagreement`), and the options of all calls but the first are ignored
(`C112_options_disagreement`). -/
theorem C112_partial {k : TorchKind O S W K} (hk : k.Sound) {o : TorchObj S W K} {options : O} {s : S} (hs : k.Starts o options s) (tol : Option K) (miniter maxIter : Nat) :
    ∃ j, j ≤ maxIter ∧ (k.optimize o options tol miniter maxIter).2 = (k.shown s o.world 0 j, k.objAfter s o.world j) ∧
      (torchOptimize (k.totalAt s o.world) tol miniter maxIter).1 = List.range j ∧
      (k.optimize o options tol miniter maxIter).1.map TorchRes.brief = (torchOptimize (k.totalAt s o.world) tol miniter maxIter).2 ∧
      ∀ r, (k.optimize o options tol miniter maxIter).1 = .ok r → 0 < j ∧ (k.totalAt s o.world (j - 1) ≠ .nan → r.neval = .count (k.evaluations s o.world j)) := by
  have hst : k.obtain o options = .ok s := by
    unfold TorchKind.obtain
    rcases hs with h | ⟨h, h'⟩
    · rw [h]
    · rw [h]; exact h'
  obtain ⟨j, x, h1, h2, h3, h4⟩ := loop_after hk s o.world (tol.getD (1 / 10 ^ 10)) miniter maxIter maxIter 0 .pinf none []
  have h1 : k.loop (tol.getD (1 / 10 ^ 10)) miniter maxIter 0 .pinf ⟨s, o.world, 0, none, []⟩ = _ := h1
  have hle : j ≤ maxIter := by
    have hlen : ∀ (n i : Nat) (last : XF K), (torchLoop (k.totalAt s o.world) (tol.getD (1 / 10 ^ 10)) miniter maxIter n i last).1.length ≤ n := by
      intro n
      induction n with
      | zero => intro i last; simp [torchLoop]
      | succ n ih =>
        intro i last
        rw [torchLoop]
        dsimp only
        split_ifs
        · simp
        · simp
        · simpa using ih _ _
    have := hlen maxIter 0 .pinf
    rw [h2] at this
    simpa using this
  unfold TorchKind.optimize torchOptimize
  rw [hst]
  dsimp only
  rw [h1, h2]
  simp only [Nat.zero_add, List.nil_append]
  refine ⟨j, hle, ?_⟩
  cases x with
  | some r =>
    simp only [Option.map_some]
    refine ⟨rfl, by rw [List.range_eq_range'], rfl, fun r' hr => ?_⟩
    obtain rfl : r = r' := Except.ok.inj hr
    obtain ⟨g1, g2⟩ := h4 r rfl
    rw [Nat.zero_add] at g2
    exact ⟨g1, g2⟩
  | none =>
    obtain rfl := h3 rfl
    simp only [Option.map_none]
    by_cases h0 : j = 0
    · subst h0
      exact ⟨rfl, rfl, rfl, by simp⟩
    · simp only [if_neg h0]
      refine ⟨?_, by rw [List.range_eq_range'], rfl, fun r hr => ?_⟩
      · unfold TorchKind.objAfter
        rw [if_neg h0]
      · cases hr
        exact ⟨by omega, fun _ => rfl⟩

/-- A second call goes on where the first stopped: its steps are the steps after those of the first,
whatever its options are. -/
theorem C112_continue {k : TorchKind O S W K} (hk : k.Sound) {o : TorchObj S W K} {options : O} {s : S} (hs : k.Starts o options s) (tol : Option K) (miniter maxIter : Nat)
    (options' : O) (tol' : Option K) (miniter' maxIter' : Nat) : ∃ j j', j ≤ maxIter ∧ j' ≤ maxIter' ∧
      (k.optimize o options tol miniter maxIter).2.2 = k.objAfter s o.world j ∧
      (k.optimize (k.optimize o options tol miniter maxIter).2.2 options' tol' miniter' maxIter').2.1 = k.shown s o.world j j' ∧
      (k.optimize (k.optimize o options tol miniter maxIter).2.2 options' tol' miniter' maxIter').2.2.inner = some (k.after s o.world (j + j')).1 ∧
      (k.optimize (k.optimize o options tol miniter maxIter).2.2 options' tol' miniter' maxIter').2.2.world = (k.after s o.world (j + j')).2 := by
  obtain ⟨j, h1, h2, -⟩ := C112_partial hk hs tol miniter maxIter
  have e : (k.optimize o options tol miniter maxIter).2.2 = k.objAfter s o.world j := by rw [h2]
  obtain ⟨j', g1, g2, -⟩ := C112_partial hk (o := k.objAfter s o.world j) (options := options') (s := (k.after s o.world j).1) (.inl rfl) tol' miniter' maxIter'
  refine ⟨j, j', h1, g1, e, ?_, ?_, ?_⟩
  · rw [e, g2]
    show k.shown (k.after s o.world j).1 (k.after s o.world j).2 0 j' = _
    unfold TorchKind.shown
    have hr : List.range' j j' = (List.range' 0 j').map (j + ·) := by
      rw [List.map_add_range', Nat.add_zero]
    rw [hr, List.map_map]
    refine List.map_congr_left fun i _ => ?_
    simp only [Function.comp_apply, TorchKind.costsAt, TorchKind.evalsAt, ← after_add, Nat.add_assoc]
  · rw [e, g2, after_add]; rfl
  · rw [e, g2, after_add]; rfl

/-- After `reset` a new torch optimiser is made of the options of the next call, and the parameters,
the costs evaluated last and their count are kept. -/
theorem C112_reset (k : TorchKind O S W K) (o : TorchObj S W K) (options : O) (s : S) (h : k.create options = .ok s) :
    k.Starts o.reset options s ∧ o.reset.world = o.world ∧ o.reset.last = o.last ∧ o.reset.count = o.count := ⟨.inr ⟨rfl, h⟩, rfl, rfl, rfl⟩

/-- Options that the torch optimiser does not accept raise, and change nothing. -/
theorem C112_rejects (k : TorchKind O S W K) (o : TorchObj S W K) (options : O) (e : PyErr) (ho : o.inner = none) (h : k.create options = .error e) (tol : Option K)
    (miniter maxIter : Nat) : k.optimize o options tol miniter maxIter = (.error e, [], o) := by
  unfold TorchKind.optimize TorchKind.obtain
  rw [ho]
  dsimp only
  rw [h]

/-- The options of later calls are ignored, even those that would be rejected. -/
theorem C112_options_disagreement (k : TorchKind O S W K) (o : TorchObj S W K) (s : S) (ho : o.inner = some s) (options options' : O) (tol : Option K) (miniter maxIter : Nat) :
    k.optimize o options tol miniter maxIter = k.optimize o options' tol miniter maxIter := by
  unfold TorchKind.optimize TorchKind.obtain
  rw [ho]

/-- If the total becomes NaN, the entry for the number of evaluations is NaN. -/
theorem C112_neval_disagreement {k : TorchKind O S W K} (hk : k.Sound) {o : TorchObj S W K} {options : O} {s : S} (hs : k.Starts o options s) (tol : Option K)
    (miniter maxIter : Nat) (hm : 0 < maxIter) (hnan : k.totalAt s o.world 0 = .nan) :
    (k.optimize o options tol miniter maxIter).1 = .ok ⟨false, .nan, .nan, .cost .nan⟩ := by
  have hst : k.obtain o options = .ok s := by
    unfold TorchKind.obtain
    rcases hs with h | ⟨h, h'⟩
    · rw [h]
    · rw [h]; exact h'
  obtain ⟨n, rfl⟩ := Nat.exists_eq_succ_of_ne_zero hm.ne'
  unfold TorchKind.optimize
  rw [hst]
  dsimp only
  rw [TorchKind.loop, show (⟨s, o.world, 0, none, []⟩ : TorchRun S W K) = ⟨(k.after s o.world 0).1, (k.after s o.world 0).2, k.evaluations s o.world 0, none, []⟩ from rfl, stepOnce_after hk]
  dsimp only
  rw [show sumCosts (k.costsAt s o.world 0) = .nan from hnan]
  rfl

/-- Steps of a fixed length towards zero, one evaluation each. -/
def plainDescent : TorchKind ℚ ℚ ℚ ℚ where
  create l := if l < 0 then .error .value else .ok l
  step s w := ⟨.ok (), s, w - s * w, [[("total", .fin (w ^ 2))]]⟩

example : plainDescent.Sound ∧ plainDescent.Starts (TorchObj.new 8) (1 / 2) (1 / 2) ∧ plainDescent.after (1 / 2) 8 2 = (1 / 2, 2) ∧
    plainDescent.totalAt (1 / 2) 8 1 = .fin 16 := by
  refine ⟨fun s w => ⟨rfl, by simp [plainDescent]⟩, .inr ⟨rfl, by simp only [plainDescent]; rw [if_neg (by norm_num)]⟩, ?_, ?_⟩
  · simp only [TorchKind.after, plainDescent]; norm_num
  · simp only [TorchKind.totalAt, TorchKind.costsAt, TorchKind.evalsAt, TorchKind.after, plainDescent, sumCosts]
    norm_num [XF.add]

end Imodal
