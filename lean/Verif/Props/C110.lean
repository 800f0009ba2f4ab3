import Verif.Model.Scipy
import Verif.Props.C39
/-!
# C110: what SciPy's minimisers are given, and what they leave
-/
set_option autoImplicit false
namespace Imodal
variable {K : Type} [Field K] [LinearOrder K]

/-- The parameters are different tensors, and the gradients have their numbers of elements. -/
structure ScipyModel.Proper (M : ScipyModel K) : Prop where
  some : M.refs ≠ []
  distinct : M.refs.Nodup
  shaped : ∀ q r, r ∈ M.refs → (M.grads q r).length = (q r).length

/-- A store whose tensors have as many elements as their shapes say, and likewise their gradients. -/
def PStore.Proper (refs : List Nat) (st : PStore (XF K)) : Prop :=
  ∀ r ∈ refs, (st r).data.length = (st r).numel ∧ ∀ g, (st r).grad = some g → g.length = (st r).numel

/-- The contents of the tensors of `st` when the parameters hold the entries of `x`. -/
def HoldsVector (refs : List Nat) (x : List (XF K)) (st : PStore (XF K)) : Prop := modelToNumpy refs st = .ok x

theorem XF.zero_add' (a : XF K) : XF.add (.fin 0) a = a := by
  cases a <;> simp [XF.add]

theorem zip_zeros : ∀ (o g : List (XF K)), o.length = g.length → List.zipWith XF.add (o.map fun _ => .fin 0) g = g
  | [], [], _ => rfl
  | _ :: o, a :: g, h => by
    simp only [List.map_cons, List.zipWith_cons_cons, XF.zero_add', zip_zeros o g (by simpa using h)]
  | [], _ :: _, h => by simp at h
  | _ :: _, [], h => by simp at h

theorem proper_zero {refs : List Nat} {st : PStore (XF K)} (h : st.Proper refs) : PStore.Proper refs (scipyZeroGrad refs st) := fun r hr => by
  have := h r hr
  simp only [scipyZeroGrad, hr, if_true, Param.numel] at this ⊢
  refine ⟨this.1, fun g hg => ?_⟩
  obtain ⟨g', hg', rfl⟩ := Option.map_eq_some_iff.1 hg
  simpa using this.2 g' hg'

theorem numel_zero (refs : List Nat) (st : PStore (XF K)) : totalNumel refs (scipyZeroGrad refs st) = totalNumel refs st := by
  unfold totalNumel
  congr 1
  refine List.map_congr_left fun r _ => ?_
  unfold scipyZeroGrad Param.numel
  split <;> rfl

theorem length_written {refs : List Nat} {x : List (XF K)} {st : PStore (XF K)} (hs : ∀ r ∈ refs, (st r).data.length = (st r).numel) :
    modelToNumpy refs st = .ok x → x.length = totalNumel refs st := by
  intro h
  unfold modelToNumpy at h
  split at h
  · cases refs with
    | nil => cases h
    | cons r rs =>
      rw [← Except.ok.inj h, List.length_flatten, totalNumel, List.map_map]
      congr 1
      exact List.map_congr_left fun r hr => hs r hr
  · cases h

/-- Each tensor has as many elements as its shape says after its part of a vector was written. -/
theorem proper_written {refs : List Nat} {x : List (XF K)} {st st' : PStore (XF K)} (hn : refs.Nodup) (hx : x.length = totalNumel refs st)
    (h : numpyToModel refs x st = (.ok (), st')) (ho : OnlyDataChanged refs st st') : ∀ r ∈ refs, (st' r).data.length = (st' r).numel := by
  intro r hr
  obtain ⟨pre, post, rfl⟩ := List.append_of_mem hr
  have hb := C39_blocks pre post r st st' x hn hx h
  have hsum : totalNumel (pre ++ r :: post) st = totalNumel pre st + ((st r).numel + totalNumel post st) := by
    simp [totalNumel, List.sum_append, List.sum_cons]
  have hnum : (st' r).numel = (st r).numel := by rw [Param.numel, (ho.1 r).1]; rfl
  rw [hb, List.length_take, List.length_drop, hnum, hx, hsum]
  omega

/-- What one call of the function given to SciPy does when it returns. -/
theorem closure_ok {M : ScipyModel K} (hM : M.Proper) {needGrad naninf : Bool} {x : List (XF K)} {s s' : ScipyState K} {v : XF K × Option (List (XF K))}
    (hs : s.store.Proper M.refs) (h : M.closure needGrad naninf x s = (.ok v, s')) :
    ∃ (st : PStore (XF K)) (costs : Dict String (XF K)), HoldsVector M.refs x st ∧ (∀ r, r ∉ M.refs → contents st r = contents s.store r) ∧ M.costs (contents st) = .ok costs ∧
      (∀ c ∈ costs, c.2.isNan = false) ∧ v.1 = sumCosts costs ∧ contents s'.store = contents st ∧ HoldsVector M.refs x s'.store ∧ s'.store.Proper M.refs ∧
      (needGrad = false → v.2 = none) ∧
      (needGrad = true → ∃ g, g = ((M.refs.map (M.grads (contents st))).flatten) ∧
        v.2 = some (if g.any XF.isNan then g.map fun _ => .fin 0 else g) ∧ (g.any XF.isNan = true → naninf = true)) ∧
      s'.last = .costs costs ∧ s'.evals = s.evals ++ [⟨x, costs, v.1, v.2⟩] ∧ s'.calls = s.calls := by
  unfold ScipyModel.closure at h
  have hz := proper_zero hs
  by_cases hx : x.length = totalNumel M.refs (scipyZeroGrad M.refs s.store)
  swap
  · obtain ⟨st', e⟩ := C39_wrong_length M.refs (scipyZeroGrad M.refs s.store) x hx
    rw [e] at h
    cases congrArg Prod.fst h
  obtain ⟨st, e1, e2, e3⟩ := C39_write_read_partial M.refs _ x hM.some hM.distinct hx
  rw [e1] at h
  dsimp only at h
  have hout : ∀ r, r ∉ M.refs → contents st r = contents s.store r := fun r hr => by
    rw [contents, e3.2 r hr, scipyZeroGrad, if_neg hr]; rfl
  have hdat : ∀ r ∈ M.refs, (st r).data.length = (st r).numel := proper_written hM.distinct hx e1 e3
  unfold ScipyModel.evaluate at h
  cases hc : M.costs (contents st) with
  | error e => rw [hc] at h; cases congrArg Prod.fst h
  | ok costs =>
    rw [hc] at h
    dsimp only at h
    set st1 : PStore (XF K) := if needGrad = true then fun r =>
      if r ∈ M.refs then { st r with grad := some (accumulate (st r).grad (M.grads (contents st) r)) } else st r else st with hst1
    have c1 : contents st1 = contents st := by
      funext r
      rw [hst1]
      unfold contents
      split
      · dsimp only
        split <;> rfl
      · rfl
    have c2 : ∀ r, (st1 r).contiguous = (st r).contiguous ∧ (st1 r).shape = (st r).shape := fun r => by
      rw [hst1]
      split
      · dsimp only
        split <;> exact ⟨rfl, rfl⟩
      · exact ⟨rfl, rfl⟩
    have c3 : HoldsVector M.refs x st1 := by
      unfold HoldsVector
      rw [← e2]
      unfold modelToNumpy
      simp only [fun r => (c2 r).1, show ∀ r, (st1 r).data = (st r).data from fun r => congrFun c1 r]
    have hacc : ∀ r ∈ M.refs, accumulate (st r).grad (M.grads (contents st) r) = M.grads (contents st) r := fun r hr => by
      rw [(e3.1 r).2, scipyZeroGrad, if_pos hr]
      dsimp only
      cases hg : (s.store r).grad with
      | none => rfl
      | some g =>
        rw [Option.map_some, accumulate]
        refine zip_zeros _ _ ?_
        rw [hM.shaped _ r hr, (hs r hr).2 g hg, contents, hdat r hr, Param.numel, Param.numel, (e3.1 r).1, scipyZeroGrad, if_pos hr]
    have c4 : st1.Proper M.refs := fun r hr => by
      have h1 := congrFun c1 r
      unfold contents at h1
      rw [h1, Param.numel, (c2 r).2]
      refine ⟨hdat r hr, fun g hg => ?_⟩
      rw [hst1] at hg
      split at hg
      · dsimp only at hg
        rw [if_pos hr] at hg
        rw [← Option.some.inj hg, hacc r hr, hM.shaped _ r hr]
        exact hdat r hr
      · rw [(e3.1 r).2] at hg
        rw [(e3.1 r).1]
        exact (hz r hr).2 g hg
    by_cases hb : costs.any fun c => c.2.isNan
    · cases hnn : naninf
      · simp [hb, hnn] at h
      · simp only [hb, hnn, Bool.not_true, Bool.and_false, Bool.false_eq_true, if_false, if_true] at h
        split at h
        · cases congrArg Prod.fst h
        · cases congrArg Prod.fst h
    · have hb' : (costs.any fun c => c.2.isNan) = false := by simpa using hb
      simp only [hb', Bool.false_and, Bool.false_eq_true, if_false] at h
      have hfin : ∀ c ∈ costs, c.2.isNan = false := fun c hc => by
        rw [List.any_eq_false] at hb'
        simpa using hb' c hc
      cases hng : needGrad
      · simp only [hng, Bool.false_eq_true, if_false, Option.getD_none, List.any_nil, Bool.false_and] at h
        have h1 := Except.ok.inj (congrArg Prod.fst h)
        have h2 := congrArg Prod.snd h
        dsimp only at h2
        have hst : st1 = st := by rw [hst1, hng]; rfl
        have c1' := c1
        subst h1 h2
        exact ⟨st, costs, e2, hout, hc, hfin, rfl, c1, c3, c4, fun _ => rfl, by simp, rfl, rfl, rfl⟩
      · have hg : modelGradToNumpy M.refs st1 = .ok ((M.refs.map (M.grads (contents st))).flatten) := by
          have hsome : ∀ r ∈ M.refs, (st1 r).grad = some (M.grads (contents st) r) := fun r hr => by
            rw [hst1, if_pos hng]
            dsimp only
            rw [if_pos hr, hacc r hr]
          have hcont : ∀ r ∈ M.refs, (st1 r).contiguous = true := by
            have := c3
            unfold HoldsVector modelToNumpy at this
            split at this
            · next q => exact fun r hr => List.all_eq_true.1 q r hr
            · cases this
          rw [(C39_gradient M.refs st1 hcont).1 (fun r hr => by rw [hsome r hr]; rfl)]
          unfold modelToNumpy
          rw [if_pos (List.all_eq_true.2 hcont)]
          cases hr : M.refs with
          | nil => exact absurd hr hM.some
          | cons r rs =>
            dsimp only
            congr 2
            refine List.map_congr_left fun r' hr' => ?_
            rw [hsome r' (by rw [hr]; exact hr')]
            rfl
        simp only [hng, if_true, hg, Except.map, Option.getD_some] at h
        by_cases hbg : ((M.refs.map (M.grads (contents st))).flatten).any XF.isNan = true
        · cases hnn : naninf
          · simp only [hbg, hnn, Bool.not_false, Bool.and_true, if_true] at h
            cases congrArg Prod.fst h
          · simp only [hbg, hnn, Bool.not_true, Bool.and_false, Bool.false_eq_true, if_false, if_true, Option.map_some] at h
            have h1 := Except.ok.inj (congrArg Prod.fst h)
            have h2 := congrArg Prod.snd h
            dsimp only at h2
            subst h1 h2
            exact ⟨st, costs, e2, hout, hc, hfin, rfl, c1, c3, c4, by simp, fun _ => ⟨_, rfl, by simp [hbg], fun _ => rfl⟩, rfl, rfl, rfl⟩
        · have hbg' : ((M.refs.map (M.grads (contents st))).flatten).any XF.isNan = false := by simpa using hbg
          simp only [hbg', Bool.false_and, Bool.false_eq_true, if_false] at h
          have h1 := Except.ok.inj (congrArg Prod.fst h)
          have h2 := congrArg Prod.snd h
          dsimp only at h2
          subst h1 h2
          exact ⟨st, costs, e2, hout, hc, hfin, rfl, c1, c3, c4, by simp, fun _ => ⟨_, rfl, by rw [hbg']; rfl, fun q => by rw [hbg'] at q; cases q⟩, rfl, rfl, rfl⟩

/-- An evaluation as it should be: the costs are those of the model when its parameters hold the point
and everything else is as in `base`, none of them is NaN, the value is their sum, and the gradient, for
the methods that use it, that of the model there, with zeros instead if it contains NaN. -/
def ScipyEval.Genuine (M : ScipyModel K) (needGrad naninf : Bool) (base : Nat → List (XF K)) (e : ScipyEval K) : Prop :=
  ∃ st : PStore (XF K), HoldsVector M.refs e.x st ∧ (∀ r, r ∉ M.refs → contents st r = base r) ∧ M.costs (contents st) = .ok e.costs ∧
    (∀ c ∈ e.costs, c.2.isNan = false) ∧ e.value = sumCosts e.costs ∧ (needGrad = false → e.grad = none) ∧
    (needGrad = true → ∃ g, g = ((M.refs.map (M.grads (contents st))).flatten) ∧
      e.grad = some (if g.any XF.isNan then g.map fun _ => .fin 0 else g) ∧ (g.any XF.isNan = true → naninf = true))

/-- The run of `minimize` has a result that is a value it was given; `seen` are those given before. -/
def Minimizer.Honest : Minimizer K → List (XF K) → Prop
  | .stop res, seen => res.value ∈ seen
  | .eval _ next, seen => ∀ v g, (next v g).Honest (seen ++ [v])
  | .callback _ next, seen => next.Honest seen

/-- What a run leaves: `new` are its evaluations. -/
structure RanTo (M : ScipyModel K) (needGrad naninf : Bool) (s s' : ScipyState K) (new : List (ScipyEval K)) : Prop where
  evals : s'.evals = s.evals ++ new
  genuine : ∀ e ∈ new, e.Genuine M needGrad naninf (contents s.store)
  others : ∀ r, r ∉ M.refs → contents s'.store r = contents s.store r
  still : new = [] → s'.store = s.store ∧ s'.last = s.last
  last : ∀ e, new.getLast? = some e → HoldsVector M.refs e.x s'.store ∧ s'.last = .costs e.costs
  proper : s'.store.Proper M.refs
  calls : ∃ cs, s'.calls = s.calls ++ cs ∧ ∀ c ∈ cs, s.evals.length ≤ c.1 ∧
    ((c.1 = s.evals.length ∧ s.last = .costs c.2) ∨ ∃ e, s'.evals[c.1 - 1]? = some e ∧ s.evals.length < c.1 ∧ e.costs = c.2)

theorem run_ok {M : ScipyModel K} (hM : M.Proper) {needGrad naninf given : Bool} (mn : Minimizer K) : ∀ {s s' : ScipyState K} {res : ScipyRes K},
    s.store.Proper M.refs → mn.run M needGrad naninf given s = (.ok res, s') →
    ∃ new, RanTo M needGrad naninf s s' new ∧ ∀ seen, mn.Honest seen → res.value ∈ seen ++ new.map ScipyEval.value := by
  induction mn with
  | stop r =>
    intro s s' res hs h
    rw [Minimizer.run] at h
    cases h
    refine ⟨[], ⟨by simp, by simp, fun _ _ => rfl, fun _ => ⟨rfl, rfl⟩, by simp, hs, [], by simp, by simp⟩, fun seen h => ?_⟩
    rw [Minimizer.Honest] at h
    simpa using h
  | eval x next ih =>
    intro s s' res hs h
    rw [Minimizer.run] at h
    dsimp only at h
    cases hc : M.closure needGrad naninf x s with
    | mk o s1 =>
      rw [hc] at h
      cases o with
      | error e => cases congrArg Prod.fst h
      | ok v =>
        dsimp only at h
        obtain ⟨st, costs, a1, a2, a3, a4, a5, a6, a7, a8, a9, a10, a11, a12, a13⟩ := closure_ok hM hs hc
        obtain ⟨new, b, hb⟩ := ih v.1 v.2 a8 h
        have hbase : ∀ r, r ∉ M.refs → contents s1.store r = contents s.store r := fun r hr => by rw [a6, a2 r hr]
        refine ⟨⟨x, costs, v.1, v.2⟩ :: new, ⟨?_, ?_, ?_, by simp, ?_, b.proper, ?_⟩, ?_⟩
        · rw [b.evals, a12, List.append_assoc]; rfl
        · intro e he
          rcases List.mem_cons.1 he with rfl | he
          · exact ⟨st, a1, a2, a3, a4, a5, a9, a10⟩
          · obtain ⟨st', q1, q2, q3⟩ := b.genuine e he
            exact ⟨st', q1, fun r hr => (q2 r hr).trans (hbase r hr), q3⟩
        · exact fun r hr => (b.others r hr).trans (hbase r hr)
        · intro e he
          cases hnew : new with
          | nil =>
            rw [hnew] at he
            obtain rfl : _ = e := by simpa using he
            obtain ⟨q1, q2⟩ := b.still hnew
            refine ⟨?_, by rw [q2, a11]⟩
            rw [q1]
            exact a7
          | cons e' l =>
            refine b.last e ?_
            rw [hnew] at he ⊢
            simpa using he
        · obtain ⟨cs, q1, q2⟩ := b.calls
          refine ⟨cs, by rw [q1, a13], fun c hcs => ?_⟩
          obtain ⟨q3, q4⟩ := q2 c hcs
          rw [a12, List.length_append, List.length_singleton] at q3
          refine ⟨by omega, Or.inr ?_⟩
          rcases q4 with ⟨q4, q5⟩ | ⟨e, q4, q5, q6⟩
          · refine ⟨⟨x, costs, v.1, v.2⟩, ?_, by omega, ?_⟩
            · rw [b.evals, a12, q4, a12]
              simp
            · rw [a11] at q5
              cases q5
              rfl
          · rw [a12, List.length_append, List.length_singleton] at q5
            exact ⟨e, q4, by omega, q6⟩
        · intro seen hh
          rw [Minimizer.Honest] at hh
          have := hb _ (hh v.1 v.2)
          simpa [List.append_assoc] using this
  | callback x next ih =>
    intro s s' res hs h
    rw [Minimizer.run] at h
    cases hgv : given with
    | false =>
      rw [hgv] at h ih
      simp only [scipyCallback, Bool.false_eq_true, if_false] at h
      obtain ⟨new, b, hb⟩ := ih hs h
      exact ⟨new, b, fun seen hh => hb seen (by rwa [Minimizer.Honest] at hh)⟩
    | true =>
      rw [hgv] at h ih
      simp only [scipyCallback, if_true] at h
      cases hl : s.last with
      | unset => rw [hl] at h; cases congrArg Prod.fst h
      | inf => rw [hl] at h; cases congrArg Prod.fst h
      | costs d =>
        rw [hl] at h
        dsimp only at h
        obtain ⟨new, b, hb⟩ := ih (by exact hs) h
        refine ⟨new, ⟨b.evals, b.genuine, b.others, fun e => ?_, b.last, b.proper, ?_⟩, fun seen hh => hb seen (by rwa [Minimizer.Honest] at hh)⟩
        · obtain ⟨q1, q2⟩ := b.still e
          exact ⟨q1, q2.trans hl.symm ▸ rfl⟩
        · obtain ⟨cs, q1, q2⟩ := b.calls
          refine ⟨(s.evals.length, d) :: cs, by rw [q1]; simp, fun c hc => ?_⟩
          rcases List.mem_cons.1 hc with rfl | hc
          · exact ⟨le_refl _, Or.inl ⟨rfl, hl⟩⟩
          · obtain ⟨q3, q4⟩ := q2 c hc
            refine ⟨q3, ?_⟩
            rcases q4 with ⟨q4, q5⟩ | q4
            · exact Or.inl ⟨q4, hl.trans q5⟩
            · exact Or.inr q4

/-! ### The properties -/

/-- **C110.** When `optimize` of a SciPy optimiser returns, for whatever SciPy did: all values and
gradients SciPy was given are those of the model at the points it asked for, and no cost was NaN; only
the parameters have changed; they hold the last point that was evaluated; and the post iteration callback
was given the costs of the latest evaluation each time. -/
theorem C110_partial {M : ScipyModel K} (hM : M.Proper) {needGrad naninf given : Bool} {minimizer : List (XF K) → Minimizer K} {s s' : ScipyState K}
    {res : Dict String (ResVal K)} (hs : s.store.Proper M.refs) (hl : s.last = .unset) (he : s.evals = []) (hc : s.calls = [])
    (h : M.optimize needGrad naninf given minimizer s = (.ok res, s')) :
    (∀ e ∈ s'.evals, e.Genuine M needGrad naninf (contents s.store)) ∧ (∀ r, r ∉ M.refs → contents s'.store r = contents s.store r) ∧
      (s'.evals = [] → s'.store = s.store) ∧ (∀ e, s'.evals.getLast? = some e → HoldsVector M.refs e.x s'.store) ∧
      ∀ c ∈ s'.calls, ∃ e, s'.evals[c.1 - 1]? = some e ∧ 0 < c.1 ∧ e.costs = c.2 := by
  unfold ScipyModel.optimize at h
  cases hx : modelToNumpy M.refs s.store with
  | error e => rw [hx] at h; cases congrArg Prod.fst h
  | ok x0 =>
    rw [hx] at h
    dsimp only at h
    cases hr : (minimizer x0).run M needGrad naninf given s with
    | mk o s1 =>
      rw [hr] at h
      cases o with
      | error e => cases congrArg Prod.fst h
      | ok v =>
        obtain rfl : s1 = s' := congrArg Prod.snd h
        obtain ⟨new, b, -⟩ := run_ok hM _ hs hr
        have hnew : s1.evals = new := by rw [b.evals, he]; rfl
        refine ⟨by rw [hnew]; exact b.genuine, b.others, fun q => (b.still (by rw [← hnew, q])).1, fun e q => (b.last e (by rw [← hnew, q])).1, fun c hcc => ?_⟩
        obtain ⟨cs, q1, q2⟩ := b.calls
        rw [hc, List.nil_append] at q1
        obtain ⟨q3, q4⟩ := q2 c (by rw [← q1]; exact hcc)
        rcases q4 with ⟨-, q5⟩ | ⟨e, q5, q6, q7⟩
        · rw [hl] at q5; cases q5
        · exact ⟨e, q5, by omega, q7⟩

/-- **C110.** If SciPy returns a value it was given, the reported final cost is the total cost of one of
the evaluations. -/
theorem C110_final {M : ScipyModel K} (hM : M.Proper) {needGrad naninf given : Bool} {minimizer : List (XF K) → Minimizer K} {s s' : ScipyState K}
    {res : Dict String (ResVal K)} (hs : s.store.Proper M.refs) (he : s.evals = []) (hh : ∀ x0, (minimizer x0).Honest [])
    (h : M.optimize needGrad naninf given minimizer s = (.ok res, s')) :
    ∃ e ∈ s'.evals, res.get? "final" = some (.num (sumCosts e.costs)) ∧ e.Genuine M needGrad naninf (contents s.store) := by
  unfold ScipyModel.optimize at h
  cases hx : modelToNumpy M.refs s.store with
  | error e => rw [hx] at h; cases congrArg Prod.fst h
  | ok x0 =>
    rw [hx] at h
    dsimp only at h
    cases hr : (minimizer x0).run M needGrad naninf given s with
    | mk o s1 =>
      rw [hr] at h
      cases o with
      | error e => cases congrArg Prod.fst h
      | ok v =>
        obtain rfl : s1 = s' := congrArg Prod.snd h
        obtain ⟨new, b, hb⟩ := run_ok hM _ hs hr
        have hnew : s1.evals = new := by rw [b.evals, he]; rfl
        have hv := hb [] (hh x0)
        rw [List.nil_append] at hv
        obtain ⟨e, q1, q2⟩ := List.mem_map.1 hv
        have hg := b.genuine e q1
        refine ⟨e, by rw [hnew]; exact q1, ?_, hg⟩
        obtain ⟨-, -, -, -, -, q3, -⟩ := hg
        rw [← q3, q2, ← Except.ok.inj (congrArg Prod.fst h)]
        rfl

/-- **C110.** A cost that is NaN is never given to SciPy: without the option `naninf` the call raises
ValueError, at every point of the right size. -/
theorem C110_nan {M : ScipyModel K} (hM : M.Proper) (needGrad : Bool) {x : List (XF K)} {s : ScipyState K} (hx : x.length = totalNumel M.refs s.store)
    (hc : ∀ st, HoldsVector M.refs x st → ∃ costs, M.costs (contents st) = .ok costs ∧ ∃ c ∈ costs, c.2.isNan = true) :
    (M.closure needGrad false x s).1 = .error .value := by
  obtain ⟨st, e1, e2, -⟩ := C39_write_read_partial M.refs (scipyZeroGrad M.refs s.store) x hM.some hM.distinct (by rw [numel_zero]; exact hx)
  obtain ⟨costs, q1, c, q2, q3⟩ := hc st e2
  have hb : (costs.any fun c => c.2.isNan) = true := List.any_eq_true.2 ⟨c, q2, q3⟩
  unfold ScipyModel.closure
  rw [e1]
  dsimp only
  unfold ScipyModel.evaluate
  rw [q1]
  dsimp only
  rw [hb]
  rfl

/-- One parameter with one element, whose only cost is `f` of it. -/
def oneCost (f : XF K → XF K) : ScipyModel K := ⟨[0], fun q => .ok [("attach", f ((q 0).getD 0 (.fin 0)))], fun q _ => (q 0).map fun _ => .fin 1⟩

def oneStart (a : K) : ScipyState K := ⟨fun _ => ⟨[1], [.fin a], true, none⟩, .unset, [], []⟩

theorem oneCost_proper (f : XF K → XF K) : (oneCost f).Proper := ⟨by simp [oneCost], by simp [oneCost], by simp [oneCost]⟩

theorem oneStart_proper (f : XF K → XF K) (a : K) : (oneStart a).store.Proper (oneCost f).refs := by
  intro r _
  simp [oneStart, Param.numel]

/-- With the option `naninf` a cost that is NaN is not replaced by infinity: AttributeError is raised. -/
theorem C110_naninf_disagreement (needGrad : Bool) (a x : K) : ((oneCost fun _ => .nan).closure needGrad true [.fin x] (oneStart a)).1 = .error .attribute := by
  cases needGrad <;> rfl

/-- The number of gradient evaluations is never reported. -/
theorem C110_njev_disagreement {M : ScipyModel K} {needGrad naninf given : Bool} {minimizer : List (XF K) → Minimizer K} {s s' : ScipyState K}
    {res : Dict String (ResVal K)} (h : M.optimize needGrad naninf given minimizer s = (.ok res, s')) : res.get? "neval_grad" = none := by
  unfold ScipyModel.optimize at h
  cases hx : modelToNumpy M.refs s.store with
  | error e => rw [hx] at h; cases congrArg Prod.fst h
  | ok x0 =>
    rw [hx] at h
    dsimp only at h
    cases hr : (minimizer x0).run M needGrad naninf given s with
    | mk o s1 =>
      rw [hr] at h
      cases o with
      | error e => cases congrArg Prod.fst h
      | ok v =>
        rw [← Except.ok.inj (congrArg Prod.fst h)]
        rfl

/-- Evaluate at the start and at one more point, and return the better one. -/
def twoPoints (b : K) (x0 : List (XF K)) : Minimizer K :=
  .eval x0 fun v _ => .eval [.fin b] fun w _ => .callback x0 <| .stop (if v.le w then ⟨v, true, "", 2, 0⟩ else ⟨w, true, "", 2, 0⟩)

/-- The hypotheses of `C110_partial` and `C110_final` are met by one parameter with one element, and a
run of two evaluations. -/
example (a b : K) : (oneCost (K := K) id).Proper ∧ (oneStart a).store.Proper (oneCost (K := K) id).refs ∧ (oneStart a).last = .unset ∧
    ∀ x0, (twoPoints b x0).Honest [] := by
  refine ⟨oneCost_proper id, oneStart_proper id a, rfl, fun x0 => ?_⟩
  simp only [twoPoints, Minimizer.Honest]
  intro v _ w _
  split <;> simp

theorem one_write (st : PStore (XF K)) (h : (st 0).shape = [1]) (b : K) :
    numpyToModel [0] [.fin b] st = (.ok (), Function.update st 0 { st 0 with data := [.fin b], contiguous := true }) := by
  have h1 : (st 0).numel = 1 := by rw [Param.numel, h]; rfl
  have h2 := numpyToModelLoop_cons [XF.fin b] 0 [] 0 st
  rw [h1, if_pos (by rfl)] at h2
  unfold numpyToModel
  rw [Prog.bind_run, h2]
  rfl

theorem one_closure (s : ScipyState K) (h : (s.store 0).shape = [1]) (b : K) : ∃ s', (oneCost id).closure false false [.fin b] s = (.ok (.fin b, none), s') ∧
    (s'.store 0).shape = [1] ∧ (s'.store 0).data = [.fin b] ∧ (s'.store 0).contiguous = true ∧ s'.last = .costs [("attach", .fin b)] ∧
    s'.evals.length = s.evals.length + 1 ∧ s'.calls = s.calls := by
  have hz : (scipyZeroGrad [0] s.store 0).shape = [1] := by simp [scipyZeroGrad, h]
  unfold ScipyModel.closure
  rw [show (oneCost (K := K) id).refs = [0] from rfl, one_write _ hz]
  simp [ScipyModel.evaluate, oneCost, contents, XF.isNan, sumCosts, XF.add, hz]

/-- The model is left with the parameters that were evaluated last. They need not be those of the final
cost, although SciPy returned the best value it was given: here the final cost is zero, and the costs
given to the callback are one, as is the total cost of the model that is left. -/
theorem C110_left_disagreement [IsStrictOrderedRing K] : ∃ (res : Dict String (ResVal K)) (s' : ScipyState K), (∀ x0, (twoPoints (1 : K) x0).Honest []) ∧
    (oneCost id).optimize false false true (twoPoints (1 : K)) (oneStart 0) = (.ok res, s') ∧ res.get? "final" = some (.num (.fin 0)) ∧
    HoldsVector [0] [.fin 1] s'.store ∧ s'.calls = [(2, [("attach", .fin 1)])] := by
  have hle : (XF.fin (0 + 0) : XF K).le (.fin (0 + 1)) := Or.inl (by show (0 : K) + 0 < 0 + 1; simp)
  have hlt : (XF.fin 0 : XF K).le (.fin 1) := by simpa using hle
  obtain ⟨s', key, h1, h2⟩ : ∃ s' : ScipyState K, (oneCost id).optimize false false true (twoPoints (1 : K)) (oneStart 0) =
      (.ok [("final", .num (.fin 0)), ("success", .flag true), ("message", .text ""), ("neval", .count 2)], s') ∧
      HoldsVector [0] [.fin 1] s'.store ∧ s'.calls = [(2, [("attach", .fin 1)])] := by
    obtain ⟨s1, a1, a2, -, -, -, a6, a7⟩ := one_closure (oneStart (0 : K)) rfl 0
    obtain ⟨s2, b1, b2, b3, b4, b5, b6, b7⟩ := one_closure s1 a2 1
    refine ⟨{ s2 with calls := s2.calls ++ [(s2.evals.length, [("attach", .fin 1)])] }, ?_, ?_, ?_⟩
    · unfold ScipyModel.optimize
      rw [show modelToNumpy (oneCost (K := K) id).refs (oneStart (0 : K)).store = .ok [.fin 0] from rfl]
      simp only [twoPoints, Minimizer.run, a1, b1, scipyCallback, if_true, b5, if_pos hlt]
    · simp [HoldsVector, modelToNumpy, b3, b4]
    · rw [b7, a7, b6, a6]
      rfl
  refine ⟨_, s', fun x0 => ?_, key, rfl, h1, h2⟩
  simp only [twoPoints, Minimizer.Honest]
  intro v _ w _
  split <;> simp

/-! ## The sum of costs that are not all finite -/

/-- `t` is the sum of the costs `l` as extended numbers: NaN if one is NaN or if infinities of both signs
are among them, an infinity if only that one is, and else the sum of the numbers. -/
def Spec.IsTotal (l : List (XF K)) (t : XF K) : Prop :=
  ((XF.nan ∈ l ∨ XF.pinf ∈ l ∧ XF.ninf ∈ l) → t = .nan) ∧
  ((XF.nan ∉ l ∧ XF.pinf ∈ l ∧ XF.ninf ∉ l) → t = .pinf) ∧
  ((XF.nan ∉ l ∧ XF.pinf ∉ l ∧ XF.ninf ∈ l) → t = .ninf) ∧
  ∀ xs : List K, l = xs.map .fin → t = .fin xs.sum

theorem fold_fin : ∀ (xs : List K) (a : K), (xs.map XF.fin).foldl XF.add (.fin a) = .fin (a + xs.sum)
  | [], a => by simp
  | x :: xs, a => by
    rw [List.map_cons, List.foldl_cons, XF.add, fold_fin xs, List.sum_cons, add_assoc]

theorem fold_nan : ∀ l : List (XF K), l.foldl XF.add .nan = .nan
  | [] => rfl
  | x :: l => by
    rw [List.foldl_cons]
    cases x <;> exact fold_nan l

theorem fold_pinf : ∀ l : List (XF K), ((XF.nan ∈ l ∨ XF.ninf ∈ l) → l.foldl XF.add .pinf = .nan) ∧ ((XF.nan ∉ l ∧ XF.ninf ∉ l) → l.foldl XF.add .pinf = .pinf)
  | [] => by simp
  | x :: l => by
    have ih := fold_pinf l
    have hn := fold_nan l
    rw [List.foldl_cons]
    cases x <;> simp_all [XF.add]

theorem fold_ninf : ∀ l : List (XF K), ((XF.nan ∈ l ∨ XF.pinf ∈ l) → l.foldl XF.add .ninf = .nan) ∧ ((XF.nan ∉ l ∧ XF.pinf ∉ l) → l.foldl XF.add .ninf = .ninf)
  | [] => by simp
  | x :: l => by
    have ih := fold_ninf l
    have hn := fold_nan l
    rw [List.foldl_cons]
    cases x <;> simp_all [XF.add]

theorem fold_total : ∀ (l : List (XF K)) (a : K),
    ((XF.nan ∈ l ∨ XF.pinf ∈ l ∧ XF.ninf ∈ l) → l.foldl XF.add (.fin a) = .nan) ∧
    ((XF.nan ∉ l ∧ XF.pinf ∈ l ∧ XF.ninf ∉ l) → l.foldl XF.add (.fin a) = .pinf) ∧
    ((XF.nan ∉ l ∧ XF.pinf ∉ l ∧ XF.ninf ∈ l) → l.foldl XF.add (.fin a) = .ninf)
  | [], a => by simp
  | x :: l, a => by
    rw [List.foldl_cons]
    cases x with
    | fin b =>
      have ih := fold_total l (a + b)
      simpa [XF.add] using ih
    | nan => simp [XF.add, fold_nan]
    | pinf =>
      have := fold_pinf l
      simpa [XF.add] using this
    | ninf =>
      have := fold_ninf l
      simpa [XF.add] using this

/-- The value given to SciPy, and the total cost shown and compared by the other optimisers, is the sum
of the costs also when some of them are infinite or NaN. -/
theorem C110_total (costs : Dict String (XF K)) : Spec.IsTotal (costs.map Prod.snd) (sumCosts costs) := by
  obtain ⟨h1, h2, h3⟩ := fold_total (costs.map Prod.snd) 0
  refine ⟨h1, h2, h3, fun xs h => ?_⟩
  rw [sumCosts, h, fold_fin, zero_add]

example : sumCosts [("attach", (.pinf : XF K)), ("deformation", .ninf)] = .nan := (C110_total _).1 (by simp)
example (a b : K) : sumCosts [("attach", .fin a), ("deformation", .fin b)] = .fin (a + b) := by
  simpa using (C110_total [("attach", .fin a), ("deformation", .fin b)]).2.2.2 [a, b] rfl

end Imodal
