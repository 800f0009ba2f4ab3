import Verif.Props.C36
/-!
# C38: evaluating an atlas sums over the population
-/
set_option autoImplicit false
namespace Imodal
noncomputable section
variable {d : Nat} {G T : Type}

/-- The sum of the lists kept under a key, 0 if there are none. -/
def keySum {κ : Type} [DecidableEq κ] (D : Dict κ (List ℝ)) (k : κ) : ℝ := ((D.get? k).getD []).sum

/-- The value of a key, 0 if it is absent. -/
def keyVal {κ : Type} [DecidableEq κ] (D : Dict κ ℝ) (k : κ) : ℝ := (D.get? k).getD 0

theorem get?_cons {κ ν : Type} [DecidableEq κ] (e : κ × ν) (D : Dict κ ν) (k : κ) :
    Dict.get? (e :: D) k = if e.1 = k then some e.2 else D.get? k := by
  unfold Dict.get?
  rw [List.find?_cons]
  by_cases h : e.1 = k <;> simp [h]

theorem get?_set {κ ν : Type} [DecidableEq κ] (v : ν) (k k' : κ) : ∀ D : Dict κ ν,
    (D.set k v).get? k' = if k = k' then some v else D.get? k'
  | [] => by rw [Dict.set, get?_cons]
  | e :: D => by
    obtain ⟨a, b⟩ := e
    rw [Dict.set, get?_cons]
    by_cases h : a = k
    · subst h
      rw [if_pos rfl, get?_cons]
      by_cases h' : a = k' <;> simp [h']
    · rw [if_neg h, get?_cons, get?_set v k k' D]
      by_cases h' : a = k'
      · subst h'; simp [Ne.symm h]
      · simp [h']

theorem keySum_append {κ : Type} [DecidableEq κ] (D : Dict κ (List ℝ)) (e : κ × ℝ) (k : κ) :
    keySum (appendEntry D e) k = keySum D k + if e.1 = k then e.2 else 0 := by
  unfold appendEntry keySum
  by_cases h : e.1 = k
  · subst h
    cases hg : D.get? e.1 <;> simp [get?_set]
  · cases hg : D.get? e.1 <;> simp [get?_set, h]

/-- The sum of all entries of all lists. -/
def allSum {κ : Type} (D : Dict κ (List ℝ)) : ℝ := (D.map fun e => e.2.sum).sum

theorem allSum_set {κ : Type} [DecidableEq κ] (l : List ℝ) (k : κ) : ∀ D : Dict κ (List ℝ),
    allSum (D.set k l) = allSum D - keySum D k + l.sum
  | [] => by simp [Dict.set, allSum, keySum, Dict.get?]
  | e :: D => by
    obtain ⟨a, b⟩ := e
    rw [Dict.set]
    unfold keySum
    rw [get?_cons]
    by_cases h : a = k
    · subst h
      simp [allSum]
      ring
    · have := allSum_set l k D
      unfold allSum keySum at this
      simp only [allSum, h, if_false, List.map_cons, List.sum_cons, this]
      ring

theorem allSum_append {κ : Type} [DecidableEq κ] (D : Dict κ (List ℝ)) (e : κ × ℝ) : allSum (appendEntry D e) = allSum D + e.2 := by
  unfold appendEntry
  cases hg : D.get? e.1 with
  | none => simp [allSum_set, keySum, hg]
  | some l => simp [allSum_set, keySum, hg]; ring

theorem allSum_appendIn {κ : Type} [DecidableEq κ] : ∀ (D' : Dict κ ℝ) (D : Dict κ (List ℝ)),
    allSum (appendInDictOfList D D') = allSum D + (D'.map Prod.snd).sum
  | [], D => by simp [appendInDictOfList]
  | e :: D', D => by
    have := allSum_appendIn D' (appendEntry D e)
    unfold appendInDictOfList at this ⊢
    rw [List.foldl_cons, this, allSum_append]
    simp [add_assoc]

theorem keySum_appendIn {κ : Type} [DecidableEq κ] (k : κ) : ∀ (D' : Dict κ ℝ) (D : Dict κ (List ℝ)), (D'.map Prod.fst).Nodup →
    keySum (appendInDictOfList D D') k = keySum D k + keyVal D' k
  | [], D, _ => by simp [appendInDictOfList, keyVal, Dict.get?]
  | e :: D', D, hn => by
    rw [List.map_cons, List.nodup_cons] at hn
    have := keySum_appendIn k D' (appendEntry D e) hn.2
    unfold appendInDictOfList at this ⊢
    rw [List.foldl_cons, this, keySum_append]
    unfold keyVal
    rw [get?_cons]
    by_cases h : e.1 = k
    · subst h
      have : Dict.get? D' e.1 = none := by
        unfold Dict.get?
        rw [Option.map_eq_none_iff, List.find?_eq_none]
        intro x hx
        simp only [decide_eq_true_eq]
        intro hxe
        exact hn.1 (hxe ▸ List.mem_map_of_mem hx)
      simp [this]
    · simp [h]

theorem set_keys {κ ν : Type} [DecidableEq κ] (v : ν) (k : κ) : ∀ {D : Dict κ ν}, (D.map Prod.fst).Nodup →
    ((D.set k v).map Prod.fst).Nodup ∧ ∀ x, x ∈ (D.set k v).map Prod.fst → x = k ∨ x ∈ D.map Prod.fst
  | [], _ => by simp [Dict.set]
  | (a, b) :: D, h => by
    rw [List.map_cons, List.nodup_cons] at h
    rw [Dict.set]
    by_cases hk : a = k
    · rw [if_pos hk]
      exact ⟨by simpa using h, fun x hx => Or.inr (by simpa using hx)⟩
    · rw [if_neg hk]
      obtain ⟨h1, h2⟩ := set_keys v k h.2
      constructor
      · rw [List.map_cons, List.nodup_cons]
        refine ⟨fun hm => ?_, h1⟩
        rcases h2 _ hm with h3 | h3
        · exact hk h3
        · exact h.1 h3
      · intro x hx
        rw [List.map_cons, List.mem_cons] at hx
        rcases hx with rfl | hx
        · exact Or.inr (List.mem_cons_self ..)
        · rcases h2 x hx with h3 | h3
          · exact Or.inl h3
          · exact Or.inr (List.mem_cons_of_mem _ h3)

theorem evaluate_nodup {callback : Option (RegModel d G T → Py (Option ℝ × RegModel d G T))} {M : RegModel d G T} {targets : List T}
    {s : SolverName} {it : Nat} {R : Evaluated d G T} (h : M.evaluate callback targets s it [] = .ok R) : (R.costs.map Prod.fst).Nodup := by
  obtain ⟨-, pre, M₁, q, A, -, -, -, hc, -⟩ := evaluate_inv h
  rw [hc]
  refine (set_keys _ _ ?_).1
  cases pre <;> cases q.cost <;> simp [Dict.set]

/-- Evaluating each model against its own target. -/
def EvaluateEach (s : SolverName) (it : Nat) (Ms : List (RegModel d G T)) (targets : List T) (Rs : List (Evaluated d G T)) : Prop :=
  Rs.length = Ms.length ∧ ∀ (i : Nat) (M : RegModel d G T) (t : T), Ms[i]? = some M → targets[i]? = some t →
    ∃ R, Rs[i]? = some R ∧ M.evaluate none [t] s it [] = .ok R

theorem atlasLoop_ok {s : SolverName} {it : Nat} : ∀ {Ms : List (RegModel d G T)} {ts : List T} {D : Dict CostKey (List ℝ)}
    {r : Dict CostKey (List ℝ) × List (RegModel d G T)}, atlasLoop s it Ms ts D = .ok r → Ms.length = ts.length →
    ∃ Rs : List (Evaluated d G T), EvaluateEach s it Ms ts Rs ∧ r.2 = Rs.map Evaluated.model ∧
      allSum r.1 = allSum D + (Rs.map Evaluated.total).sum ∧ ∀ k, keySum r.1 k = keySum D k + (Rs.map fun R => keyVal R.costs k).sum
  | [], [], D, r, h, _ => by
    rw [atlasLoop] at h
    · cases h
      exact ⟨[], ⟨rfl, by simp⟩, by simp⟩
    · simp
  | M :: Ms, t :: ts, D, r, h, hl => by
    rw [atlasLoop] at h
    cases h1 : M.evaluate none [t] s it [] with
    | error e => rw [h1] at h; cases h
    | ok R =>
      rw [h1] at h; dsimp only at h
      cases h2 : atlasLoop s it Ms ts (appendInDictOfList D R.costs) with
      | error e => rw [h2] at h; cases h
      | ok r' =>
        rw [h2] at h; cases h
        obtain ⟨Rs, ⟨hle, hE⟩, hm, ha, hk⟩ := atlasLoop_ok h2 (by simpa using hl)
        refine ⟨R :: Rs, ⟨by simp [hle], fun i M' t' hM ht => ?_⟩, by simp [hm], ?_, fun k => ?_⟩
        · cases i with
          | zero =>
            simp only [List.getElem?_cons_zero, Option.some.injEq] at hM ht
            subst hM ht
            exact ⟨R, rfl, h1⟩
          | succ i =>
            simp only [List.getElem?_cons_succ] at hM ht
            obtain ⟨R', e1, e2⟩ := hE i M' t' hM ht
            exact ⟨R', by simpa using e1, e2⟩
        · dsimp only
          rw [ha, allSum_appendIn, List.map_cons, List.sum_cons, C36_total h1, add_assoc]
        · dsimp only
          rw [hk, keySum_appendIn _ _ _ (evaluate_nodup h1), List.map_cons, List.sum_cons, add_assoc]

theorem get?_map_sum (D : Dict CostKey (List ℝ)) (k : CostKey) :
    keyVal (D.map fun e => (e.1, e.2.sum) : Dict CostKey ℝ) k = keySum D k := by
  unfold keyVal keySum
  induction D with
  | nil => simp [Dict.get?]
  | cons e D ih =>
    rw [List.map_cons, get?_cons, get?_cons]
    by_cases h : e.1 = k <;> simp [h, ih]

/-- **C38.** Evaluating an atlas against as many targets as it has models evaluates each model on
its own target. Each reported cost is the sum of that cost over the population, and the number
that is differentiated is the sum of the models' total costs. Missing: other numbers of targets
(`C38_targets_disagreement`) and the optimisation of the template (`C38_template_disagreement`). -/
theorem C38_partial {Ms : List (RegModel d G T)} {targets : List T} {s : SolverName} {it : Nat} {costs : Dict CostKey ℝ} {total : ℝ}
    {Ms' : List (RegModel d G T)} (hl : Ms.length = targets.length) (h : atlasEvaluate none Ms targets s it = .ok (costs, total, Ms')) :
    ∃ Rs : List (Evaluated d G T), EvaluateEach s it Ms targets Rs ∧ Ms' = Rs.map Evaluated.model ∧ total = (Rs.map Evaluated.total).sum
      ∧ (∀ k, keyVal costs k = (Rs.map fun R => keyVal R.costs k).sum) ∧ total = (costs.map Prod.snd).sum := by
  unfold atlasEvaluate at h
  rw [show useTemplate (none : Option (Hyper d)) true = .ok () from rfl, ite_self] at h
  dsimp only at h
  cases h1 : atlasLoop s it Ms targets [] with
  | error e => rw [h1] at h; cases h
  | ok r =>
    rw [h1] at h; dsimp only at h
    split at h
    · cases h
    · cases h
      obtain ⟨Rs, hE, hm, ha, hk⟩ := atlasLoop_ok h1 hl
      refine ⟨Rs, hE, hm, ?_, fun k => ?_, rfl⟩
      · rw [allSum] at ha
        simp only [totalCost, List.map_map]
        rw [show (Prod.snd ∘ fun e : CostKey × List ℝ => (e.1, e.2.sum)) = fun e => e.2.sum from rfl, ha]
        simp [allSum]
      · rw [get?_map_sum, hk]
        simp [keySum, Dict.get?]

theorem atlasLoop_extra {s : SolverName} {it : Nat} (extra : List T) : ∀ {Ms : List (RegModel d G T)} {ts : List T} {D : Dict CostKey (List ℝ)},
    Ms.length = ts.length → atlasLoop s it Ms (ts ++ extra) D = atlasLoop s it Ms ts D
  | [], [], D, _ => by rw [atlasLoop, atlasLoop] <;> simp
  | M :: Ms, t :: ts, D, hl => by
    rw [List.cons_append, atlasLoop, atlasLoop]
    have ih := fun D' => atlasLoop_extra (s := s) (it := it) extra (Ms := Ms) (ts := ts) (D := D') (by simpa using hl)
    simp only [ih]

/-- Further targets are ignored without an error. -/
theorem C38_targets_disagreement {Ms : List (RegModel d G T)} {targets : List T} (hl : Ms.length = targets.length) (extra : List T)
    (s : SolverName) (it : Nat) : atlasEvaluate none Ms (targets ++ extra) s it = atlasEvaluate none Ms targets s it := by
  unfold atlasEvaluate
  rw [atlasLoop_extra extra hl, show useTemplate (none : Option (Hyper d)) true = .ok () from rfl, ite_self, ite_self]

/-- With the optimisation of the template evaluating raises: `TypeError` if the geodesic controls of
the hypertemplate exist. -/
theorem C38_template_disagreement (H : Hyper d) {Ms : List (RegModel d G T)} {targets : List T} (hM : Ms ≠ []) (ht : targets ≠ []) (s : SolverName) (it : Nat) :
    ∃ e, atlasEvaluate (some H) Ms targets s it = .error e ∧ ((∃ m, H.module.geodesic H.module.manifold = .ok m) → e = .type) := by
  have h0 : (Ms.isEmpty || targets.isEmpty) = false := by simp [hM, ht]
  unfold atlasEvaluate useTemplate Hyper.template
  simp only [h0, if_true, Bool.false_eq_true, if_false]
  cases h : H.module.geodesic H.module.manifold with
  | error e => exact ⟨e, rfl, by rintro ⟨_, h⟩; cases h⟩
  | ok m => exact ⟨.type, rfl, fun _ => rfl⟩

theorem atlasLoop_total {s : SolverName} {it : Nat} : ∀ {Ms : List (RegModel d G T)} {ts : List T} (D : Dict CostKey (List ℝ)),
    (∀ M ∈ Ms, ∀ t ∈ ts, ∃ R, M.evaluate none [t] s it [] = .ok R) → ∃ r, atlasLoop s it Ms ts D = .ok r
  | [], ts, D, _ => ⟨_, by rw [atlasLoop]; simp⟩
  | M :: Ms, [], D, _ => ⟨_, by rw [atlasLoop]; simp⟩
  | M :: Ms, t :: ts, D, h => by
    obtain ⟨R, hR⟩ := h M (List.mem_cons_self ..) t (List.mem_cons_self ..)
    obtain ⟨r, hr⟩ := atlasLoop_total (appendInDictOfList D R.costs) fun M hM t ht => h M (List.mem_cons_of_mem _ hM) t (List.mem_cons_of_mem _ ht)
    rw [atlasLoop, hR]
    dsimp only
    rw [hr]
    exact ⟨_, rfl⟩

theorem appendEntry_ne {κ ν : Type} [DecidableEq κ] (D : Dict κ (List ν)) (e : κ × ν) : appendEntry D e ≠ [] := by
  unfold appendEntry
  have h : ∀ l, D.set e.1 l ≠ [] := fun l => by
    cases D with
    | nil => simp [Dict.set]
    | cons a D => unfold Dict.set; split <;> simp
  split
  · exact h _
  · exact h _

theorem foldl_appendEntry_ne {κ ν : Type} [DecidableEq κ] : ∀ (D' : Dict κ ν) {D : Dict κ (List ν)}, D ≠ [] → D'.foldl appendEntry D ≠ []
  | [], _, h => h
  | e :: D', D, _ => by rw [List.foldl_cons]; exact foldl_appendEntry_ne D' (appendEntry_ne D e)

theorem atlasLoop_ne {s : SolverName} {it : Nat} : ∀ {Ms : List (RegModel d G T)} {ts : List T} {D : Dict CostKey (List ℝ)}
    {r : Dict CostKey (List ℝ) × List (RegModel d G T)}, atlasLoop s it Ms ts D = .ok r → D ≠ [] → r.1 ≠ []
  | [], ts, D, r, h, hD => by
    rw [atlasLoop] at h
    · cases h; exact hD
    · simp
  | M :: Ms, [], D, r, h, hD => by
    rw [atlasLoop] at h
    · cases h; exact hD
    · simp
  | M :: Ms, t :: ts, D, r, h, hD => by
    rw [atlasLoop] at h
    cases h1 : M.evaluate none [t] s it [] with
    | error e => rw [h1] at h; cases h
    | ok R =>
      rw [h1] at h; dsimp only at h
      cases h2 : atlasLoop s it Ms ts (appendInDictOfList D R.costs) with
      | error e => rw [h2] at h; cases h
      | ok r' =>
        rw [h2] at h; cases h
        have := atlasLoop_ne h2 (foldl_appendEntry_ne _ hD)
        exact this

/-- **C38.** The evaluation returns as soon as there is a model with a target and the models can be
evaluated on the targets. -/
theorem C38_returns {Ms : List (RegModel d G T)} {targets : List T} {s : SolverName} {it : Nat} (hM : Ms ≠ []) (ht : targets ≠ [])
    (h : ∀ M ∈ Ms, ∀ t ∈ targets, ∃ R, M.evaluate none [t] s it [] = .ok R) : ∃ r, atlasEvaluate none Ms targets s it = .ok r := by
  obtain ⟨r, hr⟩ := atlasLoop_total [] h
  unfold atlasEvaluate
  rw [show useTemplate (none : Option (Hyper d)) true = .ok () from rfl, ite_self]
  dsimp only
  rw [hr]
  dsimp only
  rw [if_neg]
  · exact ⟨_, rfl⟩
  · cases Ms with
    | nil => exact absurd rfl hM
    | cons M Ms =>
      cases targets with
      | nil => exact absurd rfl ht
      | cons t ts =>
        rw [atlasLoop] at hr
        cases h1 : M.evaluate none [t] s it [] with
        | error e => rw [h1] at hr; cases hr
        | ok R =>
          rw [h1] at hr; dsimp only at hr
          cases h2 : atlasLoop s it Ms ts (appendInDictOfList [] R.costs) with
          | error e => rw [h2] at hr; cases hr
          | ok r' =>
            rw [h2] at hr; cases hr
            dsimp only
            rw [List.map_eq_nil_iff]
            refine atlasLoop_ne h2 ?_
            obtain ⟨-, pre, M₁, q, A, -, -, -, hc, -⟩ := evaluate_inv h1
            have hne : R.costs ≠ [] := by
              rw [hc]
              cases pre <;> cases q.cost <;> simp [Dict.set]
            cases hR : R.costs with
            | nil => exact absurd hR hne
            | cons e D' => exact foldl_appendEntry_ne D' (appendEntry_ne [] e)

/-! A population of two. -/
example (a b c e : Fin 3 → Vec 2) (q p : Fin 4 → Vec 2) : ∃ Ms r, atlasEvaluate none (d := 2) (G := Points 2) (T := ℝ) Ms [5, 7] (.fixed .midpoint) 3 = .ok r ∧ Ms.length = 2 := by
  have key : ∀ x y : Fin 3 → Vec 2, ∃ M : RegModel 2 (Points 2) ℝ, ∀ t, ∃ R, M.evaluate none [t] (.fixed .midpoint) 3 [] = .ok R := fun x y => by
    refine ⟨⟨[⟨3, x, y, none, fun p => .ok p⟩], [.implicit0 ⟨.torch, q, p, 2, 1, 1, 0⟩], [.simple 2 fun (g : Points 2) (t : ℝ) => .ok (g.n - t)],
      [.landmarks x y, .landmarks q p], none, 10, .sum⟩, fun t => ?_⟩
    obtain ⟨M, R, hM, hR, -⟩ := C36_returns (Ds := [⟨3, x, y, none, fun p => .ok p⟩]) (by simp) (by simp)
      (List.mem_cons_self ..) (by norm_num) (ms := [.implicit0 ⟨.torch, q, p, 2, 1, 1, 0⟩]) (by simp [DefModule.AllRegular, DefModule.Regular])
      (fun m hm => by
        simp only [DefModule.manifolds, DefModule.manifold, Implicit0.manifold, List.mem_cons, List.not_mem_nil, or_false] at hm
        subst hm; exact Or.inr rfl) (by simp [DefModule.manifolds, DefModule.manifold, Implicit0.manifold, Mfd.canRequireGrad])
      (as := [.simple 2 fun (g : Points 2) (t : ℝ) => .ok (g.n - t)]) (targets := [t]) (fun a ha g t => by
          simp only [List.mem_cons, List.not_mem_nil, or_false] at ha
          subst ha
          exact ⟨_, rfl⟩) rfl rfl 10 .midpoint 3 []
    have : M = ⟨[⟨3, x, y, none, fun p => .ok p⟩], [.implicit0 ⟨.torch, q, p, 2, 1, 1, 0⟩], [.simple 2 fun (g : Points 2) (t : ℝ) => .ok (g.n - t)],
      [.landmarks x y, .landmarks q p], none, 10, .sum⟩ := by
      simp [RegModel.new, Deformable.silent, DefModule.manifold, DefModule.manifolds, Implicit0.manifold, Mfd.canRequireGrad] at hM
      exact hM.symm
    rw [← this]
    exact ⟨R, hR⟩
  obtain ⟨M₁, h1⟩ := key a b
  obtain ⟨M₂, h2⟩ := key c e
  obtain ⟨r, hr⟩ := C38_returns (Ms := [M₁, M₂]) (targets := [5, 7]) (s := .fixed .midpoint) (it := 3) (by simp) (by simp) (fun M hM t _ => by
    simp only [List.mem_cons, List.not_mem_nil, or_false] at hM
    rcases hM with rfl | rfl
    · exact h1 t
    · exact h2 t)
  exact ⟨_, r, hr, rfl⟩

end
end Imodal
