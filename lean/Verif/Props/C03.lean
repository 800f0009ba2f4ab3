import Verif.Props.C02
import Mathlib.Algebra.Group.Defs
/-!
# C03  Arithmetic on manifold tensors is tensorwise
-/
set_option autoImplicit false
namespace Imodal

variable {α : Type}

theorem zipWith_flatten {β γ δ : Type} (g : β → γ → δ) (a : Nat → List β) (b : Nat → List γ) :
    ∀ ids : List Nat, (∀ i ∈ ids, (a i).length = (b i).length) →
    (ids.map (fun i => List.zipWith g (a i) (b i))).flatten
      = List.zipWith g ((ids.map a).flatten) ((ids.map b).flatten)
  | [], _ => by simp
  | i :: ids, h => by
    simp only [List.map_cons, List.flatten_cons]
    rw [List.zipWith_append (h i (by simp)), zipWith_flatten g a b ids (fun j hj => h j (by simp [hj]))]

/-- `add_gd`, `add_tan`, `add_cotan` with tensors `c i` for each object: succeeds, the new
values are the tensorwise sums in order, every other family and every other manifold
object keeps its tensors, and no existing tensor is written. -/
theorem C03_add [Add α] (w : World α) (hv : w.Valid) (f : Fam) (m : Man) (hn : m.ids.Nodup)
    (c : Nat → List Ref) (hr : Ready w c m.ids)
    (hlen : ∀ i ∈ m.ids, (w.held f i).length = (c i).length) :
    ∃ w', Man.add f m (m.arg c) w = (.ok (), w') ∧ w'.Valid ∧
      m.values w' f = List.zipWith addO (m.values w f) (((m.ids.map c).flatten).map w.read) ∧
      (∀ g i, i ∉ m.ids ∨ g ≠ f → w'.held g i = w.held g i) ∧
      (∀ r, r < w.objs.length → w'.read r = w.read r) := by
  obtain ⟨w', h, hR⟩ := Man.add_renewed (f := f) (c := c) m w hv hn hr
  refine ⟨w', h, hR.valid, ?_, fun g i hi => hR.held_eq hi, fun r hr => hR.ext.read_eq hv hr⟩
  rw [Man.values_eq, Man.values_eq, List.map_flatten, List.map_map]
  have : m.ids.map (w'.heldVals f)
      = m.ids.map (fun i => List.zipWith addO (w.heldVals f i) (w.valuesOf c i)) := by
    apply List.map_congr_left
    intro i hi
    obtain ⟨l, hl, _⟩ := hr i hi
    exact hR.heldVals_new hl hi
  rw [this, zipWith_flatten addO (w.heldVals f) (w.valuesOf c) m.ids
    (fun i hi => by simp [World.heldVals, World.valuesOf, hlen i hi])]
  rfl

/-- `negate_*`: succeeds, negates every tensor, leaves the rest alone. -/
theorem C03_negate [Neg α] (w : World α) (hv : w.Valid) (f : Fam) (m : Man) (hn : m.ids.Nodup)
    (hex : ∀ i ∈ m.ids, ∃ l, w.leaves[i]? = some l) :
    ∃ w', Man.negate f m w = (.ok (), w') ∧ w'.Valid ∧
      m.values w' f = (m.values w f).map (Option.map (fun x => -x)) ∧
      (∀ i ∈ m.ids, ∃ l, w'.leaves[i]? = some l) ∧
      (∀ g i, i ∉ m.ids ∨ g ≠ f → w'.held g i = w.held g i) ∧
      (∀ r, r < w.objs.length → w'.read r = w.read r) := by
  obtain ⟨w', h, hR⟩ := Man.negate_renewed (f := f) m w hv hn hex
  refine ⟨w', h, hR.valid, ?_, ?_, fun g i hi => hR.held_eq hi, fun r hr => hR.ext.read_eq hv hr⟩
  · rw [Man.values_eq, Man.values_eq, List.map_flatten, List.map_map]
    congr 1
    apply List.map_congr_left
    intro i hi
    obtain ⟨l, hl⟩ := hex i hi
    exact hR.heldVals_new hl hi
  · intro i hi
    obtain ⟨l, hl⟩ := hex i hi
    obtain ⟨l', hl', _⟩ := hR.lsome i l hl
    exact ⟨l', hl'⟩

/-- Negating twice restores all values. -/
theorem C03_negate_involutive [InvolutiveNeg α] (w : World α) (hv : w.Valid) (f : Fam) (m : Man)
    (hn : m.ids.Nodup) (hex : ∀ i ∈ m.ids, ∃ l, w.leaves[i]? = some l) :
    ∃ w', (do Man.negate f m; Man.negate f m : PM α Unit) w = (.ok (), w') ∧
      m.values w' f = m.values w f := by
  obtain ⟨w₁, h₁, hv₁, hval₁, hex₁, _⟩ := C03_negate w hv f m hn hex
  obtain ⟨w₂, h₂, _, hval₂, _⟩ := C03_negate w₁ hv₁ f m hn hex₁
  refine ⟨w₂, by simp [Prog.bind_run, h₁, h₂], ?_⟩
  rw [hval₂, hval₁, List.map_map]
  have : (Option.map (fun x : α => -x)) ∘ (Option.map (fun x : α => -x)) = id := by
    funext o; cases o <;> simp
  simp [this]

theorem zipWith_addO_cancel [AddGroup α] : ∀ (xs ys : List (Option α)), xs.length = ys.length →
    (∀ y ∈ ys, y ≠ none) →
    List.zipWith addO (List.zipWith addO xs ys) (ys.map (Option.map (fun y => -y))) = xs
  | [], [], _, _ => rfl
  | [], _ :: _, h, _ => by simp at h
  | _ :: _, [], h, _ => by simp at h
  | x :: xs, y :: ys, h, hy => by
    simp only [List.length_cons, Nat.add_right_cancel_iff] at h
    have ih := zipWith_addO_cancel xs ys h (fun z hz => hy z (by simp [hz]))
    simp only [List.zipWith_cons_cons, List.map_cons, ih, List.cons.injEq, and_true]
    cases hy' : y with
    | none => exact absurd hy' (hy y (by simp))
    | some y' => cases x <;> simp [addO]

/-- Adding tensors `c` and then tensors `c'` that are their negatives restores all
values. -/
theorem C03_add_cancel [AddGroup α] (w : World α) (hv : w.Valid) (f : Fam) (m : Man)
    (hn : m.ids.Nodup) (c c' : Nat → List Ref) (hr : Ready w c m.ids) (hr' : Ready w c' m.ids)
    (hlen : ∀ i ∈ m.ids, (w.held f i).length = (c i).length)
    (hneg : ∀ i ∈ m.ids, (c' i).map w.read = ((c i).map w.read).map (Option.map (fun x => -x))) :
    ∃ w', (do Man.add f m (m.arg c); Man.add f m (m.arg c') : PM α Unit) w = (.ok (), w') ∧
      m.values w' f = m.values w f := by
  obtain ⟨w₁, h₁, hR₁⟩ := Man.add_renewed (f := f) (c := c) m w hv hn hr
  obtain ⟨w₂, h₂, hR₂⟩ := Man.add_renewed (f := f) (c := c') m w₁ hR₁.valid hn (hR₁.ready hr')
  refine ⟨w₂, by simp [Prog.bind_run, h₁, h₂], ?_⟩
  rw [Man.values_eq, Man.values_eq]
  congr 1
  apply List.map_congr_left
  intro i hi
  obtain ⟨l, hl, _, _, hk⟩ := hr i hi
  obtain ⟨l₁, hl₁, _⟩ := hR₁.lsome i l hl
  rw [hR₂.heldVals_new hl₁ hi, hR₁.heldVals_new hl hi, hR₁.valuesOf_eq hv hr' hi]
  unfold World.valuesOf
  rw [hneg i hi]
  apply zipWith_addO_cancel
  · simp [World.heldVals, hlen i hi]
  · intro y hy
    obtain ⟨r, hr, rfl⟩ := List.mem_map.1 hy
    obtain ⟨_, v, _, hv'⟩ := hv.read_lt (hk.lt hr)
    simp [hv']

/-- Any history of `add_*` and `negate_*` operations on one family of a tree. -/
inductive ArithOp
  | add (c : Nat → List Ref)
  | negate

def ArithOp.run [Add α] [Neg α] (f : Fam) (m : Man) : ArithOp → PM α Unit
  | .add c => Man.add f m (m.arg c)
  | .negate => Man.negate f m

def ArithOp.runAll [Add α] [Neg α] (f : Fam) (m : Man) : List ArithOp → PM α Unit
  | [] => pure ()
  | op :: ops => do
    op.run f m
    ArithOp.runAll f m ops

/-- The value list after a history, computed from values alone (`vals` gives the contents
of the argument tensors). -/
def ArithOp.evalAll [Add α] [Neg α] (ids : List Nat) (vals : (Nat → List Ref) → Nat → List (Option α)) :
    List ArithOp → (Nat → List (Option α)) → List (Option α)
  | [], v => (ids.map v).flatten
  | .add c :: ops, v => evalAll ids vals ops (fun i => List.zipWith addO (v i) (vals c i))
  | .negate :: ops, v => evalAll ids vals ops (fun i => (v i).map (Option.map (fun x => -x)))

theorem evalAll_congr [Add α] [Neg α] (ids : List Nat)
    (vals vals' : (Nat → List Ref) → Nat → List (Option α)) :
    ∀ (ops : List ArithOp) (v v' : Nat → List (Option α)), (∀ i ∈ ids, v i = v' i) →
      (∀ c, .add c ∈ ops → ∀ i ∈ ids, vals c i = vals' c i) →
      ArithOp.evalAll ids vals ops v = ArithOp.evalAll ids vals' ops v'
  | [], v, v', h, _ => by
    unfold ArithOp.evalAll; congr 1; exact List.map_congr_left h
  | .add c :: ops, v, v', h, hc => by
    unfold ArithOp.evalAll
    exact evalAll_congr ids vals vals' ops _ _ (fun i hi => by rw [h i hi, hc c (by simp) i hi])
      (fun c' hc' => hc c' (by simp [hc']))
  | .negate :: ops, v, v', h, hc => by
    unfold ArithOp.evalAll
    exact evalAll_congr ids vals vals' ops _ _ (fun i hi => by rw [h i hi])
      (fun c' hc' => hc c' (by simp [hc']))

/-- After any history of additions and negations the values are those computed tensor by
tensor from the contents at the start, and nothing else changed: other families and other
manifold objects hold the same tensors, and no tensor existing at the start was written. -/
theorem C03_history [Add α] [Neg α] (f : Fam) (m : Man) (hn : m.ids.Nodup) :
    ∀ (ops : List ArithOp) (w : World α), w.Valid → (∀ i ∈ m.ids, ∃ l, w.leaves[i]? = some l) →
    (∀ c, ArithOp.add c ∈ ops → Ready w c m.ids) →
    ∃ w', ArithOp.runAll f m ops w = (.ok (), w') ∧
      m.values w' f = ArithOp.evalAll m.ids (fun c i => (c i).map w.read) ops (w.heldVals f) ∧
      (∀ g i, i ∉ m.ids ∨ g ≠ f → w'.held g i = w.held g i) ∧
      (∀ r, r < w.objs.length → w'.read r = w.read r)
  | [], w, hv, _, _ =>
    ⟨w, rfl, Man.values_eq w f m, fun _ _ _ => rfl, fun _ _ => rfl⟩
  | op :: ops, w, hv, hex, hrd => by
    have key : ∃ w₁ vs, op.run f m w = (.ok (), w₁) ∧ Renewed vs f m.ids w w₁ ∧
        ArithOp.evalAll m.ids (fun c i => (c i).map w.read) (op :: ops) (w.heldVals f)
          = ArithOp.evalAll m.ids (fun c i => (c i).map w.read) ops vs := by
      cases op with
      | add c =>
        obtain ⟨w₁, h₁, hR⟩ := Man.add_renewed (f := f) (c := c) m w hv hn (hrd c (by simp))
        exact ⟨w₁, _, h₁, hR, rfl⟩
      | negate =>
        obtain ⟨w₁, h₁, hR⟩ := Man.negate_renewed (f := f) m w hv hn hex
        exact ⟨w₁, _, h₁, hR, rfl⟩
    obtain ⟨w₁, vs, h₁, hR, hev⟩ := key
    obtain ⟨w', h', hval', hoth', hrd'⟩ := C03_history f m hn ops w₁ hR.valid
      (fun i hi => by
        obtain ⟨l, hl⟩ := hex i hi
        obtain ⟨l', hl', _⟩ := hR.lsome i l hl
        exact ⟨l', hl'⟩)
      (fun c hc => hR.ready (hrd c (by simp [hc])))
    refine ⟨w', by simp [ArithOp.runAll, Prog.bind_run, h₁, h'], ?_, ?_, ?_⟩
    · rw [hval', hev]
      apply evalAll_congr
      · intro i hi
        obtain ⟨l, hl⟩ := hex i hi
        exact hR.heldVals_new hl hi
      · intro c hc i hi
        exact hR.valuesOf_eq hv (hrd c (by simp [hc])) hi
    · intro g i hgi
      rw [hoth' g i hgi, hR.held_eq hgi]
    · intro r hr
      rw [hrd' r (hR.ext.lt hr), hR.ext.read_eq hv hr]

/-! Non-vacuity: the tree of C01, adding the tangents to the descriptors and negating. -/
example : exWorld.Valid ∧ exMan.ids.Nodup ∧ Ready exWorld (exWorld.held .tan) exMan.ids ∧
    (∀ i ∈ exMan.ids, (exWorld.held .gd i).length = (exWorld.held .tan i).length) ∧
    (∀ i ∈ exMan.ids, ∃ l, exWorld.leaves[i]? = some l) := by
  refine ⟨exWorld_valid, by decide, ?_, ?_, ?_⟩
  · intro i hi
    rw [exMan_ids] at hi
    fin_cases hi
    all_goals
      refine ⟨_, rfl, fun g => by cases g <;> rfl, by decide, "cpu", "float32", ?_⟩
      intro r hr
      fin_cases hr <;> exact ⟨_, rfl, rfl, rfl⟩
  · rw [exMan_ids]; decide
  · intro i hi
    rw [exMan_ids] at hi
    fin_cases hi <;> exact ⟨_, rfl⟩

end Imodal
