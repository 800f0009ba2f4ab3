import Verif.Model.AttachLife
import Mathlib.Tactic.Ring
import Mathlib.Tactic.Linarith
/-!
# C124: an attachment answers the same whenever it is asked

An attachment is called at every evaluation of a model. With a container of widths, and shapes
stored in one way, every answer is the one that a fresh attachment would give, whatever was asked
before. Widths (or members of a compound) given as an iterator are used up by the first call: from
then on the attachment answers zero. The KeOps attachment for surfaces keeps the tensor made for
the storage of its first call and hands it over with points that are stored otherwise.
-/
set_option autoImplicit false
namespace Imodal
noncomputable section

/-- What the calls so far may have done to an attachment `o₀` used with shapes stored as `k`. -/
structure VarSame (k : Storage) (o₀ o : VarObj) : Prop where
  cls : o.cls = o₀.cls
  weight : o.weight = o₀.weight
  sigmas : o.sigmas = o₀.sigmas
  kernel : ∀ g, o.kernel = some g → g = decide (k.device ≠ "cpu")
  scales : ∀ p ∈ o.scales, p.2 = k

theorem scaleOf_mem {σ : ℝ} {l : List (ℝ × Storage)} {s : Storage} (h : scaleOf σ l = some s) : (σ, s) ∈ l := by
  induction l with
  | nil => cases h
  | cons p l ih =>
    obtain ⟨τ, q⟩ := p
    unfold scaleOf at h
    split at h
    · rename_i e
      cases h; subst e; exact List.mem_cons_self
    · exact List.mem_cons_of_mem _ (ih h)

theorem scaleOf_append {σ : ℝ} {l m : List (ℝ × Storage)} {s : Storage} (h : scaleOf σ l = some s) : scaleOf σ (l ++ m) = some s := by
  induction l with
  | nil => cases h
  | cons p l ih =>
    obtain ⟨τ, q⟩ := p
    simp only [List.cons_append]
    unfold scaleOf at h ⊢
    split at h
    · rename_i e; simpa [e] using h
    · rename_i e; simpa [e] using ih h

theorem scaleOf_new {σ : ℝ} {l : List (ℝ × Storage)} {s : Storage} (h : scaleOf σ l = none) : scaleOf σ (l ++ [(σ, s)]) = some s := by
  induction l with
  | nil => simp [scaleOf]
  | cons p l ih =>
    obtain ⟨τ, q⟩ := p
    simp only [List.cons_append]
    unfold scaleOf at h ⊢
    split at h
    · cases h
    · rename_i e; simpa [e] using ih h

theorem prepare_same {k : Storage} {σ : ℝ} {o₀ o : VarObj} (h : VarSame k o₀ o) :
    ∃ o', VarObj.prepare k σ o = (.ok (k, decide (k.device ≠ "cpu")), o') ∧ VarSame k o₀ o' := by
  obtain ⟨h1, h2, h3, h4, h5⟩ := h
  have hg : o.onGpu k = decide (k.device ≠ "cpu") := by
    unfold VarObj.onGpu
    cases e : o.kernel with
    | none => rfl
    | some g => exact h4 g e
  unfold VarObj.prepare
  simp only [hg]
  cases e : scaleOf σ o.scales with
  | some s =>
    have hs : s = k := h5 _ (scaleOf_mem e)
    subst hs
    refine ⟨_, rfl, h1, h2, h3, ?_, h5⟩
    intro g hg'
    simpa using hg'.symm
  | none =>
    refine ⟨_, rfl, h1, h2, h3, ?_, ?_⟩
    · intro g hg'
      simpa using hg'.symm
    · intro p hp
      rcases List.mem_append.1 hp with hp | hp
      · exact h5 p hp
      · rw [List.mem_singleton] at hp
        rw [hp]

theorem cost_same {k : Storage} {s t : VShape} {σ : ℝ} {o₀ o : VarObj} (h : VarSame k o₀ o) :
    ∃ o', VarObj.cost k s t σ o = (o₀.cls.cost s t σ, o') ∧ VarSame k o₀ o' := by
  unfold VarObj.cost
  rw [h.cls]
  cases o₀.cls.cost s t σ with
  | error e => exact ⟨o, rfl, h⟩
  | ok v =>
    dsimp only
    split
    · obtain ⟨o', e, h'⟩ := prepare_same (σ := σ) h
      rw [e]
      exact ⟨o', by simp, h'⟩
    · exact ⟨o, rfl, h⟩

theorem costs_same {k : Storage} {s t : VShape} {o₀ : VarObj} {m : List ℝ} (hm : o₀.sigmas = .container m) (l : List ℝ) :
    ∀ {o : VarObj}, VarSame k o₀ o →
      ∃ o', VarObj.costs k s t l o = (l.mapM (o₀.cls.cost s t), o') ∧ VarSame k o₀ o' := by
  induction l with
  | nil => intro o h; exact ⟨o, rfl, h⟩
  | cons σ l ih =>
    intro o h
    have h0 : ({ o with sigmas := o.sigmas.taken 1 } : VarObj) = o := by
      have : o.sigmas = .container m := by rw [h.sigmas, hm]
      cases o; cases this; rfl
    obtain ⟨o1, e1, h1⟩ := cost_same (s := s) (t := t) (σ := σ) h
    obtain ⟨o2, e2, h2⟩ := ih h1
    unfold VarObj.costs
    rw [Prog.bind_run_ok (Prog.modify_run _ _), h0, List.mapM_cons]
    cases hc : o₀.cls.cost s t σ with
    | error e =>
      rw [hc] at e1
      exact ⟨o1, Prog.bind_run_error e1, h1⟩
    | ok v =>
      rw [hc] at e1
      rw [Prog.bind_run_ok e1]
      cases hl : l.mapM (o₀.cls.cost s t) with
      | error e =>
        rw [hl] at e2
        exact ⟨o2, Prog.bind_run_error e2, h2⟩
      | ok vs =>
        rw [hl] at e2
        exact ⟨o2, Prog.bind_run_ok e2, h2⟩

theorem call_same {k : Storage} {s t : VShape} {o₀ o : VarObj} {m : List ℝ} (hm : o₀.sigmas = .container m) (h : VarSame k o₀ o) :
    ∃ o', VarObj.call k s t o = ((o₀.cls.loss m s t).map fun v => v.map fun x => o₀.weight * x, o') ∧ VarSame k o₀ o' := by
  have hs : o.sigmas.items = m := by rw [h.sigmas, hm]; rfl
  obtain ⟨o', e, h'⟩ := costs_same (s := s) (t := t) hm m h
  refine ⟨o', ?_, h'⟩
  have hl : VarObj.loss k s t o = (o₀.cls.loss m s t, o') := by
    unfold VarObj.loss VarifoldClass.loss
    rw [Prog.bind_run_ok (Prog.get_run _), hs]
    cases hc : m.mapM (o₀.cls.cost s t) with
    | error e' => rw [hc] at e; exact Prog.bind_run_error e
    | ok vs => rw [hc] at e; exact Prog.bind_run_ok e
  unfold VarObj.call
  cases hc : o₀.cls.loss m s t with
  | error e' => rw [hc] at hl; exact Prog.bind_run_error hl
  | ok v =>
    rw [hc] at hl
    rw [Prog.bind_run_ok hl, Prog.bind_run_ok (Prog.get_run _), h'.weight]
    rfl

theorem session_same {k : Storage} {o₀ : VarObj} {m : List ℝ} (hm : o₀.sigmas = .container m) (calls : List VarCall)
    (hk : ∀ c ∈ calls, c.storage = k) :
    ∀ {o : VarObj}, VarSame k o₀ o →
      (VarObj.session calls o).1 = calls.map (fun c => (o₀.cls.loss m c.source c.target).map fun v => v.map fun x => o₀.weight * x)
      ∧ VarSame k o₀ (VarObj.session calls o).2 := by
  induction calls with
  | nil => intro o h; exact ⟨rfl, h⟩
  | cons c l ih =>
    intro o h
    obtain ⟨o', e, h'⟩ := call_same (s := c.source) (t := c.target) hm h
    have hc := hk c List.mem_cons_self
    obtain ⟨i1, i2⟩ := ih (fun x hx => hk x (List.mem_cons_of_mem _ hx)) h'
    unfold VarObj.session
    rw [hc, e]
    exact ⟨by simp [i1], i2⟩

theorem build_same {dim : Int} {i : Iter ℝ} {w : ℝ} {b : Option String} {v : BackendVar} {o : VarObj}
    (h : VarObj.build dim (.iterable i) w b v = .ok o) :
    ∃ c, varifoldAttachment dim b v = .ok c ∧ o = ⟨c, w, i, none, []⟩ := by
  unfold VarObj.build at h
  cases e : varifoldAttachment dim b v with
  | error e' => rw [e] at h; cases h
  | ok c => rw [e] at h; cases h; exact ⟨c, rfl, rfl⟩

theorem fresh_same (k : Storage) (c : VarifoldClass) (w : ℝ) (i : Iter ℝ) : VarSame k ⟨c, w, i, none, []⟩ ⟨c, w, i, none, []⟩ :=
  ⟨rfl, rfl, rfl, fun _ h => (by cases h), fun _ h => (by cases h)⟩

/-- (Full statement: every iterable, every storage. Missing: iterators and, with KeOps, storages that
change, where it is false.) An attachment with a container of widths, called any number of times with shapes stored in one
way: every answer is the one the attachment gives when it is asked this first, the calls that raise
included; and `sigmas` is still what it was given. -/
theorem C124_partial {dim : Int} {widths : List ℝ} {w : ℝ} {backend : Option String} {v : BackendVar} {o : VarObj}
    (hb : VarObj.build dim (.iterable (.container widths)) w backend v = .ok o)
    {k : Storage} (calls : List VarCall) (hk : ∀ c ∈ calls, c.storage = k) :
    (VarObj.session calls o).1 = calls.map (fun c => (VarObj.call c.storage c.source c.target o).1)
    ∧ (VarObj.session calls o).2.getSigmas = .container widths := by
  obtain ⟨c, _, rfl⟩ := build_same hb
  obtain ⟨h1, h2⟩ := session_same (o₀ := ⟨c, w, .container widths, none, []⟩) rfl calls hk (fresh_same k c w _)
  refine ⟨?_, h2.sigmas⟩
  rw [h1]
  refine List.map_congr_left fun x hx => ?_
  obtain ⟨o', e, _⟩ := call_same (o₀ := ⟨c, w, .container widths, none, []⟩) (s := x.source) (t := x.target) rfl (fresh_same x.storage c w _)
  rw [e]

/-- The answer itself: weight times the sum over the widths of what attachments of weight one with
this single width answer, when all of these are numbers. -/
theorem C124_sum {dim : Int} {widths : List ℝ} {w : ℝ} {backend : Option String} {v : BackendVar} {o : VarObj}
    (hb : VarObj.build dim (.iterable (.container widths)) w backend v = .ok o)
    (k : Storage) (s t : VShape) (value : ℝ → ℝ)
    (hv : ∀ σ ∈ widths, ∃ o₁, VarObj.build dim (.iterable (.container [σ])) 1 backend v = .ok o₁
      ∧ (VarObj.call k s t o₁).1 = .ok (some (value σ))) :
    (VarObj.call k s t o).1 = .ok (some (w * (widths.map value).sum)) := by
  obtain ⟨c, hc, rfl⟩ := build_same hb
  obtain ⟨o', e, _⟩ := call_same (o₀ := ⟨c, w, .container widths, none, []⟩) (s := s) (t := t) rfl (fresh_same k c w _)
  rw [e]
  have h1 : ∀ σ ∈ widths, c.cost s t σ = .ok (some (value σ)) := by
    intro σ hσ
    obtain ⟨o₁, b1, c1⟩ := hv σ hσ
    obtain ⟨c', hc', rfl⟩ := build_same b1
    obtain ⟨o2, e2, _⟩ := call_same (o₀ := ⟨c', 1, .container [σ], none, []⟩) (s := s) (t := t) rfl (fresh_same k c' 1 _)
    rw [e2] at c1
    have : c' = c := by rw [hc] at hc'; cases hc'; rfl
    subst this
    unfold VarifoldClass.loss at c1
    rw [List.mapM_cons, List.mapM_nil] at c1
    cases hx : c'.cost s t σ with
    | error e3 => simp only [hx] at c1; cases c1
    | ok x =>
      simp only [hx] at c1
      cases x with
      | none => cases c1
      | some x =>
        have c2 : some (1 * (x + 0)) = some (value σ) := Except.ok.inj c1
        have c3 := Option.some.inj c2
        rw [one_mul, add_zero] at c3
        rw [c3]
  have h2 : ∀ l : List ℝ, (∀ σ ∈ l, c.cost s t σ = .ok (some (value σ))) →
      c.loss l s t = .ok (some (l.map value).sum) := by
    intro l
    induction l with
    | nil => intro _; rfl
    | cons σ l ih =>
      intro hl
      have hi := ih fun x hx => hl x (List.mem_cons_of_mem _ hx)
      unfold VarifoldClass.loss at hi ⊢
      rw [List.mapM_cons, hl σ List.mem_cons_self]
      cases hm : l.mapM (c.cost s t) with
      | error e3 => rw [hm] at hi; cases hi
      | ok vs =>
        rw [hm] at hi
        have hi' : nsum vs = some (l.map value).sum := Except.ok.inj hi
        change Except.ok (nadd (some (value σ)) (nsum vs)) = _
        rw [hi']
        simp [nadd]
  rw [h2 widths h1]
  rfl

/-- With the torch backend the shapes may be stored differently from call to call. -/
theorem C124_torch {dim : Int} {widths : List ℝ} {w : ℝ} {v : BackendVar} {o : VarObj}
    (hb : VarObj.build dim (.iterable (.container widths)) w (some "torch") v = .ok o) (calls : List VarCall) :
    (VarObj.session calls o).1 = calls.map (fun c => (VarObj.call c.storage c.source c.target o).1)
    ∧ (VarObj.session calls o).2.getSigmas = .container widths := by
  obtain ⟨c, hc, rfl⟩ := build_same hb
  have hne : c ≠ .d3 .keops := by
    rintro rfl
    unfold varifoldAttachment at hc
    simp only [if_true] at hc
    split at hc
    · cases hc
    · split at hc <;> cases hc
  have key : ∀ (l : List ℝ) (k : Storage) (s t : VShape),
      (VarObj.costs k s t l ⟨c, w, .container widths, none, []⟩).2 = ⟨c, w, .container widths, none, []⟩ := by
    intro l k s t
    induction l with
    | nil => rfl
    | cons σ l ih =>
      unfold VarObj.costs
      rw [Prog.bind_run_ok (Prog.modify_run _ _)]
      have e1 : VarObj.cost k s t σ ⟨c, w, .container widths, none, []⟩ = (c.cost s t σ, ⟨c, w, .container widths, none, []⟩) := by
        unfold VarObj.cost
        cases hx : c.cost s t σ with
        | error e => simp [hx]
        | ok x => simp [hx, hne]
      have e0 : ({ (⟨c, w, .container widths, none, []⟩ : VarObj) with sigmas := (Iter.container widths).taken 1 } : VarObj) = ⟨c, w, .container widths, none, []⟩ := rfl
      rw [Prog.bind_run, e0, e1]
      cases c.cost s t σ with
      | error e => rfl
      | ok x =>
        dsimp only
        rw [Prog.bind_run]
        cases hy : VarObj.costs k s t l ⟨c, w, .container widths, none, []⟩ with
        | mk a b =>
          rw [hy] at ih
          subst ih
          cases a <;> rfl
  have keep : ∀ (k : Storage) (s t : VShape),
      (VarObj.call k s t ⟨c, w, .container widths, none, []⟩).2 = ⟨c, w, .container widths, none, []⟩ := by
    intro k s t
    have h := key widths k s t
    unfold VarObj.call VarObj.loss
    simp only [Prog.bind_run, Prog.get_run, Iter.items]
    cases hy : VarObj.costs k s t widths ⟨c, w, .container widths, none, []⟩ with
    | mk a b =>
      rw [hy] at h
      subst h
      cases a <;> rfl
  induction calls with
  | nil => exact ⟨rfl, rfl⟩
  | cons x l ih =>
    unfold VarObj.session
    dsimp only
    rw [keep x.storage x.source x.target]
    exact ⟨by simp [ih.1], ih.2⟩

/-! ## Iterators -/

theorem costs_once {k : Storage} {s t : VShape} {c : VarifoldClass} {w : ℝ} (l : List ℝ) :
    ∀ {o o' : VarObj} {vs : List (Option ℝ)}, o.weight = w → o.sigmas = .once l → VarObj.costs k s t l o = (.ok vs, o') →
      o'.weight = w ∧ o'.sigmas = .once [] := by
  induction l with
  | nil => intro o o' vs hw ho h; cases h; exact ⟨hw, ho⟩
  | cons σ l ih =>
    intro o o' vs hw ho h
    unfold VarObj.costs at h
    rw [Prog.bind_run_ok (Prog.modify_run _ _)] at h
    have hkeep : ∀ p : VarObj, ((VarObj.cost k s t σ p).2.weight = p.weight) ∧ ((VarObj.cost k s t σ p).2.sigmas = p.sigmas) := by
      intro p
      unfold VarObj.cost
      cases p.cls.cost s t σ with
      | error e => exact ⟨rfl, rfl⟩
      | ok x =>
        dsimp only
        split
        · unfold VarObj.prepare
          cases scaleOf σ p.scales with
          | none => dsimp only; split <;> exact ⟨rfl, rfl⟩
          | some q => dsimp only; split <;> exact ⟨rfl, rfl⟩
        · exact ⟨rfl, rfl⟩
    obtain ⟨k1, k2⟩ := hkeep { o with sigmas := o.sigmas.taken 1 }
    rw [Prog.bind_run] at h
    cases hq : VarObj.cost k s t σ { o with sigmas := o.sigmas.taken 1 } with
    | mk a o1 =>
      rw [hq] at h k1 k2
      cases a with
      | error e => cases h
      | ok x =>
        dsimp only at h k1 k2
        rw [Prog.bind_run] at h
        cases hr : VarObj.costs k s t l o1 with
        | mk b o2 =>
          rw [hr] at h
          cases b with
          | error e => cases h
          | ok ys =>
            cases h
            refine ih (k1.trans hw) ?_ hr
            rw [k2, ho]; rfl

theorem call_empty {k : Storage} {s t : VShape} {o : VarObj} (h : o.sigmas = .once []) : VarObj.call k s t o = (.ok (some 0), o) := by
  unfold VarObj.call VarObj.loss
  simp only [Prog.bind_run, Prog.get_run, h, Iter.items, VarObj.costs, Prog.pure_run, nsum, Option.map_some, mul_zero]

/-- Widths given as an iterator serve one call: the first answer, when it is one, is right, and all
later answers are zero, whatever the shapes and however they are stored. -/
theorem C124_iterator_disagreement {dim : Int} {widths : List ℝ} {w : ℝ} {backend : Option String} {v : BackendVar} {o o₁ : VarObj}
    (hb : VarObj.build dim (.iterable (.once widths)) w backend v = .ok o)
    (hl : VarObj.build dim (.iterable (.container widths)) w backend v = .ok o₁)
    {c : VarCall} {x : Option ℝ} (h1 : (VarObj.call c.storage c.source c.target o₁).1 = .ok x) (later : List VarCall) :
    (VarObj.session (c :: later) o).1 = .ok x :: later.map (fun _ => .ok (some 0)) := by
  obtain ⟨q, hq, rfl⟩ := build_same hb
  obtain ⟨q', hq', rfl⟩ := build_same hl
  have : q' = q := by rw [hq] at hq'; cases hq'; rfl
  subst this
  -- both kinds of iterables give the same list of costs
  have key : ∀ (l : List ℝ) (o p : VarObj), o.cls = p.cls → o.weight = p.weight → o.kernel = p.kernel → o.scales = p.scales →
      (VarObj.costs c.storage c.source c.target l o).1 = (VarObj.costs c.storage c.source c.target l p).1
      ∧ (VarObj.costs c.storage c.source c.target l o).2.weight = (VarObj.costs c.storage c.source c.target l p).2.weight := by
    intro l
    induction l with
    | nil => intro o p _ hw _ _; exact ⟨rfl, hw⟩
    | cons σ l ih =>
      intro o p hc hw hk hs
      unfold VarObj.costs
      rw [Prog.bind_run_ok (Prog.modify_run _ _), Prog.bind_run_ok (Prog.modify_run _ _)]
      have hcost : ∀ a b : VarObj, a.cls = b.cls → a.weight = b.weight → a.kernel = b.kernel → a.scales = b.scales →
          (VarObj.cost c.storage c.source c.target σ a).1 = (VarObj.cost c.storage c.source c.target σ b).1
          ∧ (VarObj.cost c.storage c.source c.target σ a).2.cls = (VarObj.cost c.storage c.source c.target σ b).2.cls
          ∧ (VarObj.cost c.storage c.source c.target σ a).2.weight = (VarObj.cost c.storage c.source c.target σ b).2.weight
          ∧ (VarObj.cost c.storage c.source c.target σ a).2.kernel = (VarObj.cost c.storage c.source c.target σ b).2.kernel
          ∧ (VarObj.cost c.storage c.source c.target σ a).2.scales = (VarObj.cost c.storage c.source c.target σ b).2.scales := by
        intro a b e1 e2 e3 e4
        obtain ⟨a1, a2, a3, a4, a5⟩ := a
        obtain ⟨b1, b2, b3, b4, b5⟩ := b
        dsimp only at e1 e2 e3 e4
        subst e1 e2 e3 e4
        unfold VarObj.cost
        dsimp only
        cases a1.cost c.source c.target σ with
        | error e => exact ⟨rfl, rfl, rfl, rfl, rfl⟩
        | ok x =>
          dsimp only
          split
          · have hg : VarObj.onGpu c.storage ⟨a1, a2, a3, a4, a5⟩ = VarObj.onGpu c.storage ⟨a1, a2, b3, a4, a5⟩ := rfl
            unfold VarObj.prepare
            dsimp only
            rw [hg]
            cases scaleOf σ a5 with
            | none => dsimp only; split <;> exact ⟨rfl, rfl, rfl, rfl, rfl⟩
            | some q => dsimp only; split <;> exact ⟨rfl, rfl, rfl, rfl, rfl⟩
          · exact ⟨rfl, rfl, rfl, rfl, rfl⟩
      obtain ⟨f1, f2, f3, f4, f5⟩ := hcost { o with sigmas := o.sigmas.taken 1 } { p with sigmas := p.sigmas.taken 1 } hc hw hk hs
      rw [Prog.bind_run, Prog.bind_run]
      cases ha : VarObj.cost c.storage c.source c.target σ { o with sigmas := o.sigmas.taken 1 } with
      | mk a1 a2 =>
        cases hb : VarObj.cost c.storage c.source c.target σ { p with sigmas := p.sigmas.taken 1 } with
        | mk b1 b2 =>
          rw [ha, hb] at f1 f2 f3 f4 f5
          dsimp only at f1 f2 f3 f4 f5
          subst f1
          cases a1 with
          | error e => exact ⟨rfl, f3⟩
          | ok x =>
            obtain ⟨g1, g2⟩ := ih a2 b2 f2 f3 f4 f5
            dsimp only
            rw [Prog.bind_run, Prog.bind_run]
            cases hy : VarObj.costs c.storage c.source c.target l a2 with
            | mk y1 y2 =>
              cases hz : VarObj.costs c.storage c.source c.target l b2 with
              | mk z1 z2 =>
                rw [hy, hz] at g1 g2
                dsimp only at g1 g2
                subst g1
                cases y1 with
                | error e => exact ⟨rfl, g2⟩
                | ok ys => exact ⟨rfl, g2⟩
  obtain ⟨k1, k2⟩ := key widths ⟨q', w, .once widths, none, []⟩ ⟨q', w, .container widths, none, []⟩ rfl rfl rfl rfl
  have hcall : ∃ o2, VarObj.call c.storage c.source c.target ⟨q', w, .once widths, none, []⟩ = (.ok x, o2) ∧ o2.sigmas = .once [] := by
    unfold VarObj.call VarObj.loss at h1 ⊢
    simp only [Prog.bind_run, Prog.get_run, Iter.items] at h1 ⊢
    cases ha : VarObj.costs c.storage c.source c.target widths ⟨q', w, .once widths, none, []⟩ with
    | mk a1 a2 =>
      cases hb : VarObj.costs c.storage c.source c.target widths ⟨q', w, .container widths, none, []⟩ with
      | mk b1 b2 =>
        rw [ha, hb] at k1 k2
        rw [hb] at h1
        dsimp only at k1 k2
        subst k1
        cases a1 with
        | error e => cases h1
        | ok ys =>
          refine ⟨a2, ?_, (costs_once (c := q') widths rfl rfl ha).2⟩
          dsimp only [Prog.pure_run] at h1 ⊢
          rw [k2]
          exact Prod.ext h1 rfl
  obtain ⟨o2, e2, s2⟩ := hcall
  have hlater : ∀ l : List VarCall, (VarObj.session l o2).1 = l.map fun _ => .ok (some 0) := by
    intro l
    induction l with
    | nil => rfl
    | cons y l ih =>
      unfold VarObj.session
      rw [call_empty s2]
      simp [ih]
  unfold VarObj.session
  rw [e2]
  simp [hlater later]

/-! ## The KeOps attachment for surfaces -/

/-- Two calls of the KeOps attachment for surfaces with the same width, the first with points stored
as `k`: the second time the routine gets the scale stored as `k`, and the routine chosen for the
device of `k`, whatever the storage of the points. An attachment asked for the first time uses the
storage of the points. -/
theorem C124_storage_disagreement {widths : List ℝ} {w : ℝ} {v : BackendVar} {o : VarObj}
    (hb : VarObj.build 3 (.iterable (.container widths)) w (some "keops") v = .ok o)
    {k : Storage} {s t : VShape} {x : Option ℝ} {o₁ : VarObj} (h1 : VarObj.call k s t o = (.ok x, o₁)) {σ : ℝ} (hσ : σ ∈ widths) (k' : Storage) :
    (VarObj.prepare k' σ o₁).1 = .ok (k, decide (k.device ≠ "cpu"))
    ∧ (VarObj.prepare k' σ o).1 = .ok (k', decide (k'.device ≠ "cpu")) := by
  obtain ⟨c, hc, rfl⟩ := build_same hb
  have hc' : c = .d3 .keops := by
    unfold varifoldAttachment at hc
    simp at hc
    exact hc.symm
  subst hc'
  refine ⟨?_, rfl⟩
  -- the state after the loop knows all widths of the loop
  have key : ∀ (l : List ℝ) (p p' : VarObj) (vs : List (Option ℝ)), VarSame k ⟨.d3 .keops, w, .container widths, none, []⟩ p →
      VarObj.costs k s t l p = (.ok vs, p') →
      (∀ τ, scaleOf τ p.scales = some k ∧ p.kernel.isSome → scaleOf τ p'.scales = some k ∧ p'.kernel.isSome)
      ∧ ∀ τ ∈ l, scaleOf τ p'.scales = some k ∧ p'.kernel.isSome := by
    intro l
    induction l with
    | nil =>
      intro p p' vs _ h
      cases h
      exact ⟨fun _ h => h, fun _ h => by cases h⟩
    | cons τ l ih =>
      intro p p' vs hp h
      have h0 : ({ p with sigmas := p.sigmas.taken 1 } : VarObj) = p := by
        have : p.sigmas = .container widths := hp.sigmas
        cases p; cases this; rfl
      unfold VarObj.costs at h
      rw [Prog.bind_run_ok (Prog.modify_run _ _), h0, Prog.bind_run] at h
      have hstep : ∀ y q, VarObj.cost k s t τ p = (.ok y, q) → VarSame k ⟨.d3 .keops, w, .container widths, none, []⟩ q ∧
          (∀ ρ, scaleOf ρ p.scales = some k ∧ p.kernel.isSome → scaleOf ρ q.scales = some k ∧ q.kernel.isSome)
          ∧ scaleOf τ q.scales = some k ∧ q.kernel.isSome := by
        intro y q hq
        obtain ⟨q', e', s'⟩ := cost_same (s := s) (t := t) (σ := τ) hp
        have : q' = q := by rw [hq] at e'; exact (Prod.ext_iff.1 e').2.symm
        subst this
        refine ⟨s', ?_⟩
        unfold VarObj.cost at hq
        rw [hp.cls] at hq
        cases hx : (VarifoldClass.d3 Reduction.keops).cost s t τ with
        | error e => simp only [hx] at hq; cases hq
        | ok z =>
          simp only [hx, if_true] at hq
          unfold VarObj.prepare at hq
          cases hs : scaleOf τ p.scales with
          | some r =>
            have hr : r = k := hp.scales _ (scaleOf_mem hs)
            subst hr
            simp only [hs] at hq
            split at hq
            · cases hq
              exact ⟨fun ρ h => ⟨h.1, rfl⟩, hs, rfl⟩
            · cases hq
          | none =>
            simp only [hs] at hq
            split at hq
            · cases hq
              exact ⟨fun ρ h => ⟨scaleOf_append h.1, rfl⟩, scaleOf_new hs, rfl⟩
            · cases hq
      cases hq : VarObj.cost k s t τ p with
      | mk a q =>
        rw [hq] at h
        cases a with
        | error e => cases h
        | ok y =>
          obtain ⟨s1, s2, s3⟩ := hstep y q hq
          dsimp only at h
          rw [Prog.bind_run] at h
          cases hr : VarObj.costs k s t l q with
          | mk b q2 =>
            rw [hr] at h
            cases b with
            | error e => cases h
            | ok ys =>
              cases h
              obtain ⟨i1, i2⟩ := ih q _ ys s1 hr
              refine ⟨fun ρ h => i1 ρ (s2 ρ h), ?_⟩
              intro ρ hρ
              rcases List.mem_cons.1 hρ with rfl | hρ
              · exact i1 _ s3
              · exact i2 ρ hρ
  obtain ⟨o', e', hs'⟩ := call_same (o₀ := ⟨.d3 .keops, w, .container widths, none, []⟩) (s := s) (t := t) rfl (fresh_same k _ w _)
  have ho : o' = o₁ := by rw [h1] at e'; exact (Prod.ext_iff.1 e').2.symm
  subst ho
  unfold VarObj.call VarObj.loss at h1
  simp only [Prog.bind_run, Prog.get_run, Iter.items] at h1
  cases ha : VarObj.costs k s t widths ⟨.d3 .keops, w, .container widths, none, []⟩ with
  | mk a p =>
    rw [ha] at h1
    cases a with
    | error e => cases h1
    | ok vs =>
      cases h1
      obtain ⟨_, k2⟩ := key widths _ _ vs (fresh_same k _ w _) ha
      obtain ⟨m1, m2⟩ := k2 σ hσ
      obtain ⟨g, hg⟩ := Option.isSome_iff_exists.1 m2
      have hg' := hs'.kernel g hg
      unfold VarObj.prepare
      simp only [m1, VarObj.onGpu, hg, hg']

/-- The dimension: a number for curves; for surfaces the attribute is a method, not the number 3. -/
theorem C124_dim_disagreement {sigmas : SigmasArg} {w : ℝ} {backend : Option String} {v : BackendVar} {o : VarObj} :
    (VarObj.build 2 sigmas w backend v = .ok o → o.dim = .number 2)
    ∧ (VarObj.build 3 sigmas w backend v = .ok o → o.dim = .method 3 ∧ o.dim ≠ .number 3) := by
  have hcls : ∀ (dim : Int), VarObj.build dim sigmas w backend v = .ok o → varifoldAttachment dim backend v = .ok o.cls := by
    intro dim h
    cases sigmas with
    | iterable i => obtain ⟨c, hc, rfl⟩ := build_same h; exact hc
    | other =>
      unfold VarObj.build at h
      cases e : varifoldAttachment dim backend v with
      | error e' => rw [e] at h; cases h
      | ok c => rw [e] at h; cases h
  constructor
  · intro h
    have := hcls 2 h
    unfold varifoldAttachment at this
    cases backend <;> simp only [if_true] at this <;> split_ifs at this <;>
      (unfold VarObj.dim; rw [← Except.ok.inj this])
  · intro h
    have := hcls 3 h
    unfold varifoldAttachment at this
    cases backend <;> simp only [show ¬ (3 : Int) = 2 by decide, if_false, if_true] at this <;> split_ifs at this <;>
      (unfold VarObj.dim; rw [← Except.ok.inj this]; exact ⟨rfl, by decide⟩)

/-- Something that cannot be iterated over is refused by every class. -/
theorem C124_needs_iterable {dim : Int} {i : Iter ℝ} {w : ℝ} {backend : Option String} {v : BackendVar} {o : VarObj}
    (h : VarObj.build dim (.iterable i) w backend v = .ok o) : VarObj.build dim .other w backend v = .error .assertion := by
  obtain ⟨c, hc, _⟩ := build_same h
  unfold VarObj.build
  rw [hc]
  rfl

/-! ## Compounds -/

section
variable {S T : Type}

theorem losses_run (s : S) (t : T) (i : Iter (S → T → Py ℝ)) (l : List (S → T → Py ℝ)) :
    ∀ (w : ℝ), i = .once l ∨ (∃ m, i = .container m) →
      ((CompAttach.losses s t l ⟨w, i⟩).1 = l.mapM fun f => f s t)
      ∧ ((∃ m, i = .container m) → (CompAttach.losses s t l ⟨w, i⟩).2 = ⟨w, i⟩)
      ∧ (∀ cs, (CompAttach.losses s t l ⟨w, i⟩).1 = .ok cs → i = .once l → (CompAttach.losses s t l ⟨w, i⟩).2 = ⟨w, .once []⟩) := by
  induction l generalizing i with
  | nil =>
    intro w _
    exact ⟨rfl, fun _ => rfl, fun _ _ h => by subst h; rfl⟩
  | cons f l ih =>
    intro w hi
    have hi' : i.taken 1 = .once l ∨ ∃ m, i.taken 1 = .container m := by
      rcases hi with rfl | ⟨m, rfl⟩
      · exact .inl rfl
      · exact .inr ⟨m, rfl⟩
    obtain ⟨h1, h2, h3⟩ := ih (i.taken 1) w hi'
    unfold CompAttach.losses
    rw [Prog.bind_run_ok (Prog.modify_run _ _), List.mapM_cons]
    rw [Prog.bind_run, Prog.lift_run]
    cases f s t with
    | error e =>
      refine ⟨rfl, ?_, fun _ h => by cases h⟩
      rintro ⟨m, rfl⟩
      rfl
    | ok x =>
      dsimp only
      rw [Prog.bind_run]
      cases hy : CompAttach.losses s t l ⟨w, i.taken 1⟩ with
      | mk a b =>
        rw [hy] at h1 h2 h3
        dsimp only at h1 h2 h3
        rw [← h1]
        cases a with
        | error e =>
          refine ⟨rfl, ?_, fun _ h => by cases h⟩
          rintro ⟨m, rfl⟩
          exact h2 ⟨m, rfl⟩
        | ok cs =>
          refine ⟨rfl, ?_, ?_⟩
          · rintro ⟨m, rfl⟩
            exact h2 ⟨m, rfl⟩
          · rintro _ _ rfl
            exact h3 cs rfl rfl

/-- (Full statement: every iterable. Missing: iterators, where it is false.) A compound of a container
of attachments: every answer is the one it gives when asked first. -/
theorem C124_compound_partial (w : ℝ) (members : List (S → T → Py ℝ)) (calls : List (S × T)) :
    (CompAttach.session calls ⟨w, .container members⟩).1 = calls.map (fun c => (CompAttach.call c.1 c.2 ⟨w, .container members⟩).1) := by
  induction calls with
  | nil => rfl
  | cons c l ih =>
    have hk : (CompAttach.call c.1 c.2 ⟨w, .container members⟩).2 = ⟨w, .container members⟩ := by
      have h := (losses_run c.1 c.2 (.container members) members w (.inr ⟨_, rfl⟩)).2.1 ⟨_, rfl⟩
      unfold CompAttach.call
      simp only [Prog.bind_run, Prog.get_run, Iter.items]
      cases hy : CompAttach.losses c.1 c.2 members ⟨w, .container members⟩ with
      | mk a b =>
        rw [hy] at h
        cases a <;> exact h
    unfold CompAttach.session
    dsimp only
    rw [hk]
    simp [ih]

/-- A compound given an iterator of attachments: the first answer, when it is one, is that of the
compound of their list; every later answer is zero. -/
theorem C124_compound_disagreement (w : ℝ) (members : List (S → T → Py ℝ)) {s : S} {t : T} {x : ℝ}
    (h : (CompAttach.call s t ⟨w, .container members⟩).1 = .ok x) (later : List (S × T)) :
    (CompAttach.session ((s, t) :: later) ⟨w, .once members⟩).1 = .ok x :: later.map (fun _ => .ok 0) := by
  obtain ⟨a1, _, _⟩ := losses_run s t (.container members) members w (.inr ⟨_, rfl⟩)
  obtain ⟨b1, _, b3⟩ := losses_run s t (.once members) members w (.inl rfl)
  have hcall : CompAttach.call s t ⟨w, .once members⟩ = (.ok x, ⟨w, .once []⟩) := by
    unfold CompAttach.call at h ⊢
    simp only [Prog.bind_run, Prog.get_run, Iter.items] at h ⊢
    cases hy : CompAttach.losses s t members ⟨w, .container members⟩ with
    | mk a b =>
      cases hz : CompAttach.losses s t members ⟨w, .once members⟩ with
      | mk a' b' =>
        rw [hy] at h a1
        rw [hz] at b1 b3
        dsimp only at a1 b1 b3
        have e : a = a' := a1.trans b1.symm
        subst e
        cases a with
        | error e => cases h
        | ok cs =>
          rw [b3 cs rfl rfl]
          exact Prod.ext h rfl
  have hlater : ∀ l : List (S × T), (CompAttach.session l ⟨w, .once []⟩).1 = l.map fun _ => .ok 0 := by
    intro l
    induction l with
    | nil => rfl
    | cons y l ih =>
      have : CompAttach.call y.1 y.2 (⟨w, .once []⟩ : CompAttach S T) = (.ok 0, ⟨w, .once []⟩) := by
        simp [CompAttach.call, Prog.bind_run, Iter.items, CompAttach.losses]
      unfold CompAttach.session
      rw [this]
      simp [ih]
  unfold CompAttach.session
  rw [hcall]
  simp [hlater later]

end

/-! ## Cases -/

/-- Points of a triangle. -/
def tri3 : List (Vec 3) := [![0, 0, 0], ![1, 0, 0], ![0, 1, 0]]

/-- The KeOps attachment for surfaces with two widths answers for a triangle and another one, so the
hypotheses of the theorems can be met: of the one on histories, of the one on storages, and (with
the same widths as an iterator) of the one on iterators. -/
example : ∃ (o o₁ : VarObj) (x : Option ℝ), VarObj.build 3 (.iterable (.container [1, 2])) 3 (some "keops") "torch" = .ok o
    ∧ VarObj.call ⟨"cpu", "float32"⟩ (.mesh (tri3, [(0, 1, 2)])) (.mesh (tri3, [(1, 0, 2)])) o = (.ok x, o₁) := by
  obtain ⟨o', e, _⟩ := call_same (o₀ := ⟨.d3 .keops, 3, .container [1, 2], none, []⟩) (s := .mesh (tri3, [(0, 1, 2)])) (t := .mesh (tri3, [(1, 0, 2)])) rfl
    (fresh_same ⟨"cpu", "float32"⟩ _ 3 _)
  have h1 : ∀ σ : ℝ, σ ≠ 0 → ∃ x, (VarifoldClass.d3 .keops).cost (.mesh (tri3, [(0, 1, 2)])) (.mesh (tri3, [(1, 0, 2)])) σ = .ok x := by
    intro σ hσ
    simp only [VarifoldClass.cost, costVarifold3, hσ, if_false]
    exact ⟨_, rfl⟩
  obtain ⟨x, hx⟩ := h1 1 one_ne_zero
  obtain ⟨y, hy⟩ := h1 2 two_ne_zero
  have h2 : (VarifoldClass.d3 .keops).loss [1, 2] (.mesh (tri3, [(0, 1, 2)])) (.mesh (tri3, [(1, 0, 2)])) = .ok (nsum [x, y]) := by
    unfold VarifoldClass.loss
    simp only [List.mapM_cons, List.mapM_nil, hx, hy]
    rfl
  rw [h2] at e
  refine ⟨_, o', _, ?_, e⟩
  simp [VarObj.build, varifoldAttachment]

/-- A compound of two losses asked twice: five both times; given as an iterator, five and then
zero. -/
example : (CompAttach.session [((), ()), ((), ())] ⟨1, .container [fun _ _ => .ok 2, fun _ _ => .ok 3]⟩).1 = [.ok 5, .ok 5]
    ∧ (CompAttach.session [((), ()), ((), ())] ⟨1, .once [fun _ _ => .ok 2, fun _ _ => .ok 3]⟩).1 = [.ok 5, .ok 0] := by
  have h : (CompAttach.call () () (⟨1, .container [fun _ _ => .ok 2, fun _ _ => .ok 3]⟩ : CompAttach Unit Unit)).1 = .ok 5 := by
    have : CompAttach.call () () (⟨1, .container [fun _ _ => .ok 2, fun _ _ => .ok 3]⟩ : CompAttach Unit Unit) = (.ok (1 * [(2 : ℝ), 3].sum), ⟨1, .container [fun _ _ => .ok 2, fun _ _ => .ok 3]⟩) := rfl
    rw [this]
    norm_num
  constructor
  · rw [C124_compound_partial]; simp [h]
  · rw [C124_compound_disagreement 1 _ h [((), ())]]; rfl

end
end Imodal
