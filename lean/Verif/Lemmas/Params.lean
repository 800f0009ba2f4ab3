import Verif.Model.Params
import Verif.Lemmas.Clone
/-! # Ownership of the tensors of a registration model -/
set_option autoImplicit false
namespace Imodal
variable {α : Type}

/-- One tensor family of one manifold object. -/
abbrev Slot := Nat × Fam

def World.at (w : World α) (s : Slot) : List Ref := w.held s.2 s.1

/-- The tensors of the slots `S` and the tensors `cs` are all different, exist, and none of them is
among the first `n` objects. -/
structure Own (n : Nat) (w : World α) (S : Slot → Prop) (cs : List Ref) : Prop where
  bound : ∀ s, S s → s.1 < w.leaves.length
  nodup : ∀ s, S s → (w.at s).Nodup
  range : ∀ s, S s → ∀ r ∈ w.at s, n ≤ r ∧ r < w.objs.length
  apart : ∀ s s', S s → S s' → s ≠ s' → ∀ r ∈ w.at s, r ∉ w.at s'
  csNodup : cs.Nodup
  csRange : ∀ r ∈ cs, n ≤ r ∧ r < w.objs.length
  csApart : ∀ r ∈ cs, ∀ s, S s → r ∉ w.at s

/-- Some slots are given new tensors, the others keep theirs. -/
theorem Own.renew {n : Nat} {w w' : World α} {S T : Slot → Prop} {cs : List Ref} (h : Own n w S cs) (hn : n ≤ w.objs.length)
    (hlen : w.leaves.length ≤ w'.leaves.length) (hobjs : w.objs.length ≤ w'.objs.length) (hT : ∀ s, T s → s.1 < w'.leaves.length)
    (hkeep : ∀ s, S s → ¬ T s → w'.at s = w.at s) (hnd : ∀ s, T s → (w'.at s).Nodup)
    (hnew : ∀ s, T s → ∀ r ∈ w'.at s, w.objs.length ≤ r ∧ r < w'.objs.length)
    (hap : ∀ s s', T s → T s' → s ≠ s' → ∀ r ∈ w'.at s, r ∉ w'.at s') : Own n w' (fun s => T s ∨ S s) cs := by
  classical
  have old : ∀ s, S s → ¬ T s → ∀ r ∈ w'.at s, n ≤ r ∧ r < w.objs.length := fun s hs ht r hr => by
    rw [hkeep s hs ht] at hr
    exact h.range s hs r hr
  refine ⟨?_, ?_, ?_, ?_, h.csNodup, fun r hr => ⟨(h.csRange r hr).1, Nat.lt_of_lt_of_le (h.csRange r hr).2 hobjs⟩, ?_⟩
  · rintro s (hs | hs)
    · exact hT s hs
    · exact Nat.lt_of_lt_of_le (h.bound s hs) hlen
  · rintro s hs
    by_cases ht : T s
    · exact hnd s ht
    · rw [hkeep s (hs.resolve_left ht) ht]
      exact h.nodup s (hs.resolve_left ht)
  · rintro s hs r hr
    by_cases ht : T s
    · exact ⟨Nat.le_trans hn (hnew s ht r hr).1, (hnew s ht r hr).2⟩
    · have := old s (hs.resolve_left ht) ht r hr
      exact ⟨this.1, Nat.lt_of_lt_of_le this.2 hobjs⟩
  · intro s s' hs hs' hne r hr hr'
    by_cases ht : T s
    · by_cases ht' : T s'
      · exact hap s s' ht ht' hne r hr hr'
      · exact absurd (hnew s ht r hr).1 (Nat.not_le.2 (old s' (hs'.resolve_left ht') ht' r hr').2)
    · by_cases ht' : T s'
      · exact absurd (hnew s' ht' r hr').1 (Nat.not_le.2 (old s (hs.resolve_left ht) ht r hr).2)
      · rw [hkeep s (hs.resolve_left ht) ht] at hr
        rw [hkeep s' (hs'.resolve_left ht') ht'] at hr'
        exact h.apart s s' (hs.resolve_left ht) (hs'.resolve_left ht') hne r hr hr'
  · intro r hr s hs hr'
    by_cases ht : T s
    · exact absurd (hnew s ht r hr').1 (Nat.not_le.2 (h.csRange r hr).2)
    · rw [hkeep s (hs.resolve_left ht) ht] at hr'
      exact h.csApart r hr s (hs.resolve_left ht) hr'

theorem Own.mono {n : Nat} {w : World α} {S S' : Slot → Prop} {cs : List Ref} (h : Own n w S cs) (hs : ∀ s, S' s → S s) : Own n w S' cs :=
  ⟨fun s h' => h.bound s (hs s h'), fun s h' => h.nodup s (hs s h'), fun s h' => h.range s (hs s h'),
    fun s s' h1 h2 => h.apart s s' (hs s h1) (hs s' h2), h.csNodup, h.csRange, fun r hr s h' => h.csApart r hr s (hs s h')⟩

/-- The slots lie in different storages. -/
def Sep (w : World α) (S : Slot → Prop) : Prop := ∀ s s', S s → S s' → s ≠ s' → DisjointAt w s.2 s.1 s'.2 s'.1

theorem Sep.mono {w : World α} {S S' : Slot → Prop} (h : Sep w S) (hs : ∀ s, S' s → S s) : Sep w S' :=
  fun s s' h1 h2 => h s s' (hs s h1) (hs s' h2)

theorem Sep.ext {w w' : World α} {S : Slot → Prop} (h : Sep w S) (he : Ext w w') (hk : ∀ s, S s → w'.held s.2 s.1 = w.held s.2 s.1) : Sep w' S := by
  intro s s' hs hs' hne
  obtain ⟨Q, h1, h2⟩ := h s s' hs hs' hne
  unfold DisjointAt
  rw [hk s hs, hk s' hs']
  exact ⟨Q, fun r hr => (h1 r hr).ext he, fun r hr => (h2 r hr).ext he⟩

/-- Two groups of slots on either side of a storage. -/
theorem Sep.union {w : World α} {S S' : Slot → Prop} (h : Sep w S) (h' : Sep w S') (n : Nat)
    (hlo : ∀ s, S s → ∀ r ∈ w.held s.2 s.1, Placed (· < n) w r) (hhi : ∀ s, S' s → ∀ r ∈ w.held s.2 s.1, Placed (n ≤ ·) w r) :
    Sep w (fun s => S s ∨ S' s) := by
  intro s s' hs hs' hne
  rcases hs with hs | hs <;> rcases hs' with hs' | hs'
  · exact h s s' hs hs' hne
  · exact ⟨_, hlo s hs, fun r hr => (hhi s' hs' r hr).mono fun k hk => by omega⟩
  · exact ⟨_, hhi s hs, fun r hr => (hlo s' hs' r hr).mono fun k hk => by omega⟩
  · exact h' s s' hs hs' hne

theorem held_placed {w : World α} (hv : w.Valid) (f : Fam) (i : Nat) : ∀ r ∈ w.held f i, Placed (· < w.stores.length) w r := fun r hr => by
  have h := hv.held_lt hr
  exact ⟨w.objs[r], by simp [h], hv.store r _ (by simp [h])⟩

/-- A member of a compound that is no compound itself, paired with its copy. -/
def PairR (R : Nat → Nat → Prop) (m m' : Man) : Prop := (m = .empty ∧ m' = .empty) ∨ ∃ i j, m = .leaf i ∧ m' = .leaf j ∧ R i j

def Man.Plain : Man → Prop
  | .compound _ => False
  | _ => True

theorem PairR.imp {R R' : Nat → Nat → Prop} (h : ∀ i j, R i j → R' i j) {m m' : Man} (hp : PairR R m m') : PairR R' m m' := by
  rcases hp with hp | ⟨i, j, h1, h2, h3⟩
  · exact Or.inl hp
  · exact Or.inr ⟨i, j, h1, h2, h _ _ h3⟩

/-- The slots of the objects `ids`. -/
def slotsOf (ids : List Nat) : Slot → Prop := fun s => s.1 ∈ ids

theorem own_kept {n : Nat} {w w' : World α} {S : Slot → Prop} {cs : List Ref} (h : Own n w S cs) (hn : n ≤ w.objs.length) (hk : Kept w w') :
    Own n w' S cs := by
  refine (h.renew (T := fun _ => False) hn hk.leaves.length_le hk.ext.objs.length_le (fun _ h => h.elim) (fun s hs _ => hk.held (h.bound s hs) s.2)
    (fun _ h => h.elim) (fun _ h => h.elim) (fun _ _ h => h.elim)).mono fun s hs => Or.inr hs

theorem cloneList_own {n : Nat} (b : Bool) : ∀ (ms : List Man) (w : World α), w.Valid → (∀ m ∈ ms, m.Plain) →
    (∀ i ∈ Man.ids.idsList ms, Clonable w i) → n ≤ w.objs.length →
    ∃ ms' w', Man.clone.cloneList (some b) ms w = (.ok ms', w') ∧ Kept w w' ∧ List.Forall₂ (PairR (Cloned w w' b)) ms ms' ∧
      (Man.ids.idsList ms').Nodup ∧ (∀ j ∈ Man.ids.idsList ms', w.leaves.length ≤ j ∧ j < w'.leaves.length) ∧
      (∀ S cs, Own n w S cs → Own n w' (fun s => slotsOf (Man.ids.idsList ms') s ∨ S s) cs) ∧
      Sep w' (slotsOf (Man.ids.idsList ms')) ∧ ∀ s, slotsOf (Man.ids.idsList ms') s → ∀ r ∈ w'.held s.2 s.1, Placed (w.stores.length ≤ ·) w' r
  | [], w, hv, _, _, hn => ⟨[], w, rfl, Kept.refl hv, .nil, by simp [Man.ids.idsList], by simp [Man.ids.idsList], fun S cs h =>
      h.mono fun s hs => hs.resolve_left (by simp [slotsOf, Man.ids.idsList]), fun s _ h => by simp [slotsOf, Man.ids.idsList] at h,
      fun s h => by simp [slotsOf, Man.ids.idsList] at h⟩
  | .empty :: ms, w, hv, hp, hc, hn => by
    obtain ⟨ms', w', h1, hk, hf, hnd, hb, ho, hsep, hpl⟩ := cloneList_own b ms w hv (fun m hm => hp m (by simp [hm])) (fun i hi => hc i (by
      simp [Man.ids.idsList, hi])) hn
    refine ⟨.empty :: ms', w', by simp [Man.clone.cloneList, Man.clone, Prog.bind_run, h1], hk, .cons (Or.inl ⟨rfl, rfl⟩) hf, ?_, ?_, ?_, ?_, ?_⟩
    · simpa [Man.ids.idsList, Man.ids] using hnd
    · simpa [Man.ids.idsList, Man.ids] using hb
    · simpa [Man.ids.idsList, Man.ids] using ho
    · simpa [Man.ids.idsList, Man.ids] using hsep
    · simpa [Man.ids.idsList, Man.ids] using hpl
  | .compound l :: ms, w, hv, hp, hc, hn => (hp (.compound l) (by simp)).elim
  | .leaf i :: ms, w, hv, hp, hc, hn => by
    have hci := hc i (by simp [Man.ids.idsList, Man.ids])
    obtain ⟨j, w₁, h1, hk₁, hcl, rfl⟩ := leafClone_spec b hv hci
    have hn₁ := hk₁.ext.objs.length_le
    obtain ⟨ms', w', h2, hk, hf, hnd, hb, ho, hsep, hpl⟩ := cloneList_own (n := n) b ms w₁ hk₁.valid (fun m hm => hp m (by simp [hm])) (fun i hi =>
      (hc i (by simp [Man.ids.idsList, hi])).kept hk₁) (Nat.le_trans hn hn₁)
    obtain ⟨l', hl'⟩ := hcl.ex
    have hlt : w.leaves.length < w₁.leaves.length := (List.getElem?_eq_some_iff.1 hl').1
    refine ⟨.leaf w.leaves.length :: ms', w', by simp [Man.clone.cloneList, Man.clone, Prog.bind_run, h1, h2], hk₁.trans hk,
      .cons (Or.inr ⟨i, _, rfl, rfl, hcl.kept_right hk hk₁.valid⟩) ?_, ?_, ?_, ?_, ?_, ?_⟩
    · have hlts : ∀ m ∈ ms, ∀ i, m = .leaf i → i < w.leaves.length := fun m hm i hi => by
        refine (hc i ?_).lt
        subst hi
        have : ∀ l : List Man, Man.leaf i ∈ l → i ∈ Man.ids.idsList l := fun l => by
          induction l with
          | nil => simp
          | cons a l ih =>
            intro h
            rw [Man.ids.idsList, List.mem_append]
            rcases List.mem_cons.1 h with h | h
            · left; rw [← h]; simp [Man.ids]
            · exact Or.inr (ih h)
        rw [Man.ids.idsList, List.mem_append]
        exact Or.inr (this ms hm)
      clear h2 hnd hb ho hp hc hsep hpl
      induction hf with
      | nil => exact .nil
      | cons h _ ih =>
        refine .cons ?_ (ih fun m hm => hlts m (by simp [hm]))
        rcases h with h | ⟨i', j', e1, e2, h3⟩
        · exact Or.inl h
        · exact Or.inr ⟨i', j', e1, e2, h3.kept_left hk₁ hv (hlts _ (by simp) i' e1)⟩
    · rw [Man.ids.idsList, Man.ids, List.singleton_append, List.nodup_cons]
      exact ⟨fun h => by have := (hb _ h).1; omega, hnd⟩
    · intro j hj
      rw [Man.ids.idsList, Man.ids, List.singleton_append, List.mem_cons] at hj
      have := hk.leaves.length_le
      rcases hj with rfl | hj
      · omega
      · have := hb j hj; omega
    · intro S cs h
      have h' := (h.renew (T := slotsOf [w.leaves.length]) (w' := w₁) hn hk₁.leaves.length_le hn₁ (fun s hs => by
        simp only [slotsOf, List.mem_singleton] at hs; omega) (fun s hs _ => hk₁.held (h.bound s hs) s.2) (fun s hs => by
          simp only [slotsOf, List.mem_singleton] at hs
          have := (hcl.apart s.2).1
          unfold World.at; rw [hs]; exact this) (fun s hs r hr => by
          simp only [slotsOf, List.mem_singleton] at hs
          unfold World.at at hr; rw [hs] at hr
          exact ⟨(hcl.fresh s.2 r hr).1, (hcl.fresh s.2 r hr).lt⟩) (fun s s' hs hs' hne r hr => by
          simp only [slotsOf, List.mem_singleton] at hs hs'
          unfold World.at at hr ⊢; rw [hs] at hr; rw [hs']
          refine (hcl.apart s.2).2 s'.2 (fun e => hne (Prod.ext (by rw [hs, hs']) e)) r hr))
      refine (ho _ _ h').mono ?_
      intro s hs
      simp only [slotsOf, Man.ids.idsList, Man.ids, List.singleton_append, List.mem_cons, List.not_mem_nil, or_false] at hs ⊢
      tauto
    · have hcl' := hcl.kept_right hk hk₁.valid
      refine (Sep.union (S := slotsOf [w.leaves.length]) (S' := slotsOf (Man.ids.idsList ms')) ?_ hsep w₁.stores.length ?_ hpl).mono fun s hs => ?_
      · intro s s' hs hs' hne
        simp only [slotsOf, List.mem_singleton] at hs hs'
        rw [hs, hs']
        exact hcl'.places _ _ fun e => hne (Prod.ext (hs.trans hs'.symm) e)
      · intro s hs r hr
        simp only [slotsOf, List.mem_singleton] at hs
        rw [hs, hk.held hlt] at hr
        exact (held_placed hk₁.valid _ _ r hr).ext hk.ext
      · simpa [slotsOf, Man.ids.idsList, Man.ids] using hs
    · intro s hs r hr
      simp only [slotsOf, Man.ids.idsList, Man.ids, List.singleton_append, List.mem_cons] at hs
      rcases hs with hs | hs
      · rw [hs] at hr
        obtain ⟨-, o, ho, hst⟩ := (hcl.kept_right hk hk₁.valid).fresh s.2 r hr
        exact ⟨o, ho, hst⟩
      · exact (hpl s hs r hr).mono fun k hk' => Nat.le_trans hk₁.ext.stores.length_le hk'

/-- Some slots are recorded for differentiation, nothing else changes. -/
structure Recorded (w w' : World α) (T : Slot → Prop) : Prop where
  ext : Ext w w'
  valid : w'.Valid
  len : w'.leaves.length = w.leaves.length
  keep : ∀ s, ¬ T s → w'.at s = w.at s
  vals : ∀ g i, w'.heldVals g i = w.heldVals g i
  flags : ∀ s, T s → ∀ r ∈ w'.at s, ∃ o, w'.objs[r]? = some o ∧ o.requiresGrad = true ∧ o.hasGraph = false
  own : ∀ n S cs, n ≤ w.objs.length → Own n w S cs → Own n w' (fun s => T s ∨ S s) cs
  kindOf : ∀ (P : String → String → Prop) g i, (∀ r ∈ w.held g i, ∃ o, w.objs[r]? = some o ∧ P o.device o.dtype) →
    ∀ r ∈ w'.held g i, ∃ o, w'.objs[r]? = some o ∧ P o.device o.dtype
  shapes : ∀ (i : Nat) (l : Leaf), w.leaves[i]? = some l → ∃ l', w'.leaves[i]? = some l' ∧ ∀ g, (l'.tc g).shapes = (l.tc g).shapes
  place : ∀ (Q : Nat → Prop) g i, (∀ r ∈ w.held g i, Placed Q w r) → ∀ r ∈ w'.held g i, Placed Q w' r

theorem Recorded.kind {w w' : World α} {T : Slot → Prop} (h : Recorded w w' T) (g : Fam) (i : Nat) (hk : SameKind w (w.held g i)) :
    SameKind w' (w'.held g i) := by
  obtain ⟨d, t, hk⟩ := hk
  exact ⟨d, t, h.kindOf (fun x y => x = d ∧ y = t) g i hk⟩

theorem Recorded.sep {w w' : World α} {T S : Slot → Prop} (h : Recorded w w' T) (hs : Sep w S) : Sep w' S := fun s s' h1 h2 hne => by
  obtain ⟨Q, a, b⟩ := hs s s' h1 h2 hne
  exact ⟨Q, h.place Q _ _ a, h.place _ _ _ b⟩

theorem Recorded.refl {w : World α} (hv : w.Valid) : Recorded w w (fun _ => False) :=
  ⟨Ext.refl w, hv, rfl, fun _ _ => rfl, fun _ _ => rfl, fun _ h => h.elim, fun _ _ _ _ h => h.mono fun _ hs => hs.resolve_left id, fun _ _ _ h => h,
    fun _ l hl => ⟨l, hl, fun _ => rfl⟩, fun _ _ _ h => h⟩

theorem Recorded.trans {w w₁ w₂ : World α} {T₁ T₂ : Slot → Prop} (h₁ : Recorded w w₁ T₁) (h₂ : Recorded w₁ w₂ T₂) :
    Recorded w w₂ (fun s => T₁ s ∨ T₂ s) := by
  classical
  refine ⟨h₁.ext.trans h₂.ext, h₂.valid, h₂.len.trans h₁.len, ?_, fun g i => (h₂.vals g i).trans (h₁.vals g i), ?_, ?_,
    fun P g i h => h₂.kindOf P g i (h₁.kindOf P g i h), ?_, fun Q g i h => h₂.place Q g i (h₁.place Q g i h)⟩
  · intro s hs
    rw [h₂.keep s fun h => hs (Or.inr h), h₁.keep s fun h => hs (Or.inl h)]
  · intro s hs r hr
    by_cases h : T₂ s
    · exact h₂.flags s h r hr
    · rw [h₂.keep s h] at hr
      obtain ⟨o, ho, h'⟩ := h₁.flags s (hs.resolve_right h) r hr
      exact ⟨o, h₂.ext.obj ho, h'⟩
  · intro n S cs hn h
    exact (h₂.own n _ cs (Nat.le_trans hn h₁.ext.objs.length_le) (h₁.own n S cs hn h)).mono fun s hs => by tauto
  · intro i l hl
    obtain ⟨l₁, hl₁, e₁⟩ := h₁.shapes i l hl
    obtain ⟨l₂, hl₂, e₂⟩ := h₂.shapes i l₁ hl₁
    exact ⟨l₂, hl₂, fun g => (e₂ g).trans (e₁ g)⟩

theorem Recorded.congr {w w' : World α} {T T' : Slot → Prop} (h : Recorded w w' T) (e : ∀ s, T s ↔ T' s) : Recorded w w' T' := by
  have : T = T' := funext fun s => propext (e s)
  rwa [← this]

theorem leaf_record {j : Nat} {f : Fam} {w : World α} (hv : w.Valid) (hl : j < w.leaves.length) :
    ∃ w', tcRequiresGrad j f (some true) (-1) w = (.ok (), w') ∧ Recorded w w' (fun s => s = (j, f)) := by
  have hl' : w.leaves[j]? = some w.leaves[j] := by simp [hl]
  obtain ⟨w', h, hr⟩ := tcRequiresGrad_all true (f := f) hv hl'
  have hlen : w'.leaves.length = w.leaves.length := by
    refine Nat.le_antisymm ?_ ?_
    · refine Nat.le_of_not_lt fun h => ?_
      have := hr.lnone w.leaves.length (by simp)
      rw [List.getElem?_eq_none_iff] at this
      omega
    · refine Nat.le_of_not_lt fun h => ?_
      by_cases hk : w'.leaves.length = j
      · obtain ⟨l', hl', -⟩ := hr.leaf _ hl'
        have := (List.getElem?_eq_some_iff.1 hl').1
        omega
      · have := hr.other _ hk
        rw [List.getElem?_eq_none (Nat.le_refl _)] at this
        have := List.getElem?_eq_none_iff.1 this.symm
        omega
  have keep : ∀ s : Slot, ¬ s = (j, f) → w'.at s = w.at s := fun s hs => by
    unfold World.at World.held
    by_cases hk : s.1 = j
    · rw [hk]
      obtain ⟨l', hl'', -, h2, -⟩ := hr.leaf _ hl'
      rw [hl'', hl']
      dsimp only
      rw [h2 s.2 fun e => hs (Prod.ext hk e)]
    · rw [hr.other _ hk]
  refine ⟨w', h, hr.ext, hr.valid, hlen, keep, fun g i => hr.heldVals hv g i, ?_, ?_, ?_, ?_, ?_⟩
  · rintro s rfl r hr'
    exact (hr.flags hl').1 r hr'
  · intro n S cs hn ho
    refine ho.renew hn (Nat.le_of_eq hlen.symm) hr.ext.objs.length_le (fun s hs => by rw [hs, hlen]; exact hl) (fun s _ hs => keep s hs)
      (fun s hs => by rw [hs]; exact hr.nodup) (fun s hs r hr' => ?_) (fun s s' hs hs' hne => absurd (hs.trans hs'.symm) hne)
    rw [hs] at hr'
    exact ⟨hr.new hl' r hr', hr.valid.held_lt hr'⟩
  · intro P g i hk
    by_cases hi : i = j
    · subst hi; exact hr.kindOf hl' hk
    · have : w'.held g i = w.held g i := by unfold World.held; rw [hr.other _ hi]
      rw [this]
      intro r h
      obtain ⟨o, ho, hP⟩ := hk r h
      exact ⟨o, hr.ext.obj ho, hP⟩
  · intro i l hi
    by_cases hij : i = j
    · subst hij
      obtain ⟨l', hl'', h1, -⟩ := hr.leaf l hi
      exact ⟨l', hl'', h1⟩
    · exact ⟨l, by rw [hr.other _ hij]; exact hi, fun _ => rfl⟩
  · exact fun Q g i hq => hr.place Q g i hq

theorem man_record {f : Fam} (m : Man) (hp : m.Plain) {w : World α} (hv : w.Valid) (hl : ∀ i ∈ m.ids, i < w.leaves.length) :
    ∃ w', m.requiresGrad f (some true) (-1) w = (.ok (), w') ∧ Recorded w w' (fun s => s.1 ∈ m.ids ∧ s.2 = f) := by
  cases m with
  | empty => exact ⟨w, rfl, (Recorded.refl hv).congr fun s => by simp [Man.ids]⟩
  | compound l => exact hp.elim
  | leaf j =>
    obtain ⟨w', h, hr⟩ := leaf_record (f := f) hv (hl j (by simp [Man.ids]))
    exact ⟨w', h, hr.congr fun s => by simp [Man.ids, Prod.ext_iff]⟩

theorem recordCotans_spec : ∀ (ms : List Man) {w : World α}, (∀ m ∈ ms, m.Plain) → w.Valid → (∀ i ∈ Man.ids.idsList ms, i < w.leaves.length) →
    ∃ w', recordCotans ms w = (.ok (), w') ∧ Recorded w w' (fun s => s.1 ∈ Man.ids.idsList ms ∧ s.2 = .cotan)
  | [], w, _, hv, _ => ⟨w, rfl, (Recorded.refl hv).congr fun s => by simp [Man.ids.idsList]⟩
  | m :: ms, w, hp, hv, hl => by
    obtain ⟨w₁, h₁, r₁⟩ := man_record (f := .cotan) m (hp m (by simp)) hv fun i hi => hl i (by simp [Man.ids.idsList, hi])
    obtain ⟨w₂, h₂, r₂⟩ := recordCotans_spec ms (fun m hm => hp m (by simp [hm])) r₁.valid fun i hi => by
      rw [r₁.len]; exact hl i (by simp [Man.ids.idsList, hi])
    refine ⟨w₂, by simp [recordCotans, Prog.bind_run, h₁, h₂], (r₁.trans r₂).congr fun s => ?_⟩
    simp only [Man.ids.idsList, List.mem_append]
    tauto

/-- The objects whose flag in `fit_gd` is set. -/
def flaggedIds : List Bool → List Man → List Nat
  | true :: bs, m :: ms => m.ids ++ flaggedIds bs ms
  | false :: bs, _ :: ms => flaggedIds bs ms
  | _, _ => []

theorem flaggedIds_sublist : ∀ (bs : List Bool) (ms : List Man), (flaggedIds bs ms).Sublist (Man.ids.idsList ms)
  | [], ms => by simp [flaggedIds]
  | true :: bs, [] => by simp [flaggedIds]
  | false :: bs, [] => by simp [flaggedIds]
  | true :: bs, m :: ms => by
    rw [flaggedIds, Man.ids.idsList]
    exact List.Sublist.append (List.Sublist.refl _) (flaggedIds_sublist bs ms)
  | false :: bs, m :: ms => by
    rw [flaggedIds, Man.ids.idsList]
    exact (flaggedIds_sublist bs ms).trans (List.sublist_append_right _ _)

theorem unroll_plain (w : World α) (f : Fam) (m : Man) : m.unroll w f = m.ids.flatMap fun i => w.at (i, f) := by
  rw [Man.unroll_eq, List.flatMap_def]
  rfl

theorem fitLoop_spec : ∀ (bs : List Bool) (ms : List Man) {w : World α}, (∀ m ∈ ms, m.Plain) → (Man.ids.idsList ms).Nodup → w.Valid →
    (∀ i ∈ Man.ids.idsList ms, i < w.leaves.length) →
    ∃ rs w', fitLoop (bs.map .flag) ms w = (.ok rs, w') ∧ Recorded w w' (fun s => s.1 ∈ flaggedIds bs ms ∧ s.2 = .gd) ∧
      rs = (flaggedIds bs ms).flatMap fun i => w'.at (i, .gd)
  | [], ms, w, _, _, hv, _ => ⟨[], w, by cases ms <;> rfl, (Recorded.refl hv).congr fun s => by simp [flaggedIds], by simp [flaggedIds]⟩
  | true :: bs, [], w, _, _, hv, _ => ⟨[], w, rfl, (Recorded.refl hv).congr fun s => by simp [flaggedIds], by simp [flaggedIds]⟩
  | false :: bs, [], w, _, _, hv, _ => ⟨[], w, rfl, (Recorded.refl hv).congr fun s => by simp [flaggedIds], by simp [flaggedIds]⟩
  | false :: bs, m :: ms, w, hp, hnd, hv, hl => by
    rw [Man.ids.idsList, List.nodup_append] at hnd
    obtain ⟨rs, w', h, r, e⟩ := fitLoop_spec bs ms (fun m hm => hp m (by simp [hm])) hnd.2.1 hv fun i hi => hl i (by simp [Man.ids.idsList, hi])
    exact ⟨rs, w', h, r, e⟩
  | true :: bs, m :: ms, w, hp, hnd, hv, hl => by
    rw [Man.ids.idsList, List.nodup_append] at hnd
    obtain ⟨w₁, h₁, r₁⟩ := man_record (f := .gd) m (hp m (by simp)) hv fun i hi => hl i (by simp [Man.ids.idsList, hi])
    obtain ⟨rs, w₂, h₂, r₂, e⟩ := fitLoop_spec bs ms (fun m hm => hp m (by simp [hm])) hnd.2.1 r₁.valid fun i hi => by
      rw [r₁.len]; exact hl i (by simp [Man.ids.idsList, hi])
    refine ⟨m.unroll w₁ .gd ++ rs, w₂, by simp [fitLoop, Prog.bind_run, h₁, h₂], (r₁.trans r₂).congr fun s => ?_, ?_⟩
    · simp only [flaggedIds, List.mem_append]
      tauto
    · rw [flaggedIds, List.flatMap_append, ← e, unroll_plain]
      congr 1
      rw [List.flatMap_def, List.flatMap_def]
      congr 1
      refine List.map_congr_left fun i hi => ?_
      refine (r₂.keep (i, .gd) fun h => ?_).symm
      exact hnd.2.2 i hi i ((flaggedIds_sublist bs ms).subset h.1) rfl

theorem own_flatMap {n : Nat} {w : World α} {S : Slot → Prop} {cs : List Ref} (h : Own n w S cs) : ∀ (l : List Slot), l.Nodup → (∀ s ∈ l, S s) →
    (l.flatMap w.at).Nodup
  | [], _, _ => by simp
  | s :: l, hn, hs => by
    rw [List.nodup_cons] at hn
    rw [List.flatMap_cons, List.nodup_append]
    refine ⟨h.nodup s (hs s (by simp)), own_flatMap h l hn.2 fun s' hs' => hs s' (by simp [hs']), fun a ha b hb e => ?_⟩
    subst e
    obtain ⟨s', hs', hb⟩ := List.mem_flatMap.1 hb
    exact h.apart s s' (hs s (by simp)) (hs s' (by simp [hs'])) (fun e => hn.1 (e ▸ hs')) _ ha hb

end Imodal
