import Verif.Spec.Describe
import Mathlib.Data.List.Nodup
import Mathlib.Tactic.Linarith
/-!
# C97: describing modules and finding the members of a compound
-/
set_option autoImplicit false
namespace Imodal
variable (showR : ℝ → String)

theorem Occurs.refl (s : String) : Occurs s s := ⟨"", "", by simp⟩

theorem Occurs.trans {s t u : String} (h : Occurs s t) (h' : Occurs t u) : Occurs s u := by
  obtain ⟨a, b, rfl⟩ := h
  obtain ⟨a', b', rfl⟩ := h'
  exact ⟨a' ++ a, b ++ b', by simp [String.append_assoc]⟩

theorem Occurs.left {s t : String} (u : String) (h : Occurs s t) : Occurs s (t ++ u) :=
  h.trans ⟨"", u, by simp⟩

theorem Occurs.right {s t : String} (u : String) (h : Occurs s t) : Occurs s (u ++ t) :=
  h.trans ⟨u, "", by simp⟩

theorem labelLine_ok (l : ModLabel) : (∃ t, labelLine l = .ok t) ↔ l.Text := by
  cases l with
  | none => simp [labelLine, ModLabel.Text]
  | str s => simp [labelLine, ModLabel.Text]
  | names l => cases l <;> simp [labelLine, ModLabel.Text]

theorem leaf_ok (l : ModLabel) (c : Card) : (∃ t, c.str showR l = .ok t) ↔ (Labelled.leaf l c).Printable := by
  cases c <;> simp only [Labelled.Printable, ← labelLine_ok] <;>
    simp only [Card.str, Card.body] <;> cases labelLine l <;> simp

mutual
theorem str_ok (m : Labelled) : (∃ t, m.str showR = .ok t) ↔ m.Printable := by
  cases m with
  | leaf l c => simpa [Labelled.str] using leaf_ok showR l c
  | compound l ms =>
    have h := strAll_ok ms
    rw [Labelled.Printable, ← labelLine_ok, ← h, Labelled.str]
    cases labelLine l <;> cases Labelled.strAll showR ms <;> simp
theorem strAll_ok (ms : List Labelled) : (∃ t, Labelled.strAll showR ms = .ok t) ↔ Labelled.AllPrintable ms := by
  cases ms with
  | nil => simp [Labelled.strAll, Labelled.AllPrintable]
  | cons m ms =>
    have h := str_ok m
    have h' := strAll_ok ms
    rw [Labelled.AllPrintable, ← h, ← h', Labelled.strAll]
    cases m.str showR <;> cases Labelled.strAll showR ms <;> simp
end

/-- A module can be printed exactly when no linear and no as-rigid-as-possible module occurs in it and no printed
label is a non-empty list. -/
theorem C97_prints (m : Labelled) : (∃ t, m.str showR = .ok t) ↔ m.Printable := str_ok showR m

theorem strAll_mem (ms : List Labelled) (t : String) (h : Labelled.strAll showR ms = .ok t) (m : Labelled) (hm : m ∈ ms) :
    ∃ s, m.str showR = .ok s ∧ Occurs s t := by
  induction ms generalizing t with
  | nil => simp at hm
  | cons x xs ih =>
    rw [Labelled.strAll] at h
    cases hx : x.str showR with
    | error e => simp [hx] at h
    | ok s =>
      cases hxs : Labelled.strAll showR xs with
      | error e => simp [hx, hxs] at h
      | ok u =>
        simp only [hx, hxs, Except.ok.injEq] at h
        subst h
        rcases List.mem_cons.mp hm with rfl | hm
        · exact ⟨s, hx, ((Occurs.refl s).right _).left _ |>.left _⟩
        · obtain ⟨v, hv, ho⟩ := ih u hxs hm
          exact ⟨v, hv, ho.right _⟩

/-- The text of a compound contains the text of everything inside it. -/
theorem C97_members (m x : Labelled) (hx : x.Inside m) (t : String) (h : m.str showR = .ok t) :
    ∃ s, x.str showR = .ok s ∧ Occurs s t := by
  induction hx generalizing t with
  | refl => exact ⟨t, h, Occurs.refl t⟩
  | step l ms m hm _ ih =>
    rw [Labelled.str] at h
    cases hl : labelLine l with
    | error e => simp [hl] at h
    | ok a =>
      cases hms : Labelled.strAll showR ms with
      | error e => simp [hl, hms] at h
      | ok u =>
        simp only [hl, hms, Except.ok.injEq] at h
        subst h
        obtain ⟨v, hv, ho⟩ := strAll_mem showR ms u hms m hm
        obtain ⟨s, hs, ho'⟩ := ih v hv
        exact ⟨s, hs, (ho'.trans ho).right _ |>.left _⟩

theorem own_kind (x : Labelled) (t : String) (h : x.str showR = .ok t) : Occurs x.kind t := by
  cases x with
  | leaf l c =>
    rw [Labelled.str] at h
    cases c <;> simp only [Card.str, Card.body] at h <;> cases hl : labelLine l <;> simp [hl] at h <;> subst h <;>
      first
        | exact ⟨"<", ">", rfl⟩
        | (refine Occurs.left _ (Occurs.left _ ⟨"", "\n", ?_⟩); rfl)
        | (simp only [String.append_assoc]; refine Occurs.left _ ⟨"", "\n", ?_⟩; rfl)
  | compound l ms =>
    rw [Labelled.str] at h
    cases hl : labelLine l with
    | error e => simp [hl] at h
    | ok a =>
      cases hms : Labelled.strAll showR ms with
      | error e => simp [hl, hms] at h
      | ok u =>
        simp only [hl, hms, Except.ok.injEq] at h
        subst h
        simp only [String.append_assoc]
        exact Occurs.left _ ⟨"", "\n", rfl⟩

/-- The text names the kind of everything inside. -/
theorem C97_kinds (m x : Labelled) (hx : x.Inside m) (t : String) (h : m.str showR = .ok t) : Occurs x.kind t := by
  obtain ⟨s, hs, ho⟩ := C97_members showR m x hx t h
  exact (own_kind showR x s hs).trans ho

theorem labelLine_occurs (s : String) : ∃ a, labelLine (.str s) = .ok a ∧ Occurs s a := by
  by_cases hs : s = ""
  · subst hs
    exact ⟨"", by simp [labelLine], Occurs.refl _⟩
  · exact ⟨"  Label=" ++ s ++ "\n", by simp [labelLine, hs], ⟨"  Label=", "\n", rfl⟩⟩

theorem leaf_form (l : ModLabel) (c : Card) (a : String) (ha : labelLine l = .ok a) (hc : ∀ d N P, c ≠ .divFree d N P) (u : String)
    (h : c.str showR l = .ok u) : ∃ b, u = c.title ++ a ++ b := by
  cases c with
  | divFree d N P => exact absurd rfl (hc d N P)
  | arap => simp [Card.str] at h
  | linear => simp [Card.str, Card.body, ha] at h
  | _ =>
    simp only [Card.str, ha] at h
    rw [Card.body] at h
    exact ⟨_, (Except.ok.inj h).symm⟩

/-- The text contains the label of everything inside, divergence-free implicit modules excepted. -/
theorem C97_labels_partial (m x : Labelled) (hx : x.Inside m) (hd : ¬ x.IsDivFree) (s : String) (hs : x.HasLabel s) (t : String)
    (h : m.str showR = .ok t) : Occurs s t := by
  obtain ⟨u, hu, ho⟩ := C97_members showR m x hx t h
  refine Occurs.trans ?_ ho
  obtain ⟨a, ha, hoa⟩ := labelLine_occurs s
  cases x with
  | leaf l c =>
    cases l <;> simp only [Labelled.HasLabel] at hs
    subst hs
    rw [Labelled.str] at hu
    obtain ⟨b, rfl⟩ := leaf_form showR _ c a ha (by cases c <;> simp_all [Labelled.IsDivFree]) u hu
    exact (hoa.right _).left _
  | compound l ms =>
    cases l <;> simp only [Labelled.HasLabel] at hs
    subst hs
    rw [Labelled.str, ha] at hu
    cases hms : Labelled.strAll showR ms with
    | error e => simp [hms] at hu
    | ok v =>
      simp only [hms, Except.ok.injEq] at hu
      subst hu
      exact (((hoa.right _).left _).left _).left _

theorem leaf_body (l : ModLabel) (c : Card) (hc : ∀ d N P, c ≠ .divFree d N P) (u : String) (h : c.str showR l = .ok u) :
    ∃ a b, c.body showR = .ok b ∧ u = a ++ b := by
  cases hl : labelLine l with
  | error e => cases c <;> simp [Card.str, hl] at h; exact absurd rfl (hc _ _ _)
  | ok a =>
    cases c with
    | divFree d N P => exact absurd rfl (hc d N P)
    | arap => simp [Card.str] at h
    | linear => simp [Card.str, Card.body, hl] at h
    | _ =>
      simp only [Card.str, hl] at h
      rw [Card.body] at h
      exact ⟨_, _, by rw [Card.body], (Except.ok.inj h).symm⟩

theorem occurs_first (k v pre : String) (h : pre = "  " ++ k ++ "=") : Occurs (k ++ "=" ++ v) (pre ++ v) :=
  ⟨"  ", "", by rw [h]; simp [String.append_assoc]⟩

theorem occurs_next (k v pre a : String) (h : pre = "  " ++ k ++ "=") : Occurs (k ++ "=" ++ v) (a ++ pre ++ v) :=
  ⟨a ++ "  ", "", by rw [h]; simp [String.append_assoc]⟩

/-- The text gives the parameters of everything inside with their names, divergence-free implicit modules excepted. -/
theorem C97_params_partial (m x : Labelled) (hx : x.Inside m) (hd : ¬ x.IsDivFree) (p : String × String) (hp : p ∈ x.params showR) (t : String)
    (h : m.str showR = .ok t) : Occurs (p.1 ++ "=" ++ p.2) t := by
  obtain ⟨u, hu, ho⟩ := C97_members showR m x hx t h
  refine Occurs.trans ?_ ho
  cases x with
  | compound l ms => simp [Labelled.params] at hp
  | leaf l c =>
    rw [Labelled.str] at hu
    obtain ⟨a, b, hb, rfl⟩ := leaf_body showR l c (by cases c <;> simp_all [Labelled.IsDivFree]) u hu
    have kS : "  Sigma=" = "  " ++ "Sigma" ++ "=" := rfl
    have kN : "  Nu=" = "  " ++ "Nu" ++ "=" := rfl
    have kC : "  Coeff=" = "  " ++ "Coeff" ++ "=" := rfl
    have kP : "  Nb pts=" = "  " ++ "Nb pts" ++ "=" := rfl
    have kT : "  Type=" = "  " ++ "Type" ++ "=" := rfl
    have kD : "  Dim controls=" = "  " ++ "Dim controls" ++ "=" := rfl
    have kM : "  Manifold type=" = "  " ++ "Manifold type" ++ "=" := rfl
    refine Occurs.right _ ?_
    cases c <;> simp only [Card.body, Except.ok.injEq, reduceCtorEq] at hb <;>
      simp only [Labelled.params, List.mem_cons, List.not_mem_nil, or_false] at hp
    all_goals
      subst hb
      rcases hp with rfl | rfl | rfl | rfl | rfl <;> dsimp only <;>
        repeat first
          | with_reducible exact occurs_first _ _ _ kS
          | with_reducible exact occurs_next _ _ _ _ kS
          | with_reducible exact occurs_first _ _ _ kN
          | with_reducible exact occurs_next _ _ _ _ kN
          | with_reducible exact occurs_first _ _ _ kC
          | with_reducible exact occurs_next _ _ _ _ kC
          | with_reducible exact occurs_first _ _ _ kP
          | with_reducible exact occurs_next _ _ _ _ kP
          | with_reducible exact occurs_first _ _ _ kT
          | with_reducible exact occurs_next _ _ _ _ kT
          | with_reducible exact occurs_first _ _ _ kD
          | with_reducible exact occurs_next _ _ _ _ kD
          | with_reducible exact occurs_first _ _ _ kM
          | with_reducible exact occurs_next _ _ _ _ kM
          | with_reducible apply Occurs.left
    exact absurd trivial hd

/-- A divergence-free module shows none of its parameters. -/
theorem C97_params_disagreement (l : ModLabel) (d N P N' P' : Nat) :
    (Labelled.leaf l (.divFree d N P)).str showR = (Labelled.leaf l (.divFree d N' P')).str showR := rfl

/-- Printing fails for every linear and every as-rigid-as-possible module, and for every compound whose label is a
non-empty list; the label of a divergence-free module is not printed. -/
theorem C97_disagreement :
    (∀ (l : ModLabel) (d : Nat) (c : ℝ), (Labelled.leaf l (.linear d c)).str showR = .error .type)
      ∧ (∀ (l : ModLabel) (d N P : Nat), (Labelled.leaf l (.arap d N P)).str showR = .error .name)
      ∧ (∀ (a : String) (l : List String) (ms : List Labelled), (Labelled.compound (.names (a :: l)) ms).str showR = .error .type)
      ∧ ∀ (l l' : ModLabel) (d N P : Nat), (Labelled.leaf l (.divFree d N P)).str showR = (Labelled.leaf l' (.divFree d N P)).str showR := by
  refine ⟨fun l d c => ?_, fun _ _ _ _ => rfl, fun a l ms => ?_, fun _ _ _ _ _ => rfl⟩
  · rw [Labelled.str]
    rcases l with _ | s | _ | ⟨a, l⟩ <;> rfl
  · rw [Labelled.str]; rfl

/-- An integer from `0` on gives the member at this position, a negative one counts from the end, any other raises IndexError. -/
theorem C97_position (ms : List Labelled) :
    (∀ (i : Nat) (h : i < ms.length), getAt ms i = .ok ms[i])
      ∧ (∀ (i : Nat) (h : i < ms.length), getAt ms ((i : Int) - ms.length) = .ok ms[i])
      ∧ ∀ i : Int, (ms.length : Int) ≤ i ∨ i < -(ms.length : Int) → getAt ms i = .error .index := by
  refine ⟨fun i h => ?_, fun i h => ?_, fun i h => ?_⟩
  · have h0 : ¬ (i : Int) < 0 := by omega
    simp only [getAt, if_neg h0]
    simp [h]
  · have h0 : (i : Int) - ms.length < 0 := by omega
    have h1 : ¬ (i : Int) < 0 := by omega
    simp [getAt, h0, h]
  · unfold getAt
    rcases h with h | h
    · have h0 : ¬ i < 0 := by omega
      have h1 : ms.length ≤ i.toNat := by omega
      simp [h0, List.getElem?_eq_none h1]
    · have h0 : i < 0 := by omega
      have h1 : i + ms.length < 0 := by omega
      simp [h0, h1]

theorem dictGet_none (key : String) (l : List (String × Labelled)) (h : ∀ p ∈ l, p.1 ≠ key) : dictGet key l = .error .key := by
  induction l with
  | nil => rfl
  | cons p l ih =>
    obtain ⟨k, m⟩ := p
    have h1 : k ≠ key := h (k, m) (by simp)
    simp [dictGet, ih (fun p hp => h p (by simp [hp])), h1]

theorem dictGet_last (l : List (String × Labelled)) (i : Nat) (h : i < l.length)
    (hl : ∀ (j : Nat) (hj : j < l.length), i < j → l[j].1 ≠ l[i].1) : dictGet l[i].1 l = .ok l[i].2 := by
  induction l generalizing i with
  | nil => simp at h
  | cons p l ih =>
    obtain ⟨k, m⟩ := p
    cases i with
    | zero =>
      have hn : dictGet k l = .error .key := by
        apply dictGet_none
        intro q hq
        obtain ⟨j, hj, rfl⟩ := List.mem_iff_getElem.mp hq
        exact hl (j + 1) (by simpa using hj) (by omega)
      simp [dictGet, hn]
    | succ i =>
      have h' : i < l.length := by simpa using h
      have hi := ih i h' (fun j hj hij => hl (j + 1) (by simpa using hj) (by omega))
      simp only [List.getElem_cons_succ]
      rw [dictGet, hi]

/-- With a list of names as label, a name gives the member at the last position that carries it; a name that is not in
the list raises KeyError. Without label, looking a name up raises TypeError. -/
theorem C97_names (ns : List String) (ms : List Labelled) (hn : ns.length = ms.length) :
    (∀ (i : Nat) (h : i < ns.length), (∀ (j : Nat) (hj : j < ns.length), i < j → ns[j] ≠ ns[i]) →
        getNamed (.names ns) ms ns[i] = .ok (ms[i]'(hn ▸ h)))
      ∧ (∀ s, s ∉ ns → getNamed (.names ns) ms s = .error .key)
      ∧ ∀ s, getNamed .none ms s = .error .type := by
  refine ⟨fun i h hl => ?_, fun s hs => ?_, fun s => rfl⟩
  · have hz : i < (ns.zip ms).length := by rw [List.length_zip]; omega
    have := dictGet_last (ns.zip ms) i hz (fun j hj hij => by
      simpa using hl j (by rw [List.length_zip] at hj; omega) hij)
    simpa [getNamed, todict, ModLabel.entries] using this
  · have : dictGet s (ns.zip ms) = .error .key := by
      apply dictGet_none
      rintro ⟨a, b⟩ hp rfl
      exact hs (List.of_mem_zip hp).1
    simpa [getNamed, todict, ModLabel.entries] using this

/-- Names that are all different find every member. -/
theorem C97_distinct (ns : List String) (ms : List Labelled) (hn : ns.length = ms.length) (hd : ns.Nodup) (i : Nat)
    (h : i < ns.length) : getNamed (.names ns) ms ns[i] = .ok (ms[i]'(hn ▸ h)) := by
  refine (C97_names ns ms hn).1 i h fun j hj hij he => ?_
  have := (List.Nodup.getElem_inj_iff hd).mp he
  omega

/-- No label both lets a member be found under a name of two or more letters and lets the compound be printed. -/
theorem C97_names_disagreement (label : ModLabel) (ms : List Labelled) (s : String) (hs : 2 ≤ s.toList.length) (x : Labelled)
    (h : getNamed label ms s = .ok x) : ¬ ∃ t, (Labelled.compound label ms).str showR = .ok t := by
  rw [str_ok, Labelled.Printable]
  rintro ⟨hl, -⟩
  have key : getNamed label ms s = .error .key ∨ getNamed label ms s = .error .type := by
    cases label with
    | none => exact Or.inr rfl
    | names l =>
      have hl' : l = [] := hl
      subst hl'
      exact Or.inl rfl
    | str u =>
      left
      have : dictGet s ((u.toList.map fun c => String.singleton c).zip ms) = .error .key := by
        apply dictGet_none
        rintro ⟨a, b⟩ hp rfl
        obtain ⟨c, -, rfl⟩ := List.mem_map.mp (List.of_mem_zip hp).1
        simp at hs
      simpa [getNamed, todict, ModLabel.entries] using this
  rcases key with k | k <;> rw [k] at h <;> cases h

/-- The dimension of a compound is the one of its first member. A global translation and a linear module have none, so
neither has a compound that starts with one; a compound without members raises IndexError. -/
theorem C97_dim :
    (∀ (l : ModLabel) (m : Labelled) (ms : List Labelled), (Labelled.compound l (m :: ms)).dim = m.dim)
      ∧ (∀ l : ModLabel, (Labelled.compound l []).dim = .error .index)
      ∧ (∀ (l l' : ModLabel) (d : Nat) (c : ℝ) (ms : List Labelled),
          (Labelled.compound l (.leaf l' (.globalTranslation d c) :: ms)).dim = .error .attribute)
      ∧ ∀ (l l' : ModLabel) (d : Nat) (c : ℝ) (ms : List Labelled),
          (Labelled.compound l (.leaf l' (.linear d c) :: ms)).dim = .error .attribute :=
  ⟨fun _ _ _ => by rw [Labelled.dim], fun _ => by rw [Labelled.dim], fun _ _ _ _ _ => by rw [Labelled.dim, Labelled.dim, Card.dim],
    fun _ _ _ _ _ => by rw [Labelled.dim, Labelled.dim, Card.dim]⟩

theorem toAll_leaf (ms : List Labelled) (l : ModLabel) (c : Card) (h : Labelled.leaf l c ∈ ms) : Labelled.toAll ms ≠ .ok () := by
  induction ms with
  | nil => simp at h
  | cons m ms ih =>
    rw [Labelled.toAll]
    rcases List.mem_cons.mp h with rfl | h
    · rw [Labelled.to]; simp
    · cases m.to with
      | error e => simp
      | ok u => exact ih h

theorem to_leaf (m : Labelled) (l : ModLabel) (c : Card) (h : (Labelled.leaf l c).Inside m) : m.to ≠ .ok () := by
  generalize hx : Labelled.leaf l c = x at h
  induction h with
  | refl => subst hx; rw [Labelled.to]; simp
  | step l' ms m hm _ ih =>
    rw [Labelled.to]
    clear hx
    induction ms with
    | nil => simp at hm
    | cons y ys ihs =>
      rw [Labelled.toAll]
      rcases List.mem_cons.mp hm with rfl | hm
      · cases hy : m.to with
        | error e => simp
        | ok u => exact absurd hy ih
      · cases y.to with
        | error e => simp
        | ok u => exact ihs hm

/-- Every module that is no compound can be moved to another device; a compound has no such method, and its other method
fails as soon as anything but compounds is inside. -/
theorem C97_move :
    (∀ (l : ModLabel) (c : Card), (Labelled.leaf l c).toInPlace = .ok ())
      ∧ (∀ (l : ModLabel) (ms : List Labelled), (Labelled.compound l ms).toInPlace = .error .attribute)
      ∧ ∀ (m : Labelled) (l : ModLabel) (c : Card), (Labelled.leaf l c).Inside m → m.to ≠ .ok () :=
  ⟨fun _ _ => rfl, fun _ _ => rfl, fun m l c h => to_leaf m l c h⟩

theorem strModules_mem (ms : List Labelled) (t : String) (h : strModules showR ms = .ok t) (m : Labelled) (hm : m ∈ ms) :
    ∃ s, m.str showR = .ok s ∧ Occurs s t := by
  induction ms generalizing t with
  | nil => simp at hm
  | cons x xs ih =>
    rw [strModules] at h
    cases hx : x.str showR with
    | error e => simp [hx] at h
    | ok s =>
      cases hxs : strModules showR xs with
      | error e => simp [hx, hxs] at h
      | ok u =>
        simp only [hx, hxs, Except.ok.injEq] at h
        subst h
        rcases List.mem_cons.mp hm with rfl | hm
        · exact ⟨s, hx, ((Occurs.refl s).right _).left _⟩
        · obtain ⟨v, hv, ho⟩ := ih u hxs hm
          exact ⟨v, hv, ho.right _⟩

/-- The text of a model with deformables contains the text of each of its deformation modules. -/
theorem C97_registration (silents ms : List Labelled) (hs : silents ≠ []) (t : String) (h : registrationStr showR silents ms = .ok t)
    (m : Labelled) (hm : m ∈ ms) : ∃ s, m.str showR = .ok s ∧ Occurs s t := by
  cases silents with
  | nil => exact absurd rfl hs
  | cons s ss => exact strModules_mem showR (ss ++ ms) t h m (by simp [hm])

/-- The first deformation module of a model without deformable does not show in the text; the silent module of a second
deformable does. -/
theorem C97_registration_disagreement (ms : List Labelled) :
    (∀ m m' : Labelled, registrationStr showR [] (m :: ms) = registrationStr showR [] (m' :: ms))
      ∧ ∀ (s s' : Labelled) (t : String), registrationStr showR [s, s'] ms = .ok t → ∃ u, s'.str showR = .ok u ∧ Occurs u t :=
  ⟨fun _ _ => rfl, fun _ s' t h => strModules_mem showR (s' :: ms) t h s' (by simp)⟩

/-- A nested compound meeting the hypotheses of `C97_labels_partial`. -/
example : ∃ m x : Labelled, x.Inside m ∧ ¬ x.IsDivFree ∧ x.HasLabel "hand" ∧ m.Printable :=
  ⟨.compound (.str "body") [.leaf .none (.divFree 2 3 4), .compound .none [.leaf (.str "hand") (.translations 2 5 1)]],
    .leaf (.str "hand") (.translations 2 5 1),
    .step _ _ (.compound .none [.leaf (.str "hand") (.translations 2 5 1)]) (by simp) (.step _ _ _ (by simp) .refl),
    by simp [Labelled.IsDivFree], rfl,
    by simp [Labelled.Printable, Labelled.AllPrintable, ModLabel.Text]⟩

/-- Two different names find their members, and this compound cannot be printed. -/
example : getNamed (.names ["arm", "leg"]) [.leaf .none (.translations 2 1 1), .leaf .none (.globalTranslation 2 3)] "leg"
      = .ok (.leaf .none (.globalTranslation 2 3))
    ∧ ¬ ∃ t, (Labelled.compound (.names ["arm", "leg"]) [.leaf .none (.translations 2 1 1), .leaf .none (.globalTranslation 2 3)]).str
      showR = .ok t := by
  have h := C97_distinct ["arm", "leg"] [.leaf .none (.translations 2 1 1), .leaf .none (.globalTranslation 2 3)] rfl (by decide) 1 (by decide)
  exact ⟨h, C97_names_disagreement showR _ _ "leg" (by decide) _ h⟩

end Imodal
