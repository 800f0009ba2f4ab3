import Verif.Model.Combination
import Mathlib.Logic.Function.Basic
/-!
# C24: iterating a compound module

A loop visits every member in order when nothing else iterates over the same object. Two
loops over one object disturb each other, because the object is its own iterator.
-/
set_option autoImplicit false
namespace Imodal
variable {α : Type}

/-! ## What independent iterations give -/

/-- Each iteration has its own position; `none` before it has started. -/
def indepRun (modules : List α) : List ItOp → (Nat → Option Nat) → List (Py (Option α))
  | [], _ => []
  | .iter w :: l, pos => indepRun modules l (Function.update pos w (some 0))
  | .next w :: l, pos =>
    match pos w with
    | none => .error .attribute :: indepRun modules l pos
    | some c => .ok modules[c]? :: indepRun modules l (Function.update pos w (some (if c < modules.length then c + 1 else c)))

/-- Every `next` belongs to the iteration `cur` started last. -/
def Sequential : Option Nat → List ItOp → Prop
  | _, [] => True
  | _, .iter w :: l => Sequential (some w) l
  | cur, .next w :: l => cur = some w ∧ Sequential cur l

/-! ## One loop at a time -/

theorem loop_plain (body : α → CompObj α → CompObj α) (hb : ∀ a o, body a o = o) (pre : List α) : ∀ (l : List α) (fuel : Nat),
    l.length < fuel → CompObj.loop body fuel ⟨pre ++ l, some pre.length⟩ = some (l, ⟨pre ++ l, some (pre ++ l).length⟩) := by
  intro l
  induction l generalizing pre with
  | nil =>
    intro fuel hf
    obtain ⟨f, rfl⟩ : ∃ f, fuel = f + 1 := ⟨fuel - 1, by simp at hf; omega⟩
    simp [CompObj.loop, CompObj.next]
  | cons a l ih =>
    intro fuel hf
    obtain ⟨f, rfl⟩ : ∃ f, fuel = f + 1 := ⟨fuel - 1, by simp at hf; omega⟩
    have h := ih (pre ++ [a]) f (by simp at hf; omega)
    simp only [List.append_assoc, List.singleton_append, List.length_append, List.length_singleton] at h
    have hn : CompObj.next ⟨pre ++ a :: l, some pre.length⟩ = (.ok (some a), ⟨pre ++ a :: l, some (pre.length + 1)⟩) := by
      simp [CompObj.next]
    rw [CompObj.loop, hn]
    dsimp only
    rw [hb, h]
    simp

/-- A loop whose body does not iterate over the object visits the members once each, in
order, and ends; whatever was done with the object before. -/
theorem C24_single_partial (o : CompObj α) (body : α → CompObj α → CompObj α) (hb : ∀ a o, body a o = o) (fuel : Nat)
    (hf : o.modules.length < fuel) : ∃ o', o.forLoop body fuel = some (o.modules, o') ∧ o'.modules = o.modules := by
  obtain ⟨ms, c⟩ := o
  exact ⟨_, loop_plain body hb [] ms fuel hf, rfl⟩

theorem run_seq (ms : List α) : ∀ (l : List ItOp) (cur : Option Nat) (o : CompObj α) (pos : Nat → Option Nat), o.modules = ms →
    (∀ w, cur = some w → o.current = pos w) → Sequential cur l → o.run l = indepRun ms l pos := by
  intro l
  induction l with
  | nil => intros; rfl
  | cons op l ih =>
    intro cur o pos hm hc hs
    cases op with
    | iter w =>
      rw [CompObj.run, indepRun]
      refine ih (some w) o.iter _ hm (fun w' hw' => ?_) hs
      rw [← Option.some.inj hw', Function.update_self]; rfl
    | next w =>
      obtain ⟨hw, hs⟩ := hs
      have hcw := hc w hw
      rw [CompObj.run, indepRun]
      cases hp : pos w with
      | none =>
        rw [hp] at hcw
        have : o.next = (.error .attribute, o) := by rw [CompObj.next, hcw]
        rw [this]
        exact congrArg _ (ih cur o pos hm hc hs)
      | some c =>
        rw [hp] at hcw
        dsimp only
        by_cases hl : c < ms.length
        · have hn : o.next = (.ok (some ms[c]), { o with current := some (c + 1) }) := by
            rw [CompObj.next, hcw]; subst hm; simp [hl]
          rw [hn, if_pos hl, List.getElem?_eq_getElem hl]
          refine congrArg _ (ih cur _ _ hm (fun w' hw' => ?_) hs)
          rw [hw] at hw'
          rw [← Option.some.inj hw', Function.update_self]
        · have hn : o.next = (.ok none, o) := by
            rw [CompObj.next, hcw]; subst hm; simp [hl]
          rw [hn, if_neg hl, List.getElem?_eq_none (by omega)]
          refine congrArg _ (ih cur _ _ hm (fun w' hw' => ?_) hs)
          rw [hw] at hw'
          rw [← Option.some.inj hw', Function.update_self, hcw]

/-- Any history in which an iteration is not resumed after another one has started gives what
independent iterations give; in particular abandoned loops do no harm. -/
theorem C24_sequential_partial (ms : List α) (l : List ItOp) (h : Sequential none l) :
    (CompObj.mk' ms).run l = indepRun ms l fun _ => none :=
  run_seq ms l none _ _ rfl (by rintro w ⟨⟩) h

/-! ## Loops in progress at the same time -/

/-- A complete loop over the object inside the body of another one ends the outer loop after
its first member. -/
theorem C24_nested_disagreement (a : α) (ms : List α) (c : Option Nat) (fuel fuel' : Nat) (hf : 2 ≤ fuel)
    (hf' : (a :: ms).length < fuel') (body : α → CompObj α → CompObj α)
    (hb : ∀ x o, body x o = ((o.forLoop (fun _ o => o) fuel').map Prod.snd).getD o) :
    ∃ o', CompObj.forLoop body fuel ⟨a :: ms, c⟩ = some ([a], o') := by
  obtain ⟨f, rfl⟩ : ∃ f, fuel = f + 2 := ⟨fuel - 2, by omega⟩
  refine ⟨⟨a :: ms, some (a :: ms).length⟩, ?_⟩
  have hin : CompObj.forLoop (fun _ o => o) fuel' ⟨a :: ms, some 1⟩ = some (a :: ms, ⟨a :: ms, some (a :: ms).length⟩) :=
    loop_plain (fun _ o => o) (fun _ _ => rfl) [] (a :: ms) fuel' hf'
  have h0 : CompObj.next ⟨a :: ms, some 0⟩ = (.ok (some a), ⟨a :: ms, some 1⟩) := by simp [CompObj.next]
  have h1 : CompObj.next ⟨a :: ms, some (a :: ms).length⟩ = (.ok none, ⟨a :: ms, some (a :: ms).length⟩) := by
    simp [CompObj.next]
  rw [CompObj.forLoop, CompObj.iter, CompObj.loop, h0]
  dsimp only
  rw [hb, hin]
  dsimp only [Option.map, Option.getD]
  rw [CompObj.loop, h1]

/-- So with two members or more some member is never visited. -/
theorem C24_nested_misses (a b : α) (ms : List α) (o' : CompObj α) (fuel : Nat) (body : α → CompObj α → CompObj α)
    (h : CompObj.forLoop body fuel ⟨a :: b :: ms, none⟩ = some ([a], o')) :
    ¬∃ o'', CompObj.forLoop body fuel ⟨a :: b :: ms, none⟩ = some (a :: b :: ms, o'') := by
  rintro ⟨o'', h'⟩
  rw [h] at h'
  simp at h'

theorem loop_restart (a : α) (ms : List α) (body : α → CompObj α → CompObj α) (hb : ∀ x o, body x o = o.iter) :
    ∀ fuel, CompObj.loop body fuel ⟨a :: ms, some 0⟩ = none := by
  intro fuel
  induction fuel with
  | zero => rfl
  | succ f ih =>
    have h0 : CompObj.next ⟨a :: ms, some 0⟩ = (.ok (some a), ⟨a :: ms, some 1⟩) := by simp [CompObj.next]
    rw [CompObj.loop, h0]
    dsimp only
    rw [hb, CompObj.iter, ih]

/-- A body that starts another iteration, such as `iter(o)` for a later use, makes the loop
endless: no number of visits completes it. -/
theorem C24_restart_disagreement (a : α) (ms : List α) (c : Option Nat) (body : α → CompObj α → CompObj α)
    (hb : ∀ x o, body x o = o.iter) (fuel : Nat) : CompObj.forLoop body fuel ⟨a :: ms, c⟩ = none :=
  loop_restart a ms body hb fuel

/-- `zip(o, o)` pairs different members instead of each member with itself. -/
theorem C24_lockstep_disagreement (a b : α) (ms : List α) (hab : a ≠ b) :
    (CompObj.mk' (a :: b :: ms)).run [.iter 0, .iter 1, .next 0, .next 1] = [.ok (some a), .ok (some b)] ∧
      (CompObj.mk' (a :: b :: ms)).run [.iter 0, .iter 1, .next 0, .next 1] ≠
        indepRun (a :: b :: ms) [.iter 0, .iter 1, .next 0, .next 1] fun _ => none := by
  have h : (CompObj.mk' (a :: b :: ms)).run [.iter 0, .iter 1, .next 0, .next 1] = [.ok (some a), .ok (some b)] := by
    simp [CompObj.run, CompObj.mk', CompObj.iter, CompObj.next]
  refine ⟨h, ?_⟩
  rw [h]
  simp [indepRun, Function.update, Ne.symm hab]

/-! Instances: a loop abandoned after one member, followed by a complete one. -/
example : Sequential none [.iter 0, .next 0, .iter 1, .next 1, .next 1, .next 1] := by simp [Sequential]
example : (CompObj.mk' [10, 20]).run [.iter 0, .next 0, .iter 1, .next 1, .next 1, .next 1] =
    [.ok (some 10), .ok (some 10), .ok (some 20), .ok none] := by rfl
example : ∃ o', CompObj.forLoop (fun _ o => o) 4 ⟨[1, 2, 3], some 2⟩ = some ([1, 2, 3], o') := ⟨_, rfl⟩

end Imodal
