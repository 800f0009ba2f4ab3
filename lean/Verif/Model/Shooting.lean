import Verif.Model.Modules
import Mathlib.Analysis.Calculus.Deriv.Basic
import Mathlib.Logic.Equiv.Fin.Basic
/-!
# Shooting, `imodal/HamiltonianDynamic/shooting.py`

A row of the state vector of the solver is a sequence `Row`; only its first entries, as many
as the module has coordinates, are ever used. The fixed-step methods of `torchdiffeq` (not
part of the repository) are given by their formulas in exact arithmetic; the adaptive ones
are not modelled. `torch.autograd.grad` is taken to return the partial derivatives of the
value as a function of the entries of the tensors, and zero where there is none.
-/
set_option autoImplicit false
namespace Imodal
noncomputable section
variable {d : Nat}

/-! ## Tensors and rows -/

/-- A row of the state vector, or the flattened contents of a tensor. -/
abbrev Row := Nat → ℝ

/-- `tensor.flatten()` for shape `(n, d)`. -/
def flatVecs {n : Nat} (g : Fin n → Vec d) : List ℝ :=
  List.ofFn fun k : Fin (n * d) => g k.divNat k.modNat
/-- `tensor.flatten()` for shape `(n, d, d)`. -/
def flatMats {n : Nat} (g : Fin n → Mat d) : List ℝ :=
  List.ofFn fun k : Fin (n * (d * d)) => g k.divNat k.modNat.divNat k.modNat.modNat
/-- `.view((n, d))`. -/
def viewVecs {n : Nat} (s : Row) : Fin n → Vec d := fun i c => s (i * d + c)
/-- `.view((n, d, d))`. -/
def viewMats {n : Nat} (s : Row) : Fin n → Mat d := fun i => Matrix.of fun b c => s (i * (d * d) + (b * d + c))

mutual
/-- `unroll_gd()`, each tensor flattened (Abstract.py 301-302, Compound.py 54-59, Empty.py 57-58). -/
def Mfd.unrollGd : Mfd d → List (List ℝ)
  | .landmarks gd _ => [flatVecs gd]
  | .direction _ gd dir _ _ => [flatVecs gd, flatVecs dir]
  | .frame gd R _ _ => [flatVecs gd, flatMats R]
  | .empty => []
  | .compound ms => Mfd.unrollGdAll ms
def Mfd.unrollGdAll : List (Mfd d) → List (List ℝ)
  | [] => []
  | m :: ms => m.unrollGd ++ Mfd.unrollGdAll ms
end

mutual
/-- `unroll_cotan()`, each tensor flattened. -/
def Mfd.unrollCot : Mfd d → List (List ℝ)
  | .landmarks _ cot => [flatVecs cot]
  | .direction _ _ _ cot cdir => [flatVecs cot, flatVecs cdir]
  | .frame _ _ cot cR => [flatVecs cot, flatMats cR]
  | .empty => []
  | .compound ms => Mfd.unrollCotAll ms
def Mfd.unrollCotAll : List (Mfd d) → List (List ℝ)
  | [] => []
  | m :: ms => m.unrollCot ++ Mfd.unrollCotAll ms
end

mutual
/-- `unroll_tan()` of the manifold returned by `infinitesimal_action`, flattened. -/
def Tan.unroll : Tan d → List (List ℝ)
  | .landmarks v => [flatVecs v]
  | .direction v w => [flatVecs v, flatVecs w]
  | .frame v W => [flatVecs v, flatMats W]
  | .empty => []
  | .compound ts => Tan.unrollAll ts
def Tan.unrollAll : List (Tan d) → List (List ℝ)
  | [] => []
  | t :: ts => t.unroll ++ Tan.unrollAll ts
end

mutual
/-- `len_gd` (Abstract.py 291-294, Compound.py 46-48, Empty.py 40-42). -/
def Mfd.lenGd : Mfd d → Nat
  | .landmarks _ _ => 1
  | .direction _ _ _ _ _ => 2
  | .frame _ _ _ _ => 2
  | .empty => 0
  | .compound ms => Mfd.lenGdAll ms
def Mfd.lenGdAll : List (Mfd d) → Nat
  | [] => 0
  | m :: ms => m.lenGd + Mfd.lenGdAll ms
end

mutual
/-- `numel_gd` (Abstract.py 296-299, Compound.py 50-52, Empty.py 32-34). -/
def Mfd.numelGd : Mfd d → List Nat
  | @Mfd.landmarks _ n _ _ => [n * d]
  | @Mfd.direction _ _ n _ _ _ _ => [n * d, n * d]
  | @Mfd.frame _ n _ _ _ _ => [n * d, n * (d * d)]
  | .empty => [0]
  | .compound ms => Mfd.numelGdAll ms
def Mfd.numelGdAll : List (Mfd d) → List Nat
  | [] => []
  | m :: ms => m.numelGd ++ Mfd.numelGdAll ms
end

/-- Whether the class has the attribute `shape_gd`: `CompoundManifold` does not. -/
def Mfd.hasShapeGd : Mfd d → Bool
  | .compound _ => false
  | _ => true

/-- The inner loop over the tensors of one module (shooting.py 136-141): the slices of `x` and
the index behind them. -/
def sliceLoop (x : Row) : List Nat → Nat → List Row × Nat
  | [], index => ([], index)
  | k :: ks, index =>
    let r := sliceLoop x ks (index + k)
    ((fun j => x (index + j)) :: r.1, r.2)

/-- The outer loop over the modules (shooting.py 135-141, 197-201, 275-282, 294-301). Without
tensors the inner loop does not run and `shape_gd` is not asked for. -/
def sliceAll (x : Row) : List (Mfd d) → Nat → Py (List Row)
  | [], _ => .ok []
  | m :: ms, index =>
    if m.lenGd ≠ 0 ∧ m.hasShapeGd = false then .error .attribute
    else
      let r := sliceLoop x (m.numelGd.take m.lenGd) index
      match sliceAll x ms r.2 with
      | .error e => .error e
      | .ok l => .ok (r.1 ++ l)

mutual
/-- `man.fill_gd(man.roll_gd(l))`; the second component is what `roll_gd` leaves in the list
(tensor_container.py 64-71, 76-112, Compound.py 73-78, 100-105). -/
def Mfd.rollFillGd : Mfd d → List Row → Py (Mfd d × List Row)
  | .landmarks _ cot, s :: l => .ok (.landmarks (viewVecs s) cot, l)
  | .direction t _ _ cot cdir, s :: s' :: l => .ok (.direction t (viewVecs s) (viewVecs s') cot cdir, l)
  | .frame _ _ cot cR, s :: s' :: l => .ok (.frame (viewVecs s) (viewMats s') cot cR, l)
  | .empty, l => .ok (.empty, l)
  | .compound ms, l =>
    match Mfd.rollFillGdAll ms l with
    | .error e => .error e
    | .ok r => .ok (.compound r.1, r.2)
  | _, _ => .error .index
def Mfd.rollFillGdAll : List (Mfd d) → List Row → Py (List (Mfd d) × List Row)
  | [], l => .ok ([], l)
  | m :: ms, l =>
    match Mfd.rollFillGd m l with
    | .error e => .error e
    | .ok r =>
      match Mfd.rollFillGdAll ms r.2 with
      | .error e => .error e
      | .ok r' => .ok (r.1 :: r'.1, r'.2)
end

mutual
/-- `man.fill_cotan(man.roll_cotan(l))`. -/
def Mfd.rollFillCot : Mfd d → List Row → Py (Mfd d × List Row)
  | .landmarks gd _, s :: l => .ok (.landmarks gd (viewVecs s), l)
  | .direction t gd dir _ _, s :: s' :: l => .ok (.direction t gd dir (viewVecs s) (viewVecs s'), l)
  | .frame gd R _ _, s :: s' :: l => .ok (.frame gd R (viewVecs s) (viewMats s'), l)
  | .empty, l => .ok (.empty, l)
  | .compound ms, l =>
    match Mfd.rollFillCotAll ms l with
    | .error e => .error e
    | .ok r => .ok (.compound r.1, r.2)
  | _, _ => .error .index
def Mfd.rollFillCotAll : List (Mfd d) → List Row → Py (List (Mfd d) × List Row)
  | [], l => .ok ([], l)
  | m :: ms, l =>
    match Mfd.rollFillCot m l with
    | .error e => .error e
    | .ok r =>
      match Mfd.rollFillCotAll ms r.2 with
      | .error e => .error e
      | .ok r' => .ok (r.1 :: r'.1, r'.2)
end

mutual
/-- `module.manifold.fill_gd(module.manifold.roll_gd(l))`: the manifold inside the module is
changed, controls and cached results are not. -/
def DefModule.rollFillGd : DefModule d → List Row → Py (DefModule d × List Row)
  | .translations m, s :: l => .ok (.translations { m with gd := viewVecs s }, l)
  | .implicit0 m, s :: l => .ok (.implicit0 { m with gd := viewVecs s }, l)
  | .oriented m, s :: s' :: l => .ok (.oriented { m with gd := viewVecs s, dir := viewVecs s' }, l)
  | .constrained m, s :: l => .ok (.constrained { m with gd := viewVecs s }, l)
  | .globalTranslation m, l => .ok (.globalTranslation m, l)
  | .linear m, s :: l => .ok (.linear { m with gd := viewVecs (n := 1) s 0 }, l)
  | .implicit1 m, s :: s' :: l => .ok (.implicit1 { m with gd := viewVecs s, R := viewMats s' }, l)
  | .divFree m, s :: l => .ok (.divFree { m with gd := viewVecs s }, l)
  | .arap m, s :: l => .ok (.arap { m with gd := viewVecs s }, l)
  | .silent man, l =>
    match man.rollFillGd l with
    | .error e => .error e
    | .ok r => .ok (.silent r.1, r.2)
  | .compound ms, l =>
    match DefModule.rollFillGdAll ms l with
    | .error e => .error e
    | .ok r => .ok (.compound r.1, r.2)
  | _, _ => .error .index
def DefModule.rollFillGdAll : List (DefModule d) → List Row → Py (List (DefModule d) × List Row)
  | [], l => .ok ([], l)
  | m :: ms, l =>
    match DefModule.rollFillGd m l with
    | .error e => .error e
    | .ok r =>
      match DefModule.rollFillGdAll ms r.2 with
      | .error e => .error e
      | .ok r' => .ok (r.1 :: r'.1, r'.2)
end

mutual
/-- `module.manifold.fill_cotan(module.manifold.roll_cotan(l))`. -/
def DefModule.rollFillCot : DefModule d → List Row → Py (DefModule d × List Row)
  | .translations m, s :: l => .ok (.translations { m with cot := viewVecs s }, l)
  | .implicit0 m, s :: l => .ok (.implicit0 { m with cot := viewVecs s }, l)
  | .oriented m, s :: s' :: l => .ok (.oriented { m with cot := viewVecs s, cdir := viewVecs s' }, l)
  | .constrained m, s :: l => .ok (.constrained { m with cot := viewVecs s }, l)
  | .globalTranslation m, l => .ok (.globalTranslation m, l)
  | .linear m, s :: l => .ok (.linear { m with cot := viewVecs (n := 1) s 0 }, l)
  | .implicit1 m, s :: s' :: l => .ok (.implicit1 { m with cot := viewVecs s, cR := viewMats s' }, l)
  | .divFree m, s :: l => .ok (.divFree { m with cot := viewVecs s }, l)
  | .arap m, s :: l => .ok (.arap { m with cot := viewVecs s }, l)
  | .silent man, l =>
    match man.rollFillCot l with
    | .error e => .error e
    | .ok r => .ok (.silent r.1, r.2)
  | .compound ms, l =>
    match DefModule.rollFillCotAll ms l with
    | .error e => .error e
    | .ok r => .ok (.compound r.1, r.2)
  | _, _ => .error .index
def DefModule.rollFillCotAll : List (DefModule d) → List Row → Py (List (DefModule d) × List Row)
  | [], l => .ok ([], l)
  | m :: ms, l =>
    match DefModule.rollFillCot m l with
    | .error e => .error e
    | .ok r =>
      match DefModule.rollFillCotAll ms r.2 with
      | .error e => .error e
      | .ok r' => .ok (r.1 :: r'.1, r'.2)
end

/-- The members of the compound module of a Hamiltonian. -/
def DefModule.members : DefModule d → List (DefModule d)
  | .compound ms => ms
  | m => [m]

/-- Reading the descriptors of `h.module` from a row (shooting.py 133-144, 195-204, 273-284). -/
def readGd (m : DefModule d) (x : Row) : Py (DefModule d) :=
  match sliceAll x (DefModule.manifolds m.members) 0 with
  | .error e => .error e
  | .ok l =>
    match m.rollFillGd l with
    | .error e => .error e
    | .ok r => .ok r.1
/-- Reading the momenta of `h.module` from a row (shooting.py 133-146, 286-287). -/
def readCot (m : DefModule d) (x : Row) : Py (DefModule d) :=
  match sliceAll x (DefModule.manifolds m.members) 0 with
  | .error e => .error e
  | .ok l =>
    match m.rollFillCot l with
    | .error e => .error e
    | .ok r => .ok r.1

/-- The entries of `cat([x.flatten() for x in [*unroll_gd(), *unroll_cotan()]])` (shooting.py 261-262). -/
def stateEntries (m : DefModule d) : List ℝ := (m.manifold.unrollGd ++ m.manifold.unrollCot).flatten

/-- A list as a row. -/
def rowOf (l : List ℝ) : Row := fun j => l.getD j 0

/-- `x_0` (shooting.py 261-262): `cat` of nothing, and `view(2, -1)` without entries, raise
RuntimeError. -/
def initRows (m : DefModule d) : Py (Row × Row) :=
  let e := stateEntries m
  if e = [] then .error .runtime
  else .ok (rowOf (e.take (e.length / 2)), rowOf (e.drop (e.length / 2)))

/-! ## Derivatives of the Hamiltonian -/

/-- The descriptors as one row. -/
def gdRow (m : DefModule d) : Row := rowOf m.manifold.unrollGd.flatten
/-- The momenta as one row. -/
def cotRow (m : DefModule d) : Row := rowOf m.manifold.unrollCot.flatten
/-- The number of entries of a row. -/
def numCoords (m : DefModule d) : Nat := m.manifold.unrollGd.flatten.length

/-- The slices of all tensors of a manifold, including nested compounds. -/
def slicesOf (x : Row) (man : Mfd d) : List Row := (sliceLoop x (man.unrollGd.map List.length) 0).1
/-- The module with the entries of its descriptors and momenta replaced. -/
def withRows (m : DefModule d) (q p : Row) : Py (DefModule d) :=
  match m.rollFillGd (slicesOf q m.manifold) with
  | .error e => .error e
  | .ok r =>
    match r.1.rollFillCot (slicesOf p m.manifold) with
    | .error e => .error e
    | .ok r' => .ok r'.1

/-- `h()` after `prepare`, as a function of all entries of the descriptors and momenta. -/
def hamFn (prepare : DefModule d → Py (DefModule d)) (m : DefModule d) (q p : Row) : Py ℝ :=
  match withRows m q p with
  | .error e => .error e
  | .ok m1 =>
    match prepare m1 with
    | .error e => .error e
    | .ok m2 => Hamiltonian.value m2

/-- The value, zero where it raises. -/
def valD (r : Py ℝ) : ℝ :=
  match r with
  | .ok a => a
  | .error _ => 0

/-- `∂F/∂q_j`. -/
def partialQ (F : Row → Row → ℝ) (q p : Row) (j : Nat) : ℝ := deriv (fun s => F (Function.update q j s) p) (q j)
/-- `∂F/∂p_j`. -/
def partialP (F : Row → Row → ℝ) (q p : Row) (j : Nat) : ℝ := deriv (fun s => F q (Function.update p j s)) (p j)

/-- The first `n` entries, zero behind them. -/
def cut (n : Nat) (x : Row) : Row := fun j => if j < n then x j else 0

/-- `grad(h(), [*unroll_gd(), *unroll_cotan()])` flattened, for controls set by `prepare`
(shooting.py 67-74, 154-170): the derivatives with respect to the descriptors and to the
momenta. -/
def gradH (prepare : DefModule d → Py (DefModule d)) (m : DefModule d) : Row × Row :=
  let F := fun q p => valD (hamFn prepare m q p)
  (cut (numCoords m) (partialQ F (gdRow m) (cotRow m)), cut (numCoords m) (partialP F (gdRow m) (cotRow m)))

/-! ## `_shoot_euler` -/

/-- What shooting leaves behind. -/
structure Shot (d : Nat) where
  module : DefModule d
  costs : List ℝ
  states : List (Mfd d)
  ctrls : List (Ctrl d)

/-- How the controls are set before a step (shooting.py 62-65). -/
def setControls (controls : Option (List (Ctrl d))) (i : Nat) (m : DefModule d) : Py (DefModule d) :=
  match controls with
  | none => Hamiltonian.geodesicControls m
  | some cs =>
    match cs[i]? with
    | none => .error .index
    | some c => m.fillControls c

/-- One pass of the loop (shooting.py 61-86): set the controls, differentiate, add. -/
def eulerStep (step : ℝ) (controls : Option (List (Ctrl d))) (i : Nat) (m : DefModule d) : Py (DefModule d) :=
  match setControls controls i m with
  | .error e => .error e
  | .ok m1 =>
    match Hamiltonian.value m1 with
    | .error e => .error e
    | .ok _ =>
      let g := gradH (setControls controls i) m
      withRows m1 (gdRow m + step • g.2) (cotRow m + -step • g.1)

/-- The loop; states and controls are collected as with `intermediates`. -/
def eulerLoop (step : ℝ) (controls : Option (List (Ctrl d))) : Nat → Nat → DefModule d → Py (Shot d)
  | _, 0, m => .ok ⟨m, [], [m.manifold], []⟩
  | i, k + 1, m =>
    match eulerStep step controls i m with
    | .error e => .error e
    | .ok m' =>
      match eulerLoop step controls (i + 1) k m' with
      | .error e => .error e
      | .ok r => .ok ⟨r.module, [], m.manifold :: r.states, m'.controls :: r.ctrls⟩

/-- `_shoot_euler` (shooting.py 53-92). The costs are not touched. -/
def shootEuler (it : Nat) (controls : Option (List (Ctrl d))) (m : DefModule d) : Py (Shot d) :=
  if it = 0 then .error .zeroDivision else eulerLoop (1 / it) controls 0 it m

/-! ## `_shoot_torchdiffeq` -/

/-- The fixed-step methods the documentation of `shoot` names. -/
inductive Solver | euler | midpoint | rk4
  deriving DecidableEq

/-- One step of the method from `t` to `t'`. -/
def Solver.step {σ V : Type} [AddCommGroup V] [Module ℝ V] (f : ℝ → V → Prog σ V) (t t' : ℝ) (y : V) : Solver → Prog σ V
  | .euler => do
    let k ← f t y
    pure (y + (t' - t) • k)
  | .midpoint => do
    let k ← f t y
    let k' ← f (t + 0.5 * (t' - t)) (y + (0.5 * (t' - t)) • k)
    pure (y + (t' - t) • k')
  | .rk4 => do
    let k₁ ← f t y
    let k₂ ← f (t + (t' - t) * (1 / 3)) (y + ((t' - t) * (1 / 3)) • k₁)
    let k₃ ← f (t + (t' - t) * (2 / 3)) (y + (t' - t) • (k₂ - (1 / 3 : ℝ) • k₁))
    let k₄ ← f t' (y + (t' - t) • (k₁ - k₂ + k₃))
    pure (y + ((t' - t) * 0.125) • (k₁ + (3 : ℝ) • (k₂ + k₃) + k₄))

/-- `linspace(0., t1, it + 1)[i]`. -/
def gridTime (t1 : ℝ) (it i : Nat) : ℝ := t1 * i / it

/-- The values at grid points `i, …, i + k`. -/
def odeLoop {σ V : Type} [AddCommGroup V] [Module ℝ V] (s : Solver) (f : ℝ → V → Prog σ V) (t1 : ℝ) (it : Nat) :
    Nat → Nat → V → Prog σ (List V)
  | _, 0, y => pure [y]
  | i, k + 1, y => do
    let y' ← Solver.step f (gridTime t1 it i) (gridTime t1 it (i + 1)) y s
    let rest ← odeLoop s f t1 it (i + 1) k y'
    pure (y :: rest)

/-- `odeint(f, y, linspace(0., t1, it + 1), method=s)`: the times must be strictly monotone. -/
def odeint {σ V : Type} [AddCommGroup V] [Module ℝ V] (s : Solver) (f : ℝ → V → Prog σ V) (t1 : ℝ) (it : Nat) (y : V) :
    Prog σ (List V) := fun w =>
  open Classical in if it ≠ 0 ∧ t1 = 0 then (.error .assertion, w) else odeLoop s f t1 it 0 it y w

/-- The attributes of `TorchDiffEqHamiltonianGrad` that change (shooting.py 99-106). -/
structure GradObj (d : Nat) where
  module : DefModule d
  it : Nat
  trueIt : Int
  costs : List ℝ
  ctrls : List (Ctrl d)

/-- `t_to_it` (shooting.py 113-114). -/
def tToIt (t1 : ℝ) (it : Nat) (t : ℝ) : Int := min ⌊t / (t1 / it)⌋ ((it : Int) - 1)

open Classical in
/-- The test `ADD_COST` (shooting.py 126-129, 188-191). -/
def addCost (prev cur : Int) (t : ℝ) : Bool := decide (prev ≠ cur ∨ t = 0)

/-- `forward_moments` (shooting.py 116-176). -/
def forwardMoments (t1 : ℝ) (it : Nat) (t : ℝ) (x : Row × Row) : Prog (GradObj d) (Row × Row) := do
  let g ← Prog.get
  let cur := tToIt t1 it t
  let m ← Prog.lift (readGd g.module x.1)
  let m ← Prog.lift (readCot m x.2)
  let m' ← Prog.lift (Hamiltonian.geodesicControls m)
  let _ ← Prog.lift (Hamiltonian.value m')
  let c ← Prog.lift m'.cost
  let δ := gradH Hamiltonian.geodesicControls m
  Prog.set ⟨m', g.it + 1, cur, if addCost g.trueIt cur t then g.costs ++ [c] else g.costs, g.ctrls ++ [m'.controls]⟩
  pure (δ.2, -δ.1)

/-- The entry of the list of controls an evaluation uses (shooting.py 206-214). -/
def pickControls (controls : List (Ctrl d)) (it : Nat) (cur : Int) (calls : Nat) : Py (Ctrl d) :=
  let i := if controls.length = it then cur.toNat else if it < controls.length then calls else 0
  match controls[i]? with
  | none => .error .index
  | some c => .ok c

/-- `forward_control` (shooting.py 178-250). -/
def forwardControl (controls : List (Ctrl d)) (t1 : ℝ) (it : Nat) (t : ℝ) (x : Row) : Prog (GradObj d) Row := do
  let g ← Prog.get
  let cur := tToIt t1 it t
  let m ← Prog.lift (readGd g.module x)
  let c ← Prog.lift (pickControls controls it cur g.it)
  let m' ← Prog.lift (m.fillControls c)
  let cost ← Prog.lift m'.cost
  let f ← Prog.lift m'.field
  let v ← Prog.lift (m'.manifold.action f)
  Prog.set ⟨m', g.it + 1, cur, if addCost g.trueIt cur t then g.costs ++ [cost] else g.costs, g.ctrls ++ [m'.controls]⟩
  pure (rowOf v.unroll.flatten)

/-- The object before the first evaluation (shooting.py 99-106, 254-258). -/
def GradObj.init (m : DefModule d) : GradObj d := ⟨m, 0, 0, [], []⟩

/-- Reading an intermediate state into a copy of the initial manifold (shooting.py 292-307). -/
def readState (ms : List (Mfd d)) (man : Mfd d) (q : Row) (p : Option Row) : Py (Mfd d) :=
  match sliceAll q ms 0 with
  | .error e => .error e
  | .ok l =>
    match man.rollFillGd l with
    | .error e => .error e
    | .ok r =>
      match p with
      | none => .ok r.1
      | some p =>
        match sliceAll p ms 0 with
        | .error e => .error e
        | .ok l' =>
          match r.1.rollFillCot l' with
          | .error e => .error e
          | .ok r' => .ok r'.1

/-- A list of results, or the first error. -/
def collectList {α β : Type} (f : α → Py β) : List α → Py (List β)
  | [] => .ok []
  | a :: l =>
    match f a with
    | .error e => .error e
    | .ok b =>
      match collectList f l with
      | .error e => .error e
      | .ok bs => .ok (b :: bs)

/-- `_shoot_torchdiffeq` without controls (shooting.py 252-307). -/
def shootMoments (s : Solver) (it : Nat) (t1 : ℝ) (m : DefModule d) : Py (Shot d) :=
  match initRows m with
  | .error e => .error e
  | .ok x₀ =>
    match odeint s (forwardMoments t1 it) t1 it x₀ (GradObj.init m) with
    | (.error e, _) => .error e
    | (.ok xs, g) =>
      match readGd g.module (xs.getLastD x₀).1 with
      | .error e => .error e
      | .ok m1 =>
        match readCot m1 (xs.getLastD x₀).2 with
        | .error e => .error e
        | .ok m2 =>
          match collectList (fun x : Row × Row =>
              readState (DefModule.manifolds m2.members) m.manifold x.1 (some x.2)) xs with
          | .error e => .error e
          | .ok st => .ok ⟨m2, g.costs, st, g.ctrls⟩

/-- `_shoot_torchdiffeq` with controls (shooting.py 252-307): one row, the momenta stay. -/
def shootControls (s : Solver) (it : Nat) (t1 : ℝ) (controls : List (Ctrl d)) (m : DefModule d) : Py (Shot d) :=
  match initRows m with
  | .error e => .error e
  | .ok x₀ =>
    match odeint s (forwardControl controls t1 it) t1 it x₀.1 (GradObj.init m) with
    | (.error e, _) => .error e
    | (.ok xs, g) =>
      match readGd g.module (xs.getLastD x₀.1) with
      | .error e => .error e
      | .ok m1 =>
        match collectList (fun x : Row => readState (DefModule.manifolds m1.members) m.manifold x none) xs with
        | .error e => .error e
        | .ok st => .ok ⟨m1, g.costs, st, g.ctrls⟩

end
end Imodal
