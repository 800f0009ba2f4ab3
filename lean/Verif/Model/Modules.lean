import Verif.Model.Action
import Verif.Model.Sks
/-!
# Deformation modules, `imodal/DeformationModules/`

Each class is a structure holding its attributes; methods that assign attributes return the
new object. If a call raises, the state it leaves behind is not modelled. Labels, devices,
dtypes and `requires_grad` flags are left out; controls of a wrong shape are not modelled
(`PyErr.unmodelled`). Arrays flattened from `(P, d)` are indexed by pairs.
-/
set_option autoImplicit false
namespace Imodal
noncomputable section
variable {d : Nat}

/-- `Translations` (Translation.py). `r` selects the class `_Torch` or `_KeOps`. -/
structure Translations (d n : Nat) where
  r : Reduction
  gd : Fin n → Vec d
  cot : Fin n → Vec d
  σ : ℝ
  ctrl : Fin n → Vec d

/-- `manifold` (Translation.py 40-42). -/
def Translations.manifold {n : Nat} (m : Translations d n) : Mfd d := .landmarks m.gd m.cot
/-- `field_generator` (Translation.py 72-73). -/
def Translations.field {n : Nat} (m : Translations d n) : FieldExpr d := .f0 m.r m.gd m.ctrl m.σ
/-- `torch.mm(K_q, P)` for an array of vectors. -/
def kMul {n : Nat} (K : Fin n → Fin n → ℝ) (P : Fin n → Vec d) : Fin n → Vec d :=
  fun i c => ∑ j, K i j * P j c
/-- `cost` (Translation.py 87-91 and 124-125). -/
def Translations.cost {n : Nat} (m : Translations d n) : ℝ :=
  match m.r with
  | .torch => 0.5 * dotFlat (kMul (kXX m.σ m.gd) m.ctrl) m.ctrl
  | .keops => ∑ j, ∑ i, (∑ c, keopsGauss m.σ (m.gd i) (m.gd j) * m.ctrl i c * m.ctrl j c) / 2
/-- `compute_geodesic_control` (Translation.py 93-98 and 127-129). -/
def Translations.geodesic {n : Nat} (m : Translations d n) (man : Mfd d) : Py (Translations d n) :=
  match man.cotToVs m.σ m.r with
  | .error e => .error e
  | .ok vs =>
    match vs.values m.gd with
    | .error e => .error e
    | .ok V =>
      match (match m.r with
        | .torch => linSolveCols (Matrix.of (kXX m.σ m.gd)) V
        | .keops => keopsSolveCols (Matrix.of fun i j => keopsGauss m.σ (m.gd i) (m.gd j)) V) with
      | .error e => .error e
      | .ok c => .ok { m with ctrl := c }

/-- `ImplicitModule0` (ImplicitModule0.py). -/
structure Implicit0 (d n : Nat) where
  r : Reduction
  gd : Fin n → Vec d
  cot : Fin n → Vec d
  σ : ℝ
  ν : ℝ
  coeff : ℝ
  ctrl : Fin n → Vec d

/-- `manifold` (ImplicitModule0.py 49-51). -/
def Implicit0.manifold {n : Nat} (m : Implicit0 d n) : Mfd d := .landmarks m.gd m.cot
/-- `field_generator` (ImplicitModule0.py 91-92). -/
def Implicit0.field {n : Nat} (m : Implicit0 d n) : FieldExpr d := .f0 m.r m.gd m.ctrl m.σ
/-- `Exp(-S*SqNorm2(x - y))` with `S = 0.5/sigma/sigma` (ImplicitModule0.py 127-129). -/
def keopsGauss0 (σ : ℝ) (x y : Vec d) : ℝ := Real.exp (-(0.5 / σ / σ) * ∑ c, (x c - y c) ^ 2)
/-- `cost` (ImplicitModule0.py 106-109 and 151-159). -/
def Implicit0.cost {n : Nat} (m : Implicit0 d n) : ℝ :=
  match m.r with
  | .torch =>
    let p : Fin n → Vec d := fun i c => kMul (kXX m.σ m.gd) m.ctrl i c + m.ν * m.ctrl i c
    0.5 * m.coeff * dotFlat p m.ctrl
  | .keops =>
    0.5 * m.coeff *
      ((∑ j, ∑ i, ∑ c, keopsGauss0 m.σ (m.gd i) (m.gd j) * m.ctrl i c * m.ctrl j c)
        + m.ν * ∑ i, ∑ c, m.ctrl i c ^ 2)
/-- `compute_geodesic_control` (ImplicitModule0.py 111-115 and 161-171). -/
def Implicit0.geodesic {n : Nat} (m : Implicit0 d n) (man : Mfd d) : Py (Implicit0 d n) :=
  match man.cotToVs m.σ m.r with
  | .error e => .error e
  | .ok vs =>
    match vs.values m.gd with
    | .error e => .error e
    | .ok V =>
      match (match m.r with
        | .torch => linSolveCols (Matrix.of (kXX m.σ m.gd) + m.ν • (1 : Matrix (Fin n) (Fin n) ℝ)) V
        | .keops => keopsSolveCols (Matrix.of (fun i j => keopsGauss0 m.σ (m.gd i) (m.gd j))
            + m.ν • (1 : Matrix (Fin n) (Fin n) ℝ)) V) with
      | .error e => .error e
      | .ok c =>
        match tdiv 1 m.coeff with
        | .error e => .error e
        | .ok _ => .ok { m with ctrl := fun i b => c i b / m.coeff }

/-- `OrientedTranslations` (OrientedTranslation.py); both backends build the torch class (128). -/
structure Oriented (d n : Nat) where
  t : Transport
  gd : Fin n → Vec d
  dir : Fin n → Vec d
  cot : Fin n → Vec d
  cdir : Fin n → Vec d
  σ : ℝ
  coeff : ℝ
  ctrl : Fin n → ℝ

/-- `manifold` (OrientedTranslation.py 44-46). -/
def Oriented.manifold {n : Nat} (m : Oriented d n) : Mfd d := .direction m.t m.gd m.dir m.cot m.cdir
/-- `controls.unsqueeze(1).repeat(1, dim)*gd[1]`. -/
def Oriented.vectors {n : Nat} (m : Oriented d n) : Fin n → Vec d := fun i c => m.ctrl i * m.dir i c
/-- `field_generator` (OrientedTranslation.py 80-81). -/
def Oriented.field {n : Nat} (m : Oriented d n) : FieldExpr d := .f0 .torch m.gd m.vectors m.σ
/-- `cost` (OrientedTranslation.py 95-99). -/
def Oriented.cost {n : Nat} (m : Oriented d n) : ℝ :=
  0.5 * m.coeff * dotFlat (kMul (kXX m.σ m.gd) m.vectors) m.vectors
/-- `compute_geodesic_control` (OrientedTranslation.py 101-106). -/
def Oriented.geodesic {n : Nat} (m : Oriented d n) (man : Mfd d) : Py (Oriented d n) :=
  match man.cotToVs m.σ .torch with
  | .error e => .error e
  | .ok vs =>
    match vs.values m.gd with
    | .error e => .error e
    | .ok V =>
      match linSolve (Matrix.of fun i j => kXX m.σ m.gd i j * ∑ c, m.dir i c * m.dir j c)
          (fun i => ∑ c, V i c * m.dir i c) with
      | .error e => .error e
      | .ok c =>
        match tdiv 1 m.coeff with
        | .error e => .error e
        | .ok _ => .ok { m with ctrl := fun i => c i / m.coeff }

/-- `LocalConstrainedTranslations` (LocalConstrainedTranslations.py); both backends build the
torch class (142). `fsupp` and `fvec` are the two functions of the descriptor. -/
structure Constrained (d n p : Nat) where
  gd : Fin n → Vec d
  cot : Fin n → Vec d
  σ : ℝ
  coeff : ℝ
  fsupp : (Fin n → Vec d) → Fin p → Vec d
  fvec : (Fin n → Vec d) → Fin p → Vec d
  ctrl : ℝ

/-- `manifold` (LocalConstrainedTranslations.py 54-56). -/
def Constrained.manifold {n p : Nat} (m : Constrained d n p) : Mfd d := .landmarks m.gd m.cot
/-- `field_generator` (LocalConstrainedTranslations.py 86-90). -/
def Constrained.field {n p : Nat} (m : Constrained d n p) : FieldExpr d :=
  .f0 .torch (m.fsupp m.gd) (fun i c => m.ctrl * m.fvec m.gd i c) m.σ
/-- `torch.dot(mm(K_q, vectors).flatten(), vectors.flatten())`. -/
def Constrained.energy {n p : Nat} (m : Constrained d n p) : ℝ :=
  dotFlat (kMul (kXX m.σ (m.fsupp m.gd)) (m.fvec m.gd)) (m.fvec m.gd)
/-- `cost` (LocalConstrainedTranslations.py 104-111). -/
def Constrained.cost {n p : Nat} (m : Constrained d n p) : ℝ :=
  0.5 * m.coeff * m.energy * m.ctrl * m.ctrl
/-- `compute_geodesic_control` (LocalConstrainedTranslations.py 113-124). -/
def Constrained.geodesic {n p : Nat} (m : Constrained d n p) (man : Mfd d) : Py (Constrained d n p) :=
  match man.innerProd (.f0 .torch (m.fsupp m.gd) (m.fvec m.gd) m.σ) with
  | .error e => .error e
  | .ok a =>
    match tdiv a (m.coeff * m.energy) with
    | .error e => .error e
    | .ok c => .ok { m with ctrl := c }

/-- `GlobalTranslation` (GlobalTranslation.py). -/
structure GlobalTranslation (d : Nat) where
  coeff : ℝ
  ctrl : Vec d

/-- `manifold` (GlobalTranslation.py 36-38). -/
def GlobalTranslation.manifold (_m : GlobalTranslation d) : Mfd d := .empty
/-- `field_generator` (GlobalTranslation.py 79-80). -/
def GlobalTranslation.field (m : GlobalTranslation d) : FieldExpr d := .const m.ctrl
/-- `cost` (GlobalTranslation.py 65-66). -/
def GlobalTranslation.cost (m : GlobalTranslation d) : ℝ := 0.5 * m.coeff * ∑ c, m.ctrl c * m.ctrl c
/-- The loop body of `compute_geodesic_control` (GlobalTranslation.py 72-75). -/
def GlobalTranslation.entry (m : GlobalTranslation d) (man : Mfd d) (i : Fin d) : Py ℝ :=
  match man.innerProd (.const fun c => if c = i then 1 else 0) with
  | .error e => .error e
  | .ok a => tdiv a m.coeff
/-- The entries of a list of results, or the first error. -/
def collect : {n : Nat} → (Fin n → Py ℝ) → Py (Fin n → ℝ)
  | 0, _ => .ok fun i => i.elim0
  | n + 1, f =>
    match f 0 with
    | .error e => .error e
    | .ok a =>
      match collect (fun i : Fin n => f i.succ) with
      | .error e => .error e
      | .ok g => .ok (Fin.cons a g)
/-- `compute_geodesic_control` (GlobalTranslation.py 68-77). -/
def GlobalTranslation.geodesic (m : GlobalTranslation d) (man : Mfd d) : Py (GlobalTranslation d) :=
  match collect (m.entry man) with
  | .error e => .error e
  | .ok c => .ok { m with ctrl := c }

/-- `LinearDeformation` (Linear.py) on a manifold of one point. -/
structure Linear (d : Nat) where
  A : Mat d
  gd : Vec d
  cot : Vec d
  coeff : ℝ
  ctrl : ℝ

/-- `manifold` (Linear.py 44-46). -/
def Linear.manifold (m : Linear d) : Mfd d := .landmarks (fun _ : Fin 1 => m.gd) (fun _ => m.cot)
/-- `field_generator` (Linear.py 78-79). -/
def Linear.field (m : Linear d) : FieldExpr d := .affine (m.ctrl • m.A) m.gd 0
/-- `cost` (Linear.py 71-72). -/
def Linear.cost (m : Linear d) : ℝ := 0.5 * m.coeff * m.ctrl ^ 2
/-- `compute_geodesic_control` (Linear.py 74-76). -/
def Linear.geodesic (m : Linear d) (man : Mfd d) : Py (Linear d) :=
  match man.innerProd (.affine m.A m.gd 0) with
  | .error e => .error e
  | .ok a =>
    match tdiv a m.coeff with
    | .error e => .error e
    | .ok c => .ok { m with ctrl := c }

/-- What `compute_moments` of an implicit module of order 1 leaves in the object. -/
structure Imp1Cache (d n : Nat) where
  aqh : Fin n × Fin (symDim d) → ℝ
  lambdas : Fin n × Fin (symDim d) → ℝ
  moments : Fin n → Mat d

/-- `ImplicitModule1` (ImplicitModule1.py); `C` has shape `(n, d, p)`. `cache` is `none` until
`compute_moments` ran. -/
structure Implicit1 (d n p : Nat) where
  r : Reduction
  gd : Fin n → Vec d
  R : Fin n → Mat d
  cot : Fin n → Vec d
  cR : Fin n → Mat d
  C : Fin n → Fin d → Fin p → ℝ
  σ : ℝ
  ν : ℝ
  coeff : ℝ
  ctrl : Fin p → ℝ
  cache : Option (Imp1Cache d n)

/-- `manifold` (ImplicitModule1.py 74-76). -/
def Implicit1.manifold {n p : Nat} (m : Implicit1 d n p) : Mfd d := .frame m.gd m.R m.cot m.cR
/-- `field_generator` (ImplicitModule1.py 133-135). -/
def Implicit1.field {n p : Nat} (m : Implicit1 d n p) : Py (FieldExpr d) :=
  match m.cache with
  | none => .error .attribute
  | some k => .ok (.fp m.r m.gd k.moments m.σ)
/-- `cost` (ImplicitModule1.py 154-155 and 240-241). -/
def Implicit1.cost {n p : Nat} (m : Implicit1 d n p) : Py ℝ :=
  match m.cache with
  | none => .error .attribute
  | some k => .ok (0.5 * m.coeff * ∑ i, k.aqh i * k.lambdas i)
/-- `__compute_aqh(h)` (ImplicitModule1.py 178-188 and 270-280). -/
def Implicit1.aqh {n p : Nat} (m : Implicit1 d n p) (h : Fin p → ℝ) (q : Fin n × Fin (symDim d)) : ℝ :=
  ∑ l, ∑ i, ∑ k, ∑ u, ∑ v,
    m.R q.1 l i * m.C q.1 i k * h k * eye u i * m.R q.1 v i * etaOf d l v q.2
/-- `__compute_sks` (ImplicitModule1.py 190-191 and 264-268). -/
def Implicit1.sks {n p : Nat} (m : Implicit1 d n p) :
    Matrix (Fin n × Fin (symDim d)) (Fin n × Fin (symDim d)) ℝ :=
  (match m.r with
    | .torch => computeSks1 m.σ m.gd
    | .keops => computeSks1Keops m.σ m.gd) + m.ν • (1 : Matrix _ _ ℝ)
/-- The solve with the current `sks`, in either backend. -/
def Implicit1.solve {n p : Nat} (m : Implicit1 d n p) (b : Fin n × Fin (symDim d) → ℝ) :
    Py (Fin n × Fin (symDim d) → ℝ) :=
  match m.r with
  | .torch => linSolve m.sks b
  | .keops => keopsSolve m.sks b
/-- `compute_moments` (ImplicitModule1.py 174-176, 193-199 and 260-262, 282-287). -/
def Implicit1.computeMoments {n p : Nat} (m : Implicit1 d n p) : Py (Implicit1 d n p) :=
  match m.solve (m.aqh m.ctrl) with
  | .error e => .error e
  | .ok l => .ok { m with cache := .some ⟨m.aqh m.ctrl, l,
      fun i => Matrix.of fun b c => ∑ t, l (i, t) * etaOf d c b t⟩ }
/-- `fill_controls` (ImplicitModule1.py 105-107). -/
def Implicit1.fill {n p : Nat} (m : Implicit1 d n p) (h : Fin p → ℝ) : Py (Implicit1 d n p) :=
  ({ m with ctrl := h } : Implicit1 d n p).computeMoments
/-- The strains of the dual field in the basis `eta` (ImplicitModule1.py 161-162). -/
def strains {n : Nat} (J : Fin n → Mat d) (q : Fin n × Fin (symDim d)) : ℝ :=
  ∑ b, ∑ c, (0.5 * (J q.1 b c + J q.1 c b)) * etaOf d b c q.2
/-- Column `i` of `aq` (ImplicitModule1.py 206-209). -/
def Implicit1.aqCol {n p : Nat} (m : Implicit1 d n p) (i : Fin p) : Fin n × Fin (symDim d) → ℝ :=
  m.aqh fun k => if k = i then 1 else 0
/-- The rows `lambdas` of `__compute_aqkiaq` (ImplicitModule1.py 205-211): every solve uses the
same matrix, so either all succeed or the first raises. -/
def Implicit1.aqkiaq {n p : Nat} (m : Implicit1 d n p) : Py (Matrix (Fin p) (Fin p) ℝ) :=
  match m.solve 0 with
  | .error e => if p = 0 then .ok fun _ _ => 0 else .error e
  | .ok _ => .ok fun i j =>
      match m.solve (m.aqCol i) with
      | .ok l => ∑ q, l q * m.aqCol j q
      | .error _ => 0
/-- `compute_geodesic_control` (ImplicitModule1.py 157-172 and 243-258). -/
def Implicit1.geodesic {n p : Nat} (m : Implicit1 d n p) (man : Mfd d) : Py (Implicit1 d n p) :=
  match man.cotToVs m.σ m.r with
  | .error e => .error e
  | .ok vs =>
    match vs.jacobians m.gd with
    | .error e => .error e
    | .ok J =>
      match m.solve (strains J) with
      | .error e => .error e
      | .ok tl =>
        match tdiv 1 m.coeff with
        | .error e => .error e
        | .ok _ =>
          match m.aqkiaq with
          | .error e => .error e
          | .ok Q =>
            match linSolve Q (fun i => ∑ q, m.aqCol i q * (tl q / m.coeff)) with
            | .error e => .error e
            | .ok c =>
              match m.fill c with
              | .error e => .error e
              | .ok m' =>
                match m.r with
                | .torch => m'.computeMoments
                | .keops => .ok m'

/-- `ImplicitDivFree` (ImplicitDivFree.py) with `nbs_pts = [N, P]`: the first `N` points carry
the divergence constraint, the last `P` the values. `lambdas` is `none` until
`compute_moments` ran. -/
structure DivFree (d N P : Nat) where
  gd : Fin (N + P) → Vec d
  cot : Fin (N + P) → Vec d
  σ : ℝ
  coeffDiv : ℝ
  ν : ℝ
  coeff : ℝ
  ctrl : Fin P → Vec d
  lambdas : Option (Fin N ⊕ Fin P × Fin d → ℝ)

/-- `gd[:N]`. -/
def DivFree.X {N P : Nat} (m : DivFree d N P) (i : Fin N) : Vec d := m.gd (Fin.castAdd P i)
/-- `gd[N:]`. -/
def DivFree.Y {N P : Nat} (m : DivFree d N P) (j : Fin P) : Vec d := m.gd (Fin.natAdd N j)
/-- `manifold` (ImplicitDivFree.py 69-71). -/
def DivFree.manifold {N P : Nat} (m : DivFree d N P) : Mfd d := .landmarks m.gd m.cot
/-- `S1` (ImplicitDivFree.py 169-171, 175). -/
def DivFree.S1 {N P : Nat} (m : DivFree d N P) : Matrix (Fin N) (Fin N) ℝ :=
  fun i j => m.coeffDiv ^ 2 * ∑ k, -gaussRow2 m.σ (relDiff (m.X i) (m.X j)) k k
/-- `S2` (ImplicitDivFree.py 176). -/
def DivFree.S2 {N P : Nat} (m : DivFree d N P) : Matrix (Fin P × Fin d) (Fin P × Fin d) ℝ :=
  fun p q => kXX m.σ m.Y p.1 q.1 * eye p.2 q.2
/-- `T` (ImplicitDivFree.py 177-178). -/
def DivFree.T {N P : Nat} (m : DivFree d N P) : Matrix (Fin N) (Fin P × Fin d) ℝ :=
  fun i q => m.coeffDiv * gaussRow1 m.σ (relDiff (m.X i) (m.Y q.1)) q.2
/-- `computeSKS` (ImplicitDivFree.py 160-180). -/
def DivFree.SKS {N P : Nat} (m : DivFree d N P) : Matrix (Fin N ⊕ Fin P × Fin d) (Fin N ⊕ Fin P × Fin d) ℝ :=
  Matrix.fromBlocks m.S1 m.T m.T.transpose m.S2 + m.ν • (1 : Matrix _ _ ℝ)
/-- `torch.cat([zeros, controls.flatten()])`. -/
def zeroThen {κ : Type} {P : Nat} (h : Fin P → Vec d) : κ ⊕ Fin P × Fin d → ℝ :=
  Sum.elim (fun _ => 0) fun q => h q.1 q.2
/-- `cost` (ImplicitDivFree.py 116-120). -/
def DivFree.cost {N P : Nat} (m : DivFree d N P) : Py ℝ :=
  match m.lambdas with
  | none => .error .attribute
  | some l => .ok (0.5 * m.coeff * ∑ q, zeroThen m.ctrl q * l q)
/-- `compute_moments` (ImplicitDivFree.py 150-157). -/
def DivFree.computeMoments {N P : Nat} (m : DivFree d N P) : Py (DivFree d N P) :=
  match linSolve m.SKS (zeroThen m.ctrl) with
  | .error e => .error e
  | .ok l => .ok { m with lambdas := some l }
/-- `fill_controls` (ImplicitDivFree.py 97-99). -/
def DivFree.fill {N P : Nat} (m : DivFree d N P) (h : Fin P → Vec d) : Py (DivFree d N P) :=
  ({ m with ctrl := h } : DivFree d N P).computeMoments
/-- `field_generator` (ImplicitDivFree.py 183-186). -/
def DivFree.field {N P : Nat} (m : DivFree d N P) : Py (FieldExpr d) :=
  match m.lambdas with
  | none => .error .attribute
  | some l => mkSumField
      [.f0 .torch m.Y (fun j c => l (.inr (j, c))) m.σ,
       .f1 .torch m.X (fun i => m.coeffDiv * l (.inl i)) m.σ]
open Classical in
/-- `compute_geodesic_control` (ImplicitDivFree.py 122-146). -/
def DivFree.geodesic {N P : Nat} (m : DivFree d N P) (man : Mfd d) : Py (DivFree d N P) :=
  match man.cotToVs m.σ .torch with
  | .error e => .error e
  | .ok vs =>
    match vs.jacobians m.X with
    | .error e => .error e
    | .ok J =>
      match vs.values m.Y with
      | .error e => .error e
      | .ok V =>
        match linSolve m.SKS.toBlocks₁₁ (fun i => m.coeffDiv * ∑ k, J i k k) with
        | .error e => .error e
        | .ok h =>
          if m.coeff = 0 then .error .zeroDivision
          else
            match m.fill (fun j c =>
                (1 / m.coeff) * (-(m.SKS.toBlocks₂₁.mulVec h) (j, c) + V j c)) with
            | .error e => .error e
            | .ok m' => m'.computeMoments

/-- `ImplicitARAP` (ImplicitARAP.py) with `nbs_pts = [N, P]`: the first `N` points carry the
strain constraint, the last `P` the values. -/
structure Arap (d N P : Nat) where
  gd : Fin (N + P) → Vec d
  cot : Fin (N + P) → Vec d
  σ : ℝ
  coeffArap : ℝ
  ν : ℝ
  coeff : ℝ
  ctrl : Fin P → Vec d
  lambdas : Option ((Fin N × Fin (symDim d)) ⊕ Fin P × Fin d → ℝ)

/-- `gd[:N]`. -/
def Arap.X {N P : Nat} (m : Arap d N P) (i : Fin N) : Vec d := m.gd (Fin.castAdd P i)
/-- `gd[N:]`. -/
def Arap.Y {N P : Nat} (m : Arap d N P) (j : Fin P) : Vec d := m.gd (Fin.natAdd N j)
/-- `manifold` (ImplicitARAP.py 76-78). -/
def Arap.manifold {N P : Nat} (m : Arap d N P) : Mfd d := .landmarks m.gd m.cot
/-- `S1` (ImplicitARAP.py 189-191, 195). -/
def Arap.S1 {N P : Nat} (m : Arap d N P) :
    Matrix (Fin N × Fin (symDim d)) (Fin N × Fin (symDim d)) ℝ :=
  fun p q => m.coeffArap ^ 2 * computeSks1 m.σ m.X p q
/-- `S2` (ImplicitARAP.py 196). -/
def Arap.S2 {N P : Nat} (m : Arap d N P) : Matrix (Fin P × Fin d) (Fin P × Fin d) ℝ :=
  fun p q => kXX m.σ m.Y p.1 q.1 * eye p.2 q.2
/-- `T` (ImplicitARAP.py 197-205). Before the transpositions the entry `[i,j,u,t]` is
`Σ_k Σ_l 0.5 * (D[i,j,k]*eye[u,l] + D[i,j,l]*eye[u,k]) * eta[k,l,t]`. -/
def Arap.T {N P : Nat} (m : Arap d N P) : Matrix (Fin N × Fin (symDim d)) (Fin P × Fin d) ℝ :=
  fun p q => m.coeffArap * ∑ k, ∑ l,
    0.5 * (gaussRow1 m.σ (relDiff (m.X p.1) (m.Y q.1)) k * eye q.2 l
      + gaussRow1 m.σ (relDiff (m.X p.1) (m.Y q.1)) l * eye q.2 k) * etaOf d k l p.2
/-- `computeSKS` (ImplicitARAP.py 175-207). -/
def Arap.SKS {N P : Nat} (m : Arap d N P) :
    Matrix ((Fin N × Fin (symDim d)) ⊕ Fin P × Fin d) ((Fin N × Fin (symDim d)) ⊕ Fin P × Fin d) ℝ :=
  Matrix.fromBlocks m.S1 m.T m.T.transpose m.S2 + m.ν • (1 : Matrix _ _ ℝ)
/-- `cost` (ImplicitARAP.py 127-131). -/
def Arap.cost {N P : Nat} (m : Arap d N P) : Py ℝ :=
  match m.lambdas with
  | none => .error .attribute
  | some l => .ok (0.5 * m.coeff * ∑ q, zeroThen m.ctrl q * l q)
/-- `compute_moments` (ImplicitARAP.py 165-172). -/
def Arap.computeMoments {N P : Nat} (m : Arap d N P) : Py (Arap d N P) :=
  match linSolve m.SKS (zeroThen m.ctrl) with
  | .error e => .error e
  | .ok l => .ok { m with lambdas := some l }
/-- `fill_controls` (ImplicitARAP.py 108-110). -/
def Arap.fill {N P : Nat} (m : Arap d N P) (h : Fin P → Vec d) : Py (Arap d N P) :=
  ({ m with ctrl := h } : Arap d N P).computeMoments
/-- `field_generator` (ImplicitARAP.py 210-216). -/
def Arap.field {N P : Nat} (m : Arap d N P) : Py (FieldExpr d) :=
  match m.lambdas with
  | none => .error .attribute
  | some l => mkSumField
      [.f0 .torch m.Y (fun j c => l (.inr (j, c))) m.σ,
       .fp .torch m.X (fun i => Matrix.of fun b c => m.coeffArap * ∑ t, l (.inl (i, t)) * etaOf d c b t) m.σ]
open Classical in
/-- `compute_geodesic_control` (ImplicitARAP.py 133-161). -/
def Arap.geodesic {N P : Nat} (m : Arap d N P) (man : Mfd d) : Py (Arap d N P) :=
  match man.cotToVs m.σ .torch with
  | .error e => .error e
  | .ok vs =>
    match vs.jacobians m.X with
    | .error e => .error e
    | .ok J =>
      match vs.values m.Y with
      | .error e => .error e
      | .ok V =>
        match linSolve m.SKS.toBlocks₁₁ (strains fun i => m.coeffArap • J i) with
        | .error e => .error e
        | .ok h =>
          if m.coeff = 0 then .error .zeroDivision
          else
            match m.fill (fun j c =>
                (1 / m.coeff) * (-(m.SKS.toBlocks₂₁.mulVec h) (j, c) + V j c)) with
            | .error e => .error e
            | .ok m' => m'.computeMoments

/-! ### All modules -/

/-- The controls of a module. -/
inductive Ctrl (d : Nat)
  | vecs {n : Nat} (h : Fin n → Vec d)
  | scalars {n : Nat} (h : Fin n → ℝ)
  | scalar (h : ℝ)
  | vec (h : Vec d)
  /-- The empty tensor of a silent module. -/
  | none
  | list (hs : List (Ctrl d))

/-- A deformation module. -/
inductive DefModule (d : Nat)
  | translations {n : Nat} (m : Translations d n)
  | implicit0 {n : Nat} (m : Implicit0 d n)
  | oriented {n : Nat} (m : Oriented d n)
  | constrained {n p : Nat} (m : Constrained d n p)
  | globalTranslation (m : GlobalTranslation d)
  | linear (m : Linear d)
  | implicit1 {n p : Nat} (m : Implicit1 d n p)
  | divFree {N P : Nat} (m : DivFree d N P)
  | arap {N P : Nat} (m : Arap d N P)
  /-- `SilentBase` (SilentLandmark.py) on a manifold; `DeformationGrid` is one too. -/
  | silent (man : Mfd d)
  /-- `CompoundModule` (Combination.py). -/
  | compound (ms : List (DefModule d))

mutual
/-- `manifold` of every class (Combination.py 83-85 for compounds). -/
def DefModule.manifold : DefModule d → Mfd d
  | .translations m => m.manifold
  | .implicit0 m => m.manifold
  | .oriented m => m.manifold
  | .constrained m => m.manifold
  | .globalTranslation m => m.manifold
  | .linear m => m.manifold
  | .implicit1 m => m.manifold
  | .divFree m => m.manifold
  | .arap m => m.manifold
  | .silent man => man
  | .compound ms => .compound (DefModule.manifolds ms)
def DefModule.manifolds : List (DefModule d) → List (Mfd d)
  | [] => []
  | m :: ms => m.manifold :: DefModule.manifolds ms
end

mutual
/-- `field_generator()` (Combination.py 99-100 for compounds, SilentLandmark.py 68-69). -/
def DefModule.field : DefModule d → Py (FieldExpr d)
  | .translations m => .ok m.field
  | .implicit0 m => .ok m.field
  | .oriented m => .ok m.field
  | .constrained m => .ok m.field
  | .globalTranslation m => .ok m.field
  | .linear m => .ok m.field
  | .implicit1 m => m.field
  | .divFree m => m.field
  | .arap m => m.field
  | .silent _ => .ok .null
  | .compound ms =>
    match DefModule.fields ms with
    | .error e => .error e
    | .ok fs => mkSumField fs
def DefModule.fields : List (DefModule d) → Py (List (FieldExpr d))
  | [] => .ok []
  | m :: ms =>
    match m.field with
    | .error e => .error e
    | .ok f =>
      match DefModule.fields ms with
      | .error e => .error e
      | .ok fs => .ok (f :: fs)
end

mutual
/-- `cost()` (Combination.py 91-93 for compounds, SilentLandmark.py 62-63). -/
def DefModule.cost : DefModule d → Py ℝ
  | .translations m => .ok m.cost
  | .implicit0 m => .ok m.cost
  | .oriented m => .ok m.cost
  | .constrained m => .ok m.cost
  | .globalTranslation m => .ok m.cost
  | .linear m => .ok m.cost
  | .implicit1 m => m.cost
  | .divFree m => m.cost
  | .arap m => m.cost
  | .silent _ => .ok 0
  | .compound ms => DefModule.costs ms
def DefModule.costs : List (DefModule d) → Py ℝ
  | [] => .ok 0
  | m :: ms =>
    match m.cost with
    | .error e => .error e
    | .ok a =>
      match DefModule.costs ms with
      | .error e => .error e
      | .ok b => .ok (a + b)
end

/-- Wrap the result of a method. -/
def wrap {α : Type} (f : α → DefModule d) : Py α → Py (DefModule d)
  | .error e => .error e
  | .ok m => .ok (f m)

mutual
/-- `compute_geodesic_control(man)` (Combination.py 95-97 for compounds,
SilentLandmark.py 65-66). -/
def DefModule.geodesic (man : Mfd d) : DefModule d → Py (DefModule d)
  | .translations m => wrap .translations (m.geodesic man)
  | .implicit0 m => wrap .implicit0 (m.geodesic man)
  | .oriented m => wrap .oriented (m.geodesic man)
  | .constrained m => wrap .constrained (m.geodesic man)
  | .globalTranslation m => wrap .globalTranslation (m.geodesic man)
  | .linear m => wrap .linear (m.geodesic man)
  | .implicit1 m => wrap .implicit1 (m.geodesic man)
  | .divFree m => wrap .divFree (m.geodesic man)
  | .arap m => wrap .arap (m.geodesic man)
  | .silent s => .ok (.silent s)
  | .compound ms =>
    match DefModule.geodesics man ms with
    | .error e => .error e
    | .ok ms' => .ok (.compound ms')
def DefModule.geodesics (man : Mfd d) : List (DefModule d) → Py (List (DefModule d))
  | [] => .ok []
  | m :: ms =>
    match DefModule.geodesic man m with
    | .error e => .error e
    | .ok m' =>
      match DefModule.geodesics man ms with
      | .error e => .error e
      | .ok ms' => .ok (m' :: ms')
end

mutual
/-- `fill_controls(controls)` (Translation.py 55-56, ImplicitModule0.py 79-80,
OrientedTranslation.py 63-64, LocalConstrainedTranslations.py 69-70, GlobalTranslation.py 47-48,
Linear.py 51-54, SilentLandmark.py 47-48, Combination.py 74-76, and the `fill` functions above). -/
def DefModule.fillControls : DefModule d → Ctrl d → Py (DefModule d)
  | @DefModule.translations _ n m, .vecs (n := n') h =>
    if e : n' = n then .ok (.translations { m with ctrl := fun i => h (e ▸ i) }) else .error .unmodelled
  | @DefModule.implicit0 _ n m, .vecs (n := n') h =>
    if e : n' = n then .ok (.implicit0 { m with ctrl := fun i => h (e ▸ i) }) else .error .unmodelled
  | @DefModule.oriented _ n m, .scalars (n := n') h =>
    if e : n' = n then .ok (.oriented { m with ctrl := fun i => h (e ▸ i) }) else .error .unmodelled
  | .constrained m, .scalar h => .ok (.constrained { m with ctrl := h })
  | .globalTranslation m, .vec h => .ok (.globalTranslation { m with ctrl := h })
  | .linear m, .scalar h => .ok (.linear { m with ctrl := h })
  | .linear _, _ => .error .assertion
  | @DefModule.implicit1 _ _ p m, .scalars (n := p') h =>
    if e : p' = p then wrap .implicit1 (m.fill fun i => h (e ▸ i)) else .error .unmodelled
  | @DefModule.divFree _ _ P m, .vecs (n := P') h =>
    if e : P' = P then wrap .divFree (m.fill fun i => h (e ▸ i)) else .error .unmodelled
  | @DefModule.arap _ _ P m, .vecs (n := P') h =>
    if e : P' = P then wrap .arap (m.fill fun i => h (e ▸ i)) else .error .unmodelled
  | .silent s, _ => .ok (.silent s)
  | .compound ms, .list hs =>
    if hs.length = ms.length then
      match DefModule.fillAll ms hs with
      | .error e => .error e
      | .ok ms' => .ok (.compound ms')
    else .error .assertion
  | _, _ => .error .unmodelled
def DefModule.fillAll : List (DefModule d) → List (Ctrl d) → Py (List (DefModule d))
  | m :: ms, h :: hs =>
    match m.fillControls h with
    | .error e => .error e
    | .ok m' =>
      match DefModule.fillAll ms hs with
      | .error e => .error e
      | .ok ms' => .ok (m' :: ms')
  | _, _ => .ok []
end

mutual
/-- The property `controls` (Combination.py 71-72 for compounds). -/
def DefModule.controls : DefModule d → Ctrl d
  | .translations m => .vecs m.ctrl
  | .implicit0 m => .vecs m.ctrl
  | .oriented m => .scalars m.ctrl
  | .constrained m => .scalar m.ctrl
  | .globalTranslation m => .vec m.ctrl
  | .linear m => .scalar m.ctrl
  | .implicit1 m => .scalars m.ctrl
  | .divFree m => .vecs m.ctrl
  | .arap m => .vecs m.ctrl
  | .silent _ => .none
  | .compound ms => .list (DefModule.controlsAll ms)
def DefModule.controlsAll : List (DefModule d) → List (Ctrl d)
  | [] => []
  | m :: ms => m.controls :: DefModule.controlsAll ms
end

mutual
/-- `module(points)` at one point, order 0 (Combination.py 87-89 for compounds,
SilentLandmark.py 57-58, otherwise `field_generator()(points)`). -/
def DefModule.call : DefModule d → Vec d → Py (Tens d 1)
  | .silent _, _ => .ok fun _ => 0
  | .compound ms, x => DefModule.callAll ms x
  | m, x =>
    match m.field with
    | .error e => .error e
    | .ok f => f.eval 0 x
/-- `sum([module(points) for module in modules])`. -/
def DefModule.callAll : List (DefModule d) → Vec d → Py (Tens d 1)
  | [], _ => .ok fun _ => 0
  | m :: ms, x =>
    match m.call x with
    | .error e => .error e
    | .ok t =>
      match DefModule.callAll ms x with
      | .error e => .error e
      | .ok s => .ok fun I => t I + s I
end

/-- `man.inner_prod_field(module.field_generator()) - module.cost()` for a manifold `man`
(hamiltonian.py 46, 56). -/
def hamiltonianOn (man : Mfd d) (m : DefModule d) : Py ℝ :=
  match m.field with
  | .error e => .error e
  | .ok f =>
    match man.innerProd f with
    | .error e => .error e
    | .ok a =>
      match m.cost with
      | .error e => .error e
      | .ok c => .ok (a - c)

/-- `Hamiltonian(modules)` (hamiltonian.py 8-22); `Hamiltonian(compound)` takes the members. -/
def mkHamiltonian (ms : List (DefModule d)) : DefModule d := .compound ms
/-- `Hamiltonian.__call__` (hamiltonian.py 36-46, 54-56). -/
def Hamiltonian.value (m : DefModule d) : Py ℝ := hamiltonianOn m.manifold m
/-- `Hamiltonian.geodesic_controls` (hamiltonian.py 48-52). -/
def Hamiltonian.geodesicControls (m : DefModule d) : Py (DefModule d) := m.geodesic m.manifold

end
end Imodal
