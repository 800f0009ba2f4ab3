# Formal model of imodal: design

## 1. Method

The Python sources in `/repo/imodal` are read as text and modelled, function by
function, as Lean 4 definitions under `lean/Verif/Model/`.  Every definition
cites the file and lines it models and says where it simplifies.  Small,
independent specification notions live in `lean/Verif/Spec/`, the property
theorems in `lean/Verif/Props/`, helper lemmas in `lean/Verif/Lemmas/`.
A Python exception is a value of type `PyErr`; a call that may raise returns
`Except PyErr _`.  If the code contradicts a property, the model follows the
code, the negation is proved with a concrete witness, the part that does hold
is proved with suffix `_partial`, and section 5 records the disagreement.

## 2. Trusted base

* Lean 4.33.0 kernel; axioms at most `propext`, `Classical.choice`,
  `Quot.sound` (checked with `#print axioms`).
* The reading of the Python code (the code is never run here).
* Numbers: floating point is replaced by exact arithmetic, over `ℝ` where `exp`,
  `sqrt`, `cos` or limits are involved and over an arbitrary ordered field
  elsewhere.  Rounding, overflow and underflow are not modelled.  NaN and
  infinity are modelled only where the code branches on them (optimisers).
* Library semantics taken as given: the elementwise and index operations of
  torch (`tensordot`, `einsum`, `bmm`, `stack`, `transpose`, `view`, `cat`,
  `meshgrid`, `linspace`, `arange`, `floor`, `clamp`), `torch.linalg.solve`
  (solution of the system, error if singular), autograd (true gradient),
  torchdiffeq's fixed-grid solvers `euler`, `midpoint`, `rk4` (their stage
  times and formulas), KeOps `Genred` formulas as the sums they denote, Python
  name mangling, iterator and argument binding rules.

## 3. Modelled and not modelled

| Model file | Code | Simplifications and gaps |
|---|---|---|
| `Model/Py` | exceptions, state passing | one value per exception class, no messages |
| `Model/Manifold` | `Manifolds/*` containers | heap of tensors and storages; device and dtype are labels |
| `Model/Local` | `LocalConstrainedTranslations.py`, `LocalScaling`, `LocalRotation` | none |
| `Model/Coords` | packing into one state vector (`shooting.py`) | reshapes as list splits |
| `Model/Action` | infinitesimal actions and dual fields | exact reals |
| `Model/PairLandmarks` | `Manifolds/CompoundLandmarks.py` | tangents, devices and dtypes left out; tensors have the announced numbers of points |
| `Model/Hull` | `Utilities/meshutils.py` 69-102, 469-500 | scipy's `ConvexHull` is a parameter, its documented contract the hypothesis `HullOf`; marking points of space (`Delaunay`) left out |
| `Model/Kernel` | `Kernels/kernels.py` | derivative orders 0 to 2; order 3 raises, higher orders return `None`, as in the code |
| `Model/Field` | `StructuredFields/*`, both backends | KeOps formulas as the sums they denote |
| `Model/Sks`, `Model/Modules`, `Model/Combination` | `DeformationModules/*` | `torch.linalg.solve` as the solution or an error when singular |
| `Model/Build` | `DeformationModules/*`: `build`, constructors, `fill_controls_zero` | shapes are right by type; labels, devices, dtypes and tangent vectors left out |
| `Model/Describe` | `DeformationModules/*`: `__str__`, `dim`, `to_`, `to`, `todict`, `__getitem__`; the modules part of `RegistrationModel.__str__` | `str` of a number is a parameter; labels are nothing, a text or a list of texts; moving data is only whether the method can be called; slices and the KeOps `to_` left out |
| `Model/Device` | `RegistrationModel.to_device` (second definition), `fill_init_manifold`; `to_` of manifolds and modules | a device is a text and always exists; of a module only the manifold; triangles and bitmaps left out |
| `Model/Shooting` | `HamiltonianDynamic/*` | torchdiffeq `euler`, `midpoint`, `rk4` (the 3/8 rule) by their formulas; autograd as the partial derivative of the modelled Hamiltonian; `t_to_it` without float rounding |
| `Model/Registration` | `Models/registration.py`, `deformable.py`, `atlas.py` | `tan` is not modelled; a call that raises may leave any state of the same shapes |
| `Model/Params` | collection of optimised tensors | references as numbers |
| `Model/Atlas` | `Models/atlas.py` 14-81, 115-139 | a deformable is its manifold; `deepcopy` copies the tensors of the manifolds only |
| `Model/AtlasDeformed` | `Models/atlas.py` 177-210 | values only; entries the caller put into `intermediates` are opaque |
| `Model/Grid` | `DeformationModules/SilentLandmark.py` 82-108, `Models/deformable.py` 53-78, `Utilities/meshgen.py` 97-114 | exact arithmetic; grids as flattened lists; resolutions with too few entries are not modelled |
| `Model/Attachment`, `Model/Varifold` | `Attachment/*` | NaN as `none`; sigma zero and scaling modes other than nearest with a size unmodelled; `torch.fft` is a module, as in the pinned torch 2.5.1; `torch.cross` with its documented default axis |
| `Model/Optim` | `Models/optimizer*.py`, `fitter.py`, gradient descent | cost values in `XFloat` (finite, infinite, nan); scipy as a signature |
| `Model/Registry` | registries, factories, backends | dictionaries as ordered lists |
| `Model/Aabb` | `Utilities/aabb.py`, grids, affine maps, rotations | ordered field or reals |
| `Model/ListUtils` | list and dictionary helpers | none |
| `Model/MeshUtils`, `Model/MeshGen` | `Utilities/meshutils.py`, `meshgen.py` | no scipy hull and Delaunay |
| `Model/Image` | image sampling, pixel frames, `DeformableImage` identity flow, outputs as bitmap or weighted points | no devices; `interpolate_image` is in `Model/Varifold` |
| `Model/Files` | loading and saving of points | `loadtxt` squeezing is modelled, text rounding is not |
| `Model/MeshFiles` | `Utilities/usefulfunctions.py` 295-335, `Models/deformable.py` 145-227 | a mesh file is what meshio was given; changes made by particular formats are not modelled |
| `Model/Greyscale` | `Utilities/sampling.py` 10-43, 105-109, `Models/deformable_image2d.py` 51-53 | the array that `imread` returns is given |
| `Model/Scipy` | `Models/optimizer_scipy.py` 29-104, 136-141 | SciPy is any program that evaluates, calls back and stops; the costs and gradients of the model are functions of the contents of its tensors |
| `Model/TorchOptim` | `Models/optimizer_torch.py` 11-84 | the torch optimiser is any constructor and `step`; the callback is one that returns |
| `Model/Plotting` | `Utilities/plotting.py` 11-155 | only the coordinates handed to matplotlib; of matplotlib only that `Path` wants as many codes as vertices |
| `Model/BoxItems` | `Utilities/aabb.py` 94-100, 152-184, 199-232, 274-282 | real numbers; `torch.rand` is a parameter; only numeric attribute names |
| `Model/AttachLife` | `Attachment/attachment.py` 38-57, `attachment_varifold.py` 12-50, 91-178 | attachments as objects with a state; source and target of a call stored alike; what KeOps answers for differently stored arguments is not modelled |
| `Model/RegFrom` | `Models/registration_model.py` 12-95 | the constructor for deformables, modules and attachments given as containers or iterators |
| `Model/Clouds` | `Utilities/usefulfunctions.py` 20-40 | `linear_transform` and `apply_linear_transform_3d` on whole tensors with their shapes; matrices with two axes, default dtype |
| `Model/Access` | `Models/registration_model.py` 25-140, `Models/atlas.py` 34-113, `Models/optimizer.py` 1-11 | objects as dictionaries of attributes with mangled names, properties as getters, assignments from outside and writes of methods; the values themselves are opaque |
| `Model/Spacing` | `Utilities/aabb.py` 250-260 | `fill_uniform_spacing_grid` with the shapes of its tensors; exact arithmetic |
| `Model/Fitter` | `Models/fitter.py` 10-109 | fitters as objects: which model is evaluated, which iteration numbers are printed, resets, callbacks; how often an optimiser evaluates and how a fit ends are parameters |
| `Model/ForwardImage` | `Models/deformable_image2d.py` 104-158 | images with `backward=False`: grids as functions of row and column, the choice among nearest points is a parameter, matrices over the reals; a grid step of zero is left out |

Not modelled: matplotlib, formats of mesh and image files, external libraries beyond
the assumptions above, multi-GPU and multiprocessing, performance, `__str__`
methods of classes other than modules and registrations, tutorials and example scripts.

## 4. Plan for each property

| Id | Modelled as | Proof |
|----|-------------|-------|
| C01 | manifold trees, unroll/roll as list functions with `pop(0)` | structural induction on trees, arbitrary suffix |
| C02 | heap of tensor objects and storages, containers hold references | frame lemma: fresh storages are disjoint; induction over write sequences |
| C03 | containers over an additive group | induction over trees and operation lists |
| C04 | history machine over constructor/fill/to_ with the two mangled attributes | negation by witness, `_partial` for histories without a device-changing fill |
| C05 | tuple/list tag in the container | negation by witness, `_partial` for list-tagged containers and index -1 |
| C06 | state-passing fill with errors | negation by witness, `_partial` for the arguments that fail before the first write |
| C07 | packing with offsets | induction over module list |
| C08 | Gaussian kernel over ℝ | inequalities for exp, isometry invariance |
| C09 | gauss_kernel of order k | `HasDerivAt` along every coordinate and Fréchet derivative |
| C10 | kernel matrix | power series of exp gives a sum of squares; strictness by polynomial interpolation |
| C11 | field syntax and evaluation of order k, with the code's index expressions | `HasFDerivAt` for every field, induction over sums |
| C12 | both backends' expressions | finite sum algebra |
| C13 | sum fields | induction, permutation invariance |
| C14 | fields | isometry lemma for the kernel |
| C15 | manifold actions and dual fields | finite sum algebra, evenness and oddness of kernel derivatives, induction over compounds |
| C16 | manifold actions | matrix algebra |
| C17 | modules with cost, field, solve | concave quadratic maximisation using C10, C15 |
| C18 | same | quadratic identity |
| C19 | same | C10 and its derivative version |
| C20 | same | positive definiteness implies non-zero determinant |
| C21 | SKS blocks | linear algebra on top of C11 |
| C22 | eta | finite computation over all symmetric matrices |
| C23 | lists of modules | induction |
| C24 | iterator state machine | negation by witness for nested loops, `_partial` for one loop |
| C25 | caching state machine | negation by witness, `_partial` after fill_controls |
| C26 | Euler loops over an abstract vector space | induction over steps |
| C27 | stage times of the solvers, t_to_it, cost rule | floor arithmetic, induction over steps |
| C28 | control selection | same; negation for rk4 |
| C29 | shooting with gradient functions | induction; quadratic dependence on momentum |
| C30 | shooting over landmark momenta | the Hamiltonian is smooth where controls exist and invariant, so the gradients cancel along a translation; induction |
| C31 | H of a list with a passive member | congruence, induction |
| C32 | registration state machine | invariant over call histories |
| C33 | list of deformables, shoot as parameter with its real signature | negation (missing argument), `_partial` for forward-only lists |
| C34 | cost dictionary | case analysis |
| C35 | parameter collection | list algebra with references |
| C36 | evaluate | algebra |
| C37 | attachments | negation by witness, exact value as `_partial` |
| C38 | atlas evaluate | induction, zip truncation as negation |
| C39 | flatten/unflatten | induction over the parameter list |
| C40 | line search with fuel | induction over backtracks |
| C41 | optimiser loop over cost streams | induction |
| C42 | fitter loop | induction |
| C43 | fitter options | negation by witness, exact effect |
| C44 | call signatures | negation: always raises for scipy methods |
| C45 | registry machine | refinement to a map; negation for set-default |
| C46 | backend machine | induction over histories |
| C47–C49 | AABB over an ordered field | list induction |
| C50 | row-major index arithmetic | induction over dimensions |
| C51 | affine maps | field algebra |
| C52, C53 | matrices over ℝ | trigonometric identities; negations by witness |
| C54, C55 | bilinear interpolation over ℝ | floor/clamp case analysis; negation for non-square images |
| C56–C58 | polygon predicates over an ordered field / ℝ | convexity, telescoping sums |
| C59, C60 | generators, smoothing | case analysis, convex combinations |
| C61, C62 | attachments | C10 tensorised; permutation of sums |
| C63 | sampling loop | negation: index out of range |
| C64 | nested lists, dictionaries | structural induction |
| C65 | path splitting on strings | exact characterisation, negation |
| C66, C67 | loop / formula | negation by witness |
| C68 | factory machine | refinement to a map; `__call__` always raises |
| C69 | shooting of modules with positive regularisation, and of all modules with controls of the right shape (`Spec/Fits.lean`) | C20 at each evaluation, induction over steps |
| C70 | flow right hand side | envelope argument: derivative of H by the momentum is the action of the field |
| C71 | shooting with and without recorded controls | C70 at each stage |
| C72 | save then load | exact form of loadtxt squeezing, negation for single rows |
| C73 | line search loop | a descent direction gives a first accepted step; without it a counterexample that never ends |
| C74 | local scaling and rotation as sums of kernels | closed form of the field; sign of a difference of exponentials |
| C75 | affine voxel conversions | product of affine matrices; exact condition for the same matrix |
| C76 | image points and weights | closed form of the grid; exact condition on the frame |
| C77 | rigid motions | each kernel, solve and pairing commutes with an orthogonal change of basis; structural induction over modules |
| C78 | shooting under rigid motions | the Hamiltonian is invariant and differentiable, with geodesic and with given controls, so its gradient turns; the solvers commute with an affine change of rows; translations without differentiability |
| C79 | smoothness of the Hamiltonian | implicit function arguments on the linear systems: inverses of invertible matrices depend smoothly on the entries |
| C80 | convergence of shooting | a compact tube around the solution on which the right-hand side is bounded and Lipschitz; error recursion of one-step methods; Picard-Lindelöf for existence |
| C81 | energy and angular momentum | Hamilton's equations make the first derivatives cancel; a family of rotations with given angular velocity (matrix exponential); C80 for the drift |
| C82 | backends of modules | every module against its torch version; kernel formulas of both classes agree; relations through the solver runs and the registration models |
| C83 | implicit modules with nu = 0 | point values and derivatives of the Gaussian kernel at distinct points are independent (polynomials times exponentials, largest frequency first); so the constraint matrices are definite |
| C84 | parameters of an atlas model | copies of copies stay separate in memory (`Sep`); recording and collection run over the copies of each subject; an update written into the parameters leaves the other subjects unchanged |
| C85 | deforming the population of an atlas | induction over the population; each subject through C29, C32, C33 and C36; the dictionary entries by lookup lemmas |
| C86 | a registration under rigid motions | C78 for the shooting; filling, geometries, reductions and evaluation commute with the motion because kinds of manifolds are kept; attachments through dot products, normals through the adjugate; minimisers with the inverse motion |
| C87 | deformation grids | positions in nested products found through row-major indices; C33 for the flow, C29 for the rest state |
| C88 | scaling momenta, controls and time | every solve, kernel sum and inner product is linear in momenta or controls; derivatives of the Hamiltonian through `deriv` of a rescaled function, without differentiability; solver steps related by a change of the unit of time |
| C89 | interrupting and resuming a shooting | the solver loop splits at any step; both runs are related evaluation by evaluation by what they have written down (number of evaluations, current step, costs, controls); the state vector never has entries beyond the coordinates, so reading it into the modules loses nothing |
| C90 | learned controls | a module filled with zero controls does not depend on the momenta and generates the zero field at zero cost (`DefModule.AtRest`), carried along the solver loop; a learned list replaces the argument `it`; totality through C69 with given controls |
| C91 | costs and displacements (`Spec/Mobility.lean`) | Cauchy–Schwarz in the space of the kernel bounds the field of each module by its cost (`says_fill`); summed over members and over the steps; at zero cost the Hamiltonian has a minimum in the descriptors, so the momenta rest as well; along geodesics energy is constant and the mean value inequality applies (`Props/C91Path.lean`), C102 carries this over to the methods |
| C92 | orders of the points (`Spec/Relabel.lean`) | kernel sums and linear systems are invariant (`RelabelMod`); the coordinates of the state vector are permuted (`Mfd.coords`), and derivatives, solvers and costs follow for any two systems whose coordinates correspond (`Twin`, `TwinReg`) |
| C93 | orders of the modules (`Spec/Reorder.lean`) | sums over members are invariant under permutations, errors included (`Reorder`); the blocks of the state vector are permuted (`shuffle` in `ReorderTwin`), and `Twin` carries this through derivatives, solvers and costs |
| C94 | smoothness of the total (`Spec/SmoothPy.lean`, `Spec/SmoothReg.lean`) | a computation that may raise is smooth at a point if it returns nearby and the result is smooth (`SmPy`); carried through `fill`, the Hamiltonian and its derivatives, the solver loop and the losses (`SmoothShoot`, `SmoothReg`); with learned controls the controls vary too (`Spec/SmoothCtrl.lean`, `SmoothFill`, `SmoothLearn`, `SmoothTotal`) |
| C95 | gradient descent on a registration (`Spec/FitReg.lean`) | C94 makes the total differentiable in the entries of the parameters; its partial derivatives are the gradient (`GradList`); so C73 ends every step, C40 and C27 give monotone totals above zero, and C41 the report of convergence |
| C96 | builders and `fill_controls_zero` (`Model/Build.lean`, `Spec/Build.lean`) | setting to zero is setting controls of the same shape that are zero (`zero_eq_fill`), so C90's `atRest_fill` gives cost and field; a new explicit module is unchanged by it |
| C97 | printed attributes with labels as a tree (`Model/Describe.lean`, `Spec/Describe.lean`) | mutual induction for which trees print; induction over being inside a compound for the texts and labels; list induction for lookup |
| C98 | the descent of C95 on the registrations of C86, C92 and C93 | the three changes act on momenta by maps that preserve products of entries (`Lemmas/Turns.lean`); such a map is linear and invertible, so partial derivatives follow it, and with equal costs every branch of the line search is the same (`Lemmas/Descent.lean`) |
| C99 | heap of C35 with `Model/Device.lean` | a relation "moved to the device" that composes, one lemma per container, induction over manifolds; then the parameter lemmas of C35 |
| C100 | all of the numeric model; `Spec/Dilate.lean` says what a change of unit does | fields, costs and geodesic controls scale module by module; the state vector is multiplied by a diagonal map of units, and derivatives of the Hamiltonian by its inverse; then solver by solver |
| C101 | registration model; `Spec/DilReg.lean` | on top of C100, along the lines of C86; filling commutes with units, losses are homogeneous |
| C102 | order of the methods (`Spec/Order.lean`) | Taylor's formula uniformly on the compact solution curve (`Taylor`, `Expand`), the expansion of each stage of the 3/8 rule against the derivatives of the solution up to order four (`Order`), stability of the step and the error recursion (`OrderRun`) |
| C103 | `Model/PairLandmarks.lean` | unfolding: the two inner manifolds are zeros that nothing fills |
| C104 | `Model/Hull.lean`, `Spec/Hull.lean` | discrete intermediate value along the fan of triangles at one corner, barycentric coordinates; interior by moving along the outer normal |
| C105 | `Model/Modules`, `Spec/Stretch.lean` | differences of a kernel field by Cauchy-Schwarz against two point evaluations and `1 - K(x,y) ≤ |x-y|² / 2σ²`; products over Euler steps; `S(t) e^(±2ct)` is monotone along geodesics; C102 for the other methods |
| C106 | `Model/MeshFiles.lean` | `reshape(-1, d)` and `reshape(n, -1, 1)` keep the data and determine the open axis; exact condition for acceptance |
| C107 | `Model/Greyscale.lean` | closed form of the loaded values; C63 and C76 for sampling and deformable images |
| C108 | `Model/Registration.lean` | the cost of each step is a positive definite form of the controls, uniformly in the descriptors; C94 for continuity; a continuous function that grows at infinity has a minimum |
| C109 | `Model/Registration.lean` | C91 for the deformation cost, which is at most the total; C90 for the total at rest |
| C110 | `Model/Scipy.lean` | induction over what SciPy does, with C39 for each evaluation |
| C111 | varifold losses | the quotient of the kernel is bounded by the lengths, so continuous; smooth where the lengths are positive; C108 for the optimum |
| C112 | `Model/TorchOptim.lean` | induction over the iterations, with the loop of C41 for what is reported |
| C113 | `Model/Optim.lean`, `Spec/FitReg.lean` | the first-order expansion of C73 with equal small steps; the shape of an accepted trial from C40; C41 for the report |
| C114 | `Model/Registration.lean` | C29 for the states, C18 for the costs at zero momenta; C95 and C113 for fitting |
| C115 | gradient descent on learned controls (`Spec/FitCtrl.lean`) | as C95, with the smoothness of the total in the controls from C94 and that costs of given controls are not negative from C91; C113 at optima |
| C116 | `Model/Shooting.lean`, `Spec/FitCtrl.lean` | costs, fields and actions do not look at momenta, so both runs follow one orbit; partial derivatives of a constant; C40 for the steps |
| C117 | `atlasEvaluate` (`Model/Registration.lean`), `Spec/FitAtlas.lean` | C38 makes the total the sum over the subjects; C94 makes each part differentiable in all parameters; then as C95 and C113; derivatives of a sum with one part constant |
| C118 | `Model/Plotting.lean`, `Spec/Drawn.lean` | segments as pairs of neighbours; the angle of a frame through the argument of a complex number; signs absorbed by the circle; half lengths of limits; tracing the codes of a path |
| C119 | `Model/BoxItems.lean`, `Model/Aabb.lean` | Python indexing by cases; the iteration protocol as a relation with one solution; products of ceilings by induction over the axes |
| C120 | `Model/Shooting.lean`, `Model/Modules.lean` | each step is `x + h V(x)` with one field for all points; contraction principle for onto, bound of C105 for one-to-one; determinant of `1 + A` with `A` of norm below one; inverse function theorem for a homeomorphism |
| C121 | `Model/Shooting.lean`, `Model/Registration.lean` | the velocity at a place is read off the same controls and fields as the rows, so a point added to the state of the solver is carried without changing it; silent modules in front change neither the field nor the controls of the rest; C31 for shapes without momentum |
| C122 | `Model/Shooting.lean`, `Spec/Scale.lean` | shooting from negated momenta is shooting for negative time (C88), that is along the negated right-hand side, whose solution is the old one backwards; order of convergence (C102) from a start that is only near to the solution |
| C123 | `Model/Shooting.lean`, `Spec/ControlCurve.lean` | with one control the callback is one right-hand side, smooth in the descriptors and proportional to the control; order of convergence as in C102 and C122; Picard and Lindelöf for existence |
| C124 | `Model/AttachLife.lean`, `Model/Varifold.lean` | an invariant of the state over all sessions; two runs of the loop side by side, on a container and on an iterator |
| C125 | `Model/RegFrom.lean`, `Model/Registration.lean`, `Model/Shooting.lean` | the Hamiltonian of silent modules is zero everywhere, so the flow has no direction; induction on the sets of learned controls |
| C126 | `Model/Clouds.lean`, `Model/Coords.lean` | the view after the batched product keeps rows; matrix algebra on homogeneous coordinates |
| C127 | `Model/Shooting.lean`, `Model/Registration.lean` | both loops at once, with the module up to momenta and controls as invariant; the gradient by the momenta is the action of the field (C70); C121 for the map of space |
| C128 | `Model/Access.lean` | induction on the history: a private name nothing writes keeps its value |
| C129 | `Model/Spacing.lean`, `Model/Aabb.lean` | induction on the axes: row-major places of positions in the mesh grids |
| C130 | `Model/Fitter.lean`, `Model/Optim.lean`, `Model/Registry.lean` | induction on the iterations of a fit and on the history of calls |
| C131 | `Model/ForwardImage.lean`, `Model/Image.lean` | forward differences of an affine map are its matrix times the shape of a pixel; matrix inverse |
| C132 | `Model/ForwardImage.lean`, `Model/Image.lean` | quotients of differences and step do not see unit and place; congruence of the estimated grids |
| C133 | `Model/Image.lean` | induction on the number of pixels: each further pixel adds its step times a clamped ramp |

## 5. Disagreements between code and property

In each case the model follows the code and the negation is proved by the
theorem named.  What does hold is proved under the suffix `_partial` or with the
hypotheses given in `MANIFEST.json`.

| Id | What the code does | Theorems |
|----|--------------------|----------|
| C02 | `clone()` with its default argument raises `TypeError` on a manifold that is not a compound. | `C02_clone_default_raises` |
| C04 | After a fill with tensors of another device or dtype the manifold still reports the old ones. | `C04_stale_after_fill` |
| C05 | `requires_grad_` with an index raises after a fill, as the container then holds a tuple. | `C05_index_fails_after_fill` |
| C06 | A failing fill leaves a compound half filled and may change the device label. | `C06_compound_not_atomic`, `C06_device_label_leaks` |
| C07 | A nested compound raises `AttributeError` in the solver path; a module without coordinates raises `RuntimeError`. | `C07_nested_disagreement`, `C07_no_coordinates` |
| C19 | An implicit module of order 1 can have non-zero controls of zero cost. | `C19_implicit1_disagreement` |
| C20 | A control without effect makes an implicit module of order 1 singular; direction manifolds raise `NotImplementedError` beside modules that need Jacobians. | `C20_implicit1_disagreement`, `C20_directions_disagreement` |
| C23 | The compound of no modules has a value and a cost but no field generator. | `C23_empty_disagreement` |
| C24 | A compound is its own iterator, so two loops over it disturb each other. | `C24_nested_disagreement`, `C24_restart_disagreement`, `C24_lockstep_disagreement` |
| C25 | Cached moments survive a change of descriptors. | `C25_disagreement` |
| C28 | With rk4 the last evaluation of a step uses the controls of the next step. | `C28_rk4_disagreement` |
| C31 | A silent module with directions makes divergence free modules raise, and all modules that read Jacobians. | `C31_directions_disagreement`, `C31_readers_disagreement` |
| C32 | With no step at all, `lastcompound` reads controls left by an earlier call. | `C32_no_step_disagreement` |
| C33 | An image in backward mode raises `TypeError` (`shoot` called without `costs`). | `C33_backward_disagreement` |
| C34 | An unknown reduction is ignored instead of rejected. | `C34_unknown_disagreement` |
| C35 | With one flag per tensor the tensors are not recorded for differentiation; `fit_gd=True` raises `TypeError`. | `C35_per_tensor_disagreement`, `C35_single_flag_disagreement` |
| C37 | A compound attachment ignores the weights of its members. | `C37_weights_disagreement` |
| C38 | Extra targets are ignored; template optimisation raises `TypeError`. | `C38_targets_disagreement`, `C38_template_disagreement` |
| C39 | A tensor listed twice is not read back as written. | `C39_alias_disagreement` |
| C40 | From an infinite cost a step may return an infinite cost; a nan cost never returns. | `C40_infinite_disagreement`, `C40_nan_never_returns` |
| C41 | `max_iter=0` raises `UnboundLocalError`. | `C41_no_iteration_disagreement` |
| C43 | Options are deleted from the caller's dictionary. | `C43_disagreement` |
| C44 | Every scipy optimiser, the default included, raises `TypeError`. | `C44_scipy_disagreement`, `C44_default_raises` |
| C45 | Setting the default optimiser has no effect. | `C45_default_disagreement` |
| C47 | The dictionary form of a box loses every axis after the third. | `C47_dict_truncates` |
| C48 | Squaring a box with a zero side raises; a negative scale gives an improper box. | `C48_squared_flat_raises`, `C48_negative_scale_improper` |
| C52 | `rot2d_vec` and `rot3d_y_vec` turn by the opposite angle. | `C52_batched_opposite` |
| C53 | `extent_transformation4d` is right only where the scale is one or the target starts at zero. | `C53_extent_wrong` |
| C54 | Points left of or below the frame are extrapolated, so values can leave the range of the image. | `C54_disagreement`, `C54_extrapolates_disagreement` |
| C55 | Non-square images are changed by the identity flow; one row or one column raises `ZeroDivisionError`. | `C55_disagreement`, `C55_line_disagreement` |
| C61 | A degenerate triangle gives NaN; exactly three faces use the wrong axis of the cross product; curves with KeOps are not implemented. | `C61_degenerate_disagreement`, `C61_three_disagreement`, `C61_keops_disagreement` |
| C62 | A single point is broadcast; the radon transform raises; the smooth transform does not separate images; the fft transform calls a module and raises; scaling without settings raises; scaling down does not separate images. | `C62_broadcast_disagreement`, `C62_radon_disagreement`, `C62_smooth_disagreement`, `C62_fft_disagreement`, `C62_scale_disagreement`, `C62_scaled_disagreement` |
| C63 | `sample_from_greyscale` raises `IndexError` for every image of more than one pixel. | `C63_disagreement` |
| C65 | The whole last path component is compared instead of the extension; mesh loading returns a bare tensor. | `C65_disagreement`, `C65_points_csv_disagreement`, `C65_mesh_disagreement` |
| C66 | Resampling negates the first point and raises for segments. | `C66_first_disagreement`, `C66_start_disagreement`, `C66_segment_disagreement` |
| C67 | Triangle centres are 1.5 times the centroid; three triangles get wrong normals. | `C67_disagreement`, `C67_three_disagreement` |
| C68 | Calling the factory object raises `NameError`. | `C68_call_disagreement` |
| C72 | A text file with one point or of dimension one, and an empty pickle, cannot be loaded. | `C72_csv_disagreement`, `C72_empty_disagreement` |
| C74 | A local scaling in space can be built but raises when its field is asked for.  Its vectors point outwards where the documentation says inwards. | `C74_scaling_dimension_disagreement` |
| C75 | `points2voxels_affine` applies the matrix it is given instead of its inverse. | `C75_disagreement` |
| C76 | Image points are scaled twice, so they are pixel positions only in the frame `[0,h-1]×[0,w-1]`. | `C76_points_disagreement`, `C76_default_disagreement` |
| C84 | The descriptors fitted by an atlas are those of the first subject only; nothing is shared with the others. `fit_gd=True` raises `TypeError`; one flag per tensor selects all tensors of the module and records none. | `C84_shared_disagreement`, `C84_single_flag_disagreement`, `C84_per_tensor_disagreement` |
| C85 | With `evaluate_mode='parallel'` or an optimised template `compute_deformed` raises `TypeError`. | `C85_parallel_disagreement`, `C85_template_disagreement` |
| C86 | The varifold distance of a mesh with three faces changes under a rotation, from NaN to zero; `init_controls_ones` starts in a fixed direction. | `C86_three_disagreement`, `C86_ones_disagreement` |
| C87 | The deformed geometry of a grid is a flat tensor of points, its geometry a tuple of coordinate grids; a resolution with too many entries is accepted, and reading the geometry raises. | `C87_form_disagreement`, `C87_long_disagreement` |
| C91 | With one control per evaluation the midpoint method can move points at reported cost zero. | `C91_free_disagreement` |
| C96 | A new implicit module of order 1, divergence-free or as-rigid-as-possible module raises AttributeError when asked for its cost or field. | `C96_disagreement` |
| C97 | `str` of a linear module raises TypeError, of an as-rigid-as-possible module NameError, of a compound labelled by a list TypeError. A divergence-free module prints neither its label nor its parameters. A compound whose members can be found by name cannot be printed. | `C97_disagreement`, `C97_params_disagreement`, `C97_names_disagreement` |
| C97 | A registration without deformable does not print its first deformation module; with two deformables it prints a silent module. | `C97_registration_disagreement` |
| C99 | `to_device` leaves learned controls and other parameters on the old device, raises for a compound module after moving part of the model; a replaced initial state is not recorded. | `C99_controls_disagreement`, `C99_others`, `C99_compound_disagreement`, `C99_fill_init_disagreement` |
| C101 | Learnable controls that start from ones are ones in every unit of length. | `C101_ones_disagreement` |
| C103 | `CompoundLandmarks` pairs every field to zero, cannot be acted upon, and reports the first number of points for both groups. | `C103_inner_disagreement`, `C103_action_disagreement`, `C103_sizes` |
| C104 | `extract_convex_hull` returns the class `ValueError` in dimensions above three; in space its faces index the given points, not the returned ones. | `C104_dimension_disagreement`, `C104_faces_disagreement` |
| C106 | `import_point_basis` and `DeformableMesh.load_from_file` always raise; growth factors of no points are written but cannot be read. | `C106_basis_disagreement`, `C106_mesh_disagreement`, `C106_empty_disagreement` |
| C107 | Integer pictures are not normalised, so white becomes -254; sampling from a file always raises. | `C107_integers_disagreement`, `C107_sampling_disagreement` |
| C108 | A model that is built for the midpoint method learns two controls per step, of which only the first is charged, so that there need not be an optimum. | `C108_free_disagreement` |
| C110 | With `naninf` a NaN cost raises AttributeError instead of counting as infinity; the number of gradient evaluations is never reported; the model is left with the parameters that were evaluated last, not with those of the final cost. | `C110_naninf_disagreement`, `C110_njev_disagreement`, `C110_left_disagreement` |
| C111 | Where a segment of a curve collapses the loss need not be differentiable. | `C111_collapse_disagreement` |
| C112 | The options of a second call without `reset` are ignored; with a NaN cost the number of evaluations is reported as NaN. | `C112_options_disagreement`, `C112_neval_disagreement` |
| C113 | Convergence may be reported where the gradient is not small: the test looks at the decrease of the total only, which small steps make small. | `C113_far_disagreement` |
| C118 | `plot_aabb` takes `(ymin, xmin)` as the corner but width and height in their order: the box is drawn where it is only if `xmin = ymin`. | `C118_box_disagreement` |
| C118 | `set_aspect_equal_3d` turns an axis round that runs from large to small. | `C118_inverted_disagreement` |
| C124 | Widths of a varifold attachment, or members of a compound, given as an iterator are used up by the first call: all later calls answer zero. | `C124_iterator_disagreement`, `C124_compound_disagreement` |
| C124 | The KeOps varifold attachment for surfaces keeps the scale tensor and the device of its first call and hands them over with points stored otherwise. | `C124_storage_disagreement` |
| C124 | `dim` of a varifold attachment for surfaces is a method, not the number 3 (for curves it is the number 2). | `C124_dim_disagreement` |
| C125 | A registration model built from an iterator of modules has parameters for all modules and deforms by none; iterators of deformables or attachments raise TypeError. | `C125_iterator_disagreement`, `C125_refused` |
| C126 | `apply_linear_transform_3d` drops the fourth coordinate: for a matrix that is not affine, applying it and then its inverse moves points. | `C126_projective_disagreement` |
| C127 | With fewer controls than steps `torch_euler` raises IndexError, while the ode solver uses the first control for the whole time and ignores the others without a word. | `C127_short_disagreement` |
| C128 | `compute_mode` and `attachement` of an atlas and `kwargs` of an optimiser read private names that are never set and raise AttributeError; `template` of an atlas is None; `attachments` of an atlas without subjects raises IndexError. | `C128_atlas_disagreement`, `C128_kwargs_disagreement` |
| C129 | `fill_uniform_spacing_grid` returns one tensor per axis, with the axes of the box, though its docstring promises one tensor of shape `[N, dim]`. | `C129_docstring_disagreement` |
| C130 | The callback given to a fitter is kept and never called. An optimiser given as an object goes on with the model it was made for, not with the model of the fitter. | `C130_callback_disagreement`, `C130_other_model_disagreement` |
| C131 | Deforming forward does not correct the border: every border pixel is wrong for a translation by less than a pixel. The differences along the rows are divided by the distance of the columns, so pixels that are not square are read at wrong heights. With the default extent the points do not start at the pixels, and an image that is not deformed comes out with the values of its four corners only. | `C131_border_disagreement`, `C131_oblong_disagreement`, `C131_default_disagreement` |
| C132 | The points an image starts from do not move along with its frame: each coordinate is shifted by the other one, scaled. | `C132_start_disagreement` |
| C133 | Left of and below the frame an image is extrapolated, so values change without bound along the other axis. | `C133_outside_disagreement` |

## 6. Testing the theorems

`seeded/LOG.jsonl` lists wrong programs.  Each one is an edit to a model
definition in a scratch copy, rebuilt there.  A wrong program that leaves every
theorem standing means a theorem was too weak, and it was tightened.
