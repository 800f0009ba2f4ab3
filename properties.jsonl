{"id": "C01", "title": "Unrolling and rolling manifold tensors are inverse", "statement": "For every manifold (leaf, empty, or compound nested to any depth), unroll_gd() lists all its tensors in a fixed depth-first order, and roll_gd applied to that list (followed by any extra tensors) consumes exactly the manifold's own tensors, leaves the extra ones in place, and yields a value that fill_gd accepts and that puts every tensor back where it was. The same holds for cotangents.", "quantifier": "all manifold trees, all tensor contents, all list suffixes", "why_tests_cant": "The nesting depth and arities are unbounded; a misalignment only shows for particular combinations of empty, single-tensor and multi-tensor children.", "anchors": ["imodal/Manifolds/tensor_container.py: TensorContainer.roll, unroll, fill", "imodal/Manifolds/Compound.py: CompoundManifold.unroll_gd, roll_gd, fill_gd", "imodal/Manifolds/Empty.py"]}
{"id": "C02", "title": "Copying isolates, not copying aliases", "statement": "After fill_*(x, copy=True) or clone(), no later in-place write through the source tensors changes what the manifold reports, and vice versa; after fill_*(x, copy=False) the manifold reports exactly the tensors given, so later in-place writes through them are visible.", "quantifier": "all heaps of tensors, all manifolds, all subsequent write sequences", "why_tests_cant": "Aliasing has to be excluded for every later write history.", "anchors": ["imodal/Manifolds/tensor_container.py: TensorContainer.fill, clone, __deepcopy__", "imodal/Manifolds/Abstract.py: Manifold.fill_gd, clone"]}
{"id": "C03", "title": "Arithmetic on manifold tensors is tensorwise", "statement": "add_gd / add_cotan adds the given tensors one by one to the manifold's own tensors, negate_* is an involution, adding x and then the negation of x restores the original, and none of these operations touches the other two tensor families or any other manifold. On a compound manifold they act child by child.", "quantifier": "all manifolds, all tensors of matching arity, all sequences of operations", "why_tests_cant": "Algebraic laws over arbitrary nested structures and arbitrary values.", "anchors": ["imodal/Manifolds/tensor_container.py: TensorContainer.add, negate", "imodal/Manifolds/Abstract.py: Manifold.add_gd, negate_gd", "imodal/Manifolds/Compound.py: add_gd, negate_gd"]}
{"id": "C04", "title": "A manifold reports the device and dtype its tensors have", "statement": "After every sequence of constructor, fill, to_ and requires_grad operations, manifold.device (and dtype) equals the device (dtype) of the tensors the manifold holds.", "quantifier": "all operation histories", "why_tests_cant": "The report is cached state; whether it goes stale depends on the history.", "anchors": ["imodal/Manifolds/Abstract.py: BaseManifold.device, Manifold.fill_gd, Manifold.__init__", "imodal/Manifolds/tensor_container.py: TensorContainer.fill, to_device"]}
{"id": "C05", "title": "requires_grad_ marks exactly the selected tensors", "statement": "gd_requires_grad_(flag, index) sets the recording flag of the tensor at that index, or of all tensors when index is -1, keeps all values, and works whatever happened to the manifold before.", "quantifier": "all manifolds, all indices, all prior histories", "why_tests_cant": "Success depends on whether the internal sequence is currently a tuple or a list, i.e. on history.", "anchors": ["imodal/Manifolds/tensor_container.py: TensorContainer.requires_grad_", "imodal/Manifolds/Abstract.py: Manifold.gd_requires_grad_"]}
{"id": "C06", "title": "A failed fill leaves the manifold as it was", "statement": "If fill_gd/fill_tan/fill_cotan raises, the manifold's observable tensors, device and dtype are unchanged; on a compound manifold no child has been modified.", "quantifier": "all manifolds, all (bad) arguments", "why_tests_cant": "Exception safety quantifies over every failure point.", "anchors": ["imodal/Manifolds/tensor_container.py: TensorContainer.fill", "imodal/Manifolds/Compound.py: CompoundManifold.fill_gd, fill_cotan"]}
{"id": "C07", "title": "The ODE state vector encodes the manifold without loss", "statement": "The flat two-row state vector built from the initial manifold (descriptors in row 0, momenta in row 1), when read back with the per-module offsets, gives every module exactly its own descriptors and momenta, in the order of the modules, for any number of modules, tensors per module and tensor sizes.", "quantifier": "all lists of modules, all tensor shapes, all contents", "why_tests_cant": "Offsets accumulate over arbitrary lists; a wrong offset shows only for particular size combinations.", "anchors": ["imodal/HamiltonianDynamic/shooting.py: _shoot_torchdiffeq (TorchDiffEqHamiltonianGrad.forward, x_0 construction, final unpacking)"]}
{"id": "C08", "title": "Gaussian kernel basics", "statement": "The kernel matrix is symmetric, has ones on the diagonal, entries in (0,1], equal to 1 only for equal points, decreasing in distance, and unchanged when all points undergo the same isometry.", "quantifier": "all point sets, all sigma other than 0", "why_tests_cant": "Universally quantified real inequalities.", "anchors": ["imodal/Kernels/kernels.py: gauss_kernel, K_xx, K_xy, rel_differences"]}
{"id": "C09", "title": "Kernel derivatives are the derivatives", "statement": "For order k=1 and k=2 gauss_kernel returns the gradient and Hessian of its order 0 value at every point; for other orders it raises or returns nothing, never a wrong tensor.", "quantifier": "all points, all dimensions, all sigma other than 0, all orders k", "why_tests_cant": "Finite differences at samples do not establish differentiability with that exact derivative.", "anchors": ["imodal/Kernels/kernels.py: gauss_kernel"]}
{"id": "C10", "title": "Kernel matrices are positive semi-definite, and definite for distinct points", "statement": "For every finite point set the Gaussian kernel matrix is positive semi-definite; if the points are pairwise distinct it is positive definite, hence invertible. The same holds for the matrices of compute_sks of order 0 and, in dimensions 2 and 3, of order 1.", "quantifier": "all finite point sets in any dimension, all sigma other than 0", "why_tests_cant": "Definiteness for every configuration and every vector cannot be sampled.", "anchors": ["imodal/Kernels/kernels.py: gauss_kernel, K_xx", "imodal/DeformationModules/Translation.py: compute_geodesic_control"]}
{"id": "C11", "title": "Fields called with k=1 return the Jacobian of the field", "statement": "For every structured field (order-0, oriented, symmetric, skew, gradient, constant, affine, null, and sums of them), field(points, k=1)[n,i,j] is the partial derivative along coordinate j of component i of field(points), at every point; where a derivative is not provided the call raises.", "quantifier": "all supports, moments, evaluation points, dimensions", "why_tests_cant": "Differentiability statement over continuous domains with index conventions that coincide on symmetric samples.", "anchors": ["imodal/StructuredFields/StructuredField_0.py", "imodal/StructuredFields/StructuredField_pm.py", "imodal/StructuredFields/StructuredField_0_u.py", "imodal/StructuredFields/StructuredField_1.py", "imodal/StructuredFields/StructuredField_Affine.py", "imodal/StructuredFields/ConstantField.py", "imodal/StructuredFields/Abstract.py"]}
{"id": "C12", "title": "The two compute backends define the same field", "statement": "With exact arithmetic, the torch and the KeOps implementation of a structured field return the same value for k=0 and k=1 on all inputs, and a backend that lacks an order raises.", "quantifier": "all supports, moments, points, sigma", "why_tests_cant": "Two independently written index expressions must agree on every input.", "anchors": ["imodal/StructuredFields/StructuredField_0.py", "imodal/StructuredFields/StructuredField_pm.py"]}
{"id": "C13", "title": "Fields superpose", "statement": "A sum field evaluates to the sum of its members whatever their order or nesting, and every kernel field is additive and homogeneous in its moments; a field with zero moments is the zero field.", "quantifier": "all lists of fields, all moments, all points, all scalars", "why_tests_cant": "Linearity over arbitrary lists.", "anchors": ["imodal/StructuredFields/Abstract.py: SumStructuredField.__call__, SupportStructuredField.__call__"]}
{"id": "C14", "title": "Kernel fields commute with translations and rotations", "statement": "Translating support and evaluation points by the same vector leaves the field values unchanged, and rotating support, points and moments rotates the values (and conjugates the Jacobian).", "quantifier": "all translations, all orthogonal maps, all inputs", "why_tests_cant": "Continuous symmetry groups cannot be enumerated.", "anchors": ["imodal/StructuredFields/StructuredField_0.py", "imodal/StructuredFields/StructuredField_pm.py", "imodal/Kernels/kernels.py"]}
{"id": "C15", "title": "The dual field represents the momentum", "statement": "For every manifold and momentum, pairing the momentum with the action of a kernel field of any support and moments equals pairing those moments with the field returned by cot_to_vs at that support: inner_prod_field(field) = sum over support of moments times cot_to_vs(sigma)(support). Holds for landmarks, landmark/direction pairs under both transports, frames, empty and compound manifolds.", "quantifier": "all manifolds, momenta, fields, sigma other than 0", "why_tests_cant": "An adjointness identity; sign and index errors cancel on symmetric samples.", "anchors": ["imodal/Manifolds/Landmark.py", "imodal/Manifolds/LandmarkDirection.py", "imodal/Manifolds/NormalFrame.py", "imodal/Manifolds/Compound.py: cot_to_vs, inner_prod_field"]}
{"id": "C16", "title": "Infinitesimal actions are linear and keep frames orthonormal to first order", "statement": "infinitesimal_action is linear in the field; landmarks move with the field value; frames move by the skew part of the Jacobian so that the derivative of R^T R is zero for every field; inner_prod_field is the pairing of the momentum with that action.", "quantifier": "all manifolds, all fields", "why_tests_cant": "Quantifies over all fields and all frames.", "anchors": ["imodal/Manifolds/NormalFrame.py: infinitesimal_action", "imodal/Manifolds/LandmarkDirection.py: infinitesimal_action", "imodal/Manifolds/Landmark.py"]}
{"id": "C17", "title": "Geodesic controls maximise the Hamiltonian", "statement": "After compute_geodesic_control(man), no other control value gives a larger value of (momentum paired with the generated field) minus cost, for every module type: translations, implicit order 0, oriented translations, constrained translations, global translation, linear, implicit order 1, divergence-free and as-rigid-as-possible.", "quantifier": "all modules, all parameters for which the call succeeds, all momenta, all competing controls", "why_tests_cant": "Global optimality over a continuum of competing controls.", "anchors": ["imodal/DeformationModules/*.py: compute_geodesic_control, cost, field_generator", "imodal/HamiltonianDynamic/hamiltonian.py: __call__, geodesic_controls"]}
{"id": "C18", "title": "At geodesic controls the Hamiltonian equals the cost", "statement": "Once geodesic controls are set, the Hamiltonian value equals the deformation cost, i.e. half the pairing of momentum and field, so it is never negative.", "quantifier": "all modules, momenta and descriptors for which the controls are computed", "why_tests_cant": "An identity over all states.", "anchors": ["imodal/HamiltonianDynamic/hamiltonian.py: Hamiltonian.__call__", "imodal/DeformationModules/*.py"]}
{"id": "C19", "title": "Deformation cost is a non-negative quadratic form of the controls", "statement": "cost() is never negative for non-negative coefficients, scales with the square of the controls, is zero for zero controls, and for a module with positive regularisation (or distinct points) is zero only for zero controls.", "quantifier": "all modules, all controls", "why_tests_cant": "Sign of a quadratic form for all vectors and all point configurations.", "anchors": ["imodal/DeformationModules/*.py: cost"]}
{"id": "C20", "title": "Geodesic controls exist whenever the regularisation is positive", "statement": "For implicit modules with nu > 0 the linear systems solved by fill_controls and compute_geodesic_control are never singular, whatever the points (coincident ones included); for translation modules they are never singular when the points are pairwise distinct.", "quantifier": "all point configurations, all nu > 0", "why_tests_cant": "Regularity for every configuration.", "anchors": ["imodal/Kernels/SKS.py: compute_sks", "imodal/DeformationModules/ImplicitModule0.py", "imodal/DeformationModules/ImplicitModule1.py", "imodal/DeformationModules/ImplicitDivFree.py", "imodal/DeformationModules/ImplicitARAP.py"]}
{"id": "C21", "title": "Implicit modules generate a field meeting their constraints", "statement": "The field of an implicit order-1 module has, at each of its points, the prescribed strain R diag(C h) R^T up to exactly nu times the multiplier; with nu = 0 the constraint is met exactly. Likewise the divergence-free module has zero divergence at its constraint points and the prescribed velocity at its control points, and the as-rigid-as-possible module zero strain.", "quantifier": "all point configurations, frames, growth tensors, controls", "why_tests_cant": "An exact identity between a solved linear system and derivatives of the resulting field.", "anchors": ["imodal/DeformationModules/ImplicitModule1.py: compute_moments, field_generator", "imodal/Kernels/SKS.py: compute_sks, eta", "imodal/DeformationModules/ImplicitDivFree.py", "imodal/DeformationModules/ImplicitARAP.py"]}
{"id": "C22", "title": "The strain basis is orthonormal and complete", "statement": "The tensors of eta(dim) are symmetric, orthonormal for the Frobenius product and span the symmetric matrices for dim 2 and 3; for other dimensions the call raises.", "quantifier": "all symmetric matrices of size 2 and 3, all other dimensions", "why_tests_cant": "Completeness quantifies over all symmetric matrices.", "anchors": ["imodal/Kernels/SKS.py: eta"]}
{"id": "C23", "title": "A compound module is the superposition of its members", "statement": "Field, cost and action of a compound module are the sums over its members, its controls are the list of the members' controls, and setting geodesic controls member by member maximises the joint Hamiltonian.", "quantifier": "all lists of modules, all controls", "why_tests_cant": "Holds for lists of any length.", "anchors": ["imodal/DeformationModules/Combination.py", "imodal/HamiltonianDynamic/hamiltonian.py"]}
{"id": "C24", "title": "Iterating a compound module visits every member, independently of other iterations", "statement": "Every for loop over a compound module visits each member exactly once in order, also when another loop over the same object is in progress.", "quantifier": "all interleavings of iterations over one object", "why_tests_cant": "Interleavings of iterator calls are unbounded.", "anchors": ["imodal/DeformationModules/Combination.py: CompoundModule.__iter__, __next__"]}
{"id": "C25", "title": "Field and cost reflect the current controls and descriptors", "statement": "After any sequence of fill_controls and descriptor updates, field_generator() and cost() are those of the current controls and the current descriptors.", "quantifier": "all operation histories", "why_tests_cant": "Cached multipliers go stale only for some histories.", "anchors": ["imodal/DeformationModules/ImplicitModule1.py: fill_controls, compute_moments", "imodal/DeformationModules/ImplicitDivFree.py", "imodal/DeformationModules/ImplicitARAP.py"]}
{"id": "C26", "title": "Explicit Euler shooting", "statement": "torch_euler shooting performs exactly `it` steps of size 1/it, each adding step*dH/dp to the descriptors and subtracting step*dH/dq from the momenta evaluated at the same state; it records it+1 states and it controls; it agrees with the ODE-solver path for method euler on [0,1] in exact arithmetic.", "quantifier": "all Hamiltonians, all step counts, all initial states", "why_tests_cant": "Induction over an arbitrary number of steps.", "anchors": ["imodal/HamiltonianDynamic/shooting.py: _shoot_euler, _shoot_torchdiffeq"]}
{"id": "C27", "title": "One deformation cost per step", "statement": "With the ODE-solver path and method euler, midpoint or rk4, exactly `it` deformation costs are recorded, one for each time interval, for every it >= 1: the first at the initial state, each later one at the first evaluation the solver makes whose time belongs to that interval (for euler and midpoint the state at its start, for rk4 the end-of-step evaluation of the step before); as many controls are recorded as evaluations are made.", "quantifier": "all step counts, the three fixed-step solvers", "why_tests_cant": "The counting rule depends on evaluation times of the solver for each step count.", "anchors": ["imodal/HamiltonianDynamic/shooting.py: _shoot_torchdiffeq (t_to_it, forward)"]}
{"id": "C28", "title": "Prescribed controls are used for the interval they belong to", "statement": "When controls are given, one per step, each right-hand-side evaluation made for step i uses controls[i]; when one is given per evaluation, evaluation number j uses controls[j]; indices never leave the list for the solver the list was built for.", "quantifier": "all step counts, all solvers, all control lists", "why_tests_cant": "Off-by-one behaviour at interval ends for every step count.", "anchors": ["imodal/HamiltonianDynamic/shooting.py: _shoot_torchdiffeq forward_control", "imodal/Models/registration_model.py: fit_controls"]}
{"id": "C29", "title": "Zero momentum means no deformation", "statement": "Shooting with zero initial momenta leaves all descriptors and momenta unchanged, for every module list, solver and step count.", "quantifier": "all modules with non-negative weights and regularisations, all descriptors, all solvers and step counts", "why_tests_cant": "Any step count and any configuration.", "anchors": ["imodal/HamiltonianDynamic/shooting.py", "imodal/HamiltonianDynamic/hamiltonian.py"]}
{"id": "C30", "title": "Total linear momentum is conserved by shooting", "statement": "For a translation-invariant Hamiltonian, the sum of the landmark momenta after shooting equals the initial sum, at every intermediate step, for every fixed-step solver.", "quantifier": "all translation-invariant Hamiltonians, step counts, solvers", "why_tests_cant": "Exact conservation by induction over steps.", "anchors": ["imodal/HamiltonianDynamic/shooting.py: _shoot_euler, _shoot_torchdiffeq"]}
{"id": "C31", "title": "Passive points do not influence the deformation", "statement": "Adding a silent module with zero momentum to the module list does not change the trajectory of the other modules, and its points follow the generated flow.", "quantifier": "all module lists, solvers, step counts", "why_tests_cant": "Non-interference over all states and steps.", "anchors": ["imodal/DeformationModules/SilentLandmark.py", "imodal/HamiltonianDynamic/hamiltonian.py", "imodal/Models/deformable.py: deformables_compute_deformed"]}
{"id": "C32", "title": "Computing the deformed shapes is repeatable", "statement": "RegistrationModel.compute_deformed gives the same result however often and after whatever other evaluations it is called, as long as the parameters are unchanged, and does not change the initial state.", "quantifier": "all call histories, all solvers and positive step counts", "why_tests_cant": "Depends on leftover state from earlier calls.", "anchors": ["imodal/Models/registration_model.py: compute_deformed, evaluate"]}
{"id": "C33", "title": "Deformed geometries come back in the order of the deformables", "statement": "deformables_compute_deformed returns one geometry per deformable, in order, each obtained by carrying that deformable through the flow: forward for points, backward for images; it succeeds for deformables needing the backward flow.", "quantifier": "all lists of deformables mixing forward and backward ones", "why_tests_cant": "Alignment of two filtered lists for every mix.", "anchors": ["imodal/Models/deformable.py: deformables_compute_deformed"]}
{"id": "C34", "title": "Cost reduction modes", "statement": "The deformation cost reported for a shooting is what the chosen reduction says, and an unknown reduction or a solver that records no costs is reported as an error.", "quantifier": "all reductions, all solvers, all cost sequences", "why_tests_cant": "Combination of solver and mode over all sequences.", "anchors": ["imodal/Models/deformable.py: deformables_compute_deformed", "imodal/HamiltonianDynamic/shooting.py"]}
{"id": "C35", "title": "Optimised parameters are exactly the requested ones", "statement": "A registration model optimises the momenta of all deformables and modules, plus the descriptors and controls the caller asked for, each exactly once, and every optimised tensor is recorded for differentiation and is the very tensor used by the next evaluation.", "quantifier": "all module lists and fit_gd selections", "why_tests_cant": "Selection over arbitrary lists with aliasing.", "anchors": ["imodal/Models/registration_model.py: __init__, _compute_parameters, fill_init_manifold"]}
{"id": "C36", "title": "The total cost is the sum of the reported costs", "statement": "evaluate reports deformation cost and lam times the weighted attachment, and back-propagates exactly their sum, plus the cost the precompute callback returned if there is one.", "quantifier": "all models, targets, weights", "why_tests_cant": "Identity over all inputs.", "anchors": ["imodal/Models/registration_model.py: evaluate"]}
{"id": "C37", "title": "A compound attachment honours the weights of its members", "statement": "The value of a compound attachment is its weight times the sum of its members' weighted values.", "quantifier": "all lists of attachments and weights", "why_tests_cant": "All lists and weights.", "anchors": ["imodal/Attachment/attachment.py: CompoundAttachment.loss, Attachment.__call__"]}
{"id": "C38", "title": "Atlas evaluation adds up the population", "statement": "AtlasModel.evaluate equals the sum over the population of the individual registration costs, each subject matched against its own target, every target being used.", "quantifier": "all population sizes", "why_tests_cant": "All population sizes and mismatches.", "anchors": ["imodal/Models/atlas.py: AtlasModel.evaluate"]}
{"id": "C39", "title": "Optimizer vector packing is lossless", "statement": "Writing a flat vector into the model parameters and reading them back returns the same vector, reading and writing back leaves every parameter unchanged, and a vector of the wrong length is rejected.", "quantifier": "all parameter lists, all vectors", "why_tests_cant": "All shapes and lengths.", "anchors": ["imodal/Models/optimizer_scipy.py: __model_to_numpy, __numpy_to_model"]}
{"id": "C40", "title": "Gradient-descent line search never increases the cost", "statement": "Whenever a gradient-descent step returns, the cost at the new parameters is finite and not larger than before; if it accepted a move, the new parameters are the old ones minus the current step times the gradient, with step lengths scaled by the documented factors.", "quantifier": "all cost functions, gradients, step lengths, factors", "why_tests_cant": "All cost functions and numbers of backtracks.", "anchors": ["imodal/Models/optimizer_gd.py: OptimizerGradientDescent.step"]}
{"id": "C41", "title": "Torch optimiser loop stops and reports honestly", "statement": "The loop performs at most the maximal number of iterations, reports success only if the relative decrease fell below the tolerance after the minimal number of iterations, and reports the cost reached.", "quantifier": "all cost sequences, tolerances, bounds", "why_tests_cant": "All cost sequences including non-finite values.", "anchors": ["imodal/Models/optimizer_torch.py: optimize"]}
{"id": "C42", "title": "The fitter records one cost entry per evaluation", "statement": "After fit, every list in the cost history has one entry for the initial state plus one per completed iteration, in order, and all lists have the same length.", "quantifier": "all optimisers, iteration counts, cost names", "why_tests_cant": "Any number of iterations.", "anchors": ["imodal/Models/fitter.py: fit, _post_iteration_callback", "imodal/Utilities/usefulfunctions.py: append_in_dict_of_list"]}
{"id": "C43", "title": "Fitting does not modify the caller's options", "statement": "fit leaves the options dictionary it receives (and later calls without options) unaffected, so that the same options give the same settings again.", "quantifier": "all option dictionaries, all call sequences", "why_tests_cant": "A history property of repeated calls.", "anchors": ["imodal/Models/fitter.py: fit"]}
{"id": "C44", "title": "Fitting runs with the default optimiser", "statement": "Fitter(model).fit(target, n) with any registered optimiser, the default included, performs the optimisation instead of raising.", "quantifier": "all registered optimisers", "why_tests_cant": "The call protocol must hold for each registered optimiser and all options.", "anchors": ["imodal/Models/fitter.py: fit", "imodal/Models/optimizer_scipy.py: optimize", "imodal/Models/optimizer.py"]}
{"id": "C45", "title": "The optimiser registry behaves like a dictionary with a default", "statement": "Registering adds exactly one name, creating returns what was last registered under that name, an unknown name is rejected, and the default is the one set last.", "quantifier": "all sequences of register, create, set-default calls", "why_tests_cant": "All histories.", "anchors": ["imodal/Models/optimizer.py"]}
{"id": "C46", "title": "The compute backend setting is a single validated variable", "statement": "get_compute_backend returns the last successfully set value, only 'torch' and 'keops' can be set, a rejected value changes nothing, and fields and modules built without an explicit backend use the current one.", "quantifier": "all sequences of set calls", "why_tests_cant": "All histories.", "anchors": ["imodal/Utilities/compute_backend.py", "imodal/StructuredFields/__init__.py", "imodal/DeformationModules/Abstract.py: create_deformation_module_with_backends"]}
{"id": "C47", "title": "Bounding boxes enclose and round-trip", "statement": "A box built from points contains every one of them and is the smallest such box; conversions to tuple, couples and dict and back give the same box; is_inside answers exactly whether each point satisfies the bounds.", "quantifier": "all point sets, all dimensions, all boxes", "why_tests_cant": "All point sets.", "anchors": ["imodal/Utilities/aabb.py: build_from_points, is_inside, totuple, todict"]}
{"id": "C48", "title": "Scaling and squaring boxes", "statement": "scale keeps the centre and multiplies every side by the factor, squared keeps the centre and makes all sides equal to the largest one, the in-place and copying variants agree and the copying ones leave the original unchanged.", "quantifier": "all boxes, all factors", "why_tests_cant": "All boxes including degenerate ones.", "anchors": ["imodal/Utilities/aabb.py: scale, scale_, squared, squared_"]}
{"id": "C49", "title": "Box sampling stays inside and has the right count", "statement": "fill_count gives the product of the counts, fill_uniform_spacing and fill_random points lie in the box, and the corners are reached by fill_count with counts of at least two.", "quantifier": "all boxes, counts, spacings, random streams", "why_tests_cant": "All sizes and random streams.", "anchors": ["imodal/Utilities/aabb.py: fill_count, fill_uniform_spacing, fill_uniform_density, fill_random"]}
{"id": "C50", "title": "Grids and point lists convert without loss", "statement": "vec2grid inverts grid2vec for every grid shape and dimension, in row-major order.", "quantifier": "all grid shapes and contents", "why_tests_cant": "All shapes.", "anchors": ["imodal/Utilities/usefulfunctions.py: grid2vec, vec2grid", "imodal/DeformationModules/DeformationGrid.py"]}
{"id": "C51", "title": "Pixel and point coordinates convert without loss", "statement": "pixels2points and points2pixels are inverse for every frame and every extent with non-zero sides, and send frame corners to extent corners; the normalised-coordinates pair likewise.", "quantifier": "all shapes with sides of at least two, all non-degenerate extents, all points", "why_tests_cant": "All real points.", "anchors": ["imodal/Utilities/usefulfunctions.py: points2pixels, pixels2points, points2nel, nel2points"]}
{"id": "C52", "title": "Rotation builders give rotations, and scalar and batched versions agree", "statement": "Every rotation builder returns an orthogonal matrix of determinant 1, angles add under composition, and the batched builders return for each angle the matrix the scalar builder returns.", "quantifier": "all angles", "why_tests_cant": "All real angles; sign errors vanish at angle 0.", "anchors": ["imodal/Utilities/usefulfunctions.py: rot2d, rot2d_vec, rot3d_x, rot3d_x_vec, rot3d_y, rot3d_y_vec, rot3d_z, rot3d_z_vec"]}
{"id": "C53", "title": "Rigid transforms are isometries and extent transforms map extent to extent", "statement": "rigid deformations preserve all distances; the extent transformation sends the corners of the first extent to those of the second.", "quantifier": "all angles, translations, extents, points", "why_tests_cant": "All real parameters.", "anchors": ["imodal/Utilities/usefulfunctions.py: rigid_deformation3d, extent_transformation4d"]}
{"id": "C54", "title": "Image interpolation is exact at pixels and stays within range", "statement": "Interpolating at pixel positions returns the pixel values, a constant image stays constant under every deformation, and interpolated values stay between the smallest and largest pixel value.", "quantifier": "all images, all evaluation points", "why_tests_cant": "All real points and image contents.", "anchors": ["imodal/Utilities/sampling.py: deformed_intensities, deformed_intensities3d"]}
{"id": "C55", "title": "The undeformed image is reproduced", "statement": "An image deformable carried by the identity flow gives back the image, whatever its height and width.", "quantifier": "all image shapes and contents", "why_tests_cant": "All shapes; square samples hide axis mix-ups.", "anchors": ["imodal/Models/deformable_image2d.py: DeformableImage.__init__, _backward_module, _to_deformed"]}
{"id": "C56", "title": "Area and distance predicates match geometry", "statement": "distance_segment is the least distance from the point to the segment; the disc, segment and outline areas contain a point exactly if it is within the stated distance; convex areas are intersections of half planes.", "quantifier": "all points, segments, polylines", "why_tests_cant": "Minimality over a continuum.", "anchors": ["imodal/Utilities/meshutils.py: distance_segment, area_disc, area_polyline_outline, area_convex_shape, area_side"]}
{"id": "C57", "title": "Winding number is a property of the closed curve", "statement": "winding_order of a closed shape does not depend on the start vertex or on translation, changes sign when the orientation is reversed, and the side argument only changes its sign for points off the edges, so area_shape gives the same interior for both sides.", "quantifier": "all closed polygons, all points", "why_tests_cant": "All polygons with any number of vertices.", "anchors": ["imodal/Utilities/meshutils.py: winding_order, area_shape, area_side"]}
{"id": "C58", "title": "Closing shapes and filling areas", "statement": "close_shape gives a closed shape that starts with the original; is_shape_closed recognises exactly shapes with equal ends; filling an area returns only points of the area inside the box, and all grid points of that kind.", "quantifier": "all shapes, areas, boxes, densities", "why_tests_cant": "All shapes and predicates.", "anchors": ["imodal/Utilities/meshutils.py: close_shape, is_shape_closed, fill_area_uniform, fill_area_random"]}
{"id": "C59", "title": "Generated outlines lie on their outline", "statement": "Points of the generated unit square, rectangle and unit circle lie on the respective boundary, are as many as requested and pairwise distinct.", "quantifier": "all point counts", "why_tests_cant": "All counts.", "anchors": ["imodal/Utilities/meshgen.py"]}
{"id": "C60", "title": "Kernel smoothing averages", "statement": "Kernel smoothing of a curve replaces each point by a convex combination of the curve's points, so it stays in the bounding box of the curve and keeps constant curves.", "quantifier": "all curves, all sigma other than 0", "why_tests_cant": "All curves.", "anchors": ["imodal/Utilities/meshutils.py: kernel_smooth"]}
{"id": "C61", "title": "Varifold attachment is a squared distance that ignores parametrisation", "statement": "The varifold attachment of two curves (or triangulated surfaces) is non-negative, symmetric, zero for equal shapes, and unchanged by reversing the orientation of the shapes, reordering the segments (faces), and by rigid translation of both.", "quantifier": "all shapes, all kernel widths", "why_tests_cant": "Non-negativity for all shapes rests on positive definiteness.", "anchors": ["imodal/Attachment/attachment_varifold.py"]}
{"id": "C62", "title": "Pointwise attachments are squared distances", "statement": "The L2 and pointwise attachments are non-negative, symmetric, zero exactly for equal shapes, and linear in their weight.", "quantifier": "all inputs", "why_tests_cant": "All real inputs.", "anchors": ["imodal/Attachment/attachment.py: EuclideanPointwiseDistanceAttachment", "imodal/Attachment/attachment_l2.py"]}
{"id": "C63", "title": "Sampling an image by grey level stays in the image", "statement": "sample_from_greyscale and the mask helpers return positions inside the frame at pixels that meet the threshold.", "quantifier": "all images, thresholds, densities", "why_tests_cant": "All image shapes.", "anchors": ["imodal/Utilities/sampling.py"]}
{"id": "C64", "title": "List helpers", "statement": "flatten_tensor_list lists the tensors of a nested list left to right, the shared-property helper returns the common property or nothing when they differ, and append_in_dict_of_list appends each value to the list under its key.", "quantifier": "all nested lists, dictionaries", "why_tests_cant": "Unbounded nesting.", "anchors": ["imodal/Utilities/usefulfunctions.py: flatten_tensor_list, shared_tensors_property, append_in_dict_of_list"]}
{"id": "C65", "title": "File format dispatch goes by extension", "statement": "Loading or saving a deformable selects the reader or writer by the extension of the file name, and rejects unknown extensions.", "quantifier": "all file names", "why_tests_cant": "All strings.", "anchors": ["imodal/Models/deformable.py: load_from_file, save_to_file"]}
{"id": "C66", "title": "Resampled curves stay on the curve", "statement": "resample_curve returns points of the original polyline, starting at its first point.", "quantifier": "all curves with at least two points, all densities", "why_tests_cant": "All curves.", "anchors": ["imodal/Utilities/meshutils.py: resample_curve"]}
{"id": "C67", "title": "Triangle centres are centroids", "statement": "The centres computed for a triangulated surface are the centroids of its triangles, hence inside them.", "quantifier": "all triangles", "why_tests_cant": "All real triangles.", "anchors": ["imodal/Attachment/attachment_varifold.py", "imodal/Utilities/meshutils.py: compute_centers_normals_lengths"]}
{"id": "C68", "title": "The object factory spawns what was registered", "statement": "Spawning a registered name calls the constructor last registered under it with the given arguments; an unknown name is rejected.", "quantifier": "all registration histories", "why_tests_cant": "All histories.", "anchors": ["imodal/Utilities/factory.py"]}
{"id": "C69", "title": "Shooting regularised modules never fails", "statement": "Shooting a combination of global translations, linear deformations, silent modules and implicit modules of order 0, divergence free and as-rigid-as-possible modules with positive regularisation and positive weights returns a trajectory of it + 1 states for every solver, wherever the points are, coincident ones included. With given controls of the right shape, at least one list per step (or per evaluation), shooting returns for all kinds of modules; then only implicit modules of order 1, divergence free and as-rigid-as-possible modules need a positive regularisation.", "quantifier": "all module lists of these kinds, all positions and momenta, all controls, all it >= 1, all non-zero final times, all solvers", "why_tests_cant": "A singular system at some point of some trajectory would raise; the absence of such points is a statement about all real configurations.", "anchors": ["imodal/HamiltonianDynamic/shooting.py: shoot", "imodal/DeformationModules: compute_geodesic_control"]}
{"id": "C70", "title": "Descriptors move by the generated field", "statement": "At every evaluation, the velocity shooting gives to the geometrical descriptors is the infinitesimal action of the field generated by the controls in use, and each Euler step moves every descriptor entry by the step size times this action.", "quantifier": "all module combinations and their compounds, all positions, momenta and controls, all numbers of steps", "why_tests_cant": "The velocity is obtained by automatic differentiation of the Hamiltonian, through the solution of the linear systems for the controls; that the contribution of the controls cancels is a statement about all momenta.", "anchors": ["imodal/HamiltonianDynamic/shooting.py: shoot", "imodal/HamiltonianDynamic/hamiltonian.py", "imodal/DeformationModules: compute_geodesic_control"]}
{"id": "C71", "title": "Recorded controls replay the trajectory", "statement": "Shooting from the same initial descriptors with the controls recorded while shooting from momenta gives the same descriptors at every intermediate step, for every fixed-step solver.", "quantifier": "all module combinations, all positions and momenta, all it >= 1, all final times, all solvers", "why_tests_cant": "Equality of whole trajectories over all real inputs and all lengths.", "anchors": ["imodal/HamiltonianDynamic/shooting.py: shoot"]}
{"id": "C72", "title": "Saved points can be loaded again", "statement": "Points saved by save_to_csv or save_to_pickle and read by load_from_csv or load_from_pickle are the same points.", "quantifier": "all point sets, both pickle containers", "why_tests_cant": "All sizes; a single point and points in dimension one behave differently from the sizes used in tests.", "anchors": ["imodal/Models/deformable.py: load_from_csv, load_from_pickle, save_to_csv, save_to_pickle"]}
{"id": "C73", "title": "A gradient-descent step on a smooth cost always ends", "statement": "If the cost is finite for all parameters and the gradient is the true one, the line search of a gradient-descent step ends after finitely many trials, and the parameters it ends with do not cost more.", "quantifier": "all differentiable costs, all parameter groups, all non-negative step lengths, all decrease factors in [0, 1), also one per group", "why_tests_cant": "The search has no bound on the number of trials; that none is needed is a statement about all differentiable functions.", "anchors": ["imodal/Models/optimizer_gd.py: OptimizerGradientDescent"]}
{"id": "C74", "title": "Local scaling and local rotation do what their names say", "statement": "The field of a local scaling vanishes at its centre with a Jacobian that is a multiple of the identity, and moves every other point away from the centre (towards it when the control is negative); the field of a local rotation vanishes at its centre with a Jacobian that is a quarter turn in the plane or the vector product with the axis in space, and turns every other point of the plane the same way round. Both are available in every dimension their builder accepts. Their cost is a positive constant times the squared control, whatever the centre and the scale.", "quantifier": "all centres, scales, controls and evaluation points", "why_tests_cant": "The direction of motion at all distances, where the field is exponentially small, is out of reach of sampled comparisons.", "anchors": ["imodal/DeformationModules/LocalConstrainedTranslations.py: LocalScaling, LocalRotation"]}
{"id": "C75", "title": "Voxel and point conversions with an affine matrix are inverse", "statement": "voxels2points_affine followed by points2voxels_affine with the same affine matrix returns the voxels it started from, for every invertible affine matrix, and the index form returns the same integer indices.", "quantifier": "all affine 4\u00d74 matrices, all voxels and points", "why_tests_cant": "The usual test matrix, the identity, is its own inverse and hides which matrix is meant.", "anchors": ["imodal/Utilities/usefulfunctions.py: voxels2points_affine, points2voxels_affine"]}
{"id": "C76", "title": "The points of an image are its pixels, and its weights sum to one", "statement": "A deformable image lays its points on the positions of its pixels in its frame, row by row. Asked for points, it gives these points with weights proportional to the grey values and summing to one, before and after deformation. An output kind other than bitmap and points is rejected.", "quantifier": "all image sizes, frames, grey values and deformed points", "why_tests_cant": "Square test images in pixel units hide a mistaken frame.", "anchors": ["imodal/Models/deformable_image2d.py: DeformableImage"]}
{"id": "C77", "title": "Everything moves along with a rigid motion", "statement": "Rotating, reflecting and translating all descriptors and momenta together turns the vector field, the velocities and the geodesic controls in the same way and leaves the cost and the Hamiltonian unchanged.", "quantifier": "all orthogonal matrices and translations, all module kinds and compounds, all descriptors, momenta, controls and evaluation points", "why_tests_cant": "All rotations in all dimensions, through kernel matrices of any size and their inverses.", "anchors": ["imodal/DeformationModules: __call__, cost, compute_geodesic_control, fill_controls", "imodal/Manifolds: infinitesimal_action, inner_prod_field, cot_to_vs", "imodal/HamiltonianDynamic/hamiltonian.py"]}
{"id": "C78", "title": "Shooting follows rigid motions", "statement": "Turning, reflecting and translating the initial descriptors, and turning the initial momenta along, moves every state of the trajectory in the same way, turns momenta and controls, and changes no cost and no exception. With given controls the same holds, the controls being turned along; torch_euler with given controls is covered for translations.", "quantifier": "all rigid motions, all solvers, numbers of steps and end times, from momenta; all rigid motions for the fixed step solvers with controls and all translations for torch_euler with controls; all compounds of modules whose parameters single out no place or direction (and are continuously differentiable, from momenta)", "why_tests_cant": "Whole trajectories, all motions and all modules; rounding hides a small dependence on the origin.", "anchors": ["imodal/HamiltonianDynamic/shooting.py: shoot", "imodal/HamiltonianDynamic/hamiltonian.py"]}
{"id": "C79", "title": "The Hamiltonian is smooth where geodesic controls exist", "statement": "If geodesic controls can be computed at some descriptors and momenta, they can be computed at all descriptors and momenta close by, and the value of the Hamiltonian with geodesic controls is there a smooth function of descriptors and momenta, to the order to which user supplied functions are smooth. The derivatives with respect to the single entries, which shooting asks autograd for, give the rate of change along every differentiable curve. For modules with positive regularisation both hold everywhere.", "quantifier": "all modules and compounds whose user supplied functions are differentiable, all descriptors and momenta", "why_tests_cant": "Smoothness at all states is no finite statement; autograd returns numbers also where a function has no derivative.", "anchors": ["imodal/HamiltonianDynamic/hamiltonian.py: geodesic_controls, __call__", "imodal/HamiltonianDynamic/shooting.py: shoot"]}
{"id": "C80", "title": "Shooting converges to the geodesic", "statement": "Where geodesic controls exist, Hamilton's equations q' = dH/dp, p' = -dH/dq of the Hamiltonian with geodesic controls have a solution for some time. As long as a solution from the initial descriptors and momenta exists, shooting with euler, midpoint, rk4 or torch_euler succeeds once the number of steps is large enough, and every intermediate state differs from the solution at the corresponding time by at most a constant over the number of steps.", "quantifier": "all compounds with smooth parameters that the solver path accepts, all initial states, all end times (torch_euler: one), all fixed step solvers", "why_tests_cant": "Convergence is a statement about all numbers of steps and about an exact solution that no program has.", "anchors": ["imodal/HamiltonianDynamic/shooting.py: shoot, _shoot_euler, _shoot_torchdiffeq"]}
{"id": "C81", "title": "Energy and angular momentum are kept", "statement": "Along the exact solution the Hamiltonian is constant, and so is the angular momentum if no module has a preferred direction. Along the states of a shooting both differ from their initial values by at most a constant over the number of steps. With euler and midpoint the recorded deformation costs of any two steps differ by at most a constant over the number of steps: geodesics run at constant speed.", "quantifier": "all compounds with smooth parameters that the solver path accepts, all initial states and end times for which the solution exists, all fixed step solvers (costs: euler and midpoint)", "why_tests_cant": "A test sees some numbers of steps and cannot tell a slow drift from convergence to another value.", "anchors": ["imodal/HamiltonianDynamic/shooting.py: shoot", "imodal/HamiltonianDynamic/hamiltonian.py"]}
{"id": "C82", "title": "The compute backend of a module does not change what it does", "statement": "Modules built with backend='keops' and with backend='torch' from the same arguments have the same cost, the same values and first derivatives of the generated field, the same pairing with and action on any manifold, and the same geodesic controls; both raise or both return. So shooting with any solver, with or without given controls, deforming, evaluating a registration model and evaluating an atlas give the same costs, states, controls and geometries for both backends, also when backends are mixed inside one compound.", "quantifier": "for all modules, compounds, manifolds, controls, solvers, numbers of steps, deformables, attachments and targets", "why_tests_cant": "The KeOps classes contain separate formulas for cost, constraint matrix and solve (other scalings of sigma, other index orders). Tests need KeOps and compare single random modules with a tolerance.", "anchors": ["imodal/DeformationModules/Translation.py:102-132", "imodal/DeformationModules/ImplicitModule0.py:117-174", "imodal/DeformationModules/ImplicitModule1.py:216-303", "imodal/Kernels/SKS.py:59-97"]}
{"id": "C83", "title": "Without regularisation implicit modules work exactly on distinct points", "statement": "With nu = 0 (the default) and pairwise distinct points, every implicit module accepts every control and meets its constraint exactly: order 1 has the prescribed strain R diag(C h) R^T at its points, the divergence-free and as-rigid-as-possible modules take the controls as velocities at the control points and have no divergence, respectively no strain, at the constraint points, also when a constraint point coincides with a control point. Geodesic controls exist for them and for implicit modules of order 0. With coincident points of one kind the torch backend raises LinAlgError. With geodesic controls a translation module has at its points the velocity of the dual field, and an implicit module of order 0 has it up to coeff and nu.", "quantifier": "all modules, point configurations, controls, momenta; sigma other than 0, dimension 2 or 3 where strains are involved; for geodesic controls of order 1, growth tensors for which different controls prescribe different strains", "why_tests_cant": "Definiteness of the matrix of strains for every set of distinct points is a theorem of analysis; near-coincident samples only show bad conditioning.", "anchors": ["imodal/DeformationModules/ImplicitModule0.py: compute_geodesic_control", "imodal/DeformationModules/ImplicitModule1.py: fill_controls, compute_geodesic_control", "imodal/DeformationModules/ImplicitDivFree.py", "imodal/DeformationModules/ImplicitARAP.py", "imodal/Kernels/SKS.py: compute_sks"]}
{"id": "C84", "title": "An atlas model optimises its own copies, one set per subject", "statement": "Building an atlas for n subjects makes n registration models. Each holds its own deep copies of the template and of the modules, with the given values; no two tensors of the population share memory and the given objects keep theirs. The parameters are, each once and under distinct names: every momentum of every subject; if fit_gd is given, the flagged descriptors, fitted for the whole population; if the template is optimised, one momentum of the template's shape, zero at first. All of them are recorded for differentiation. An unknown evaluate mode, a template to optimise without ht_sigma, htgd without sigma and a number of attachments other than one are refused.", "quantifier": "all worlds of manifolds and modules, templates, module lists, population sizes n > 0, flags, optimise_template", "why_tests_cant": "Whether two tensors share memory and whether an update of the optimiser reaches every subject is not visible from the cost of one run.", "anchors": ["imodal/Models/atlas.py:14-81", "imodal/Models/atlas.py:115-139"]}
{"id": "C85", "title": "The deformed population of an atlas", "statement": "compute_deformed of an atlas returns one geometry per subject, in order, and each is the one the subject's registration model gives alone, whatever the other subjects are. A dictionary intermediates receives one list of states and one list of controls per subject, behind the entries its lists already held, and keeps its other keys. Evaluating agrees with deforming: the attachment an evaluation reports is the sum over the subjects of lam times the attachment between the geometry compute_deformed returns and the subject's target. Evaluations and deformations, also failing ones, do not change later results. Before any fit, without momenta, every subject is deformed into the template. This holds for every evaluate mode the constructor accepts and with or without an optimised template; other values of intermediates are refused.", "quantifier": "all populations, registration models, solvers, numbers of steps, dictionaries, targets, histories of calls", "why_tests_cant": "Independence of other subjects and of earlier calls concerns all populations and histories; tests run one small atlas once.", "anchors": ["imodal/Models/atlas.py:141-153", "imodal/Models/atlas.py:177-210", "imodal/Utilities/usefulfunctions.py:283-288"]}
{"id": "C86", "title": "A registration does not depend on position and orientation", "statement": "Rotating, reflecting or translating a whole registration problem changes nothing but the place of its result. If the sources, the targets, the descriptors of the modules, the momenta and the controls are moved by one rigid motion then compute_deformed returns the moved geometries and the same cost, evaluate returns the same costs and the same total, exceptions are the same, and values of the parameters that minimise the total, when moved, minimise the total of the moved problem. The pointwise distance, the varifold distance of curves and of surfaces, and compounds of them, qualify as attachments. A model built from moved arguments is the moved model.", "quantifier": "all rigid motions, all dimensions, all deformables that are given by their points, all lists of deformation modules whose parameters single out no direction, all attachments that only see relative positions, all solvers, step counts, cost reductions, momenta and controls, all earlier calls of the model", "why_tests_cant": "Tests fix one pose of one example, and with floating point they can only compare up to a tolerance; the claim is about every motion and about minimisers.", "anchors": ["imodal/Models/registration_model.py:12-95", "imodal/Models/registration_model.py:212-299", "imodal/Models/deformable.py:15-50", "imodal/HamiltonianDynamic/shooting.py:8-50", "imodal/Attachment/attachment.py:60-77", "imodal/Attachment/attachment_varifold.py:36-155", "imodal/Utilities/meshutils.py:610-618"]}
{"id": "C87", "title": "A deformation grid is a lattice that follows the deformation", "statement": "DeformableGrid(box, resolution) holds one point per multi-index, in row-major order, at the nodes that cut the box into equal parts, without momentum. Its geometry is the tuple of coordinate grids. Among the deformables of compute_deformed its nodes are carried by the same fields as everything else, they stay in place when all momenta are zero, and the deformed geometry has the same form as the geometry. A resolution that does not fit the box is rejected.", "quantifier": "all boxes of any dimension, all resolutions, all modules, momenta, controls, solvers and numbers of steps", "why_tests_cant": "The order of the nodes only shows on grids with different counts per axis, and tests plot square grids.", "anchors": ["imodal/DeformationModules/SilentLandmark.py:82-108", "imodal/Models/deformable.py:53-78", "imodal/Utilities/meshgen.py:97-114", "imodal/Utilities/usefulfunctions.py:10-17"]}
{"id": "C88", "title": "Scaling momenta or controls is the same as scaling the time", "statement": "Multiplying the initial momenta by a number a and shooting up to time t1 passes through the same descriptors as shooting up to time a * t1 with the original momenta. The momenta and controls on the way are a times as large and the costs a squared times. The same holds for given controls that are all multiplied by a. In particular any end time can be replaced by 1, and shooting backwards in time is shooting forwards with opposite momenta, at the same cost. At one state, geodesic controls are linear in the momenta along rays, and the Hamiltonian is quadratic.", "quantifier": "all lists of deformation modules of all kinds, all descriptors, momenta and controls, all numbers a other than 0, all end times, all numbers of steps, the solvers euler, midpoint and rk4; no smoothness is assumed, and exceptions are the same", "why_tests_cant": "Tests compare one pair of trajectories up to a tolerance; the claim is exact for every solver step and every module kind, at singular points as well.", "anchors": ["imodal/HamiltonianDynamic/shooting.py:95-306", "imodal/HamiltonianDynamic/hamiltonian.py:1-58", "imodal/DeformationModules/Abstract.py:1-80"]}
{"id": "C89", "title": "A shooting can be interrupted and resumed", "statement": "Shooting n + m steps up to time T gives the same as shooting n steps up to T * n / (n + m) and then, from the modules as that call left them, m steps over the remaining time. The list of states is that of the first part followed by that of the second, with the state where they meet listed once. The controls on the way are those of the first part followed by those of the second, and the modules are left in the same condition. With euler and midpoint the list of costs is also the two lists joined. Exceptions are the same. This holds from momenta, with one control for all steps, with one control per step (euler and midpoint), and with one control per evaluation.", "quantifier": "all lists of deformation modules of all kinds, all descriptors, momenta, controls and cached results, all end times (zero and negative ones as well), all numbers of steps at least 1, the solvers euler, midpoint and rk4; no smoothness is assumed", "why_tests_cant": "A test compares one or two splittings up to a tolerance; that nothing is carried over from one call to the next except descriptors and momenta, for every module kind and solver, is a statement about all of them.", "anchors": ["imodal/HamiltonianDynamic/shooting.py:95-306"]}
{"id": "C90", "title": "Learned controls start at rest and fix the number of steps", "statement": "A registration model that fits controls starts, unless told to begin with ones, with controls that are all zero. Deforming with controls that are all zero moves nothing: every state on the way is the initial one, momenta included, the deformed geometries are made from the points the deformables were given, and every cost is zero. So the first evaluation reports no deformation cost and the attachments of the undeformed geometries. Whatever controls have been learned since, the model deforms as a direct call does from the deformables and modules it was made of, with these controls and the number of steps the model was made with; the number of steps given later has no effect. Evaluating returns for all values of the learned controls.", "quantifier": "all deformables, module lists, attachments, weights and targets, all solvers, all numbers of steps, all values of the learned controls, all momenta held by the modules", "why_tests_cant": "Whether anything moves at zero controls depends on every kind of module, on its caches, on the momenta left in the modules and on the solver; a test sees one combination.", "anchors": ["imodal/Models/registration_model.py: RegistrationModel.__init__", "imodal/Models/registration_model.py: evaluate", "imodal/Models/registration_model.py: compute_deformed", "imodal/Models/deformable.py: deformables_compute_deformed", "imodal/HamiltonianDynamic/shooting.py: shoot"]}
{"id": "C91", "title": "The reported cost bounds how far the points are moved", "statement": "If the coefficients of the modules are positive and none of them is a linear deformation, the square of the speed of every point is at most twice the cost of the controls times the sum of the inverse coefficients. A registration computed with Euler's method that reports the cost c under the reduction 'sum' has therefore moved no point of any deformable further than sqrt(2 w T^2 c / it), where w is the sum of the inverse coefficients, T the duration and it the number of steps, and this bound is attained. If the reported cost is zero, nothing has moved at all, linear deformations included: the geometries that come back are those of the undeformed points, every state on the way is the first one, and when shooting from momenta a first cost of zero already means that all later ones are zero and no momentum changes.", "quantifier": "all deformables, all lists of modules of all kinds with positive coefficients (nested compounds included), all descriptors, momenta and controls, all kernel widths, regularisations >= 0, all numbers of steps, all durations; the bound for Euler's method, the case of zero cost for all the fixed-step solvers", "why_tests_cant": "A test sees one displacement and one cost; that no choice of controls can cheat the cost is a statement about all of them, and rests on the kernel matrices being positive for all configurations of points.", "anchors": ["imodal/Models/deformable.py: deformables_compute_deformed", "imodal/HamiltonianDynamic/shooting.py:95-306", "imodal/DeformationModules/Translation.py: cost", "imodal/DeformationModules/ImplicitModule0.py: cost", "imodal/DeformationModules/ImplicitModule1.py: cost", "imodal/DeformationModules/Combination.py: cost"]}
{"id": "C92", "title": "The order in which points are listed does not matter", "statement": "If the points of a deformation module are listed in another order, and its momenta, frames, growth constants and controls accordingly, then the module has the same cost, generates the same vector field everywhere, and gets the same geodesic controls in that order, whether or not the manifold the momenta are taken from is listed in another order too. Shooting such modules gives the same final points, the same intermediate states and the same controls in that order, and exactly the same costs, for every solver, from momenta or with controls. A registration whose deformation modules list their points in another order therefore gives the same deformed geometries, the same deformation cost, the same attachment cost and the same total, and leaves the same model in that order. For modules that distinguish two kinds of points (divergence-free and as-rigid-as-possible ones) the order must not exchange points of different kinds.", "quantifier": "all lists of modules of all kinds (nested compounds included), all orders of the points of every member, independent of each other, all descriptors, momenta and controls, all solvers, numbers of steps and durations, all ways to reduce the cost, all deformables and attachments", "why_tests_cant": "There are n! orders of n points; a test tries one or two, and the kernel matrices, the linear systems and the automatic derivatives all have to follow.", "anchors": ["imodal/HamiltonianDynamic/shooting.py: shoot", "imodal/HamiltonianDynamic/hamiltonian.py: geodesic_controls", "imodal/DeformationModules/ImplicitModule0.py", "imodal/DeformationModules/ImplicitModule1.py", "imodal/StructuredFields/Abstract.py", "imodal/Models/deformable.py: deformables_compute_deformed", "imodal/Models/registration_model.py: evaluate"]}
{"id": "C93", "title": "The order in which modules are listed does not matter", "statement": "If the deformation modules are listed in another order, and the controls accordingly, then the compound has the same cost and generates the same vector field everywhere: the same values and derivatives, the same pairing with momenta and the same action on every manifold. Its Hamiltonian is the same, and its geodesic controls are the same ones in that order. Shooting gives the same final modules, states and controls in that order, and exactly the same costs, for every solver, from momenta or with controls. A registration with its deformation modules in another order gives the same deformed geometries, the same deformation cost, the same attachment cost and the same total, and leaves the same model in that order. Whenever one of the two raises, so does the other.", "quantifier": "all lists of modules of all kinds and sizes (nested compounds included), all permutations of the list, all descriptors, momenta and controls, all solvers, numbers of steps and durations, all ways to reduce the cost, all deformables and attachments", "why_tests_cant": "The modules share one flat state vector, so another order moves every coordinate to another place; a test would try one or two orders of two modules.", "anchors": ["imodal/DeformationModules/Combination.py", "imodal/Manifolds/Compound.py", "imodal/HamiltonianDynamic/shooting.py: shoot", "imodal/HamiltonianDynamic/hamiltonian.py", "imodal/StructuredFields/Abstract.py: SumStructuredField", "imodal/Models/deformable.py: deformables_compute_deformed", "imodal/Models/registration_model.py: evaluate"]}
{"id": "C94", "title": "The total cost is a smooth function of what is optimised", "statement": "If evaluating a registration returns for some initial descriptors, momenta and, if controls are learned, controls, and the losses are smooth near the deformed points it reached, then evaluating it returns for all such values nearby, and the total cost is there a k times continuously differentiable function of them, and of any parameters they depend on smoothly. With modules of the regular kinds and losses that are smooth everywhere, evaluating returns for all values and the total is k times continuously differentiable everywhere. The weighted pointwise distance is such a loss where no point lies on its target; with a point on its target it is not differentiable.", "quantifier": "all lists of modules whose linear systems are solvable at the values considered, all descriptors, momenta, learned controls and parameters they depend on, all numbers of steps of euler, midpoint and rk4, all k, all deformables and losses that are smooth near the points reached", "why_tests_cant": "A test compares one gradient with one finite difference; that the total has derivatives of every order at every admissible point, and does not raise nearby, is about all values at once.", "anchors": ["imodal/Models/registration_model.py: evaluate", "imodal/Models/deformable.py: deformables_compute_deformed", "imodal/HamiltonianDynamic/shooting.py: shoot", "imodal/HamiltonianDynamic/hamiltonian.py", "imodal/Attachment/attachment.py: EuclideanPointwiseDistanceAttachment"]}
{"id": "C95", "title": "Fitting a registration by gradient descent ends and converges", "statement": "Take a registration that was built from modules of the regular kinds, with losses that are differentiable at all points, and fit it by gradient descent, optimising the momenta and any choice of descriptors. Evaluating the model never raises on the way, every step (its line search included) ends, and no step increases the total. If no loss is negative and enough iterations are allowed, the optimiser reports convergence, and the final total is not larger than the one at the start.", "quantifier": "all registrations of this kind in all dimensions, all targets, all initial momenta and descriptors, all choices of optimised descriptors, all numbers of steps of euler, midpoint and rk4, all non-negative initial step lengths and factors with gamma1 < 1, per group or not, all positive tolerances and all miniter", "why_tests_cant": "That a line search ends at every point and that the loop reports convergence are about all iterations; a test sees one run from one start.", "anchors": ["imodal/Models/optimizer_gd.py: step", "imodal/Models/optimizer_torch.py: optimize", "imodal/Models/registration_model.py: evaluate", "imodal/Models/registration_model.py: _compute_parameters"]}
{"id": "C96", "title": "A new module is at rest, and controls can be set to zero", "statement": "A module fresh from its builder has zero controls and the points and momenta that were asked for (zeros where none are given); it returns unless the name of a transport is unknown. Its cost is zero and it moves no point. Setting the controls of any module to zero keeps its points and momenta, gives cost zero and a module that moves no point, forgets all controls set before, and doing it twice is the same as doing it once.", "quantifier": "all calls of the builders of all kinds of modules with all arguments, compounds of new modules to any depth, all points at which the module is called; for setting to zero all modules in all states", "why_tests_cant": "Each test builds one module. That the moments computed from the controls are consistent in every state and for every nesting is a statement about all of them.", "anchors": ["imodal/DeformationModules/Translation.py: build", "imodal/DeformationModules/ImplicitModule1.py: fill_controls_zero", "imodal/DeformationModules/ImplicitDivFree.py: __init__", "imodal/DeformationModules/Combination.py: fill_controls_zero"]}
{"id": "C97", "title": "Modules can be described, and the members of a compound found", "statement": "str(module) returns a text that names the kind and the label of the module, gives its parameters with their names and, for a compound, contains the texts of all its members at any depth. A member of a compound is found by its position, negative positions counting from the end, and by its name when the compound was given a list of names as label. The text of a registration model contains the text of each deformation module and of nothing else.", "quantifier": "All modules and nestings of compounds, all labels, all positions and names, all lists of deformables", "why_tests_cant": "Printing code is rarely run by tests, and the failing cases depend on the kind of one module deep inside a compound or on the type of its label.", "anchors": ["imodal/DeformationModules/Combination.py:25-54", "imodal/DeformationModules/Linear.py:18-25", "imodal/DeformationModules/ImplicitARAP.py:55-57", "imodal/DeformationModules/ImplicitDivFree.py:46-48", "imodal/Models/registration_model.py:157-170"]}
{"id": "C98", "title": "Fitting the momenta by gradient descent follows rigid motions and does not see orders", "statement": "Take a registration whose momenta are fitted by gradient descent. Moving all sources, modules and targets by one rigid motion, listing the points of the modules in another order, or listing the modules in another order changes nothing but that: the descent on the changed registration takes the same number of line search steps with the same step lengths, and after each step its model is the changed model of the original descent, with the same total.", "quantifier": "All registrations built from regular modules with differentiable losses, all rigid motions, orders of points and orders of modules, all numbers of iterations, all settings of the optimiser, all solvers with fixed steps", "why_tests_cant": "A run of an optimiser depends on every evaluation before it. Tests compare two runs up to rounding on one example; a term that breaks the symmetry only far from the start is not seen.", "anchors": ["imodal/Models/optimizer_gd.py:47-118", "imodal/Models/registration_model.py:171-262", "imodal/Models/deformable.py:262-330"]}
{"id": "C99", "title": "Moving a registration model moves all it works on and keeps its parameters", "statement": "After to_device(d) the manifolds of the deformation modules, of the deformables and of the initial state of a registration model hold tensors on d with the values, dtypes and recording they had. All parameters given to the optimiser are then tensors on d that are recorded for differentiation: the momenta and, where asked for, the descriptors of the initial state, and the learned controls. After the initial state is replaced, the parameters are the recorded momenta and descriptors of the new one.", "quantifier": "All registration models over any modules, all devices, all contents of the heap, all choices of fitted descriptors, controls and further parameters", "why_tests_cant": "Tests run on one device, where moving is the identity. A parameter left behind shows only when an optimiser updates a tensor that the model does not use, or when a second device is present.", "anchors": ["imodal/Models/registration_model.py:117-155", "imodal/Models/registration_model.py:171-210", "imodal/Manifolds/Abstract.py:24-57", "imodal/Manifolds/tensor_container.py:45-48", "imodal/Models/deformable.py:73-75"]}
{"id": "C100", "title": "The unit of length does not matter", "statement": "Expressing every length of a problem in another unit, that is multiplying positions, kernel widths and momenta of positions by s, squares of lengths by s^2 and controls by their own unit, and leaving directions, frames and rates alone, expresses the result in that unit. Velocities and geodesic controls are converted, Jacobians stay, costs and the Hamiltonian are multiplied by s^2. Shooting gives the converted trajectory, controls and costs, with the same exceptions. Regularisations are converted as what they are: the weight of a linear deformation is a square of a length, the regularisation of a growth module the inverse of one.", "quantifier": "All modules and compounds in any dimension, all s other than zero, all states, controls and momenta, every solver, any number of steps, from momenta and with given controls", "why_tests_cant": "Tests use data of one size. A constant that hides a length, as an absolute regularisation or a fixed step, only shows when the same problem is solved in two units.", "anchors": ["imodal/HamiltonianDynamic/shooting.py:1-306", "imodal/DeformationModules/ImplicitModule1.py:1-302", "imodal/DeformationModules/Linear.py:1-80", "imodal/HamiltonianDynamic/hamiltonian.py:1-58", "imodal/Kernels/kernels.py:24-48"]}
{"id": "C101", "title": "A registration may be done in any unit of length", "statement": "Converting sources, targets, deformation modules, initial momenta and learnable controls to another unit of length, widths of the varifold attachments included, and the weights of attachments that are not squares of lengths accordingly, converts the registration: the model built is the converted model, deforming gives the converted geometries and trajectory, all costs and the total are multiplied by s^2, and best values of what is optimised are converted into best values.", "quantifier": "All sources, modules, attachments and targets, all positive s, every solver and every reduction of costs, any number of steps, momenta and learnable controls", "why_tests_cant": "Two runs with different units differ in every number, so only a proof of the relation between them can tell a hidden length from rounding.", "anchors": ["imodal/Models/registration_model.py:20-299", "imodal/Models/deformable.py:300-364", "imodal/Attachment/attachment_varifold.py:37-155", "imodal/Attachment/attachment.py:60-70"]}
{"id": "C102", "title": "The higher order methods of shooting have their order", "statement": "As long as a solution of Hamilton's equations from the initial descriptors and momenta exists, each intermediate state of a shooting with enough steps differs from the solution at the corresponding time by at most a constant over the number of steps for euler, over its square for midpoint, and over its fourth power for rk4. The Hamiltonian, and the angular momentum if no module has a preferred direction, differ from their initial values at the same rate.", "quantifier": "all compounds with smooth parameters that the solver path accepts, all initial states, all end times, all fixed step solvers", "why_tests_cant": "The order of a method is a statement about all numbers of steps and about an exact solution that no program has; a wrong coefficient in one stage may keep a test for convergence green.", "anchors": ["imodal/HamiltonianDynamic/shooting.py: shoot, _shoot_torchdiffeq"]}
{"id": "C103", "title": "A manifold of two groups of points behaves as the compound of the two", "statement": "A CompoundLandmarks filled with points and momenta of two groups gives the same dual field, the same pairing with a field and the same infinitesimal action as the compound of two Landmarks holding these points and momenta, and tells the numbers of entries of its tensors.", "quantifier": "all dimensions, all numbers of points, all fills in any order, all fields, both backends", "why_tests_cant": "A test of one method says nothing about the others, and a pairing that is always zero looks right for a field or a momentum that vanishes.", "anchors": ["imodal/Manifolds/CompoundLandmarks.py: CompoundLandmarks"]}
{"id": "C104", "title": "Marking the points in a convex hull", "statement": "area_convex_hull(points, scatter=S, intersect=True) marks exactly the points of the convex hull of S, and without intersect exactly the points of its interior, provided scipy's ConvexHull lists the corners counterclockwise as documented. A missing scatter raises RuntimeError, an array of unknown type ValueError, and exceptions of scipy pass through. extract_convex_hull raises ValueError in other dimensions than 2 and 3, and in space the faces it returns are faces of the returned points.", "quantifier": "for all points, all scatters and every hull function that meets scipy's documented contract", "why_tests_cant": "A hull test fixes one polygon and a few points; whether left and right agree with the orientation, and whether fans of triangles cover the polygon, is a statement about all of them. Faces look right if no point is inside.", "anchors": ["imodal/Utilities/meshutils.py: area_convex_hull", "imodal/Utilities/meshutils.py: extract_convex_hull", "imodal/Utilities/meshutils.py: area_convex_shape"]}
{"id": "C105", "title": "A deformation keeps different points apart", "statement": "compute_deformed with Euler's method changes the distance of any two points of the deformables by factors at each step between 1 - h*sqrt(2*s*c) and 1 + h*sqrt(2*s*c), where h is the duration of the step, c its recorded cost, and s the stretch of the modules (sum of 1/(coeff*sigma^2), and of the squared matrix over the coefficient for linear modules). So points that differ stay different whenever h*sqrt(2*s*c) < 1 at every step, and the reported summed cost bounds how much distances grow. Along geodesics distances change by a factor between exp(-T*sqrt(2*s*E)) and exp(T*sqrt(2*s*E)), E the first recorded cost, and so they do for shooting with every method up to a power of the number of steps; with sufficiently many steps no two points of a shape meet. The bound for Euler's method is attained.", "quantifier": "for all deformables, all modules with positive coefficients (linear ones included), momenta or controls, numbers of steps; for all methods with sufficiently many steps", "why_tests_cant": "A test shoots a few shapes and looks whether grids fold; that no pair of points of any shape can meet as long as the costs are below a threshold, and that the threshold is the right one, is a statement about all inputs.", "anchors": ["imodal/Models/registration_model.py: RegistrationModel.compute_deformed", "imodal/HamiltonianDynamic/shooting.py: shoot", "imodal/StructuredFields/StructuredField_0.py: StructuredField_0", "imodal/DeformationModules/Linear.py: LinearDeformation"]}
{"id": "C106", "title": "Points, growth factors, frames and surfaces survive mesh files", "statement": "Exporting points with growth factors and importing the file gives the same points and growth factors; growth factors with other than one column or a wrong count are rejected, and so is importing a field that the file does not have. The same holds for frames (export_point_basis, import_point_basis), for points (save_to_mesh, load_from_mesh) and for surfaces (DeformableMesh.save_to_file, load_from_file).", "quantifier": "for all numbers of points, all dimensions, all values and all field names", "why_tests_cant": "A test writes one file; that reshaping on export and on import are inverse for all sizes, which shapes are accepted, and that a reader can never return, are statements about all of them.", "anchors": ["imodal/Utilities/usefulfunctions.py: export_implicit1_growth", "imodal/Utilities/usefulfunctions.py: import_implicit1_growth", "imodal/Utilities/usefulfunctions.py: export_point_basis", "imodal/Utilities/usefulfunctions.py: import_point_basis", "imodal/Models/deformable.py: DeformableMesh.load_from_file"]}
{"id": "C107", "title": "Greyscale images from files", "statement": "load_greyscale_image returns the inverted picture with values between zero and one, dark pixels being large, of the same size; the first row is the top row for origin 'upper' and the bottom row for 'lower'. Of a picture with channels the first one is used. An unknown origin is rejected whatever the file is. DeformableImage.load_from_file has this image as bitmap over the unit square, and load_and_sample_greyscale samples the pixels above the threshold.", "quantifier": "for all pictures of any size and number of channels, all origins and thresholds", "why_tests_cant": "A test loads one PNG file. Other formats give integers, which it does not see, and which row comes first shows only for pictures that are not symmetric.", "anchors": ["imodal/Utilities/sampling.py: load_greyscale_image", "imodal/Utilities/sampling.py: load_and_sample_greyscale", "imodal/Models/deformable_image2d.py: DeformableImage.load_from_file"]}
{"id": "C108", "title": "A registration with learned controls has an optimum", "statement": "With modules whose costs weigh all controls, losses that are continuous and not negative and a weight that is not negative, evaluating a registration model with learned controls returns for all controls, the total is at least a positive constant times the sum of the squares of the controls, and some controls give the smallest total of all.", "quantifier": "for all deformables that need no backward flow, modules, initial descriptors, targets, numbers of steps and solvers", "why_tests_cant": "An optimiser that is run shows that some total was reached, not that a smallest one exists. If the totals approach a value that no controls attain, the controls grow without bound the longer it runs.", "anchors": ["imodal/Models/registration_model.py: RegistrationModel.evaluate", "imodal/Models/registration_model.py: RegistrationModel.__init__", "imodal/HamiltonianDynamic/shooting.py: shoot"]}
{"id": "C109", "title": "A registration moves points no further than its loss allows", "statement": "With Euler's method and the summed cost, the total of an evaluation bounds both the weighted loss and how far each point of each deformable is moved: the square of the displacement times the number of steps is at most twice the sum of the inverse coefficients of the modules times the total. So controls that are not worse than the start at rest move no point further than the loss of the undeformed shapes allows.", "quantifier": "for all deformables, modules of positive weights without linear ones, initial values, learned controls or momenta, targets, losses and weights that are not negative", "why_tests_cant": "It bounds every state an optimiser may visit, for all shapes and targets; a test sees the few it visits.", "anchors": ["imodal/Models/registration_model.py: RegistrationModel.evaluate", "imodal/Models/registration_model.py: RegistrationModel.compute_deformed"]}
{"id": "C110", "title": "What SciPy's minimisers are given, and what they leave", "statement": "The function a SciPy optimiser minimises returns, at a point, the total cost of the model with its parameters set to that point, and the gradient of that evaluation alone. NaN costs are never passed on: ValueError is raised, or infinity is used with the option naninf. The post iteration callback gets the costs of an evaluation. The reported final cost is that of an evaluation, the numbers of evaluations are reported, and the model is left with the parameters of the final cost. Nothing but the parameters is changed.", "quantifier": "for all models with different parameter tensors, all methods with and without gradient, and everything SciPy may do", "why_tests_cant": "The points SciPy evaluates depend on its version, method and rounding; a test sees one sequence of them, and usually one that ends at the best point.", "anchors": ["imodal/Models/optimizer_scipy.py: OptimizerScipy.optimize", "imodal/Models/optimizer_scipy.py: OptimizerScipy.__evaluate_grad", "imodal/Models/optimizer_scipy.py: OptimizerScipy.__evaluate_no_grad"]}
{"id": "C111", "title": "The varifold losses are continuous, and smooth where nothing collapses", "statement": "For widths other than zero the varifold loss between a closed curve and a target curve is returned for all positions of the points and depends continuously on them. Where no two consecutive points coincide it has derivatives of all orders. The varifold loss between meshes has, with both backends, derivatives of all orders where all triangles have an area. Hence a registration of point sets and closed curves with the losses of the library and with learned controls has an optimum.", "quantifier": "all numbers of points, all curves, meshes, widths and weights, all orders of differentiation", "why_tests_cant": "Tests compare values at examples, or one gradient with finite differences. They cannot check a limit, derivatives of all orders, or the existence of an optimum.", "anchors": ["imodal/Attachment/attachment_varifold.py:54-80", "imodal/Attachment/attachment_varifold.py:98-155", "imodal/Utilities/meshutils.py:355-368", "imodal/Utilities/meshutils.py:610-618"]}
{"id": "C112", "title": "Calling a torch optimiser again continues where it stopped", "statement": "Each call of optimize of a torch optimiser does a number of steps, at most the given one, from the present parameters; it shows the parameters and costs after each step to the callback in order, reports the cost of the last step and the number of evaluations of this call, and leaves the parameters of the last step. A second call continues with the state that the first left. reset makes the next call start with a new torch optimiser built from its options, and keeps the parameters. Options that are rejected change nothing.", "quantifier": "all torch optimisers whose steps return and evaluate the model, all options, tolerances, numbers of iterations and sequences of costs including infinities and NaN", "why_tests_cant": "Tests call an optimiser once for a few iterations. The state kept between calls, the count of evaluations and the behaviour with NaN are not seen.", "anchors": ["imodal/Models/optimizer_torch.py:11-84"]}
{"id": "C113", "title": "Gradient descent rests exactly where the gradient vanishes", "statement": "At parameters that cannot be improved nearby the gradient vanishes. With positive step lengths and factors, a step of gradient descent that ends leaves the parameters as they are exactly if the gradient vanishes, and where it vanishes the step ends with its first trial and changes neither parameters nor step lengths. So a registration at an optimum stays there and convergence is reported with its total. Convergence is reported only there.", "quantifier": "all differentiable costs, all numbers and shapes of parameters, all positive step lengths, all settings of the optimiser; all registrations that can be fitted (C95)", "why_tests_cant": "Tests run a few iterations from one start. They cannot tell rest from very small steps, nor quantify over costs and step lengths.", "anchors": ["imodal/Models/optimizer_gd.py:47-118", "imodal/Models/optimizer_torch.py:64-81"]}
{"id": "C114", "title": "A registration starts from the undeformed shapes", "statement": "A registration made from shapes and modules without momenta reports at its first evaluation no cost of the deformation and, as attachment, the weighted losses of the undeformed shapes. Every total that gradient descent reaches is at most that. If the undeformed shapes have no loss, fitting leaves all parameters as they are and convergence is reported with total zero.", "quantifier": "all shapes, modules with weights that are not negative, losses, targets, solvers, numbers of steps and settings of the optimiser", "why_tests_cant": "Tests look at the first cost of one example. They do not cover all modules, solvers and losses, nor what a fit does that has nothing to do.", "anchors": ["imodal/Models/registration_model.py:12-95", "imodal/Models/registration_model.py:212-299", "imodal/Models/deformable.py:245-365", "imodal/HamiltonianDynamic/shooting.py:8-50"]}
{"id": "C115", "title": "Fitting learned controls by gradient descent ends, never gets worse and converges", "statement": "Fitting a registration that learns controls with the gradient descent optimiser starts at the parameters of the model: the momenta, the chosen descriptors and the learned controls. With modules that can take any controls of their shape and losses that are differentiable, every step of the optimiser ends, no step increases the total, and evaluating the model never raises on the way. With positive weights and losses that are not negative, the optimiser reports convergence if enough iterations are allowed. At parameters that cannot be improved nearby the gradient vanishes and a step changes nothing.", "quantifier": "all deformables that need no backward flow, modules that are twice differentiable, losses, targets, methods and numbers of steps the model is built for, initial controls, chosen descriptors and settings of the optimiser", "why_tests_cant": "Tests run a few iterations on one example. That the line search ends for all controls the optimiser may reach, for each method, needs the total to be differentiable everywhere.", "anchors": ["imodal/Models/registration_model.py:40-64", "imodal/Models/registration_model.py:171-210", "imodal/Models/registration_model.py:293-299", "imodal/Models/optimizer_gd.py:28-125"]}
{"id": "C116", "title": "With learned controls the momenta play no part", "statement": "Shooting with given controls from other momenta costs the same at each step and passes through the same descriptors; the momenta stay at every state what they were given. So the total of a registration that learns controls does not depend on the momenta, its gradient with respect to them is zero, and fitting by gradient descent leaves the momenta as they are.", "quantifier": "all modules, momenta, controls, methods (euler, midpoint, rk4) and numbers of steps; for fitting, all registrations as in C115", "why_tests_cant": "Tests compare one or two choices of momenta. That no solver, module or evaluation on the way looks at them is a claim about all of them.", "anchors": ["imodal/HamiltonianDynamic/shooting.py:95-306", "imodal/Models/registration_model.py:171-210", "imodal/Models/registration_model.py:293-299", "imodal/Models/deformable.py:245-364"]}
{"id": "C117", "title": "Fitting an atlas by gradient descent ends, does not increase the total, and converges", "statement": "For an atlas whose subjects are registrations that can be fitted (regularised modules, differentiable losses, no backward flow), evaluated sequentially without an optimised template: from the parameters the atlas gives to the optimiser every step of gradient descent ends, no step increases the total, and evaluating the atlas never raises on the way. If no loss is negative, the optimiser reports convergence, provided enough iterations are allowed, with a total not above the first. When only momenta are optimised, the gradient of the atlas consists of the gradients of the subjects, each for its own total at its own momenta, so the descent rests on the atlas exactly if it rests on every subject. At parameters that cannot be improved nearby a step changes nothing.", "quantifier": "all populations that are not empty, all such subjects and targets, choices of descriptors, fixed-step solvers and step counts, step lengths, factors and tolerances", "why_tests_cant": "A run shows one population and finitely many steps. That every backtracking loop ends and that the totals settle depends on the differentiability of the sum of all totals in all parameters at once, and that no subject's gradient contains a part of another's can be seen in numbers only up to rounding.", "anchors": ["imodal/Models/atlas.py:115-175", "imodal/Models/registration_model.py:212-261", "imodal/Models/optimizer_gd.py:28-125"]}
{"id": "C118", "title": "The plotting functions draw what they are given", "statement": "plot_grid draws one line for each row and column of a grid, and their segments join exactly the points that are neighbours in the grid. plot_C_arrows draws at each point two arrows centred there, along the axes of its frame, as long as the scaled growth constants and perpendicular to each other, with heads turned inward exactly where the scaled constant is not positive. plot_C_ellipses draws the circle of diameter one stretched by the scaled growth constants and carried to the frame of the point, for every frame of orthogonal unit axes. set_aspect_equal_3d gives the three axes equal lengths, keeps their centres and directions, hides nothing, and changes nothing when called again. plot_basis3d draws at each point one red, one green and one blue arrow along the columns of its basis, times the given length. plot_aabb draws the box where it is. plot_polyline draws the segments between successive vertices and, if asked, the closing one, as plot_closed_shape does.", "quantifier": "all grids, points, growth constants, frames, scales, limits, boxes and polylines with at least one vertex, over the reals", "why_tests_cant": "Plotting code is hardly ever tested, since its result is a picture; a test would compare a few coordinates. That the ellipse is right for every frame, also reflected ones, and that a box is drawn in the wrong place unless its two lower limits agree, shows only over all inputs.", "anchors": ["imodal/Utilities/plotting.py:11-161"]}
{"id": "C119", "title": "Box items, sizes and density fills", "statement": "Indexing a box by an integer gives its bounds in the order xmin, xmax, ymin, and so on, from the front and from the back, and IndexError for any other integer. Iterating over a box gives exactly its tuple, so AABB(*box) rebuilds the box. The names xmin to zmax, width, height and depth give the bounds and side lengths, and IndexError for an axis the box does not have. length, area and volume are the product of the side lengths, never negative, and exist in their own dimension only. fill_random_density draws the size of the box times the density, rounded down, points, all inside. fill_uniform_density gives points inside the box, at least the size of the box times the density, and at most the product over the sides of side times the root of the density plus one. Densities that are not positive are rejected by fill_uniform_density, except a negative one on a one-dimensional box that is a single point.", "quantifier": "all proper boxes of any dimension, all integers and axis names, all densities, all random numbers", "why_tests_cant": "a test fixes one box and one density; the number of points depends on rounding in every dimension", "anchors": ["imodal/Utilities/aabb.py:AABB.__getitem__", "imodal/Utilities/aabb.py:AABB.fill_random_density", "imodal/Utilities/aabb.py:AABB.fill_uniform_density", "imodal/Utilities/aabb.py:AABB.volume"]}
{"id": "C120", "title": "The deformation is a diffeomorphism of space", "statement": "A deformation computed by Euler's method, from momenta or with given controls, is one smooth map of the whole space: there is a map with derivatives of all orders that sends every point of every shape to where the call puts it, and that changes distances between any two points of space by factors between the products over the steps of one minus, and one plus, the step length times the root of twice the stretch times the cost. If at every step the square of the step length times twice the stretch times the cost is below one, the map has an inverse with derivatives of all orders, and the determinant of its derivative is positive everywhere, so that shapes are neither folded nor mirrored. The limit cannot be raised: one step with factor one can send two points to the same place.", "quantifier": "all shapes and lists of modules with positive weights, all momenta or controls, all durations and numbers of steps", "why_tests_cant": "a test sees the points of its shapes only; nothing it observes says what happens to the rest of space, or that no other momenta fold it", "anchors": ["imodal/HamiltonianDynamic/shooting.py: shoot", "imodal/Models/registration_model.py: compute_deformed", "imodal/StructuredFields/StructuredField_0.py: StructuredField_0"]}
{"id": "C121", "title": "Every point is carried on its own", "statement": "With given controls, the modules, the solver, the number of steps and the duration decide one map of the whole space, with derivatives of all orders, and compute_deformed sends every point of every shape where this map sends it, whatever other points and shapes are in the call. So a shape may be cut in pieces, reordered, refined or deformed alone or with others without any of its points ending elsewhere. With Euler's method, positive weights and small costs the map has an inverse with derivatives of all orders. From momenta the same holds for the shapes of a call and all shapes without momentum put in front of them: they follow the same map, and the others end where they ended without them, at the same costs.", "quantifier": "all lists of modules, shapes and controls or momenta, the three fixed-step solvers, all numbers of steps and durations", "why_tests_cant": "a test compares a few points with and without company; that no shape of any size changes where any point goes needs all shapes at once", "anchors": ["imodal/HamiltonianDynamic/shooting.py: shoot", "imodal/Models/deformable.py: deformables_compute_deformed", "imodal/DeformationModules/SilentLandmark.py: SilentBase"]}
{"id": "C122", "title": "Shooting back undoes a shooting", "statement": "Take modules whose Hamilton equations have a solution over the whole duration, shoot them, negate the momenta of the modules the shooting leaves, and shoot again with the same solver, duration and number of steps. From some number of steps on, both shootings return, and the second runs through the states of the first in reverse order: its state number n - k has the descriptors of state number k of the first, and its momenta with opposite sign, up to an error that is at most a constant over n (euler), n squared (midpoint) or n to the fourth (rk4), the same constant for all k and n. In particular the second shooting brings every shape back to where the first took it from, up to that error. The controls left over from the first shooting do not matter.", "quantifier": "For euler, midpoint and rk4, all dimensions, all lists of modules with smooth equations along the solution, all descriptors, momenta and durations, all numbers of steps from some number on, and all states on the way.", "why_tests_cant": "The claim compares two runs for every number of steps and bounds an error by a constant that no finite set of runs gives; a test sees single errors at single sizes.", "anchors": ["imodal/HamiltonianDynamic/shooting.py: shoot", "imodal/Manifolds/Compound.py: CompoundManifold.negate_cotan", "imodal/Models/deformable.py: deformables_compute_deformed"]}
{"id": "C123", "title": "A constant control carries everything along its flow, and the opposite control brings it back", "statement": "Shooting with a list of one control uses that control throughout. Where the control can be set there is, for some time, a motion of all descriptors by the field the modules generate with it. If there is such a motion over the whole duration, then from some number of steps on shooting returns and its states follow the motion up to at most a constant over n (euler), n squared (midpoint) or n to the fourth (rk4). Shooting again with the negated control, from the modules the first shooting left, returns and runs through the states of the first in reverse order up to such an error, so that everything is brought back to its place. Neither momenta nor the controls the modules hold matter.", "quantifier": "For euler, midpoint and rk4, all dimensions, all lists of modules with parameters of the class of the order of the method, all controls, descriptors and durations over which there is a motion, all numbers of steps from some number on, and all states on the way.", "why_tests_cant": "The claim is about all numbers of steps and a constant that belongs to none of them, and compares a computation with a solution of a differential equation.", "anchors": ["imodal/HamiltonianDynamic/shooting.py: shoot", "imodal/HamiltonianDynamic/shooting.py: _shoot_torchdiffeq", "imodal/DeformationModules/Combination.py: CompoundModule"]}
{"id": "C124", "title": "An attachment answers the same whenever it is asked", "statement": "A varifold attachment built with an iterable of widths may be called any number of times. Every answer, an exception included, is the one it gives when asked this first: what was asked before, and on which device or in which dtype the shapes were stored, does not matter. The answer is the weight times the sum over the widths of what attachments with that single width and weight one answer. sigmas stays what it was given, dim is the dimension as a number, and something that cannot be iterated over is refused. A compound attachment answers the same at each call too.", "quantifier": "all dimensions, backends, iterables of widths, weights, shapes, storages and sequences of calls; all compounds of attachments that keep no state", "why_tests_cant": "A model calls its attachment at every evaluation, while a test usually calls it once with a list. Widths used up by the first call make every later attachment term zero without any error.", "anchors": ["imodal/Attachment/attachment_varifold.py: VarifoldAttachmentBase", "imodal/Attachment/attachment_varifold.py: VarifoldAttachment3D_KeOps", "imodal/Attachment/attachment_varifold.py: VarifoldAttachment", "imodal/Attachment/attachment.py: CompoundAttachment"]}
{"id": "C125", "title": "A registration model may be built from any iterables, and without modules nothing moves", "statement": "A registration model built from iterables of deformables, deformation modules and attachments is the one built from the lists of their items: it has the same initial state and deforms its shapes by all the modules. Deformables without any deformation module stay where they are whatever their momenta, and their deformation costs nothing.", "quantifier": "all dimensions, lists of deformables, modules and attachments, containers and iterators, weights, reductions, learned controls or not, solvers, step counts, durations and initial states", "why_tests_cant": "A generator of modules raises no error: the optimiser gets parameters for all modules, the cost is finite, and only the shapes never move. Tests pass lists. That momenta alone move nothing holds for every solver and number of steps, not for a sample of them.", "anchors": ["imodal/Models/registration_model.py: RegistrationModel", "imodal/Models/deformable.py: deformables_compute_deformed", "imodal/DeformationModules/Combination.py: CompoundModule"]}
{"id": "C126", "title": "Matrices act on point clouds", "statement": "linear_transform multiplies every point of a cloud by the matrix, each point on its own. The identity changes nothing, applying B and then A is applying A @ B, and an inverse undoes a matrix. A matrix of another shape than square of the dimension of the points raises RuntimeError. Turning a plane cloud by rot2d keeps all distances, and angles add. apply_linear_transform_3d does the same for 4 x 4 matrices and clouds in space. Translations, scalings, rigid deformations and transformations between extents are affine, and so are their products.", "quantifier": "all numbers of points, dimensions, clouds, matrices of all shapes, angles, translations, scales and extents", "why_tests_cant": "The batched product and the view that follows must keep rows together for every number of points and dimension. Whether two transformations may be merged into one matrix is a statement about all pairs of matrices, and it is false for some that no example in the project uses.", "anchors": ["imodal/Utilities/usefulfunctions.py: linear_transform", "imodal/Utilities/usefulfunctions.py: apply_linear_transform_3d"]}
{"id": "C127", "title": "With given controls the two Euler methods carry descriptors alike", "statement": "Shooting with given controls by torch_euler and by the ode solver's euler on [0, 1] is the same for the descriptors: either both calls return or both raise, every state on the way has the same descriptors, and the states differ only in the momenta, which the ode solver leaves as they were given. So compute_deformed makes the same geometries with both, and with torch_euler too the modules, the number of steps and the controls decide one smooth map of the whole space that carries every point of every shape, whatever other shapes and momenta there are.", "quantifier": "all compounds of modules with plain members and at least one coordinate, all numbers of steps, all lists of controls, all lists of deformables", "why_tests_cant": "The two methods are written separately, one by differentiating the Hamiltonian and one by the infinitesimal action, and tests compare them on a few modules from momenta only.", "anchors": ["imodal/HamiltonianDynamic/shooting.py: _shoot_euler", "imodal/HamiltonianDynamic/shooting.py: _shoot_torchdiffeq", "imodal/Models/deformable.py: deformables_compute_deformed"]}
{"id": "C128", "title": "Models and optimisers answer what they were built from", "statement": "A registration model returns the deformables, attachments, deformation modules, callback, fit_gd, lam and other parameters it was built from, an atlas its weight, callback, template, evaluation mode, attachment and one attachment per subject, and an optimiser its model and keyword arguments. This holds at any time after construction, whatever was assigned from outside and whatever methods and subclasses wrote. init_manifold and learnable_controls return what was assigned last. Assigning to any other property raises AttributeError and changes nothing; assigning to any other name changes no property.", "quantifier": "For all constructor arguments, all numbers of subjects and all sequences of assignments and method writes after construction.", "why_tests_cant": "Tests read a property once after construction; name mangling makes a getter fail or shadow only for certain classes, and the histories of writes are unbounded.", "anchors": ["imodal/Models/registration_model.py:97-140", "imodal/Models/atlas.py:83-113", "imodal/Models/optimizer.py:1-11"]}
{"id": "C129", "title": "A box is filled with grids of coordinates", "statement": "Filling a box with a uniform spacing as a grid returns the points of the box as promised: one tensor of shape [N, dim]. The coordinates are those of uniform spacing: at every position, given by one index per axis, the coordinate along an axis is the lower bound plus the index along that axis times the spacing, with as many indices along an axis as the length over the spacing, rounded up. Turning the grids into vectors gives what filling with uniform spacing returns. A spacing of zero raises.", "quantifier": "For all boxes of any dimension, all positive spacings and all positions.", "why_tests_cant": "Dimensions, spacings and positions are unbounded, and row-major order only shows with axes of different lengths.", "anchors": ["imodal/Utilities/aabb.py:250-272", "imodal/Utilities/usefulfunctions.py:10-12"]}
{"id": "C130", "title": "A fitter fits its model, counts its iterations and calls the callback", "statement": "A fitter only evaluates the model it was made for, in all fits and resets that follow and however they end. The post-iteration callback given to it runs once for every iteration. The iteration numbers it prints count the iterations since it was made or last reset, over any number of fits, displayed or not. The optimiser is reset once on construction and once for every reset.", "quantifier": "For all models, all optimisers given by name, by object or not at all, all callbacks and all sequences of fits and resets with any numbers of iterations and evaluations and any outcome.", "why_tests_cant": "Histories of fits and resets are unbounded, and a fitter that is given an optimiser for another model looks as if it worked.", "anchors": ["imodal/Models/fitter.py:10-109", "imodal/Models/optimizer.py:20-48"]}
{"id": "C131", "title": "Deforming an image forward finds where its pixels come from", "statement": "With backward=False the points of an image are carried along by the deformation, and each pixel is read at the place the deformation carries to it. For invertible affine maps of the plane this place is found exactly, whichever of several nearest points is chosen. An image that is not deformed is read at its own pixels and gives what it gives backward; a square bitmap is given back. A map that flattens the plane raises.", "quantifier": "For all sizes of images, all frames, all bitmaps, all affine maps of the plane and all choices among nearest points.", "why_tests_cant": "The nearest point depends on ties, the estimate on the shape of the pixels, and an affine map that shows an error need not be among those tried.", "anchors": ["imodal/Models/deformable_image2d.py:104-158", "imodal/Utilities/usefulfunctions.py:10-24", "imodal/Utilities/sampling.py:117-141"]}
{"id": "C132", "title": "An image deformed forward does not depend on the place of its frame or on the unit of length", "statement": "Move the frame of an image to another place and measure it in another unit of length. The points the image starts from move along. If the points carried by a forward deformation move along too, the image gives the same bitmap, or the moved points with the same weights, or raises the same error, and the same points are nearest. The bitmap given out is linear in the bitmap of the image.", "quantifier": "For all sizes of images of at least two rows and columns, all boxes, places and units, all carried points and all choices among nearest points.", "why_tests_cant": "Places, units, points and bitmaps are real numbers, and a frame at the origin hides the dependence on its place.", "anchors": ["imodal/Models/deformable_image2d.py:38-48", "imodal/Models/deformable_image2d.py:104-158", "imodal/Utilities/sampling.py:117-141"]}
{"id": "C133", "title": "What an image shows depends continuously on where it is read", "statement": "The values an image gives at the points it is deformed to are continuous functions of these points, over the edges of pixels and of the frame too. If pixels next to each other differ by at most M, moving a point by some columns and rows changes its value by at most M for each column and row. The same holds for volumes read through an affine map.", "quantifier": "For all sizes of images of at least two rows and columns, all bitmaps and frames, and all points.", "why_tests_cant": "Continuity is about all points at once, and jumps could be anywhere along the edges of the pixels.", "anchors": ["imodal/Utilities/sampling.py:117-141", "imodal/Utilities/sampling.py:143-177", "imodal/Models/deformable_image2d.py:152-158"]}
